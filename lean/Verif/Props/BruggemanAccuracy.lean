import Verif.Props.MixtureAccuracy
import Verif.Props.DoublePermittivity
import Verif.Lemmas.RoundingMono
/-!
# C135: how accurate Bruggeman media are in double precision

The code computes a root of a quadratic equation as `-p/2 + √(p²/4 - q)`, which cancels if `p` is
positive. The error of the result is small compared to the larger permittivity, but not compared
to the result.
-/

namespace Disp

noncomputable section

open Dbl Spec

/-! ## Absolute errors -/

/-- Rounding of any number up to 10¹⁰⁰: a relative error, or next to nothing. -/
theorem round_any {x : ℝ} (h : |x| ≤ 10 ^ 100) : ∃ v, (Dbl.rnd (.fin x)).val = .fin v ∧
    |v - x| ≤ |x| * (1 / 2 ^ 53) + ((10 : ℝ) ^ 200)⁻¹ := by
  have key : |nearest x - x| ≤ |x| * (1 / 2 ^ 53) + ((10 : ℝ) ^ 200)⁻¹ := by
    rcases eq_or_ne x 0 with rfl | h00
    · rw [nearest_zero, sub_zero, abs_zero, zero_mul, zero_add]
      positivity
    by_cases hx : (2 : ℝ) ^ (-1022 : ℤ) ≤ |x|
    · have := nearest_rel hx
      have : (0 : ℝ) ≤ ((10 : ℝ) ^ 200)⁻¹ := by positivity
      rw [mul_one_div]
      linarith
    · push Not at hx
      have h1 := nearest_err x
      have h2 : (2 : ℝ) ^ ulpExp x / 2 ≤ ((10 : ℝ) ^ 200)⁻¹ := by
        have h3 : ulpExp x ≤ -1074 := by
          unfold ulpExp
          refine max_le ?_ le_rfl
          have := (Int.lt_zpow_iff_log_lt (b := 2) (R := ℝ) (by norm_num) (abs_pos.2 h00)
            (x := -1022)).1 (by exact_mod_cast hx)
          omega
        have h4 : (2 : ℝ) ^ ulpExp x ≤ 2 ^ (-1074 : ℤ) := zpow_le_zpow_right₀ (by norm_num) h3
        have h5 : (2 : ℝ) ^ (-1074 : ℤ) ≤ ((10 : ℝ) ^ 200)⁻¹ := by
          rw [zpow_neg]
          refine inv_anti₀ (by positivity) ?_
          exact_mod_cast (by decide +kernel : (10 : ℕ) ^ 200 ≤ 2 ^ 1074)
        have h6 := two_zpow_pos (ulpExp x)
        linarith
      have h3 : 0 ≤ |x| * (1 / 2 ^ 53) := by positivity
      linarith
  refine ⟨nearest x, Dbl.rnd_fin ?_, key⟩
  have h1 : |nearest x| ≤ |x| + |nearest x - x| := by
    have := abs_add_le x (nearest x - x)
    rwa [add_sub_cancel] at this
  have h2 : |x| * (1 / 2 ^ 53) ≤ |x| := mul_le_of_le_one_right (abs_nonneg _) (by norm_num)
  have h3 : ((10 : ℝ) ^ 200)⁻¹ ≤ 10 ^ 100 := by
    refine (inv_le_one_of_one_le₀ (one_le_pow₀ (by norm_num))).trans (one_le_pow₀ (by norm_num))
  refine lt_of_le_of_lt (b := 3 * (10 : ℝ) ^ 100) (by linarith) ?_
  exact_mod_cast (by decide +kernel : 3 * (10 : ℕ) ^ 100 < 2 ^ 1024)

/-- The complex double is the real number `x`, up to `c` units of 2⁻⁵³ of `M`. -/
def AbsCx (M c x : ℝ) (z : Cx Dbl) : Prop :=
  (∃ v, z.re.val = .fin v ∧ |v - x| ≤ c * (1 / 2 ^ 53 * M)) ∧ z.im.val = .fin 0

theorem zero_double : IsDouble (0 : ℝ) := isDouble_val lit_zero_val

theorem sub_zero_dbl {a b : Dbl} {x : ℝ} (ha : a.val = .fin x) (hb : b.val = .fin 0) :
    (a - b).val = .fin x :=
  sub_is ha hb (by rw [sub_zero]; exact nearest_of_double (isDouble_val ha)) (double_lt (isDouble_val ha))

theorem zero_add_zero {a b : Dbl} (ha : a.val = .fin 0) (hb : b.val = .fin 0) :
    (a + b).val = .fin 0 :=
  add_is ha hb (by rw [add_zero]; exact nearest_of_double zero_double) (double_lt zero_double)

theorem zero_sub_zero {a b : Dbl} (ha : a.val = .fin 0) (hb : b.val = .fin 0) :
    (a - b).val = .fin 0 := sub_zero_dbl ha hb

/-- The product of complex doubles without imaginary part. -/
theorem real_mul {z w : Cx Dbl} {x y v : ℝ} (hx : z.re.val = .fin x) (hx' : z.im.val = .fin 0)
    (hy : w.re.val = .fin y) (hy' : w.im.val = .fin 0) (hv : (Dbl.rnd (.fin (x * y))).val = .fin v) :
    (z * w).re.val = .fin v ∧ (z * w).im.val = .fin 0 := by
  constructor
  · refine sub_zero_dbl (a := z.re * w.re) ?_ (Dbl.mul_zero_val hx' hy')
    rw [Dbl.val_mul, hx, hy, XR.mul_fin]
    exact hv
  · exact zero_add_zero (Dbl.mul_zero_val hx hy') (Dbl.zero_mul_val hx' hy)

/-- The errors of a product with a weight. -/
theorem scale_bound {g g' v x c d K M : ℝ} (hv : |v - x| ≤ c * (1 / 2 ^ 53 * M))
    (hx : |x| ≤ K * M) (hg : |g' - g| ≤ d * (1 / 2 ^ 53) * g) (g0 : 0 ≤ g) (g2 : g ≤ 2) (c0 : 0 ≤ c)
    (c1 : c ≤ 100) (K0 : 0 ≤ K) (K1 : K ≤ 10) (d0 : 0 ≤ d) (d1 : d ≤ 2) (M0 : 0 < M) :
    |g' * v - g * x| + |g' * v| * (1 / 2 ^ 53) ≤ (g * (c + d * K + K) + 1 / 10000) * (1 / 2 ^ 53 * M) := by
  obtain ⟨δ, hδ⟩ : ∃ δ : ℝ, δ = 1 / 10 ^ 12 := ⟨_, rfl⟩
  have δ0 : 0 < δ := by rw [hδ]; positivity
  have hv' : |v| ≤ (K + δ) * M := by
    have h1 : |v| ≤ |x| + |v - x| := by
      have := abs_add_le x (v - x)
      rwa [add_sub_cancel] at this
    have h2 : c * (1 / 2 ^ 53 * M) ≤ δ * M := by
      rw [← mul_assoc]
      refine mul_le_mul_of_nonneg_right ?_ M0.le
      have : c * (1 / 2 ^ 53) ≤ 100 * (1 / 2 ^ 53) := mul_le_mul_of_nonneg_right c1 (by positivity)
      refine this.trans ?_
      rw [hδ]; norm_num
    linarith
  have hg' : |g'| ≤ g * (1 + δ) := by
    have h1 : |g'| ≤ |g| + |g' - g| := by
      have := abs_add_le g (g' - g)
      rwa [add_sub_cancel] at this
    rw [abs_of_nonneg g0] at h1
    have h2 : d * (1 / 2 ^ 53) * g ≤ δ * g := by
      refine mul_le_mul_of_nonneg_right ?_ g0
      have : d * (1 / 2 ^ 53) ≤ 2 * (1 / 2 ^ 53) := mul_le_mul_of_nonneg_right d1 (by positivity)
      refine this.trans ?_
      rw [hδ]; norm_num
    linarith
  have a1 : |g' * v - g * x| ≤ d * (1 / 2 ^ 53) * g * ((K + δ) * M) + g * (c * (1 / 2 ^ 53 * M)) := by
    have e : g' * v - g * x = (g' - g) * v + g * (v - x) := by ring
    rw [e]
    refine (abs_add_le _ _).trans ?_
    rw [abs_mul, abs_mul, abs_of_nonneg g0]
    exact add_le_add (mul_le_mul hg hv' (abs_nonneg _) (by positivity))
      (mul_le_mul_of_nonneg_left hv g0)
  have a2 : |g' * v| ≤ g * (1 + δ) * ((K + δ) * M) := by
    rw [abs_mul]
    exact mul_le_mul hg' hv' (abs_nonneg _) (by positivity)
  have a3 : |g' * v| * (1 / 2 ^ 53) ≤ g * (1 + δ) * ((K + δ) * M) * (1 / 2 ^ 53) :=
    mul_le_mul_of_nonneg_right a2 (by positivity)
  have a4 : g * (d * δ + δ * K + δ + δ * δ) ≤ 1 / 10000 := by
    have b1 : d * δ + δ * K + δ + δ * δ ≤ 20 * δ := by
      have : d * δ ≤ 2 * δ := mul_le_mul_of_nonneg_right d1 δ0.le
      have : δ * K ≤ δ * 10 := mul_le_mul_of_nonneg_left K1 δ0.le
      have : δ * δ ≤ δ * 1 := mul_le_mul_of_nonneg_left (by rw [hδ]; norm_num) δ0.le
      linarith
    calc g * (d * δ + δ * K + δ + δ * δ) ≤ 2 * (20 * δ) := mul_le_mul g2 b1 (by positivity) (by norm_num)
      _ ≤ 1 / 10000 := by rw [hδ]; norm_num
  have a5 : g * (d * δ + δ * K + δ + δ * δ) * (1 / 2 ^ 53 * M) ≤ 1 / 10000 * (1 / 2 ^ 53 * M) :=
    mul_le_mul_of_nonneg_right a4 (by positivity)
  calc _ ≤ d * (1 / 2 ^ 53) * g * ((K + δ) * M) + g * (c * (1 / 2 ^ 53 * M)) +
        g * (1 + δ) * ((K + δ) * M) * (1 / 2 ^ 53) := add_le_add a1 a3
    _ = g * (c + d * K + K) * (1 / 2 ^ 53 * M) + g * (d * δ + δ * K + δ + δ * δ) * (1 / 2 ^ 53 * M) := by
      ring
    _ ≤ _ := by rw [add_mul]; linarith

namespace AbsCx

variable {M : ℝ}

theorem mono {c c' x : ℝ} {z : Cx Dbl} (h : AbsCx M c x z) (hc : c ≤ c') (hM : 0 < M) :
    AbsCx M c' x z := by
  obtain ⟨⟨v, h1, h2⟩, h3⟩ := h
  exact ⟨⟨v, h1, h2.trans (mul_le_mul_of_nonneg_right hc (by positivity))⟩, h3⟩

theorem scale_both (hM : ((10 : ℝ) ^ 20)⁻¹ ≤ M) (hM' : M ≤ 10 ^ 20) {c d g g' K x : ℝ} {a : Dbl}
    {z : Cx Dbl} (hz : AbsCx M c x z) (ha : a.val = .fin g') (hg : |g' - g| ≤ d * (1 / 2 ^ 53) * g)
    (hx : |x| ≤ K * M) (g0 : 0 ≤ g) (g2 : g ≤ 2) (c0 : 0 ≤ c) (c1 : c ≤ 100) (K0 : 0 ≤ K)
    (K1 : K ≤ 10) (d0 : 0 ≤ d) (d1 : d ≤ 2) :
    AbsCx M (g * (c + d * K + K) + 1 / 1000) (g * x) (rmul a z) ∧
      AbsCx M (g * (c + d * K + K) + 1 / 1000) (g * x) (z * Cx.ofReal a) := by
  obtain ⟨⟨v, h1, h2⟩, h3⟩ := hz
  have M0 : 0 < M := lt_of_lt_of_le (by positivity) hM
  have hb := scale_bound h2 hx hg g0 g2 c0 c1 K0 K1 d0 d1 M0
  have hU : 1 / 2 ^ 53 * M ≤ 10 ^ 20 := by
    refine le_trans ?_ hM'
    exact mul_le_of_le_one_left M0.le (by norm_num)
  have hgv : |g' * v| ≤ 10 ^ 100 := by
    have e1 : |g' * v| ≤ |g * x| + |g' * v - g * x| := by
      have := abs_add_le (g * x) (g' * v - g * x)
      rwa [add_sub_cancel] at this
    have e2 : |g * x| ≤ 2 * (10 * 10 ^ 20) := by
      rw [abs_mul, abs_of_nonneg g0]
      exact mul_le_mul g2 (hx.trans (mul_le_mul K1 hM' M0.le (by norm_num))) (abs_nonneg _)
        (by norm_num)
    have e3 : g * (c + d * K + K) + 1 / 10000 ≤ 1000 := by
      have : d * K ≤ 2 * 10 := mul_le_mul d1 K1 K0 (by norm_num)
      have : g * (c + d * K + K) ≤ 2 * (100 + 20 + 10) :=
        mul_le_mul g2 (by linarith) (by positivity) (by norm_num)
      linarith
    have e4 : (g * (c + d * K + K) + 1 / 10000) * (1 / 2 ^ 53 * M) ≤ 1000 * 10 ^ 20 :=
      mul_le_mul e3 hU (by positivity) (by norm_num)
    have e5 : 0 ≤ |g' * v| * (1 / 2 ^ 53) := by positivity
    have e6 : 2 * (10 * (10 : ℝ) ^ 20) + 1000 * 10 ^ 20 ≤ 10 ^ 100 := by norm_num
    linarith
  obtain ⟨w, w1, w2⟩ := round_any hgv
  obtain ⟨r1, r2⟩ := real_mul (z := Cx.ofReal a) ha lit_zero_val h1 h3 w1
  obtain ⟨l1, l2⟩ := real_mul (w := Cx.ofReal a) h1 h3 ha lit_zero_val (by rw [mul_comm]; exact w1)
  suffices h : |w - g * x| ≤ (g * (c + d * K + K) + 1 / 1000) * (1 / 2 ^ 53 * M) from
    ⟨⟨⟨w, r1, h⟩, r2⟩, ⟨⟨w, l1, h⟩, l2⟩⟩
  have ht : ((10 : ℝ) ^ 200)⁻¹ ≤ 1 / 10000 * (1 / 2 ^ 53 * M) := by
    have : ((10 : ℝ) ^ 200)⁻¹ ≤ 1 / 10000 * (1 / 2 ^ 53 * ((10 : ℝ) ^ 20)⁻¹) := by norm_num
    refine this.trans ?_
    gcongr
  have e : |w - g * x| ≤ |w - g' * v| + |g' * v - g * x| := by
    have := abs_add_le (w - g' * v) (g' * v - g * x)
    rwa [sub_add_sub_cancel] at this
  have hU0 : 0 < 1 / 2 ^ 53 * M := by positivity
  have : (g * (c + d * K + K) + 1 / 1000) * (1 / 2 ^ 53 * M) =
    (g * (c + d * K + K) + 1 / 10000) * (1 / 2 ^ 53 * M) + 9 / 10000 * (1 / 2 ^ 53 * M) := by ring
  linarith

theorem scale (hM : ((10 : ℝ) ^ 20)⁻¹ ≤ M) (hM' : M ≤ 10 ^ 20) {c d g g' K x : ℝ} {a : Dbl}
    {z : Cx Dbl} (hz : AbsCx M c x z) (ha : a.val = .fin g') (hg : |g' - g| ≤ d * (1 / 2 ^ 53) * g)
    (hx : |x| ≤ K * M) (g0 : 0 ≤ g) (g2 : g ≤ 2) (c0 : 0 ≤ c) (c1 : c ≤ 100) (K0 : 0 ≤ K)
    (K1 : K ≤ 10) (d0 : 0 ≤ d) (d1 : d ≤ 2) :
    AbsCx M (g * (c + d * K + K) + 1 / 1000) (g * x) (rmul a z) :=
  (scale_both hM hM' hz ha hg hx g0 g2 c0 c1 K0 K1 d0 d1).1

/-- The errors of a sum. -/
theorem sum_bound {s x c K : ℝ} (M0 : 0 < M) (hs : |s - x| ≤ c * (1 / 2 ^ 53 * M)) (hx : |x| ≤ K * M)
    (c1 : c ≤ 100) {v : ℝ} (hv : |v - s| ≤ |s| / 2 ^ 53) :
    |v - x| ≤ (c + K + 1 / 1000) * (1 / 2 ^ 53 * M) := by
  have h1 : |s| ≤ |x| + |s - x| := by
    have := abs_add_le x (s - x)
    rwa [add_sub_cancel] at this
  have h2 : |v - x| ≤ |v - s| + |s - x| := by
    have := abs_add_le (v - s) (s - x)
    rwa [sub_add_sub_cancel] at this
  have hU0 : 0 < 1 / 2 ^ 53 * M := by positivity
  have h3 : c * (1 / 2 ^ 53 * M) ≤ 100 * (1 / 2 ^ 53 * M) := mul_le_mul_of_nonneg_right c1 hU0.le
  have h4 : |s| / 2 ^ 53 ≤ (K * M + 100 * (1 / 2 ^ 53 * M)) / 2 ^ 53 :=
    div_le_div_of_nonneg_right (by linarith) (by positivity)
  have h5 : (K * M + 100 * (1 / 2 ^ 53 * M)) / 2 ^ 53 = K * (1 / 2 ^ 53 * M) +
    100 / 2 ^ 53 * (1 / 2 ^ 53 * M) := by ring
  have h6 : 100 / 2 ^ 53 * (1 / 2 ^ 53 * M) ≤ 1 / 1000 * (1 / 2 ^ 53 * M) :=
    mul_le_mul_of_nonneg_right (by norm_num) hU0.le
  have h7 : (c + K + 1 / 1000) * (1 / 2 ^ 53 * M) = c * (1 / 2 ^ 53 * M) + K * (1 / 2 ^ 53 * M) +
    1 / 1000 * (1 / 2 ^ 53 * M) := by ring
  linarith

theorem small_double (hM : 0 < M) (hM' : M ≤ 10 ^ 20) {v x c K : ℝ}
    (hv : |v - x| ≤ c * (1 / 2 ^ 53 * M)) (hx : |x| ≤ K * M) (c0 : 0 ≤ c) (c1 : c ≤ 200) (K1 : K ≤ 10) :
    |v| < 2 ^ 1024 := by
  have h1 : |v| ≤ |x| + |v - x| := by
    have := abs_add_le x (v - x)
    rwa [add_sub_cancel] at this
  have h2 : c * (1 / 2 ^ 53 * M) ≤ 200 * 10 ^ 20 := by
    refine mul_le_mul c1 ?_ (by positivity) (by norm_num)
    exact (mul_le_of_le_one_left hM.le (by norm_num)).trans hM'
  have h3 : K * M ≤ 10 * 10 ^ 20 := mul_le_mul K1 hM' hM.le (by norm_num)
  refine lt_of_le_of_lt (b := 300 * (10 : ℝ) ^ 20) (by linarith) ?_
  exact_mod_cast (by decide +kernel : 300 * (10 : ℕ) ^ 20 < 2 ^ 1024)

theorem add (M0 : 0 < M) (hM' : M ≤ 10 ^ 20) {c d K x y : ℝ} {z w : Cx Dbl} (hz : AbsCx M c x z)
    (hw : AbsCx M d y w) (hx : |x + y| ≤ K * M) (c0 : 0 ≤ c) (d0 : 0 ≤ d) (c1 : c + d ≤ 100)
    (K0 : 0 ≤ K) (K1 : K ≤ 10) : AbsCx M (c + d + K + 1 / 1000) (x + y) (z + w) := by
  obtain ⟨⟨v, v1, v2⟩, v3⟩ := hz
  obtain ⟨⟨t, t1, t2⟩, t3⟩ := hw
  have hs : |v + t - (x + y)| ≤ (c + d) * (1 / 2 ^ 53 * M) := by
    have e : v + t - (x + y) = (v - x) + (t - y) := by ring
    rw [e, add_mul]
    exact (abs_add_le _ _).trans (add_le_add v2 t2)
  have hb := sum_bound M0 hs hx c1 (nearest_add (isDouble_val v1) (isDouble_val t1))
  refine ⟨⟨_, add_is v1 t1 rfl (small_double M0 hM' hb hx (by positivity) (by linarith) K1), hb⟩,
    zero_add_zero v3 t3⟩

theorem neg {c x : ℝ} {z : Cx Dbl} (hz : AbsCx M c x z) : AbsCx M c (-x) (Cx.neg z) := by
  obtain ⟨⟨v, v1, v2⟩, v3⟩ := hz
  refine ⟨⟨-v, Dbl.neg_val v1, ?_⟩, ?_⟩
  · rwa [show -v - -x = -(v - x) by ring, abs_neg]
  · have := Dbl.neg_val v3
    rwa [neg_zero] at this

theorem sub (M0 : 0 < M) (hM' : M ≤ 10 ^ 20) {c d K x y : ℝ} {z w : Cx Dbl} (hz : AbsCx M c x z)
    (hw : AbsCx M d y w) (hx : |x - y| ≤ K * M) (c0 : 0 ≤ c) (d0 : 0 ≤ d) (c1 : c + d ≤ 100)
    (K0 : 0 ≤ K) (K1 : K ≤ 10) : AbsCx M (c + d + K + 1 / 1000) (x - y) (z - w) := by
  obtain ⟨⟨v, v1, v2⟩, v3⟩ := hz
  obtain ⟨⟨t, t1, t2⟩, t3⟩ := hw
  have hs : |v - t - (x - y)| ≤ (c + d) * (1 / 2 ^ 53 * M) := by
    have e : v - t - (x - y) = (v - x) + -(t - y) := by ring
    rw [e, add_mul]
    refine (abs_add_le _ _).trans (add_le_add v2 ?_)
    rwa [abs_neg]
  have hn := nearest_add (isDouble_val v1) (isDouble_neg (isDouble_val t1))
  rw [← sub_eq_add_neg] at hn
  have hb := sum_bound M0 hs hx c1 hn
  refine ⟨⟨_, sub_is v1 t1 rfl (small_double M0 hM' hb hx (by positivity) (by linarith) K1), hb⟩,
    zero_sub_zero v3 t3⟩

end AbsCx

/-! ## The solution of the code -/

theorem minus_half_lit : (lit (-0.5) : Dbl).val = .fin (-1 / 2) := by
  rw [Dbl.val_lit]
  have := Dbl.rnd_double (x := -1 / 2) ⟨-1, -1, by norm_num, by norm_num, by norm_num, by norm_num⟩
  norm_num at this ⊢
  exact this

/-- The coefficient `p` of the quadratic equation. -/
def brugCoeff (φ x y : ℝ) : ℝ := (φ * (x - 2 * y) + (1 - φ) * (y - 2 * x)) / 2

theorem brug_p {f : Dbl} {φ x y M : ℝ} (hf : f.val = .fin φ) (h0 : 0 ≤ φ) (h1 : φ ≤ 1)
    (hM : ((10 : ℝ) ^ 20)⁻¹ ≤ M) (hM' : M ≤ 10 ^ 20) {b a : Cx Dbl} (hb : b.re.val = .fin x)
    (hb' : b.im.val = .fin 0) (ha : a.re.val = .fin y) (ha' : a.im.val = .fin 0) (x0 : 0 < x)
    (xM : x ≤ M) (y0 : 0 < y) (yM : y ≤ M) : AbsCx M 6.01 (brugCoeff φ x y) (brugP f b a) := by
  have M0 : 0 < M := lt_of_lt_of_le (by positivity) hM
  have two : (lit 2 : Dbl).val = .fin 2 := by exact_mod_cast Dbl.lit_int (n := 2) (by norm_num)
  have one : (lit 1 : Dbl).val = .fin 1 := by exact_mod_cast Dbl.lit_int (n := 1) (by norm_num)
  have eb : AbsCx M 0 x b := ⟨⟨x, hb, by simp⟩, hb'⟩
  have ea : AbsCx M 0 y a := ⟨⟨y, ha, by simp⟩, ha'⟩
  have exact0 : ∀ g : ℝ, |g - g| ≤ 0 * (1 / 2 ^ 53) * g := by intro g; simp
  have b2 : AbsCx M 2.001 (2 * x) (rmul (lit 2) b) :=
    (eb.scale hM hM' two (exact0 2) (K := 1) (by rw [abs_of_pos x0]; linarith) (by norm_num) le_rfl
      le_rfl (by norm_num) (by norm_num) (by norm_num) le_rfl (by norm_num)).mono (by norm_num) M0
  have a2 : AbsCx M 2.001 (2 * y) (rmul (lit 2) a) :=
    (ea.scale hM hM' two (exact0 2) (K := 1) (by rw [abs_of_pos y0]; linarith) (by norm_num) le_rfl
      le_rfl (by norm_num) (by norm_num) (by norm_num) le_rfl (by norm_num)).mono (by norm_num) M0
  have kb : |x - 2 * y| ≤ 2 * M := by rw [abs_le]; constructor <;> linarith
  have ka : |y - 2 * x| ≤ 2 * M := by rw [abs_le]; constructor <;> linarith
  have sb : AbsCx M 4.002 (x - 2 * y) (b - rmul (lit 2) a) :=
    (eb.sub M0 hM' a2 kb le_rfl (by norm_num) (by norm_num) (by norm_num) (by norm_num)).mono
      (by norm_num) M0
  have sa : AbsCx M 4.002 (y - 2 * x) (a - rmul (lit 2) b) :=
    (ea.sub M0 hM' b2 ka le_rfl (by norm_num) (by norm_num) (by norm_num) (by norm_num)).mono
      (by norm_num) M0
  obtain ⟨g', e1, e2⟩ : ∃ g', (lit 1 - f : Dbl).val = .fin g' ∧
      |g' - (1 - φ)| ≤ 1 * (1 / 2 ^ 53) * (1 - φ) := by
    have hn := nearest_add (isDouble_val one) (isDouble_neg (isDouble_val hf))
    rw [← sub_eq_add_neg, abs_of_nonneg (show 0 ≤ 1 - φ by linarith)] at hn
    refine ⟨nearest (1 - φ), sub_is one hf rfl ?_, ?_⟩
    · have : |nearest (1 - φ)| ≤ 1 := by
        rw [abs_le]
        have m1 := nearest_mono (show 1 - φ ≤ 1 by linarith)
        have m2 := nearest_mono (show 0 ≤ 1 - φ by linarith)
        rw [nearest_zero] at m2
        rw [nearest_of_double (isDouble_val one)] at m1
        constructor <;> linarith
      refine lt_of_le_of_lt this ?_
      exact_mod_cast (by decide +kernel : (1 : ℕ) < 2 ^ 1024)
    · rw [one_mul, mul_comm, mul_one_div]
      exact hn
  have tf := sb.scale hM hM' hf (exact0 φ) kb h0 (by linarith) (by norm_num) (by norm_num)
    (by norm_num) (by norm_num) le_rfl (by norm_num)
  have tg := sa.scale hM hM' e1 e2 ka (by linarith) (by linarith) (by norm_num) (by norm_num)
    (by norm_num) (by norm_num) (by norm_num) (by norm_num)
  have ks : |φ * (x - 2 * y) + (1 - φ) * (y - 2 * x)| ≤ 2 * M := by
    refine (abs_add_le _ _).trans ?_
    rw [abs_mul, abs_mul, abs_of_nonneg h0, abs_of_nonneg (show 0 ≤ 1 - φ by linarith)]
    nlinarith [mul_le_mul_of_nonneg_left kb h0,
      mul_le_mul_of_nonneg_left ka (show 0 ≤ 1 - φ by linarith)]
  have ts : AbsCx M 10.01 (φ * (x - 2 * y) + (1 - φ) * (y - 2 * x))
      (rmul f (b - rmul (lit 2) a) + rmul (lit 1 - f) (a - rmul (lit 2) b)) :=
    (tf.add M0 hM' tg ks (by norm_num; linarith) (by norm_num; linarith) (by norm_num; linarith)
      (by norm_num) (by norm_num)).mono (by norm_num; linarith) M0
  have := ts.scale hM hM' half_val (exact0 (1 / 2)) ks (by norm_num) (by norm_num) (by norm_num)
    (by norm_num) (by norm_num) (by norm_num) le_rfl (by norm_num)
  rw [show (1 / 2 : ℝ) * (φ * (x - 2 * y) + (1 - φ) * (y - 2 * x)) = brugCoeff φ x y by
    unfold brugCoeff; ring] at this
  exact this.mono (by norm_num) M0

/-- The root with the rounded half `h` of the coefficient. -/
theorem brug_root {h x y : ℝ} {H b a : Cx Dbl} (hH : H.re.val = .fin h) (hH' : H.im.val = .fin 0)
    (hh : |h| ≤ 10 ^ 21) (hb : RealCx 0 20 x b) (ha : RealCx 0 20 y a) (x0 : ((10 : ℝ) ^ 20)⁻¹ ≤ x)
    (x1 : x ≤ 10 ^ 20) (y0 : ((10 : ℝ) ^ 20)⁻¹ ≤ y) (y1 : y ≤ 10 ^ 20) :
    ∃ ρ, (PyFloat.csqrt (Cx.sq H - brugQ b a)).re.val = .fin ρ ∧
      (PyFloat.csqrt (Cx.sq H - brugQ b a)).im.val = .fin 0 ∧
      |ρ - Real.sqrt (h ^ 2 + x * y / 2)| ≤ 14 / 2 ^ 53 * Real.sqrt (h ^ 2 + x * y / 2) := by
  have xp : 0 < x := lt_of_lt_of_le (by positivity) x0
  have yp : 0 < y := lt_of_lt_of_le (by positivity) y0
  have k1 : ((10 : ℝ) ^ 40)⁻¹ ≤ x * y := by
    calc ((10 : ℝ) ^ 40)⁻¹ = ((10 : ℝ) ^ 20)⁻¹ * ((10 : ℝ) ^ 20)⁻¹ := by norm_num
      _ ≤ x * y := mul_le_mul x0 y0 (by positivity) xp.le
  have k2 : x * y ≤ 10 ^ 40 := by
    calc x * y ≤ 10 ^ 20 * 10 ^ 20 := mul_le_mul x1 y1 yp.le (by positivity)
      _ = 10 ^ 40 := by norm_num
  have k3 : h ^ 2 ≤ 10 ^ 42 := by
    rw [← sq_abs]
    calc |h| ^ 2 ≤ (10 ^ 21) ^ 2 := pow_le_pow_left₀ (abs_nonneg _) hh 2
      _ = 10 ^ 42 := by norm_num
  obtain ⟨D, hD⟩ : ∃ D, D = h ^ 2 + x * y / 2 := ⟨_, rfl⟩
  have h2 := sq_nonneg h
  have D0 : ((10 : ℝ) ^ 41)⁻¹ ≤ D := by
    have : ((10 : ℝ) ^ 41)⁻¹ ≤ ((10 : ℝ) ^ 40)⁻¹ / 2 := by norm_num
    linarith
  have Dp : 0 < D := lt_of_lt_of_le (by positivity) D0
  have D1 : D ≤ 10 ^ 43 := by
    have : (10 : ℝ) ^ 42 + 10 ^ 40 / 2 ≤ 10 ^ 43 := by norm_num
    linarith
  -- the square
  obtain ⟨s, s1, s2⟩ := round_any (x := h * h) (by
    rw [← sq, abs_of_nonneg h2]
    exact k3.trans (by norm_num))
  obtain ⟨q1, q2⟩ := real_mul hH hH' hH hH' s1
  rw [← sq, abs_of_nonneg h2] at s2
  -- the product
  have hm : SRel 0 1 (-1 / 2) (lit (-0.5) : Dbl) := by
    refine SRel.exact minus_half_lit (.inr ?_)
    rw [show |(-1 / 2 : ℝ)| = 1 / 2 by norm_num [abs_of_neg]]
    exact ⟨by norm_num, by norm_num⟩
  have hq : RealCx 2 41 (-1 / 2 * y * x) (brugQ b a) :=
    ((RealCx.scale hm ha (by norm_num) (by norm_num)).mul hb (by norm_num) (by norm_num))
  obtain ⟨w, w1, w2⟩ := hq.1.error (by norm_num)
  rw [show |-1 / 2 * y * x| = x * y / 2 by
    rw [show -1 / 2 * y * x = -(x * y / 2) by ring, abs_neg, abs_of_pos (by positivity)]] at w2
  have w3 : |w + x * y / 2| ≤ 3 * (1 / 2 ^ 53) * (x * y / 2) := by
    rw [show w + x * y / 2 = w - -1 / 2 * y * x by ring]
    refine w2.trans (le_of_eq ?_)
    push_cast
    ring
  have e1 : |s - w - D| ≤ 3.1 * (1 / 2 ^ 53) * D := by
    have a1 : s - w - D = (s - h ^ 2) + -(w + x * y / 2) := by rw [hD]; ring
    rw [a1]
    refine (abs_add_le _ _).trans ?_
    rw [abs_neg]
    have t1 : ((10 : ℝ) ^ 200)⁻¹ ≤ 0.1 * (1 / 2 ^ 53) * D := by
      have : ((10 : ℝ) ^ 200)⁻¹ ≤ 0.1 * (1 / 2 ^ 53) * ((10 : ℝ) ^ 41)⁻¹ := by norm_num
      exact this.trans (mul_le_mul_of_nonneg_left D0 (by positivity))
    have t2 : h ^ 2 * (1 / 2 ^ 53) + 3 * (1 / 2 ^ 53) * (x * y / 2) ≤ 3 * (1 / 2 ^ 53) * D := by
      have : 0 ≤ h ^ 2 * (1 / 2 ^ 53) := by positivity
      rw [hD, mul_add]
      linarith
    linarith
  have e2 : |s - w| ≤ 1.01 * D := by
    have := abs_add_le D (s - w - D)
    rw [add_sub_cancel, abs_of_pos Dp] at this
    have : 3.1 * (1 / 2 ^ 53) * D ≤ 0.01 * D := mul_le_mul_of_nonneg_right (by norm_num) Dp.le
    linarith
  have hn := nearest_add (isDouble_val q1) (isDouble_neg (isDouble_val w1))
  rw [← sub_eq_add_neg] at hn
  obtain ⟨D', hD'⟩ : ∃ D', D' = nearest (s - w) := ⟨_, rfl⟩
  rw [← hD'] at hn
  have e3 : |D' - D| ≤ 5 * (1 / 2 ^ 53) * D := by
    have a1 : |D' - D| ≤ |D' - (s - w)| + |s - w - D| := by
      have := abs_add_le (D' - (s - w)) (s - w - D)
      rwa [sub_add_sub_cancel] at this
    have a2 : |s - w| / 2 ^ 53 ≤ 1.01 * D / 2 ^ 53 := div_le_div_of_nonneg_right e2 (by positivity)
    have a3 : 1.01 * D / 2 ^ 53 = 1.01 * (1 / 2 ^ 53) * D := by ring
    have a4 : 0 < 1 / 2 ^ 53 * D := by positivity
    linarith
  have e4 : |D' - D| ≤ D / 10 := by
    refine e3.trans ?_
    have : 5 * (1 / 2 ^ 53) * D ≤ 1 / 10 * D := mul_le_mul_of_nonneg_right (by norm_num) Dp.le
    linarith
  rw [abs_le] at e4
  have D'p : 0 < D' := by linarith
  have v1 : (Cx.sq H - brugQ b a).re.val = .fin D' := by
    refine sub_is q1 w1 hD'.symm ?_
    rw [abs_of_pos D'p]
    refine lt_of_le_of_lt (b := 2 * (10 : ℝ) ^ 43) (by linarith) ?_
    exact_mod_cast (by decide +kernel : 2 * (10 : ℕ) ^ 43 < 2 ^ 1024)
  have v2 : (Cx.sq H - brugQ b a).im.val = .fin 0 := zero_sub_zero q2 hq.2
  have ord : Ordinary D' := by
    refine .inr ?_
    rw [abs_of_pos D'p]
    constructor
    · have : ((10 : ℝ) ^ 60)⁻¹ ≤ ((10 : ℝ) ^ 41)⁻¹ / 2 := by norm_num
      linarith
    · have : 2 * (10 : ℝ) ^ 43 ≤ 10 ^ 60 := by norm_num
      linarith
  obtain ⟨⟨ρ, r1, r2⟩, ⟨ι, i1, i2⟩⟩ := root_err (n := Real.sqrt D') (k := 0) v1 v2 ord (.inl rfl) le_rfl
    ⟨Real.sqrt_nonneg _, le_rfl, by rw [Real.sq_sqrt D'p.le]; ring, by ring⟩
  refine ⟨ρ, r1, ?_, ?_⟩
  · refine i1.trans ?_
    rw [abs_zero] at i2
    have : ι = 0 := by
      have h := i2.trans (le_of_eq (by ring : (0 : ℝ) * 8 / 2 ^ 53 = 0))
      rwa [sub_zero, abs_nonpos_iff] at h
    rw [this]
  · rw [← hD]
    have S0 := Real.sqrt_pos.2 Dp
    have SS := Real.mul_self_sqrt Dp.le
    have S0' := Real.sqrt_pos.2 D'p
    have SS' := Real.mul_self_sqrt D'p.le
    set S := Real.sqrt D
    set S' := Real.sqrt D'
    have d1 : |S' - S| ≤ 5 * (1 / 2 ^ 53) * S := by
      have a1 : |S' - S| * S ≤ |D' - D| := by
        rw [← SS, ← SS', show S' * S' - S * S = (S' - S) * (S' + S) by ring, abs_mul]
        refine mul_le_mul_of_nonneg_left ?_ (abs_nonneg _)
        rw [abs_of_pos (by linarith)]
        linarith
      have a2 := a1.trans e3
      rw [← SS, ← mul_assoc] at a2
      exact le_of_mul_le_mul_right a2 S0
    have d2 : |S'| ≤ 1.1 * S := by
      have := abs_add_le S (S' - S)
      rw [add_sub_cancel, abs_of_pos S0] at this
      have : 5 * (1 / 2 ^ 53) * S ≤ 0.1 * S := mul_le_mul_of_nonneg_right (by norm_num) S0.le
      linarith
    have d3 : |ρ - S'| ≤ 8.8 / 2 ^ 53 * S := by
      refine r2.trans ?_
      have : |S'| * 8 / 2 ^ 53 ≤ 1.1 * S * 8 / 2 ^ 53 :=
        div_le_div_of_nonneg_right (by linarith) (by positivity)
      refine this.trans (le_of_eq ?_)
      ring
    have d4 : |ρ - S| ≤ |ρ - S'| + |S' - S| := by
      have := abs_add_le (ρ - S') (S' - S)
      rwa [sub_add_sub_cancel] at this
    have d5 : 8.8 / 2 ^ 53 * S + 5 * (1 / 2 ^ 53) * S ≤ 14 / 2 ^ 53 * S := by
      have : 0 < 1 / 2 ^ 53 * S := by positivity
      have e : 14 / 2 ^ 53 * S - (8.8 / 2 ^ 53 * S + 5 * (1 / 2 ^ 53) * S) = 0.2 * (1 / 2 ^ 53 * S) := by
        ring
      linarith
    linarith

/-- The root is a contraction of the coefficient. -/
theorem sqrt_shift {h g k : ℝ} (hk : 0 ≤ k) :
    |Real.sqrt (h ^ 2 + k) - Real.sqrt (g ^ 2 + k)| ≤ |h - g| := by
  have key : ∀ a b : ℝ, Real.sqrt (a ^ 2 + k) ≤ Real.sqrt (b ^ 2 + k) + |a - b| := by
    intro a b
    have h1 := Real.sq_sqrt (show 0 ≤ b ^ 2 + k by positivity)
    have h2 : |b| ≤ Real.sqrt (b ^ 2 + k) := Real.abs_le_sqrt (by linarith)
    have h3 := abs_nonneg (a - b)
    refine Real.sqrt_le_iff.2 ⟨by positivity, ?_⟩
    have h4 : (a - b) * b ≤ |a - b| * Real.sqrt (b ^ 2 + k) := by
      refine (le_abs_self _).trans ?_
      rw [abs_mul]
      exact mul_le_mul_of_nonneg_left h2 h3
    have h5 := sq_abs (a - b)
    nlinarith
  have k1 := key h g
  have k2 := key g h
  rw [abs_sub_comm g h] at k2
  rw [abs_le]
  constructor <;> linarith

namespace Spec

/-- Bruggeman's equation: in the medium of permittivity `e` the polarisations of the host `x` and of
the inclusions `y` cancel. -/
def BruggemanSolution (φ x y e : ℝ) : Prop :=
  0 < e ∧ (1 - φ) * ((x - e) / (x + 2 * e)) + φ * ((y - e) / (y + 2 * e)) = 0

end Spec

theorem bruggeman_quadratic {φ x y e : ℝ} (x0 : 0 < x) (y0 : 0 < y) (he : 0 < e) :
    (1 - φ) * ((x - e) / (x + 2 * e)) + φ * ((y - e) / (y + 2 * e)) = 0 ↔
      e ^ 2 + brugCoeff φ x y * e - x * y / 2 = 0 := by
  have h1 : x + 2 * e ≠ 0 := by positivity
  have h2 : y + 2 * e ≠ 0 := by positivity
  have e1 : (1 - φ) * ((x - e) / (x + 2 * e)) + φ * ((y - e) / (y + 2 * e)) =
      -2 * (e ^ 2 + brugCoeff φ x y * e - x * y / 2) / ((x + 2 * e) * (y + 2 * e)) := by
    unfold brugCoeff
    field_simp
    ring
  rw [e1, div_eq_zero_iff]
  constructor
  · rintro (h | h)
    · linarith
    · exact absurd h (mul_ne_zero h1 h2)
  · intro h
    left
    linarith

/-- The positive root of the quadratic equation. -/
theorem bruggeman_root {φ x y e : ℝ} (x0 : 0 < x) (y0 : 0 < y) (h : BruggemanSolution φ x y e) :
    e = -(brugCoeff φ x y) / 2 + Real.sqrt ((brugCoeff φ x y / 2) ^ 2 + x * y / 2) := by
  obtain ⟨he, h⟩ := h
  have hq := (bruggeman_quadratic x0 y0 he).1 h
  set p := brugCoeff φ x y
  have hp : 0 < e + p := by
    have : e * (e + p) = x * y / 2 := by linarith
    by_contra hc
    push Not at hc
    have h1 : 0 < x * y / 2 := by positivity
    have h2 : e * (e + p) ≤ 0 := mul_nonpos_of_nonneg_of_nonpos he.le hc
    linarith
  have hs : Real.sqrt ((p / 2) ^ 2 + x * y / 2) = e + p / 2 := by
    rw [show (p / 2) ^ 2 + x * y / 2 = (e + p / 2) ^ 2 by linarith]
    exact Real.sqrt_sq (by linarith)
  rw [hs]; ring

/-- There is exactly one solution, between the constituents. -/
theorem bruggeman_between {φ x y e : ℝ} (h0 : 0 ≤ φ) (h1 : φ ≤ 1) (x0 : 0 < x) (y0 : 0 < y)
    (h : BruggemanSolution φ x y e) : min x y ≤ e ∧ e ≤ max x y := by
  obtain ⟨he, h⟩ := h
  have d1 : 0 < x + 2 * e := by positivity
  have d2 : 0 < y + 2 * e := by positivity
  have sum : ∀ u v : ℝ, 0 < u → 0 < v → 0 < (1 - φ) * u + φ * v := by
    intro u v hu hv
    rcases h0.lt_or_eq with h' | h'
    · have := mul_nonneg (sub_nonneg.2 h1) hu.le
      have := mul_pos h' hv
      linarith
    · rw [← h']; linarith
  constructor
  · by_contra hc
    push Not at hc
    have c1 := hc.trans_le (min_le_left _ _)
    have c2 := hc.trans_le (min_le_right _ _)
    have := sum _ _ (div_pos (sub_pos.2 c1) d1) (div_pos (sub_pos.2 c2) d2)
    linarith
  · by_contra hc
    push Not at hc
    have c1 := (le_max_left _ _).trans_lt hc
    have c2 := (le_max_right _ _).trans_lt hc
    have := sum _ _ (div_pos (sub_pos.2 c1) d1) (div_pos (sub_pos.2 c2) d2)
    rw [show x - e = -(e - x) by ring, show y - e = -(e - y) by ring, neg_div, neg_div] at h
    linarith

theorem bruggeman_exists {φ x y : ℝ} (x0 : 0 < x) (y0 : 0 < y) : ∃ e, BruggemanSolution φ x y e := by
  set p := brugCoeff φ x y with hp
  have hk : 0 < x * y / 2 := by positivity
  have hs := Real.sq_sqrt (show 0 ≤ (p / 2) ^ 2 + x * y / 2 by positivity)
  have hl : |p / 2| < Real.sqrt ((p / 2) ^ 2 + x * y / 2) := by
    refine Real.lt_sqrt_of_sq_lt ?_
    rw [sq_abs]; linarith
  have hl' := (abs_lt.1 hl)
  have he : 0 < -p / 2 + Real.sqrt ((p / 2) ^ 2 + x * y / 2) := by
    have := (le_abs_self (p / 2)).trans_lt hl
    linarith
  refine ⟨_, he, (bruggeman_quadratic x0 y0 he).2 ?_⟩
  rw [← hp]
  nlinarith

/-- The size of a sum of two doubles one of which is not small. -/
theorem sum_size {u v : ℝ} (hu : IsDouble u) (hv : IsDouble v) (hv0 : ((10 : ℝ) ^ 21)⁻¹ ≤ v) :
    u + v = 0 ∨ ((10 : ℝ) ^ 50)⁻¹ ≤ |u + v| := by
  by_cases h : |u| < ((10 : ℝ) ^ 21)⁻¹ / 2
  · right
    have := (abs_lt.1 h).1
    have k : ((10 : ℝ) ^ 50)⁻¹ ≤ ((10 : ℝ) ^ 21)⁻¹ / 2 := by norm_num
    exact le_trans (by linarith) (le_abs_self _)
  · push Not at h
    have k : (2 : ℝ) ^ (-71 : ℤ) ≤ ((10 : ℝ) ^ 21)⁻¹ / 2 := by norm_num
    obtain ⟨m, hm⟩ := double_grid_at hu (k.trans h)
    obtain ⟨n, hn⟩ := double_grid_at hv (e := -71) (by
      refine le_trans (k.trans ?_) (hv0.trans (le_abs_self _))
      have : (0 : ℝ) < ((10 : ℝ) ^ 21)⁻¹ := by positivity
      linarith)
    by_cases h0 : u + v = 0
    · exact .inl h0
    · right
      refine le_trans ?_ (grid_le (two_zpow_pos (-71 - 52)) (k := m + n) ?_ h0)
      · norm_num
      · rw [hm, hn]; push_cast; ring

theorem rnd_fin_inv {x r : ℝ} (h : (Dbl.rnd (.fin x)).val = .fin r) : r = nearest x := by
  by_cases hc : |nearest x| < 2 ^ 1024
  · rw [Dbl.rnd_fin hc] at h
    exact (XR.fin.inj h).symm
  · by_cases hx : 0 < x
    · have e : Dbl.rnd (.fin x) = ⟨.pinf, trivial⟩ := (dif_neg hc).trans (if_pos hx)
      rw [e] at h; cases h
    · have e : Dbl.rnd (.fin x) = ⟨.ninf, trivial⟩ := (dif_neg hc).trans (if_neg hx)
      rw [e] at h; cases h

/-- The mixed value of transparent constituents. -/
theorem brug_value {f : Dbl} {φ x y e : ℝ} (hf : f.val = .fin φ) (h0 : 0 ≤ φ) (h1 : φ ≤ 1)
    {b a : Cx Dbl} (hb : TransparentCx b) (ha : TransparentCx a) (hx : b.re.val = .fin x)
    (hy : a.re.val = .fin y) (he : BruggemanSolution φ x y e) :
    ∃ r, (brugMix f b a).re.val = .fin r ∧ (brugMix f b a).im.val = .fin 0 ∧ Ordinary r ∧
      |r - e| ≤ 21 * (1 / 2 ^ 53 * max x y) := by
  obtain ⟨hb', x', hx', x0, x1⟩ := hb
  obtain ⟨ha', y', hy', y0, y1⟩ := ha
  have ex : x' = x := XR.fin.inj (hx'.symm.trans hx)
  have ey : y' = y := XR.fin.inj (hy'.symm.trans hy)
  subst ex ey
  have xp : 0 < x' := lt_of_lt_of_le (by positivity) x0
  have yp : 0 < y' := lt_of_lt_of_le (by positivity) y0
  obtain ⟨M, hMd⟩ : ∃ M, M = max x' y' := ⟨_, rfl⟩
  have xM : x' ≤ M := hMd ▸ le_max_left _ _
  have yM : y' ≤ M := hMd ▸ le_max_right _ _
  have hM : ((10 : ℝ) ^ 20)⁻¹ ≤ M := x0.trans xM
  have hM' : M ≤ 10 ^ 20 := hMd ▸ max_le x1 y1
  have M0 : 0 < M := lt_of_lt_of_le (by positivity) hM
  have U0 : 0 < 1 / 2 ^ 53 * M := by positivity
  rw [← hMd]
  have hroot := bruggeman_root xp yp he
  have hbet := (bruggeman_between h0 h1 xp yp he).2
  rw [← hMd] at hbet
  have hP := brug_p hf h0 h1 hM hM' hx' hb' hy' ha' xp xM yp yM
  have kp : |brugCoeff φ x' y'| ≤ 1 * M := by
    have g1 : 0 ≤ 1 - φ := by linarith
    unfold brugCoeff
    rw [abs_le]
    constructor
    · nlinarith [mul_nonneg h0 xp.le, mul_nonneg h0 (sub_nonneg.2 yM), mul_nonneg g1 yp.le,
        mul_nonneg g1 (sub_nonneg.2 xM)]
    · nlinarith [mul_nonneg h0 yp.le, mul_nonneg h0 (sub_nonneg.2 xM), mul_nonneg g1 xp.le,
        mul_nonneg g1 (sub_nonneg.2 yM)]
  have hH := (hP.scale hM hM' half_val (d := 0) (g := 1 / 2) (by simp) kp (by norm_num) (by norm_num)
    (by norm_num) (by norm_num) (by norm_num) (by norm_num) le_rfl (by norm_num)).mono
    (c' := 3.51) (by norm_num) M0
  have hN : AbsCx M 3.51 (1 / 2 * -brugCoeff φ x' y') (Cx.neg (brugP f b a) * Cx.ofReal (lit 0.5)) :=
    (hP.neg.scale_both hM hM' half_val (d := 0) (g := 1 / 2) (by simp) (by rwa [abs_neg]) (by norm_num)
      (by norm_num) (by norm_num) (by norm_num) (by norm_num) (by norm_num) le_rfl
      (by norm_num)).2.mono (by norm_num) M0
  set p := brugCoeff φ x' y' with hpd
  obtain ⟨⟨h, a1, a2⟩, a3⟩ := hH
  have small : ∀ c : ℝ, c ≤ 100 → c * (1 / 2 ^ 53 * M) ≤ 0.01 * M := by
    intro c hc
    rw [← mul_assoc]
    refine mul_le_mul_of_nonneg_right ?_ M0.le
    have : c * (1 / 2 ^ 53) ≤ 100 * (1 / 2 ^ 53) := mul_le_mul_of_nonneg_right hc (by positivity)
    refine this.trans (by norm_num)
  have hh : |h| ≤ 0.51 * M := by
    have t1 := abs_add_le (1 / 2 * p) (h - 1 / 2 * p)
    rw [add_sub_cancel, abs_mul, abs_of_pos (show (0 : ℝ) < 1 / 2 by norm_num)] at t1
    have t2 := small 3.51 (by norm_num)
    linarith
  have real : ∀ {z : Cx Dbl} {x : ℝ}, z.re.val = .fin x → z.im.val = .fin 0 → ((10 : ℝ) ^ 20)⁻¹ ≤ x →
      x ≤ 10 ^ 20 → RealCx 0 20 x z := by
    intro z x h1 h2 h3 h4
    refine ⟨SRel.exact h1 (.inr ?_), h2⟩
    rw [abs_of_pos (lt_of_lt_of_le (by positivity) h3)]
    exact ⟨h3, h4⟩
  obtain ⟨ρ, b1, b2, b3⟩ := brug_root a1 a3 (by
      have : 0.51 * M ≤ 10 ^ 21 := by linarith [show (10 : ℝ) ^ 21 = 10 * 10 ^ 20 by norm_num]
      linarith) (real hx' hb' x0 x1) (real hy' ha' y0 y1) x0 x1 y0 y1
  have xy : x' * y' ≤ M * M := mul_le_mul xM yM yp.le M0.le
  have S1 : Real.sqrt (h ^ 2 + x' * y' / 2) ≤ 0.9 * M := by
    refine Real.sqrt_le_iff.2 ⟨by positivity, ?_⟩
    have : h ^ 2 ≤ (0.51 * M) ^ 2 := by rw [← sq_abs]; exact pow_le_pow_left₀ (abs_nonneg _) hh 2
    nlinarith [mul_pos M0 M0]
  have kxy : 0 ≤ x' * y' / 2 := by positivity
  have hR : AbsCx M 16.2 (Real.sqrt ((p / 2) ^ 2 + x' * y' / 2)) (brugRoot f b a) := by
    refine ⟨⟨ρ, b1, ?_⟩, b2⟩
    have t1 := sqrt_shift (h := h) (g := p / 2) kxy
    have t2 : |h - p / 2| ≤ 3.51 * (1 / 2 ^ 53 * M) := by
      rw [show p / 2 = 1 / 2 * p by ring]; exact a2
    have t3 : |ρ - Real.sqrt ((p / 2) ^ 2 + x' * y' / 2)| ≤ |ρ - Real.sqrt (h ^ 2 + x' * y' / 2)| +
        |Real.sqrt (h ^ 2 + x' * y' / 2) - Real.sqrt ((p / 2) ^ 2 + x' * y' / 2)| := by
      have := abs_add_le (ρ - Real.sqrt (h ^ 2 + x' * y' / 2))
        (Real.sqrt (h ^ 2 + x' * y' / 2) - Real.sqrt ((p / 2) ^ 2 + x' * y' / 2))
      rwa [sub_add_sub_cancel] at this
    have t4 : 14 / 2 ^ 53 * Real.sqrt (h ^ 2 + x' * y' / 2) ≤ 14 / 2 ^ 53 * (0.9 * M) :=
      mul_le_mul_of_nonneg_left S1 (by positivity)
    have t5 : 14 / 2 ^ 53 * (0.9 * M) = 12.6 * (1 / 2 ^ 53 * M) := by ring
    linarith
  have e1 : 1 / 2 * -p + Real.sqrt ((p / 2) ^ 2 + x' * y' / 2) = e := by rw [hroot]; ring
  have hB : AbsCx M 21 e (brug1 f b a) := by
    have := hN.add M0 hM' hR (K := 1) (by
      rw [e1, abs_of_pos he.1]; linarith) (by norm_num) (by norm_num) (by norm_num) (by norm_num)
      (by norm_num)
    rw [e1] at this
    exact this.mono (by norm_num) M0
  have hmix : brugMix f b a = brug1 f b a := by
    unfold brugMix
    rw [if_pos]
    show PyFloat.le (lit 0 : Dbl).val (brug1 f b a).im.val = true
    rw [lit_zero_val, hB.2, XR.le_fin]
    simp
  rw [hmix]
  obtain ⟨⟨r, r1, r2⟩, r3⟩ := hB
  refine ⟨r, r1, r3, ?_, r2⟩
  -- the size of the result
  obtain ⟨⟨n, n1, n2⟩, n3⟩ := hN
  have hρ : ((10 : ℝ) ^ 21)⁻¹ ≤ ρ := by
    have t0 : (3 * (10 : ℝ) ^ 20)⁻¹ ≤ Real.sqrt (h ^ 2 + x' * y' / 2) := by
      refine Real.le_sqrt_of_sq_le ?_
      have : ((10 : ℝ) ^ 20)⁻¹ * ((10 : ℝ) ^ 20)⁻¹ ≤ x' * y' := mul_le_mul x0 y0 (by positivity) xp.le
      have k : (3 * (10 : ℝ) ^ 20)⁻¹ ^ 2 ≤ ((10 : ℝ) ^ 20)⁻¹ * ((10 : ℝ) ^ 20)⁻¹ / 2 := by norm_num
      have := sq_nonneg h
      linarith
    have t1 := (abs_le.1 b3).1
    have t2 : 14 / 2 ^ 53 * Real.sqrt (h ^ 2 + x' * y' / 2) ≤ 0.01 * Real.sqrt (h ^ 2 + x' * y' / 2) :=
      mul_le_mul_of_nonneg_right (by norm_num) (Real.sqrt_nonneg _)
    have t3 : ((10 : ℝ) ^ 21)⁻¹ ≤ 0.99 * (3 * (10 : ℝ) ^ 20)⁻¹ := by norm_num
    linarith
  have hr : r = nearest (n + ρ) := by
    refine rnd_fin_inv (x := n + ρ) (Eq.trans ?_ r1)
    have b1' : (brugRoot f b a).re.val = .fin ρ := b1
    show _ = (Dbl.rnd (_ + _)).val
    rw [n1, b1', XR.add_fin]
  have hs := sum_size (isDouble_val n1) (isDouble_val b1) hρ
  have hn := nearest_add (isDouble_val n1) (isDouble_val b1)
  rw [← hr] at hn
  rcases hs with hs | hs
  · left
    rw [hs, nearest_zero] at hr
    exact hr
  · right
    constructor
    · have t1 := abs_add_le r (n + ρ - r)
      rw [add_sub_cancel, abs_sub_comm] at t1
      have t2 : |n + ρ| / 2 ^ 53 ≤ |n + ρ| / 2 :=
        div_le_div_of_nonneg_left (abs_nonneg _) (by norm_num) (by norm_num)
      have k : ((10 : ℝ) ^ 60)⁻¹ ≤ ((10 : ℝ) ^ 50)⁻¹ / 2 := by norm_num
      linarith
    · have t1 := abs_add_le e (r - e)
      rw [add_sub_cancel, abs_of_pos he.1] at t1
      have t2 := small 21 (by norm_num)
      have k : 2 * (10 : ℝ) ^ 20 ≤ 10 ^ 60 := by norm_num
      linarith

variable [SciPy Dbl]

namespace Spec

/-- `w` is `x` up to `k` units of 2⁻⁵³ of `m`. -/
def WithinOf (k : ℕ) (m x : ℝ) (w : Dbl) : Prop := ∃ v, w.val = .fin v ∧ |v - x| ≤ m * k / 2 ^ 53

end Spec

/-- C135 for transparent constituents, with an error relative to the larger permittivity: at the
wavelengths it was built with, the medium reports the solution of Bruggeman's equation, which lies
between the permittivities, up to 31·2⁻⁵³ of the larger one, and no loss. Missing for the full
claim: an error relative to the result, for which it is false, and constituents with loss. -/
theorem C135_transparent_partial (s : Spectrum Dbl) (hal : Aligned s) (hs : GoodMetres s)
    (harr : ∃ ty xs, s.values = .array ty xs) (m1 m2 : Material Dbl) (f : Dbl) (φ : ℝ)
    (hf : f.val = .fin φ) (f0 : 0 ≤ φ) (f1 : φ ≤ 1) (e1 e2 : CVals Dbl)
    (h1 : (m1.getPermittivity s).1 = .ok e1) (h2 : (m2.getPermittivity s).1 = .ok e2)
    (n1 : ∀ z ∈ points e1, TransparentCx z) (n2 : ∀ z ∈ points e2, TransparentCx z) :
    ∃ m, (effectiveMedium .bruggeman s m1 m2 f).1 = .ok m ∧
      ∀ q : Spectrum Dbl, Aligned q → q.std = s.std → ∃ c, (m.getPermittivity q).1 = .ok c ∧
        ∀ (i : ℕ) (a b : Cx Dbl) (x y : ℝ), (points e1)[i]? = some a → (points e2)[i]? = some b →
          a.re.val = .fin x → b.re.val = .fin y →
          ∃ e w, BruggemanSolution φ x y e ∧ min x y ≤ e ∧ e ≤ max x y ∧ (points c)[i]? = some w ∧
            WithinOf 31 (max x y) e w.re ∧ w.im.val = .fin 0 := by
  have one : (lit 1 : Dbl).val = .fin 1 := by exact_mod_cast Dbl.lit_int (n := 1) (by norm_num)
  have l0 : PyFloat.lt f (lit 0) = false := by
    rw [Dbl.lt_real hf lit_zero_val, decide_eq_false_iff_not, not_lt]; exact f0
  have l1 : PyFloat.lt (lit 1) f = false := by
    rw [Dbl.lt_real one hf, decide_eq_false_iff_not, not_lt]; exact f1
  obtain ⟨t1, t2⟩ := GoodMetres_table hs
  obtain ⟨eps, hz, hform⟩ := zip_form (g := brugMix f) (permittivity_form m1 hal h1)
    (permittivity_form m2 hal h2)
  have hmix : mixVals .bruggeman f e1 e2 = .ok eps := by
    obtain ⟨ty, xs, hv⟩ := harr
    rw [hv] at hform
    cases eps with
    | scalar z => exact hform.elim
    | array zs => simp only [mixVals, bind, Except.bind, hz]
  obtain ⟨m, hm⟩ := medium_builds (k := .bruggeman) hal hs.1 t1 t2 l0 l1 h1 h2 hmix
    (hform.length_std hal)
  refine ⟨m, hm, ?_⟩
  intro q hq hqs
  obtain ⟨-, -, d1, d2, eps', k1, k2, k3, k4⟩ := medium_entries hal (GoodMetres_mag hs) hm
  rw [h1] at k1
  cases k1
  rw [h2] at k2
  cases k2
  have he : eps' = eps := Except.ok.inj (k3.symm.trans hmix)
  subst he
  have pos : ∀ {z : Cx Dbl} {x : ℝ}, TransparentCx z → z.re.val = .fin x → 0 < x := by
    rintro z x ⟨-, x', h1, h2, -⟩ h3
    have : x' = x := XR.fin.inj (h1.symm.trans h3)
    subst this
    exact lt_of_lt_of_le (by positivity) h2
  obtain ⟨c, c1, c2⟩ := k4 (by
    intro z hzm
    rw [← points_toList] at hzm
    obtain ⟨a, ha, b, hb, rfl⟩ := zip_elems hz z hzm
    rw [points_toList] at ha hb
    have na := n1 a ha
    have nb := n2 b hb
    obtain ⟨-, x, hx, -⟩ := na
    obtain ⟨-, y, hy, -⟩ := nb
    obtain ⟨e, he⟩ := bruggeman_exists (φ := φ) (pos (n1 a ha) hx) (pos (n2 b hb) hy)
    obtain ⟨r, r1, r2, r3, -⟩ := brug_value hf f0 f1 (n1 a ha) (n2 b hb) hx hy he
    exact ⟨⟨r, r1, r3⟩, ⟨0, r2, .inl rfl⟩⟩) q hq hqs
  refine ⟨c, c1, ?_⟩
  intro i a b x y ha hb hx hy
  have na := n1 a (List.mem_of_getElem? ha)
  have nb := n2 b (List.mem_of_getElem? hb)
  have xp := pos na hx
  have yp := pos nb hy
  obtain ⟨e, he⟩ := bruggeman_exists (φ := φ) xp yp
  obtain ⟨be1, be2⟩ := bruggeman_between f0 f1 xp yp he
  obtain ⟨r, r1, r2, r3, r4⟩ := brug_value hf f0 f1 na nb hx hy he
  obtain ⟨w, w1, ⟨v, v1, v2⟩, ⟨u, u1, u2⟩⟩ := c2 i _ r 0 (zip_points hz ha hb) r1 r2
  refine ⟨e, w, he, be1, be2, w1, ⟨v, v1, ?_⟩, ?_⟩
  · have M0 : 0 < max x y := lt_of_lt_of_le xp (le_max_left _ _)
    have g1 : |r| ≤ e + |r - e| := by
      have := abs_add_le e (r - e)
      rwa [add_sub_cancel, abs_of_pos he.1] at this
    have g2 : |v - e| ≤ |v - r| + |r - e| := by
      have := abs_add_le (v - r) (r - e)
      rwa [sub_add_sub_cancel] at this
    have g3 : 21 * (1 / 2 ^ 53 * max x y) ≤ max x y / 100 := by
      rw [← mul_assoc]
      have : 21 * (1 / 2 ^ 53) * max x y ≤ 1 / 100 * max x y :=
        mul_le_mul_of_nonneg_right (by norm_num) M0.le
      linarith
    have g4 : |r| * (9 : ℕ) / 2 ^ 53 ≤ max x y * 10 / 2 ^ 53 := by
      refine div_le_div_of_nonneg_right ?_ (by positivity)
      push_cast
      linarith
    have g5 : max x y * (31 : ℕ) / 2 ^ 53 = max x y * 10 / 2 ^ 53 + 21 * (1 / 2 ^ 53 * max x y) := by
      push_cast; ring
    linarith
  · rw [u1]
    simp only [abs_zero, sub_zero, zero_mul, zero_div, abs_nonpos_iff] at u2
    rw [u2]

/-- C135 (full statement, refuted below): a Bruggeman medium of transparent materials reports the
solution of Bruggeman's equation within ten per cent. -/
def C135_statement : Prop :=
  ∀ (s : Spectrum Dbl), Aligned s → GoodMetres s → (∃ ty xs, s.values = .array ty xs) →
    ∀ (m1 m2 : Material Dbl) (f : Dbl) (φ : ℝ), f.val = .fin φ → 0 ≤ φ → φ ≤ 1 → ∀ e1 e2,
    (m1.getPermittivity s).1 = .ok e1 → (m2.getPermittivity s).1 = .ok e2 →
    (∀ z ∈ points e1, TransparentCx z) → (∀ z ∈ points e2, TransparentCx z) →
    ∃ m, (effectiveMedium .bruggeman s m1 m2 f).1 = .ok m ∧
      ∀ q : Spectrum Dbl, Aligned q → q.std = s.std → ∃ c, (m.getPermittivity q).1 = .ok c ∧
        ∀ (i : ℕ) (a b : Cx Dbl) (x y e : ℝ), (points e1)[i]? = some a → (points e2)[i]? = some b →
          a.re.val = .fin x → b.re.val = .fin y → BruggemanSolution φ x y e →
          ∃ w v, (points c)[i]? = some w ∧ w.re.val = .fin v ∧ |v - e| ≤ e / 10

omit [SciPy Dbl] in
/-- The square root of an even power of two without imaginary part. -/
theorem csqrt_square {z : Cx Dbl} {t : ℝ} (hz : z.re.val = .fin (t * t)) (hz' : z.im.val = .fin 0)
    (ht : IsDouble t) (h0 : 0 < t) (h2 : IsDouble (2 * (t * t)))
    (h3 : IsDouble (2 * t)) :
    (PyFloat.csqrt z).re.val = .fin t ∧ (PyFloat.csqrt z).im.val = .fin 0 := by
  show (Dbl.csqrt z).re.val = _ ∧ (Dbl.csqrt z).im.val = _
  have hd : IsDouble (t * t) := isDouble_val hz
  have tt : 0 < t * t := by positivity
  have zero : (Dbl.ofRat 0).val = .fin 0 := lit_zero_val
  have hnot : (Dbl.le (Dbl.abs z.re) (Dbl.ofRat 0) && Dbl.le (Dbl.abs z.im) (Dbl.ofRat 0)) = false := by
    have : Dbl.le (Dbl.abs z.re) (Dbl.ofRat 0) = false := by
      unfold Dbl.le
      rw [Dbl.abs_val hz, zero, XR.le_fin, decide_eq_false_iff_not, not_le, abs_of_pos tt]
      exact tt
    rw [this]; rfl
  have hpos : Dbl.le (Dbl.ofRat 0) z.re = true := by
    unfold Dbl.le
    rw [zero, hz, XR.le_fin, decide_eq_true_eq]
    exact tt.le
  rw [Dbl.csqrt_fin hz hz']
  unfold Dbl.csqrtFin
  rw [if_neg (by rw [hnot]; decide), if_pos hpos]
  have half : (Dbl.ofRat (1 / 2)).val = .fin (1 / 2) := by
    have : (lit (1 / 2) : Dbl).val = .fin (1 / 2) := by
      rw [Dbl.val_lit]
      have := Dbl.rnd_double (x := 1 / 2) ⟨1, -1, by norm_num, by norm_num, by norm_num, by norm_num⟩
      norm_num at this ⊢
      exact this
    exact this
  have hyp : (Dbl.hypot z.re z.im).val = .fin (t * t) := by
    show (Dbl.rnd (PyFloat.sqrt (z.re.val * z.re.val + z.im.val * z.im.val))).val = _
    rw [hz, hz', XR.mul_fin, XR.mul_fin, XR.add_fin, XR.sqrt_fin_nonneg (by positivity), mul_zero,
      add_zero, Real.sqrt_mul_self tt.le]
    exact Dbl.rnd_double hd
  have sum : (z.re + Dbl.hypot z.re z.im).val = .fin (2 * (t * t)) :=
    add_is hz hyp (by rw [← two_mul]; exact nearest_of_double h2) (double_lt h2)
  have prod : ((z.re + Dbl.hypot z.re z.im) * Dbl.ofRat (1 / 2)).val = .fin (t * t) :=
    mul_is sum half (by
      rw [show 2 * (t * t) * (1 / 2) = t * t by ring]; exact nearest_of_double hd) (double_lt hd)
  have root : (Dbl.sqrt ((z.re + Dbl.hypot z.re z.im) * Dbl.ofRat (1 / 2))).val = .fin t := by
    show (Dbl.rnd (PyFloat.sqrt _)).val = _
    rw [prod, XR.sqrt_fin_nonneg tt.le, Real.sqrt_mul_self h0.le]
    exact Dbl.rnd_double ht
  refine ⟨root, ?_⟩
  have two : (Dbl.ofRat 2).val = .fin 2 := by exact_mod_cast Dbl.lit_int (n := 2) (by norm_num)
  have den := mul_is two root (nearest_of_double h3) (double_lt h3)
  show (z.im / (Dbl.ofRat 2 * Dbl.sqrt ((z.re + Dbl.hypot z.re z.im) * Dbl.ofRat (1 / 2)))).val = _
  rw [Dbl.val_div, hz', den, XR.div_fin_of_ne _ (by positivity), zero_div]
  exact Dbl.rnd_double zero_double

omit [SciPy Dbl] in
theorem pow_double (n : ℕ) (hn : n ≤ 500) : IsDouble ((2 : ℝ) ^ n) :=
  ⟨1, n, by norm_num, by omega, by omega, by simp⟩

omit [SciPy Dbl] in
/-- Nothing of inclusions of permittivity 2⁶⁰ in a host of permittivity 3: the code finds 0. -/
theorem brug_lost {b a : Cx Dbl} (hb : b.re.val = .fin 3) (hb' : b.im.val = .fin 0)
    (ha : a.re.val = .fin (2 ^ 60)) (ha' : a.im.val = .fin 0) :
    (brug1 (lit 0) b a).re.val = .fin 0 ∧ (brug1 (lit 0) b a).im.val = .fin 0 := by
  have one : (lit 1 : Dbl).val = .fin 1 := by exact_mod_cast Dbl.lit_int (n := 1) (by norm_num)
  have two : (lit 2 : Dbl).val = .fin 2 := by exact_mod_cast Dbl.lit_int (n := 2) (by norm_num)
  have ex : ∀ {x : ℝ}, IsDouble x → (Dbl.rnd (.fin x)).val = .fin x := fun h => Dbl.rnd_double h
  have six : IsDouble (6 : ℝ) := ⟨6, 0, by norm_num, by norm_num, by norm_num, by norm_num⟩
  have rm : ∀ {g : Dbl} {z : Cx Dbl} {x y w : ℝ}, g.val = .fin x → z.re.val = .fin y →
      z.im.val = .fin 0 → x * y = w → IsDouble w →
      (rmul g z).re.val = .fin w ∧ (rmul g z).im.val = .fin 0 := by
    intro g z x y w h1 h2 h3 h4 h5
    exact real_mul (z := Cx.ofReal g) h1 lit_zero_val h2 h3 (by rw [h4]; exact ex h5)
  obtain ⟨u1, u2⟩ := rm (w := 2 ^ 61) two ha ha' (by norm_num) (pow_double 61 (by norm_num))
  obtain ⟨v1, v2⟩ := rm (w := 6) two hb hb' (by norm_num) six
  have dn : IsDouble (-(2 : ℝ) ^ 61) := Dbl.isDouble_neg (pow_double 61 (by norm_num))
  have p1 : (b - rmul (lit 2) a).re.val = .fin (-2 ^ 61) := by
    refine sub_is hb u1 ?_ (double_lt dn)
    rw [show (3 : ℝ) - 2 ^ 61 = -(2 ^ 61 - 3) by ring, nearest_neg,
      nearest_eq (x := (2 : ℝ) ^ 61 - 3) (2 ^ 53) 8 (by norm_num) (by norm_num) (by norm_num)
        (by norm_num [abs_lt])]
    norm_num
  have p2 : (b - rmul (lit 2) a).im.val = .fin 0 := zero_sub_zero hb' u2
  have p3 : (a - rmul (lit 2) b).re.val = .fin (2 ^ 60) := by
    refine sub_is ha v1 ?_ (double_lt (pow_double 60 (by norm_num)))
    rw [nearest_eq (x := (2 : ℝ) ^ 60 - 6) (2 ^ 53) 7 (by norm_num) (by norm_num) (by norm_num)
        (by norm_num [abs_lt])]
    norm_num
  have p4 : (a - rmul (lit 2) b).im.val = .fin 0 := zero_sub_zero ha' v2
  have g : (lit 1 - lit 0 : Dbl).val = .fin 1 := sub_zero_dbl one lit_zero_val
  obtain ⟨q1, q2⟩ := rm (w := 0) lit_zero_val p1 p2 (by norm_num) zero_double
  obtain ⟨q3, q4⟩ := rm (w := 2 ^ 60) g p3 p4 (by norm_num) (pow_double 60 (by norm_num))
  have s1 : (rmul (lit 0) (b - rmul (lit 2) a) + rmul (lit 1 - lit 0) (a - rmul (lit 2) b)).re.val =
      .fin (2 ^ 60) := add_is q1 q3 (by
        rw [zero_add]; exact nearest_of_double (pow_double 60 (by norm_num)))
        (double_lt (pow_double 60 (by norm_num)))
  have s2 : (rmul (lit 0) (b - rmul (lit 2) a) + rmul (lit 1 - lit 0) (a - rmul (lit 2) b)).im.val =
      .fin 0 := zero_add_zero q2 q4
  obtain ⟨P1, P2⟩ : (brugP (lit 0) b a).re.val = .fin (2 ^ 59) ∧ (brugP (lit 0) b a).im.val = .fin 0 :=
    rm half_val s1 s2 (by norm_num) (pow_double 59 (by norm_num))
  obtain ⟨H1, H2⟩ := rm (w := 2 ^ 58) half_val P1 P2 (by norm_num) (pow_double 58 (by norm_num))
  obtain ⟨S1, S2⟩ := real_mul H1 H2 H1 H2 (v := 2 ^ 116) (by
    rw [show (2 : ℝ) ^ 58 * 2 ^ 58 = 2 ^ 116 by norm_num]; exact ex (pow_double 116 (by norm_num)))
  have dm : IsDouble (-(2 : ℝ) ^ 59) := Dbl.isDouble_neg (pow_double 59 (by norm_num))
  obtain ⟨a1, a2⟩ := rm (w := -2 ^ 59) minus_half_lit ha ha' (by norm_num) dm
  have d3 : IsDouble (-(3 * (2 : ℝ) ^ 59)) :=
    Dbl.isDouble_neg ⟨3, 59, by norm_num, by norm_num, by norm_num, by norm_num⟩
  obtain ⟨Q1, Q2⟩ : (brugQ b a).re.val = .fin (-(3 * 2 ^ 59)) ∧ (brugQ b a).im.val = .fin 0 :=
    real_mul a1 a2 hb hb' (by rw [show -(2 : ℝ) ^ 59 * 3 = -(3 * 2 ^ 59) by ring]; exact ex d3)
  have D1 : (Cx.sq (rmul (lit 0.5) (brugP (lit 0) b a)) - brugQ b a).re.val = .fin (2 ^ 58 * 2 ^ 58) := by
    rw [show (2 : ℝ) ^ 58 * 2 ^ 58 = 2 ^ 116 by norm_num]
    refine sub_is S1 Q1 ?_ (double_lt (pow_double 116 (by norm_num)))
    rw [nearest_eq (x := (2 : ℝ) ^ 116 - -(3 * 2 ^ 59)) (2 ^ 52) 64 (by norm_num) (by norm_num)
      (by norm_num) (by norm_num [abs_lt])]
    norm_num
  have D2 : (Cx.sq (rmul (lit 0.5) (brugP (lit 0) b a)) - brugQ b a).im.val = .fin 0 :=
    zero_sub_zero S2 Q2
  obtain ⟨R, R'⟩ := csqrt_square D1 D2 (pow_double 58 (by norm_num)) (by positivity) (by
    rw [show 2 * ((2 : ℝ) ^ 58 * 2 ^ 58) = 2 ^ 117 by norm_num]; exact pow_double 117 (by norm_num))
    (by rw [show 2 * (2 : ℝ) ^ 58 = 2 ^ 59 by norm_num]; exact pow_double 59 (by norm_num))
  have n1 := Dbl.neg_val P1
  have n2 : (Cx.neg (brugP (lit 0) b a)).im.val = .fin 0 := by
    have := Dbl.neg_val P2
    rwa [neg_zero] at this
  have dk : IsDouble (-(2 : ℝ) ^ 58) := Dbl.isDouble_neg (pow_double 58 (by norm_num))
  obtain ⟨N1, N2⟩ := real_mul (z := Cx.neg (brugP (lit 0) b a)) (w := Cx.ofReal (lit 0.5)) n1 n2 half_val
    lit_zero_val (v := -2 ^ 58) (by
      rw [show -(2 : ℝ) ^ 59 * (1 / 2) = -2 ^ 58 by norm_num]; exact ex dk)
  exact ⟨add_is N1 R (by rw [neg_add_cancel]; exact nearest_zero) (double_lt zero_double),
    zero_add_zero N2 R'⟩

/-- The permittivity 2⁶⁰. -/
def hugeCx : Cx Dbl := ⟨⟨.fin (2 ^ 60), pow_double 60 (by norm_num)⟩, lit 0⟩

/-- C135 is refuted: with nothing of a material of permittivity 2⁶⁰ in a host of permittivity 3 the
solution of the equation is 3, but the medium reports 0. -/
theorem C135_refuted [NumText Dbl] : ¬ C135_statement := by
  intro h
  let rd : String → Res (FileDict Dbl) := fun _ => .error .os
  obtain ⟨m1, -, p1⟩ := fixed_oneMetre rd guest
  obtain ⟨m2, -, p2⟩ := fixed_oneMetre rd hugeCx
  have hg := guest_int
  have a1 : (cplxOf guest.re guest.im).re.val = .fin 3 := by exact_mod_cast hg.re
  have a2 : (cplxOf guest.re guest.im).im.val = .fin 0 := by exact_mod_cast hg.im
  obtain ⟨b1, b2⟩ := cplxOf_val (a := hugeCx.re) (b := hugeCx.im) rfl lit_zero_val
  set e1 := cplxOf guest.re guest.im with he1
  set e2 := cplxOf hugeCx.re hugeCx.im with he2
  obtain ⟨hv, hi⟩ := brug_lost a1 a2 b1 b2
  obtain ⟨m, hm, hq⟩ := h oneMetre oneMetre_aligned oneMetre_good ⟨_, _, rfl⟩ m1 m2 (lit 0) 0
    lit_zero_val le_rfl zero_le_one _ _ p1 p2
    (by
      intro z hz
      rw [show z = e1 from List.mem_singleton.1 hz]
      exact ⟨a2, 3, a1, by norm_num, by norm_num⟩)
    (by
      intro z hz
      rw [show z = e2 from List.mem_singleton.1 hz]
      exact ⟨b2, _, b1, by norm_num, by norm_num⟩)
  obtain ⟨c, c1, c2⟩ := hq oneMetre oneMetre_aligned rfl
  obtain ⟨w, v, w1, w2, w3⟩ := c2 0 e1 e2 3 (2 ^ 60) 3 rfl rfl a1 b1 ⟨by norm_num, by norm_num⟩
  obtain ⟨-, -, d1, d2, eps, k1, k2, k3, k4⟩ := medium_entries oneMetre_aligned
    (GoodMetres_mag oneMetre_good) hm
  rw [p1] at k1
  cases k1
  rw [p2] at k2
  cases k2
  have hmix : brugMix (lit 0) e1 e2 = brug1 (lit 0) e1 e2 := by
    unfold brugMix
    rw [if_pos]
    show PyFloat.le (lit 0 : Dbl).val (brug1 (lit 0) e1 e2).im.val = true
    rw [lit_zero_val, hi, XR.le_fin]
    simp
  have keps : eps = .array [brug1 (lit 0) e1 e2] := by
    have : mixVals .bruggeman (lit 0) (.array [e1]) (.array [e2]) = .ok (.array [brug1 (lit 0) e1 e2]) := by
      simp [mixVals, bind, Except.bind, CVals.zip, hmix]
    exact Except.ok.inj (k3.symm.trans this)
  subst keps
  obtain ⟨c', c1', c2'⟩ := k4 (by
    intro z hz
    rw [show z = _ from List.mem_singleton.1 hz]
    exact ⟨⟨0, hv, .inl rfl⟩, ⟨0, hi, .inl rfl⟩⟩) oneMetre oneMetre_aligned rfl
  have hc : c' = c := Except.ok.inj (c1'.symm.trans c1)
  subst hc
  obtain ⟨w', w1', ⟨v', v1', v2'⟩, -⟩ := c2' 0 _ 0 0 rfl hv hi
  have hw : w' = w := Option.some.inj (w1'.symm.trans w1)
  subst hw
  have hv' : v' = v := XR.fin.inj (v1'.symm.trans w2)
  subst hv'
  have : v' = 0 := by simpa using v2'
  rw [this] at w3
  norm_num at w3

/-- A case of `C135_transparent_partial`: half of 3 in 12, at one metre. -/
example [NumText Dbl] (rd : String → Res (FileDict Dbl)) : ∃ m1 m2 m : Material Dbl, ∃ c,
    Material.new rd [("fixed_eps", .cplx ⟨intDbl 12, intDbl 0⟩)] = .ok m1 ∧
    Material.new rd [("fixed_eps", .cplx guest)] = .ok m2 ∧
    (effectiveMedium .bruggeman oneMetre m1 m2 (lit 0.5)).1 = .ok m ∧
    (m.getPermittivity oneMetre).1 = .ok c ∧
    ∃ e w, BruggemanSolution (1 / 2) 12 3 e ∧ 3 ≤ e ∧ e ≤ 12 ∧ (points c)[0]? = some w ∧
      WithinOf 31 12 e w.re ∧ w.im.val = .fin 0 := by
  obtain ⟨m1, a1, a2⟩ := fixed_oneMetre rd ⟨intDbl 12, intDbl 0⟩
  obtain ⟨m2, b1, b2⟩ := fixed_oneMetre rd guest
  have hh : IntCx (cplxOf (intDbl 12) (intDbl 0)) 12 0 :=
    cplx_int (intDbl_val (by norm_num)) (intDbl_val (by norm_num)) (by norm_num) (by norm_num)
  have hgu := guest_int
  obtain ⟨m, c1, c2⟩ := C135_transparent_partial oneMetre oneMetre_aligned oneMetre_good ⟨_, _, rfl⟩ m1
    m2 (lit 0.5) (1 / 2) half_val (by norm_num) (by norm_num) _ _ a2 b2
    (by
      intro z hz
      rw [show z = _ from List.mem_singleton.1 hz]
      exact ⟨by exact_mod_cast hh.im, _, hh.re, by norm_num, by norm_num⟩)
    (by
      intro z hz
      rw [show z = _ from List.mem_singleton.1 hz]
      exact ⟨by exact_mod_cast hgu.im, _, hgu.re, by norm_num, by norm_num⟩)
  obtain ⟨c, d1, d2⟩ := c2 oneMetre oneMetre_aligned rfl
  obtain ⟨e, w, g1, g2, g3, g4⟩ := d2 0 _ _ 12 3 rfl rfl (by exact_mod_cast hh.re)
    (by exact_mod_cast hgu.re)
  rw [min_eq_right (by norm_num)] at g2
  rw [max_eq_left (by norm_num)] at g3 g4
  exact ⟨m1, m2, m, c, a1, b1, c1, d1, e, w, g1, g2, g3, g4⟩

end

end Disp
