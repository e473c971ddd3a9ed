import Verif.Props.BruggemanAccuracy
import Verif.Props.MixtureAccuracy
/-!
# Errors of complex arithmetic in double precision, as a whole

The parts of a sum of complex numbers may cancel, so that the parts of a product or quotient have no
relative accuracy. Their distance to the true value is nevertheless small against its modulus. The
lemmas here hold for all operands of a moderate modulus, however small one of the parts is.
-/

namespace Disp

noncomputable section

open Dbl Spec

/-! ## The four operations on doubles -/

theorem mul_any {a b : Dbl} {x y : ℝ} (ha : a.val = .fin x) (hb : b.val = .fin y)
    (h : |x * y| ≤ 10 ^ 100) : ∃ v, (a * b).val = .fin v ∧
      |v - x * y| ≤ |x * y| * (1 / 2 ^ 53) + ((10 : ℝ) ^ 200)⁻¹ := by
  obtain ⟨v, h1, h2⟩ := round_any h
  refine ⟨v, ?_, h2⟩
  rw [Dbl.val_mul, ha, hb, XR.mul_fin]
  exact h1

theorem sum_any {x y : ℝ} (hx : IsDouble x) (hy : IsDouble y) (h : |x + y| ≤ 10 ^ 100) :
    ∃ v, (Dbl.rnd (.fin (x + y))).val = .fin v ∧ |v - (x + y)| ≤ |x + y| * (1 / 2 ^ 53) := by
  have hs := nearest_add hx hy
  have hfin : |nearest (x + y)| < 2 ^ 1024 := by
    have h6 : |nearest (x + y)| ≤ |nearest (x + y) - (x + y)| + |x + y| := by
      have := abs_add_le (nearest (x + y) - (x + y)) (x + y)
      rwa [sub_add_cancel] at this
    have h7 : |x + y| / 2 ^ 53 ≤ |x + y| := div_le_self (abs_nonneg _) (by norm_num)
    calc |nearest (x + y)| ≤ 2 * 10 ^ 100 := by linarith
      _ ≤ 2 ^ 250 * 2 ^ 250 := by norm_num
      _ = 2 ^ 500 := by rw [← pow_add]
      _ < 2 ^ 1024 := by gcongr <;> norm_num
  refine ⟨nearest (x + y), Dbl.rnd_fin hfin, ?_⟩
  rw [mul_one_div]
  exact hs

theorem add_any {a b : Dbl} {x y : ℝ} (ha : a.val = .fin x) (hb : b.val = .fin y)
    (h : |x + y| ≤ 10 ^ 100) : ∃ v, (a + b).val = .fin v ∧
      |v - (x + y)| ≤ |x + y| * (1 / 2 ^ 53) := by
  obtain ⟨v, h1, h2⟩ := sum_any (Dbl.isDouble_val ha) (Dbl.isDouble_val hb) h
  refine ⟨v, ?_, h2⟩
  show (Dbl.rnd (a.val + b.val)).val = _
  rw [ha, hb, XR.add_fin]
  exact h1

theorem sub_any {a b : Dbl} {x y : ℝ} (ha : a.val = .fin x) (hb : b.val = .fin y)
    (h : |x - y| ≤ 10 ^ 100) : ∃ v, (a - b).val = .fin v ∧
      |v - (x - y)| ≤ |x - y| * (1 / 2 ^ 53) := by
  rw [sub_eq_add_neg x y] at h ⊢
  obtain ⟨v, h1, h2⟩ := sum_any (Dbl.isDouble_val ha)
    (Dbl.isDouble_neg (Dbl.isDouble_val hb)) h
  refine ⟨v, ?_, h2⟩
  show (Dbl.rnd (a.val - b.val)).val = _
  rw [ha, hb, XR.sub_fin, sub_eq_add_neg]
  exact h1

theorem div_any {a b : Dbl} {x y : ℝ} (ha : a.val = .fin x) (hb : b.val = .fin y) (hy : y ≠ 0)
    (h : |x / y| ≤ 10 ^ 100) : ∃ v, (a / b).val = .fin v ∧
      |v - x / y| ≤ |x / y| * (1 / 2 ^ 53) + ((10 : ℝ) ^ 200)⁻¹ := by
  obtain ⟨v, h1, h2⟩ := round_any h
  refine ⟨v, ?_, h2⟩
  show (Dbl.rnd (a.val / b.val)).val = _
  rw [ha, hb, XR.div_fin_of_ne _ hy]
  exact h1

/-! ## Moduli -/

theorem norm_of_parts {z : ℂ} {e : ℝ} (h1 : |z.re| ≤ e) (h2 : |z.im| ≤ e) : ‖z‖ ≤ 3 / 2 * e := by
  have he : 0 ≤ e := (abs_nonneg _).trans h1
  have h3 : ‖z‖ ^ 2 = z.re ^ 2 + z.im ^ 2 := by
    rw [← Complex.normSq_eq_norm_sq, Complex.normSq_apply]; ring
  have h4 : z.re ^ 2 ≤ e ^ 2 := sq_le_sq' (by linarith [(abs_le.1 h1).1]) (abs_le.1 h1).2
  have h5 : z.im ^ 2 ≤ e ^ 2 := sq_le_sq' (by linarith [(abs_le.1 h2).1]) (abs_le.1 h2).2
  refine abs_le_of_sq_le_sq' (a := ‖z‖) ?_ (by positivity) |>.2
  nlinarith

theorem norm_scaled {z w : ℂ} {k ε : ℝ} (hk : 0 ≤ k) (hε : 0 ≤ ε) (h1 : |z.re| ≤ k * |w.re| + ε)
    (h2 : |z.im| ≤ k * |w.im| + ε) : ‖z‖ ≤ k * ‖w‖ + 2 * ε := by
  have h3 : ‖z‖ ^ 2 = |z.re| ^ 2 + |z.im| ^ 2 := by
    rw [← Complex.normSq_eq_norm_sq, Complex.normSq_apply, sq_abs, sq_abs]; ring
  have h4 : ‖w‖ ^ 2 = |w.re| ^ 2 + |w.im| ^ 2 := by
    rw [← Complex.normSq_eq_norm_sq, Complex.normSq_apply, sq_abs, sq_abs]; ring
  have h5 : |z.re| ^ 2 ≤ (k * |w.re| + ε) ^ 2 := pow_le_pow_left₀ (abs_nonneg _) h1 2
  have h6 : |z.im| ^ 2 ≤ (k * |w.im| + ε) ^ 2 := pow_le_pow_left₀ (abs_nonneg _) h2 2
  have h7 := Complex.abs_re_le_norm w
  have h8 := Complex.abs_im_le_norm w
  have h9 := mul_le_mul_of_nonneg_left h7 (mul_nonneg hk hε)
  have h10 := mul_le_mul_of_nonneg_left h8 (mul_nonneg hk hε)
  refine abs_le_of_sq_le_sq' (a := ‖z‖) ?_ (by positivity) |>.2
  have e1 : (k * ‖w‖ + 2 * ε) ^ 2 = k ^ 2 * ‖w‖ ^ 2 + 4 * (k * ε * ‖w‖) + 4 * ε ^ 2 := by ring
  have e2 : (k * |w.re| + ε) ^ 2 + (k * |w.im| + ε) ^ 2 = k ^ 2 * (|w.re| ^ 2 + |w.im| ^ 2) +
    2 * (k * ε * |w.re|) + 2 * (k * ε * |w.im|) + 2 * ε ^ 2 := by ring
  rw [← h4] at e2
  have := sq_nonneg ε
  linarith

theorem parts_norm {z : ℂ} : z.re ^ 2 + z.im ^ 2 = ‖z‖ ^ 2 := by
  rw [← Complex.normSq_eq_norm_sq, Complex.normSq_apply]; ring

/-- Cauchy's inequality for the parts. -/
theorem cauchy_parts (z w : ℂ) : |z.re * w.re| + |z.im * w.im| ≤ ‖z‖ * ‖w‖ := by
  refine abs_le_of_sq_le_sq' (a := |z.re * w.re| + |z.im * w.im|) ?_ (by positivity) |>.2
  rw [mul_pow, ← parts_norm, ← parts_norm, abs_mul, abs_mul, ← sq_abs z.re, ← sq_abs z.im,
    ← sq_abs w.re, ← sq_abs w.im]
  nlinarith [sq_nonneg (|z.re| * |w.im| - |z.im| * |w.re|)]

theorem cauchy_cross (z w : ℂ) : |z.re * w.im| + |z.im * w.re| ≤ ‖z‖ * ‖w‖ := by
  refine abs_le_of_sq_le_sq' (a := |z.re * w.im| + |z.im * w.re|) ?_ (by positivity) |>.2
  rw [mul_pow, ← parts_norm, ← parts_norm, abs_mul, abs_mul, ← sq_abs z.re, ← sq_abs z.im,
    ← sq_abs w.re, ← sq_abs w.im]
  nlinarith [sq_nonneg (|z.re| * |w.re| - |z.im| * |w.im|)]

/-! ## Sums and products -/

/-- A sum of complex doubles. -/
theorem cadd_any {z w : Cx Dbl} {Z W : ℂ} (hz : StandsForCx z Z) (hw : StandsForCx w W)
    (h : ‖Z + W‖ ≤ 10 ^ 100) : ∃ S, StandsForCx (z + w) S ∧ ‖S - (Z + W)‖ ≤ 1 / 2 ^ 53 * ‖Z + W‖ := by
  have h1 := (Complex.abs_re_le_norm (Z + W)).trans h
  have h2 := (Complex.abs_im_le_norm (Z + W)).trans h
  rw [Complex.add_re] at h1
  rw [Complex.add_im] at h2
  obtain ⟨x, x1, x2⟩ := add_any hz.1 hw.1 h1
  obtain ⟨y, y1, y2⟩ := add_any hz.2 hw.2 h2
  refine ⟨⟨x, y⟩, ⟨x1, y1⟩, ?_⟩
  have := norm_scaled (z := ⟨x, y⟩ - (Z + W)) (w := Z + W) (k := 1 / 2 ^ 53) (ε := 0) (by positivity)
    le_rfl (by simpa [mul_comm] using x2) (by simpa [mul_comm] using y2)
  simpa using this

/-- One part of a product. -/
theorem part_any {v1 v2 v x y m η : ℝ} (h1 : |v1 - x| ≤ |x| * (1 / 2 ^ 53) + η)
    (h2 : |v2 - y| ≤ |y| * (1 / 2 ^ 53) + η) (hm : |x| + |y| ≤ m) (hη : 0 ≤ η)
    (h : |v - (v1 + v2)| ≤ |v1 + v2| * (1 / 2 ^ 53)) :
    |v - (x + y)| ≤ m * (5 / 2 / 2 ^ 53) + 3 * η := by
  have k1 : |v1 + v2| ≤ |v1 - x| + |v2 - y| + (|x| + |y|) := by
    have e : v1 + v2 = (v1 - x) + (v2 - y) + (x + y) := by ring
    rw [e]
    exact (abs_add_le _ _).trans (add_le_add (abs_add_le _ _) (abs_add_le _ _))
  have k2 : |v - (x + y)| ≤ |v - (v1 + v2)| + (|v1 - x| + |v2 - y|) := by
    have e : v - (x + y) = (v - (v1 + v2)) + ((v1 - x) + (v2 - y)) := by ring
    rw [e]
    exact (abs_add_le _ _).trans (add_le_add le_rfl (abs_add_le _ _))
  have hx := abs_nonneg x
  have hy := abs_nonneg y
  norm_num at h1 h2 h ⊢
  linarith

/-- A product of complex doubles. -/
theorem cmul_any {z w : Cx Dbl} {Z W : ℂ} (hz : StandsForCx z Z) (hw : StandsForCx w W)
    (h : ‖Z‖ * ‖W‖ ≤ 10 ^ 99) : ∃ P, StandsForCx (z * w) P ∧
      ‖P - Z * W‖ ≤ 4 / 2 ^ 53 * (‖Z‖ * ‖W‖) + ((10 : ℝ) ^ 190)⁻¹ := by
  have c1 := cauchy_parts Z W
  have c2 := cauchy_cross Z W
  set m := ‖Z‖ * ‖W‖ with hm
  have b : (10 : ℝ) ^ 99 ≤ 10 ^ 100 := by norm_num
  obtain ⟨v1, a1, a2⟩ := mul_any hz.1 hw.1 (by linarith [abs_nonneg (Z.im * W.im)])
  obtain ⟨v2, b1, b2⟩ := mul_any hz.2 hw.2 (by linarith [abs_nonneg (Z.re * W.re)])
  obtain ⟨v3, e1, e2⟩ := mul_any hz.1 hw.2 (by linarith [abs_nonneg (Z.im * W.re)])
  obtain ⟨v4, d1, d2⟩ := mul_any hz.2 hw.1 (by linarith [abs_nonneg (Z.re * W.im)])
  obtain ⟨η, hη⟩ : ∃ η : ℝ, η = ((10 : ℝ) ^ 200)⁻¹ := ⟨_, rfl⟩
  have hη0 : 0 ≤ η := by rw [hη]; positivity
  have hη1 : η ≤ 1 := by rw [hη]; exact inv_le_one_of_one_le₀ (one_le_pow₀ (by norm_num))
  have hη2 : 9 / 2 * η ≤ ((10 : ℝ) ^ 190)⁻¹ := by rw [hη]; norm_num
  rw [← hη] at a2 b2 e2 d2
  have size : ∀ {v x : ℝ}, |x| ≤ m → |v - x| ≤ |x| * (1 / 2 ^ 53) + η → |v| ≤ 2 * 10 ^ 99 + 1 := by
    intro v x hx hv
    have h1 := abs_add_le (v - x) x
    rw [sub_add_cancel] at h1
    have h2 : |x| * (1 / 2 ^ 53) ≤ |x| := mul_le_of_le_one_right (abs_nonneg _) (by norm_num)
    linarith
  have s1 := size (by linarith [abs_nonneg (Z.im * W.im)]) a2
  have s2 := size (by linarith [abs_nonneg (Z.re * W.re)]) b2
  have s3 := size (by linarith [abs_nonneg (Z.im * W.re)]) e2
  have s4 := size (by linarith [abs_nonneg (Z.re * W.im)]) d2
  have s5 : (2 * (10 : ℝ) ^ 99 + 1) + (2 * 10 ^ 99 + 1) ≤ 10 ^ 100 := by norm_num
  obtain ⟨x, x1, x2⟩ := sub_any a1 b1 (by
    have := abs_sub v1 v2
    linarith)
  obtain ⟨y, y1, y2⟩ := add_any e1 d1 (by
    have := abs_add_le v3 v4
    linarith)
  refine ⟨⟨x, y⟩, ⟨x1, y1⟩, ?_⟩
  have p1 : |x - (Z.re * W.re + -(Z.im * W.im))| ≤ m * (5 / 2 / 2 ^ 53) + 3 * η := by
    refine part_any (v1 := v1) (v2 := -v2) a2 (by
      rw [abs_neg, show -v2 - -(Z.im * W.im) = -(v2 - Z.im * W.im) by ring, abs_neg]
      exact b2) (by rw [abs_neg]; exact c1) hη0 (by rwa [← sub_eq_add_neg])
  have p2 := part_any e2 d2 c2 hη0 y2
  have := norm_of_parts (z := ⟨x, y⟩ - Z * W) (e := m * (5 / 2 / 2 ^ 53) + 3 * η)
    (by simpa [Complex.mul_re, sub_eq_add_neg] using p1)
    (by simpa [Complex.mul_im] using p2)
  refine this.trans ?_
  have e : 3 / 2 * (m * (5 / 2 / 2 ^ 53) + 3 * η) = m * (15 / 4 / 2 ^ 53) + 9 / 2 * η := by ring
  rw [e]
  have hm0 : 0 ≤ m := by positivity
  have : m * (15 / 4 / 2 ^ 53) ≤ 4 / 2 ^ 53 * m := by
    rw [mul_comm]
    exact mul_le_mul_of_nonneg_right (by norm_num) hm0
  linarith

/-! ## Quotients -/

/-- The reciprocal that Smith's division multiplies with. -/
theorem smith_scale {p q N r' m' den' : ℝ} (hN : p ^ 2 + q ^ 2 = N ^ 2) (hN0 : 0 < N)
    (hN1 : ((10 : ℝ) ^ 50)⁻¹ ≤ N) (hN2 : N ≤ 10 ^ 50) (hqp : |q| ≤ |p|)
    (h1 : |r' - q / p| ≤ |q / p| * (1 / 2 ^ 53) + ((10 : ℝ) ^ 200)⁻¹)
    (h2 : |m' - q * r'| ≤ |q * r'| * (1 / 2 ^ 53) + ((10 : ℝ) ^ 200)⁻¹)
    (h3 : |den' - (p + m')| ≤ |p + m'| * (1 / 2 ^ 53)) :
    p ≠ 0 ∧ |N ^ 2 / p| ≤ 2 * N ∧ N ≤ |N ^ 2 / p| ∧
      |den' - N ^ 2 / p| ≤ |N ^ 2 / p| * (31 / 10 / 2 ^ 53) := by
  have hp : p ≠ 0 := by
    rintro rfl
    rw [abs_zero] at hqp
    have : q = 0 := abs_eq_zero.1 (le_antisymm hqp (abs_nonneg _))
    rw [this] at hN
    have : N ^ 2 = 0 := by rw [← hN]; ring
    exact hN0.ne' (pow_eq_zero_iff (by norm_num) |>.1 this)
  have hp0 : 0 < |p| := abs_pos.2 hp
  have hpN : |p| ≤ N := by
    refine abs_le_of_sq_le_sq ?_ hN0.le
    nlinarith [sq_nonneg q]
  have hd : |N ^ 2 / p| = N ^ 2 / |p| := by
    rw [abs_div, abs_of_nonneg (by positivity : (0 : ℝ) ≤ N ^ 2)]
  have hdN : N ≤ |N ^ 2 / p| := by
    rw [hd, le_div_iff₀ hp0, pow_two]
    exact mul_le_mul_of_nonneg_left hpN hN0.le
  have hd2 : |N ^ 2 / p| ≤ 2 * N := by
    rw [hd, div_le_iff₀ hp0, pow_two]
    have : N ≤ 2 * |p| := by
      refine abs_le_of_sq_le_sq' (a := N) ?_ (by positivity) |>.2
      have h4 : q ^ 2 ≤ p ^ 2 := sq_le_sq.2 hqp
      rw [mul_pow, sq_abs]
      nlinarith
    nlinarith
  refine ⟨hp, hd2, hdN, ?_⟩
  have hd' : N ^ 2 / p = p + q * (q / p) := by
    rw [← hN]; field_simp
  have hqr : |q * (q / p)| ≤ |N ^ 2 / p| := by
    rw [hd, abs_mul, abs_div, ← mul_div_assoc, ← hN, abs_mul_abs_self]
    refine div_le_div_of_nonneg_right ?_ hp0.le
    nlinarith [sq_nonneg p]
  have hqN : |q| ≤ 10 ^ 50 := hqp.trans (hpN.trans hN2)
  obtain ⟨η, hη⟩ : ∃ η : ℝ, η = ((10 : ℝ) ^ 200)⁻¹ := ⟨_, rfl⟩
  have hη0 : 0 ≤ η := by rw [hη]; positivity
  have hη2 : 10 * η * (10 ^ 50 + 1) ≤ ((10 : ℝ) ^ 50)⁻¹ * (1 / 100 / 2 ^ 53) := by rw [hη]; norm_num
  rw [← hη] at h1 h2
  rw [hd'] at hqr hdN ⊢
  clear hd hd2 hd' hη
  set r := q / p with hr
  set d := p + q * r with hdd
  -- the product
  have a1 : |q| * |r' - r| ≤ |q * r| * (1 / 2 ^ 53) + |q| * η := by
    have := mul_le_mul_of_nonneg_left h1 (abs_nonneg q)
    rw [abs_mul]
    linarith [this]
  have a2 : |q * r'| ≤ |q| * |r' - r| + |q * r| := by
    have e : q * r' = q * (r' - r) + q * r := by ring
    rw [e]
    refine (abs_add_le _ _).trans ?_
    rw [abs_mul]
  have a3 : |m' - q * r| ≤ |m' - q * r'| + |q| * |r' - r| := by
    have e : m' - q * r = (m' - q * r') + q * (r' - r) := by ring
    rw [e]
    refine (abs_add_le _ _).trans ?_
    rw [abs_mul]
  have hqη : |q| * η ≤ 10 ^ 50 * η := mul_le_mul_of_nonneg_right hqN hη0
  have a4 : |p + m'| ≤ |m' - q * r| + |d| := by
    have e : p + m' = (m' - q * r) + d := by rw [hdd]; ring
    rw [e]
    exact abs_add_le _ _
  have a5 : |den' - d| ≤ |den' - (p + m')| + |m' - q * r| := by
    have e : den' - d = (den' - (p + m')) + (m' - q * r) := by rw [hdd]; ring
    rw [e]
    exact abs_add_le _ _
  have a6 : ((10 : ℝ) ^ 50)⁻¹ * (1 / 100 / 2 ^ 53) ≤ |d| * (1 / 100 / 2 ^ 53) :=
    mul_le_mul_of_nonneg_right (hN1.trans hdN) (by positivity)
  have a7 := hη2.trans a6
  have hX : 0 ≤ |q * r| := abs_nonneg _
  generalize |q * r| = X at *
  generalize |q * r'| = X' at *
  generalize |q| * |r' - r| = Y at *
  generalize |q| * η = E1 at *
  generalize |m' - q * r| = M at *
  generalize |m' - q * r'| = M' at *
  generalize |p + m'| = P at *
  generalize |den' - (p + m')| = D' at *
  generalize |den' - d| = D at *
  generalize |d| = B at *
  clear hN hN1 hN2 hqp h1 hp hp0 hpN hqN hdN hη2 a6
  norm_num at h2 h3 a1 a7 hqη ⊢
  linarith

/-- One part of Smith's division. -/
theorem smith_part {x y L N p q r' t' n' s' o' d : ℝ} (hN0 : 0 < N) (hN1 : ((10 : ℝ) ^ 50)⁻¹ ≤ N)
    (hN2 : N ≤ 10 ^ 50) (hN : p ^ 2 + q ^ 2 = N ^ 2) (hp : p ≠ 0) (hqp : |q| ≤ |p|)
    (hd : d = N ^ 2 / p) (hdN : N ≤ |d|) (hL : x ^ 2 + y ^ 2 ≤ L ^ 2) (hL0 : 0 ≤ L)
    (hL1 : L ≤ 10 ^ 50)
    (h1 : |r' - q / p| ≤ |q / p| * (1 / 2 ^ 53) + ((10 : ℝ) ^ 200)⁻¹)
    (h2 : |t' - y * r'| ≤ |y * r'| * (1 / 2 ^ 53) + ((10 : ℝ) ^ 200)⁻¹)
    (h3 : |n' - (x + t')| ≤ |x + t'| * (1 / 2 ^ 53))
    (h4 : |s' - 1 / d| ≤ 1 / |d| * (45 / 10 / 2 ^ 53))
    (h5 : |o' - n' * s'| ≤ |n' * s'| * (1 / 2 ^ 53) + ((10 : ℝ) ^ 200)⁻¹) :
    |o' - (x + y * (q / p)) / d| ≤ L / N * (9 / 2 ^ 53) + ((10 : ℝ) ^ 90)⁻¹ := by
  have hp0 : 0 < |p| := abs_pos.2 hp
  have hd0 : 0 < |d| := hN0.trans_le hdN
  have hdn : d ≠ 0 := abs_pos.1 hd0
  have hyL : |y| ≤ L := by
    refine abs_le_of_sq_le_sq ?_ hL0
    nlinarith [sq_nonneg x]
  have hqN : |q| ≤ N := by
    refine abs_le_of_sq_le_sq ?_ hN0.le
    nlinarith [sq_nonneg p]
  -- the exact quotients
  have hd1 : |d| = N ^ 2 / |p| := by
    rw [hd, abs_div, abs_of_nonneg (by positivity : (0 : ℝ) ≤ N ^ 2)]
  have q1 : |y * (q / p)| / |d| ≤ L / N := by
    rw [hd1, abs_mul, abs_div]
    have e : |y| * (|q| / |p|) / (N ^ 2 / |p|) = |y| * (|q| / N) / N := by
      field_simp
    rw [e]
    refine div_le_div_of_nonneg_right ?_ hN0.le
    have : |q| / N ≤ 1 := (div_le_one hN0).2 hqN
    calc |y| * (|q| / N) ≤ L * 1 := mul_le_mul hyL this (by positivity) hL0
      _ = L := mul_one _
  have q2 : |x + y * (q / p)| / |d| ≤ L / N := by
    rw [← abs_div, hd]
    have e : (x + y * (q / p)) / (N ^ 2 / p) = (x * p + y * q) / N ^ 2 := by
      field_simp
    rw [e, abs_div, abs_of_nonneg (by positivity : (0 : ℝ) ≤ N ^ 2), div_le_div_iff₀ (by positivity) hN0]
    have : |x * p + y * q| ≤ L * N := by
      refine abs_le_of_sq_le_sq ?_ (by positivity)
      rw [mul_pow, ← hN]
      have h6 : (x ^ 2 + y ^ 2) * (p ^ 2 + q ^ 2) ≤ L ^ 2 * (p ^ 2 + q ^ 2) :=
        mul_le_mul_of_nonneg_right hL (by positivity)
      nlinarith [sq_nonneg (x * q - y * p)]
    calc |x * p + y * q| * N ≤ L * N * N := mul_le_mul_of_nonneg_right this hN0.le
      _ = L * N ^ 2 := by ring
  obtain ⟨η, hη⟩ : ∃ η : ℝ, η = ((10 : ℝ) ^ 200)⁻¹ := ⟨_, rfl⟩
  have hη0 : 0 ≤ η := by rw [hη]; positivity
  have hη2 : 10 * (η * (10 ^ 50 + 1) * 10 ^ 50) + 10 * η ≤ ((10 : ℝ) ^ 90)⁻¹ := by rw [hη]; norm_num
  rw [← hη] at h1 h2 h5
  set r := q / p with hr
  set n := x + y * r with hn
  have a1 : |y| * |r' - r| ≤ |y * r| * (1 / 2 ^ 53) + |y| * η := by
    have := mul_le_mul_of_nonneg_left h1 (abs_nonneg y)
    rw [abs_mul]
    linarith [this]
  have a2 : |y * r'| ≤ |y| * |r' - r| + |y * r| := by
    have e : y * r' = y * (r' - r) + y * r := by ring
    rw [e]
    refine (abs_add_le _ _).trans ?_
    rw [abs_mul]
  have a3 : |t' - y * r| ≤ |t' - y * r'| + |y| * |r' - r| := by
    have e : t' - y * r = (t' - y * r') + y * (r' - r) := by ring
    rw [e]
    refine (abs_add_le _ _).trans ?_
    rw [abs_mul]
  have hyη : |y| * η ≤ 10 ^ 50 * η := mul_le_mul_of_nonneg_right (hyL.trans hL1) hη0
  have a4 : |x + t'| ≤ |t' - y * r| + |n| := by
    have e : x + t' = (t' - y * r) + n := by rw [hn]; ring
    rw [e]
    exact abs_add_le _ _
  have a5 : |n' - n| ≤ |n' - (x + t')| + |t' - y * r| := by
    have e : n' - n = (n' - (x + t')) + (t' - y * r) := by rw [hn]; ring
    rw [e]
    exact abs_add_le _ _
  have b1 : |n' - n| ≤ |y * r| * (21 / 10 / 2 ^ 53) + |n| * (1 / 2 ^ 53) + 4 * (η * (10 ^ 50 + 1)) := by
    have hX : 0 ≤ |y * r| := abs_nonneg _
    clear hη2 h4 h5 h1 q1 q2 hN1 hN2 hL1 hyL hη hL hN
    generalize |y * r| = X at *
    generalize |y * r'| = X' at *
    generalize |y| * |r' - r| = Y at *
    generalize |y| * η = E1 at *
    generalize |t' - y * r| = M at *
    generalize |t' - y * r'| = M' at *
    generalize |x + t'| = P at *
    generalize |n' - (x + t')| = D' at *
    generalize |n' - n| = D at *
    generalize |n| = B at *
    norm_num at h2 h3 a1 hyη ⊢
    linarith
  -- divided
  have hs : |s'| ≤ 1 / |d| * (101 / 100) := by
    have h6 := abs_add_le (s' - 1 / d) (1 / d)
    rw [sub_add_cancel, abs_div 1 d, abs_one] at h6
    have h7 : 1 / |d| * (45 / 10 / 2 ^ 53) ≤ 1 / |d| * (1 / 100) :=
      mul_le_mul_of_nonneg_left (by norm_num) (by positivity)
    linarith
  have hdi : 1 / |d| ≤ 10 ^ 50 := by
    rw [div_le_iff₀ hd0]
    calc (1 : ℝ) = 10 ^ 50 * (10 ^ 50)⁻¹ := by rw [mul_inv_cancel₀ (by positivity)]
      _ ≤ 10 ^ 50 * |d| := mul_le_mul_of_nonneg_left (hN1.trans hdN) (by positivity)
  have b2 : |n' - n| * (1 / |d|) ≤ L / N * (31 / 10 / 2 ^ 53) + 4 * (η * (10 ^ 50 + 1) * 10 ^ 50) := by
    have h6 := mul_le_mul_of_nonneg_right b1 (by positivity : 0 ≤ 1 / |d|)
    refine h6.trans ?_
    have e : (|y * r| * (21 / 10 / 2 ^ 53) + |n| * (1 / 2 ^ 53) + 4 * (η * (10 ^ 50 + 1))) * (1 / |d|) =
      |y * r| / |d| * (21 / 10 / 2 ^ 53) + |n| / |d| * (1 / 2 ^ 53) + 4 * (η * (10 ^ 50 + 1)) * (1 / |d|) := by
      ring
    rw [e]
    have h7 : 4 * (η * (10 ^ 50 + 1)) * (1 / |d|) ≤ 4 * (η * (10 ^ 50 + 1)) * 10 ^ 50 :=
      mul_le_mul_of_nonneg_left hdi (by positivity)
    have h8 : |y * r| / |d| * (21 / 10 / 2 ^ 53) ≤ L / N * (21 / 10 / 2 ^ 53) :=
      mul_le_mul_of_nonneg_right q1 (by positivity)
    have h9 : |n| / |d| * (1 / 2 ^ 53) ≤ L / N * (1 / 2 ^ 53) :=
      mul_le_mul_of_nonneg_right q2 (by positivity)
    linarith
  have b3 : |n' * s' - n / d| ≤ |n' - n| * |s'| + |n| * |s' - 1 / d| := by
    have e : n' * s' - n / d = (n' - n) * s' + n * (s' - 1 / d) := by ring
    rw [e]
    refine (abs_add_le _ _).trans ?_
    rw [abs_mul, abs_mul]
  have b4 : |n| * |s' - 1 / d| ≤ L / N * (45 / 10 / 2 ^ 53) := by
    refine (mul_le_mul_of_nonneg_left h4 (abs_nonneg _)).trans ?_
    have e : |n| * (1 / |d| * (45 / 10 / 2 ^ 53)) = |n| / |d| * (45 / 10 / 2 ^ 53) := by ring
    rw [e]
    exact mul_le_mul_of_nonneg_right q2 (by positivity)
  have b5 : |n' - n| * |s'| ≤ |n' - n| * (1 / |d|) * (101 / 100) := by
    rw [mul_assoc]
    exact mul_le_mul_of_nonneg_left hs (abs_nonneg _)
  have b6 : |n' * s'| ≤ |n' * s' - n / d| + |n| / |d| := by
    have h6 := abs_add_le (n' * s' - n / d) (n / d)
    rwa [sub_add_cancel, abs_div n d] at h6
  have b7 : |o' - n / d| ≤ |o' - n' * s'| + |n' * s' - n / d| := by
    have e : o' - n / d = (o' - n' * s') + (n' * s' - n / d) := by ring
    rw [e]
    exact abs_add_le _ _
  have hQ : 0 ≤ L / N := by positivity
  have hF : 0 ≤ η * (10 ^ 50 + 1) * 10 ^ 50 := by positivity
  refine le_trans ?_ (add_le_add le_rfl hη2)
  clear h1 h2 h3 h4 a1 a2 a3 a4 a5 b1 hs hdi hη hη2 hyη hN1 hN2 hL1 hL hN q1
  generalize |n| / |d| = R at *
  generalize L / N = Q at *
  generalize η * (10 ^ 50 + 1) * 10 ^ 50 = F at *
  generalize |n' - n| * (1 / |d|) = A1 at *
  generalize |n' - n| * |s'| = A2 at *
  generalize |n| * |s' - 1 / d| = A3 at *
  generalize |n' * s'| = A4 at *
  generalize |n' * s' - n / d| = A5 at *
  generalize |o' - n' * s'| = A6 at *
  generalize |o' - n / d| = A7 at *
  norm_num at h5 b2 b4 ⊢
  linarith

/-- The reciprocal of the denominator. -/
theorem smith_inverse {d den' s' N : ℝ} (hN2 : N ≤ 10 ^ 50) (hN0 : 0 < N) (hdN : N ≤ |d|)
    (hd2 : |d| ≤ 2 * N)
    (h1 : |den' - d| ≤ |d| * (31 / 10 / 2 ^ 53))
    (h2 : |s' - 1 / den'| ≤ |1 / den'| * (1 / 2 ^ 53) + ((10 : ℝ) ^ 200)⁻¹) :
    |s' - 1 / d| ≤ 1 / |d| * (45 / 10 / 2 ^ 53) := by
  have hd0 : 0 < |d| := hN0.trans_le hdN
  have hdn : d ≠ 0 := abs_pos.1 hd0
  have h3 : |d| * (1 - 31 / 10 / 2 ^ 53) ≤ |den'| := by
    have h := abs_add_le (d - den') den'
    rw [sub_add_cancel, abs_sub_comm d den'] at h
    linarith
  have hden0 : 0 < |den'| := lt_of_lt_of_le (mul_pos hd0 (by norm_num)) h3
  have hdenn : den' ≠ 0 := abs_pos.1 hden0
  have h4 : |1 / den' - 1 / d| ≤ 1 / |d| * (32 / 10 / 2 ^ 53) := by
    have e : 1 / den' - 1 / d = -(den' - d) / (den' * d) := by field_simp; ring
    rw [e, abs_div, abs_neg, abs_mul, div_le_iff₀ (by positivity)]
    have e2 : 1 / |d| * (32 / 10 / 2 ^ 53) * (|den'| * |d|) = |den'| * (32 / 10 / 2 ^ 53) := by
      field_simp
    rw [e2]
    refine h1.trans ?_
    refine le_trans ?_ (mul_le_mul_of_nonneg_right h3 (by positivity))
    rw [mul_assoc]
    exact mul_le_mul_of_nonneg_left (by norm_num) hd0.le
  have h5 : |1 / den'| ≤ |1 / den' - 1 / d| + 1 / |d| := by
    have h := abs_add_le (1 / den' - 1 / d) (1 / d)
    rwa [sub_add_cancel, abs_div 1 d, abs_one] at h
  have h6 : ((10 : ℝ) ^ 200)⁻¹ ≤ 1 / |d| * (1 / 10 / 2 ^ 53) := by
    have h7 : |d| ≤ 2 * 10 ^ 50 := by linarith
    have h8 : 1 / (2 * 10 ^ 50) ≤ 1 / |d| := one_div_le_one_div_of_le hd0 h7
    refine le_trans ?_ (mul_le_mul_of_nonneg_right h8 (by positivity))
    norm_num
  have h7 : |s' - 1 / d| ≤ |s' - 1 / den'| + |1 / den' - 1 / d| := by
    have e : s' - 1 / d = (s' - 1 / den') + (1 / den' - 1 / d) := by ring
    rw [e]
    exact abs_add_le _ _
  have h8 : 0 ≤ 1 / |d| := by positivity
  clear h1 h3 hd2 hdN hN2
  generalize ((10 : ℝ) ^ 200)⁻¹ = η at *
  generalize |s' - 1 / d| = A at *
  generalize |s' - 1 / den'| = B at *
  generalize |1 / den' - 1 / d| = C at *
  generalize |1 / den'| = D at *
  generalize 1 / |d| = E at *
  norm_num at h2 h4 h6 ⊢
  linarith

/-- Sizes in Smith's division. -/
theorem smith_sizes {x y L N p q r' t' n' s' d : ℝ} (hN1 : ((10 : ℝ) ^ 50)⁻¹ ≤ N)
    (hdN : N ≤ |d|) (hN0 : 0 < N) (hqp : |q| ≤ |p|) (hp : p ≠ 0) (hx : |x| ≤ L) (hy : |y| ≤ L)
    (hL1 : L ≤ 10 ^ 45)
    (h1 : |r' - q / p| ≤ |q / p| * (1 / 2 ^ 53) + ((10 : ℝ) ^ 200)⁻¹)
    (h2 : |t' - y * r'| ≤ |y * r'| * (1 / 2 ^ 53) + ((10 : ℝ) ^ 200)⁻¹)
    (h3 : |n' - (x + t')| ≤ |x + t'| * (1 / 2 ^ 53))
    (h4 : |s' - 1 / d| ≤ 1 / |d| * (45 / 10 / 2 ^ 53)) :
    |r'| ≤ 3 ∧ |y * r'| ≤ 3 * L ∧ |x + t'| ≤ 8 * 10 ^ 50 ∧ |n' * s'| ≤ 10 ^ 100 := by
  have hη : ((10 : ℝ) ^ 200)⁻¹ ≤ 1 := inv_le_one_of_one_le₀ (one_le_pow₀ (by norm_num))
  have hr : |q / p| ≤ 1 := by
    rw [abs_div]
    exact (div_le_one (abs_pos.2 hp)).2 hqp
  have tri : ∀ a b : ℝ, |a| ≤ |a - b| + |b| := by
    intro a b
    have := abs_add_le (a - b) b
    rwa [sub_add_cancel] at this
  have small : ∀ z : ℝ, |z| * (1 / 2 ^ 53) ≤ |z| := fun z =>
    mul_le_of_le_one_right (abs_nonneg _) (by norm_num)
  have k1 : |r'| ≤ 3 := by
    linarith [tri r' (q / p), small (q / p)]
  have k2 : |y * r'| ≤ 3 * L := by
    rw [abs_mul, mul_comm 3 L]
    exact mul_le_mul hy k1 (abs_nonneg _) ((abs_nonneg _).trans hy)
  have k3 : |t'| ≤ 6 * L + 1 := by
    linarith [tri t' (y * r'), small (y * r')]
  have k4 : |x + t'| ≤ 7 * L + 1 := by
    linarith [abs_add_le x t']
  have k5 : |n'| ≤ 14 * L + 2 := by
    linarith [tri n' (x + t'), small (x + t')]
  have hdi : 1 / |d| ≤ 10 ^ 50 := by
    rw [div_le_iff₀ (hN0.trans_le hdN)]
    calc (1 : ℝ) = 10 ^ 50 * (10 ^ 50)⁻¹ := by rw [mul_inv_cancel₀ (by positivity)]
      _ ≤ 10 ^ 50 * |d| := mul_le_mul_of_nonneg_left (hN1.trans hdN) (by positivity)
  have k6 : |s'| ≤ 2 * 10 ^ 50 := by
    have := tri s' (1 / d)
    rw [abs_div 1 d, abs_one] at this
    have : 1 / |d| * (45 / 10 / 2 ^ 53) ≤ 1 / |d| :=
      mul_le_of_le_one_right (by positivity) (by norm_num)
    linarith
  refine ⟨k1, k2, ?_, ?_⟩
  · have : (7 : ℝ) * 10 ^ 45 + 1 ≤ 8 * 10 ^ 50 := by norm_num
    linarith
  · rw [abs_mul]
    calc |n'| * |s'| ≤ (14 * 10 ^ 45 + 2) * (2 * 10 ^ 50) :=
          mul_le_mul (by linarith) k6 (abs_nonneg _) (by positivity)
      _ ≤ 10 ^ 100 := by norm_num

/-- Smith's division with the larger part `p` of the denominator: the reciprocal and the ratio. -/
theorem smith_prep {cp cq : Dbl} {p q N : ℝ} (hcp : cp.val = .fin p) (hcq : cq.val = .fin q)
    (hN : p ^ 2 + q ^ 2 = N ^ 2) (hN1 : ((10 : ℝ) ^ 50)⁻¹ ≤ N) (hN2 : N ≤ 10 ^ 50)
    (hqp : |q| ≤ |p|) :
    ∃ r' s', (cq / cp).val = .fin r' ∧ (lit 1 / (cp + cq * (cq / cp))).val = .fin s' ∧ p ≠ 0 ∧
      N ≤ |N ^ 2 / p| ∧ |r' - q / p| ≤ |q / p| * (1 / 2 ^ 53) + ((10 : ℝ) ^ 200)⁻¹ ∧
      |s' - 1 / (N ^ 2 / p)| ≤ 1 / |N ^ 2 / p| * (45 / 10 / 2 ^ 53) := by
  have hN0 : 0 < N := lt_of_lt_of_le (by positivity) hN1
  have hp : p ≠ 0 := by
    rintro rfl
    rw [abs_zero] at hqp
    have : q = 0 := abs_eq_zero.1 (le_antisymm hqp (abs_nonneg _))
    rw [this] at hN
    have : N ^ 2 = 0 := by rw [← hN]; ring
    exact hN0.ne' (pow_eq_zero_iff (by norm_num) |>.1 this)
  have hpN : |p| ≤ N := by
    refine abs_le_of_sq_le_sq ?_ hN0.le
    nlinarith [sq_nonneg q]
  have hr : |q / p| ≤ 1 := by
    rw [abs_div]
    exact (div_le_one (abs_pos.2 hp)).2 hqp
  have hη : ((10 : ℝ) ^ 200)⁻¹ ≤ 1 := inv_le_one_of_one_le₀ (one_le_pow₀ (by norm_num))
  have tri : ∀ a b : ℝ, |a| ≤ |a - b| + |b| := by
    intro a b
    have := abs_add_le (a - b) b
    rwa [sub_add_cancel] at this
  have small : ∀ z : ℝ, |z| * (1 / 2 ^ 53) ≤ |z| := fun z =>
    mul_le_of_le_one_right (abs_nonneg _) (by norm_num)
  obtain ⟨r', r1, r2⟩ := div_any hcq hcp hp (hr.trans (one_le_pow₀ (by norm_num)))
  have k1 : |r'| ≤ 3 := by linarith [tri r' (q / p), small (q / p)]
  have k2 : |q * r'| ≤ 3 * 10 ^ 50 := by
    rw [abs_mul, mul_comm 3]
    exact mul_le_mul (hqp.trans (hpN.trans hN2)) k1 (abs_nonneg _) (by positivity)
  obtain ⟨m', m1, m2⟩ := mul_any hcq r1 (k2.trans (by norm_num))
  have k3 : |m'| ≤ 6 * 10 ^ 50 + 1 := by linarith [tri m' (q * r'), small (q * r')]
  have k4 : |p + m'| ≤ 10 ^ 100 := by
    have h1 := abs_add_le p m'
    have h2 : (7 : ℝ) * 10 ^ 50 + 1 ≤ 10 ^ 100 := by norm_num
    linarith
  obtain ⟨den', d1, d2⟩ := add_any hcp m1 k4
  obtain ⟨-, g1, g2, g3⟩ := smith_scale hN hN0 hN1 hN2 hqp r2 m2 d2
  have hd0 : 0 < |N ^ 2 / p| := hN0.trans_le g2
  have k5 : N / 2 ≤ |den'| := by
    have h1 := tri (N ^ 2 / p) den'
    rw [abs_sub_comm] at h1
    have h2 : |N ^ 2 / p| * (31 / 10 / 2 ^ 53) ≤ |N ^ 2 / p| * (1 / 2) :=
      mul_le_mul_of_nonneg_left (by norm_num) hd0.le
    linarith
  have hden : den' ≠ 0 := abs_pos.1 (lt_of_lt_of_le (by positivity) k5)
  obtain ⟨s', s1, s2⟩ := div_any (show (lit 1 : Dbl).val = .fin 1 by exact_mod_cast Dbl.lit_int (n := 1) (by norm_num)) d1 hden (by
    rw [abs_div, abs_one, div_le_iff₀ (abs_pos.2 hden)]
    calc (1 : ℝ) ≤ 10 ^ 100 * ((10 ^ 50)⁻¹ / 2) := by norm_num
      _ ≤ 10 ^ 100 * |den'| := mul_le_mul_of_nonneg_left (by linarith) (by positivity))
  exact ⟨r', s', r1, s1, hp, g2, r2, smith_inverse hN2 hN0 g2 g1 g3 s2⟩

section

variable {cr cs u v : Dbl} {x y L N p q r' s' : ℝ}

/-- The product in one part of Smith's division. -/
theorem smith_product (hcr : cr.val = .fin r') (hqp : |q| ≤ |p|) (hp : p ≠ 0)
    (h1 : |r' - q / p| ≤ |q / p| * (1 / 2 ^ 53) + ((10 : ℝ) ^ 200)⁻¹) (hv : v.val = .fin y)
    (hx : |x| ≤ L) (hy : |y| ≤ L) (hL1 : L ≤ 10 ^ 45) :
    ∃ t', (v * cr).val = .fin t' ∧
      |t' - y * r'| ≤ |y * r'| * (1 / 2 ^ 53) + ((10 : ℝ) ^ 200)⁻¹ ∧ |x + t'| ≤ 10 ^ 100 ∧
      |-x + t'| ≤ 10 ^ 100 := by
  have hη : ((10 : ℝ) ^ 200)⁻¹ ≤ 1 := inv_le_one_of_one_le₀ (one_le_pow₀ (by norm_num))
  have hr : |q / p| ≤ 1 := by
    rw [abs_div]
    exact (div_le_one (abs_pos.2 hp)).2 hqp
  have tri : ∀ a b : ℝ, |a| ≤ |a - b| + |b| := by
    intro a b
    have := abs_add_le (a - b) b
    rwa [sub_add_cancel] at this
  have small : ∀ z : ℝ, |z| * (1 / 2 ^ 53) ≤ |z| := fun z =>
    mul_le_of_le_one_right (abs_nonneg _) (by norm_num)
  have k1 : |r'| ≤ 3 := by linarith [tri r' (q / p), small (q / p)]
  have k2 : |y * r'| ≤ 3 * L := by
    rw [abs_mul, mul_comm 3 L]
    exact mul_le_mul hy k1 (abs_nonneg _) ((abs_nonneg _).trans hy)
  have hb : (7 : ℝ) * 10 ^ 45 + 1 ≤ 10 ^ 100 := by norm_num
  obtain ⟨t', t1, t2⟩ := mul_any hv hcr (by linarith [(abs_nonneg y).trans hy])
  have k3 : |t'| ≤ 6 * L + 1 := by linarith [tri t' (y * r'), small (y * r')]
  refine ⟨t', t1, t2, ?_, ?_⟩
  · linarith [abs_add_le x t']
  · have := abs_add_le (-x) t'
    rw [abs_neg] at this
    linarith

/-- What is left of one part of Smith's division. -/
theorem smith_rest {a : Dbl} {t' n' : ℝ} (hcs : cs.val = .fin s') (hN : p ^ 2 + q ^ 2 = N ^ 2)
    (hN1 : ((10 : ℝ) ^ 50)⁻¹ ≤ N) (hN2 : N ≤ 10 ^ 50) (hqp : |q| ≤ |p|) (hp : p ≠ 0)
    (g1 : N ≤ |N ^ 2 / p|)
    (h1 : |r' - q / p| ≤ |q / p| * (1 / 2 ^ 53) + ((10 : ℝ) ^ 200)⁻¹)
    (h4 : |s' - 1 / (N ^ 2 / p)| ≤ 1 / |N ^ 2 / p| * (45 / 10 / 2 ^ 53))
    (hL : x ^ 2 + y ^ 2 ≤ L ^ 2) (hL0 : 0 ≤ L) (hL1 : L ≤ 10 ^ 45)
    (h2 : |t' - y * r'| ≤ |y * r'| * (1 / 2 ^ 53) + ((10 : ℝ) ^ 200)⁻¹)
    (ha : a.val = .fin n') (h3 : |n' - (x + t')| ≤ |x + t'| * (1 / 2 ^ 53)) :
    ∃ o, (a * cs).val = .fin o ∧
      |o - (x + y * (q / p)) / (N ^ 2 / p)| ≤ L / N * (9 / 2 ^ 53) + ((10 : ℝ) ^ 90)⁻¹ := by
  have hN0 : 0 < N := lt_of_lt_of_le (by positivity) hN1
  have hx : |x| ≤ L := abs_le_of_sq_le_sq (by nlinarith [sq_nonneg y]) hL0
  have hy : |y| ≤ L := abs_le_of_sq_le_sq (by nlinarith [sq_nonneg x]) hL0
  obtain ⟨-, -, -, k4⟩ := smith_sizes hN1 g1 hN0 hqp hp hx hy hL1 h1 h2 h3 h4
  obtain ⟨o, o1, o2⟩ := mul_any ha hcs k4
  exact ⟨o, o1, smith_part hN0 hN1 hN2 hN hp hqp rfl g1 hL hL0 (hL1.trans (by norm_num)) h1 h2 h3 h4 o2⟩

end

/-- A quotient of complex doubles. -/
theorem cdiv_any {z w : Cx Dbl} {Z W : ℂ} (hz : StandsForCx z Z) (hw : StandsForCx w W)
    (hZ : ‖Z‖ ≤ 10 ^ 45) (hW1 : ((10 : ℝ) ^ 50)⁻¹ ≤ ‖W‖) (hW2 : ‖W‖ ≤ 10 ^ 50) :
    ∃ Q, StandsForCx (z / w) Q ∧
      ‖Q - Z / W‖ ≤ 14 / 2 ^ 53 * (‖Z‖ / ‖W‖) + ((10 : ℝ) ^ 89)⁻¹ := by
  have hN0 : 0 < ‖W‖ := lt_of_lt_of_le (by positivity) hW1
  have hL0 := norm_nonneg Z
  have hre := Complex.abs_re_le_norm Z
  have him := Complex.abs_im_le_norm Z
  have hzn := parts_norm (z := Z)
  have hwn := parts_norm (z := W)
  have fin : ∀ {x y : ℝ}, |x - (Z / W).re| ≤ ‖Z‖ / ‖W‖ * (9 / 2 ^ 53) + ((10 : ℝ) ^ 90)⁻¹ →
      |y - (Z / W).im| ≤ ‖Z‖ / ‖W‖ * (9 / 2 ^ 53) + ((10 : ℝ) ^ 90)⁻¹ →
      ‖(⟨x, y⟩ : ℂ) - Z / W‖ ≤ 14 / 2 ^ 53 * (‖Z‖ / ‖W‖) + ((10 : ℝ) ^ 89)⁻¹ := by
    intro x y h1 h2
    refine (norm_of_parts (z := ⟨x, y⟩ - Z / W)
      (e := ‖Z‖ / ‖W‖ * (9 / 2 ^ 53) + ((10 : ℝ) ^ 90)⁻¹) h1 h2).trans ?_
    have hQ : 0 ≤ ‖Z‖ / ‖W‖ := by positivity
    generalize ‖Z‖ / ‖W‖ = Q at *
    norm_num
    linarith
  have er : (Z / W).re = (Z.re * W.re + Z.im * W.im) / ‖W‖ ^ 2 := by
    rw [Complex.div_re, ← Complex.normSq_eq_norm_sq]; ring
  have ei : (Z / W).im = (Z.im * W.re - Z.re * W.im) / ‖W‖ ^ 2 := by
    rw [Complex.div_im, ← Complex.normSq_eq_norm_sq]; ring
  show ∃ Q, StandsForCx (Dbl.cdiv z w) Q ∧ _
  have hle : Dbl.le (Dbl.abs w.im) (Dbl.abs w.re) = decide (|W.im| ≤ |W.re|) := by
    show PyFloat.le (Dbl.abs w.im).val (Dbl.abs w.re).val = _
    rw [Dbl.abs_val hw.2, Dbl.abs_val hw.1, XR.le_fin]
  have neg_err : ∀ {t y r B : ℝ}, |t - y * r| ≤ |y * r| * (1 / 2 ^ 53) + B →
      |-t - -y * r| ≤ |-y * r| * (1 / 2 ^ 53) + B := by
    intro t y r B h
    rw [show -t - -y * r = -(t - y * r) by ring, abs_neg, neg_mul, abs_neg]
    exact h
  unfold Dbl.cdiv
  rw [hle]
  by_cases hc : |W.im| ≤ |W.re|
  · have hnz : W.re ≠ 0 ∨ W.im ≠ 0 := by
      by_contra h
      push Not at h
      have : W = 0 := Complex.ext h.1 h.2
      rw [this, norm_zero] at hN0
      exact lt_irrefl _ hN0
    rw [if_pos (by simpa using hc), if_neg (Dbl.not_both_zero hw.1 hw.2 hnz)]
    obtain ⟨r', s', r1, s1, hp, g1, g2, g3⟩ := smith_prep hw.1 hw.2 hwn hW1 hW2 hc
    obtain ⟨t, t1, t2, t3, -⟩ := smith_product r1 hc hp g2 hz.2 hre him hZ
    obtain ⟨t', t1', t2', -, t3'⟩ := smith_product r1 hc hp g2 hz.1 him hre hZ
    obtain ⟨n, n1, n2⟩ := add_any hz.1 t1 t3
    obtain ⟨n', n1', n2'⟩ := sub_any hz.2 t1' (by
      rw [show Z.im - t' = -(-Z.im + t') by ring, abs_neg]; exact t3')
    obtain ⟨o, o1, o2⟩ := smith_rest (a := z.re + z.im * (w.im / w.re)) s1 hwn hW1 hW2 hc
      hp g1 g2 g3 hzn.le hL0 hZ t2 n1 n2
    obtain ⟨o', o1', o2'⟩ := smith_rest (a := z.im - z.re * (w.im / w.re)) (x := Z.im)
      (y := -Z.re) s1 hwn hW1 hW2 hc hp g1 g2 g3 (by rw [← hzn]; linarith [sq_nonneg Z.re, neg_sq Z.re])
      hL0 hZ (neg_err t2') n1' (by rw [← sub_eq_add_neg]; exact n2')
    refine ⟨⟨o, o'⟩, ⟨o1, o1'⟩, fin ?_ ?_⟩
    · rw [er]
      have e : (Z.re + Z.im * (W.im / W.re)) / (‖W‖ ^ 2 / W.re) =
        (Z.re * W.re + Z.im * W.im) / ‖W‖ ^ 2 := by field_simp
      rw [← e]; exact o2
    · rw [ei]
      have e : (Z.im + -Z.re * (W.im / W.re)) / (‖W‖ ^ 2 / W.re) =
        (Z.im * W.re - Z.re * W.im) / ‖W‖ ^ 2 := by field_simp; ring
      rw [← e]; exact o2'
  · rw [if_neg (by simpa using hc)]
    push Not at hc
    obtain ⟨r', s', r1, s1, hp, g1, g2, g3⟩ := smith_prep hw.2 hw.1 (by rw [add_comm]; exact hwn) hW1 hW2
      hc.le
    obtain ⟨t, t1, t2, t3, -⟩ := smith_product r1 hc.le hp g2 hz.1 him hre hZ
    obtain ⟨t', t1', t2', -, t3'⟩ := smith_product r1 hc.le hp g2 hz.2 hre him hZ
    obtain ⟨n, n1, n2⟩ := add_any t1 hz.2 (by rwa [add_comm])
    obtain ⟨n', n1', n2'⟩ := sub_any t1' hz.1 (by
      rw [show t' - Z.re = -Z.re + t' by ring]; exact t3')
    obtain ⟨o, o1, o2⟩ := smith_rest (a := z.re * (w.re / w.im) + z.im) (x := Z.im) (y := Z.re)
      s1 (by rw [add_comm]; exact hwn) hW1 hW2 hc.le hp g1 g2 g3 (by rw [add_comm]; exact hzn.le)
      hL0 hZ t2 n1 (by rw [add_comm Z.im t]; exact n2)
    obtain ⟨o', o1', o2'⟩ := smith_rest (a := z.im * (w.re / w.im) - z.re) (x := -Z.re)
      (y := Z.im) s1 (by rw [add_comm]; exact hwn) hW1 hW2 hc.le hp g1 g2 g3 (by rw [neg_sq]; exact hzn.le)
      hL0 hZ t2' n1' (by rw [show -Z.re + t' = t' - Z.re by ring]; exact n2')
    refine ⟨⟨o, o'⟩, ⟨o1, o1'⟩, fin ?_ ?_⟩
    · rw [er]
      have e : (Z.im + Z.re * (W.re / W.im)) / (‖W‖ ^ 2 / W.im) =
        (Z.re * W.re + Z.im * W.im) / ‖W‖ ^ 2 := by field_simp; ring
      rw [← e]; exact o2
    · rw [ei]
      have e : (-Z.re + Z.im * (W.re / W.im)) / (‖W‖ ^ 2 / W.im) =
        (Z.im * W.re - Z.re * W.im) / ‖W‖ ^ 2 := by field_simp; ring
      rw [← e]; exact o2'

end
end Disp
