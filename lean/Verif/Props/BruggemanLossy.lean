import Verif.Props.BruggemanNothing
import Verif.Lemmas.ComplexRoot
/-!
# Bruggeman media of lossy constituents, in double precision

C142 is refuted because rounding errors can turn the sign by which the solutions are chosen. Here the
medium is proved accurate for constituents with any complex permittivities, provided that the
imaginary parts of the two solutions are larger than the rounding errors.
-/

namespace Disp

noncomputable section

open Dbl Spec

/-- The complex double is `Z`, up to `c` units of 2⁻⁵³ of `M`. -/
def NormNear (M c : ℝ) (Z : ℂ) (z : Cx Dbl) : Prop :=
  ∃ P, StandsForCx z P ∧ ‖P - Z‖ ≤ c * (1 / 2 ^ 53 * M)

namespace NormNear

variable {M N c d K L : ℝ} {Z W : ℂ} {z w : Cx Dbl}

theorem mono {c' : ℝ} (h : NormNear M c Z z) (hM : 0 ≤ M) (hc : c ≤ c') : NormNear M c' Z z := by
  obtain ⟨P, h1, h2⟩ := h
  exact ⟨P, h1, h2.trans (mul_le_mul_of_nonneg_right hc (by positivity))⟩

theorem sum_bounds {S V U : ℂ} (M0 : 0 < M) (c0 : 0 ≤ c) (c1 : c ≤ 200) (h : ‖V - U‖ ≤ c * (1 / 2 ^ 53 * M))
    (hK : ‖U‖ ≤ K * M) (hS : ‖S - V‖ ≤ 1 / 2 ^ 53 * ‖V‖) :
    ‖S - U‖ ≤ (c + K + 1 / 1000) * (1 / 2 ^ 53 * M) := by
  have h1 := norm_tri V U
  have h2 : ‖S - U‖ ≤ ‖S - V‖ + ‖V - U‖ := by
    have := norm_add_le (S - V) (V - U)
    rwa [sub_add_sub_cancel] at this
  have h3 : c * (1 / 2 ^ 53 * M) ≤ 1 / 1000 * M := by
    rw [← mul_assoc]
    refine mul_le_mul_of_nonneg_right ?_ M0.le
    calc c * (1 / 2 ^ 53) ≤ 200 * (1 / 2 ^ 53) := by gcongr
      _ ≤ 1 / 1000 := by norm_num
  have h4 : 1 / 2 ^ 53 * ‖V‖ ≤ 1 / 2 ^ 53 * ((K + 1 / 1000) * M) :=
    mul_le_mul_of_nonneg_left (by linarith) (by positivity)
  have h5 : (c + K + 1 / 1000) * (1 / 2 ^ 53 * M) =
    c * (1 / 2 ^ 53 * M) + 1 / 2 ^ 53 * ((K + 1 / 1000) * M) := by ring
  linarith

theorem sum_size {V U : ℂ} (M0 : 0 < M) (M1 : M ≤ 10 ^ 45) (c0 : 0 ≤ c) (c1 : c ≤ 200)
    (h : ‖V - U‖ ≤ c * (1 / 2 ^ 53 * M)) (hK : ‖U‖ ≤ K * M) (K1 : K ≤ 10) : ‖V‖ ≤ 10 ^ 100 := by
  have h1 := norm_tri V U
  have h3 : c * (1 / 2 ^ 53 * M) ≤ 1 * M := by
    rw [← mul_assoc]
    refine mul_le_mul_of_nonneg_right ?_ M0.le
    calc c * (1 / 2 ^ 53) ≤ 200 * (1 / 2 ^ 53) := by gcongr
      _ ≤ 1 := by norm_num
  have h4 : K * M ≤ 10 * M := mul_le_mul_of_nonneg_right K1 M0.le
  have : (11 : ℝ) * 10 ^ 45 ≤ 10 ^ 100 := by norm_num
  linarith

theorem add (hz : NormNear M c Z z) (hw : NormNear M d W w) (M0 : 0 < M) (M1 : M ≤ 10 ^ 45)
    (c0 : 0 ≤ c + d) (c1 : c + d ≤ 200) (hK : ‖Z + W‖ ≤ K * M) (K1 : K ≤ 10) :
    NormNear M (c + d + K + 1 / 1000) (Z + W) (z + w) := by
  obtain ⟨P, p1, p2⟩ := hz
  obtain ⟨Q, q1, q2⟩ := hw
  have h : ‖(P + Q) - (Z + W)‖ ≤ (c + d) * (1 / 2 ^ 53 * M) := by
    have := norm_add_le (P - Z) (Q - W)
    rw [show P - Z + (Q - W) = (P + Q) - (Z + W) by ring] at this
    rw [add_mul]
    linarith
  obtain ⟨S, s1, s2⟩ := cadd_any p1 q1 (sum_size M0 M1 c0 c1 h hK K1)
  exact ⟨S, s1, sum_bounds M0 c0 c1 h hK s2⟩

theorem sub (hz : NormNear M c Z z) (hw : NormNear M d W w) (M0 : 0 < M) (M1 : M ≤ 10 ^ 45)
    (c0 : 0 ≤ c + d) (c1 : c + d ≤ 200) (hK : ‖Z - W‖ ≤ K * M) (K1 : K ≤ 10) :
    NormNear M (c + d + K + 1 / 1000) (Z - W) (z - w) := by
  obtain ⟨P, p1, p2⟩ := hz
  obtain ⟨Q, q1, q2⟩ := hw
  have h : ‖(P - Q) - (Z - W)‖ ≤ (c + d) * (1 / 2 ^ 53 * M) := by
    have := norm_sub_le (P - Z) (Q - W)
    rw [show P - Z - (Q - W) = (P - Q) - (Z - W) by ring] at this
    rw [add_mul]
    linarith
  obtain ⟨S, s1, s2⟩ := csub_any p1 q1 (sum_size M0 M1 c0 c1 h hK K1)
  exact ⟨S, s1, sum_bounds M0 c0 c1 h hK s2⟩

theorem mul (hz : NormNear M c Z z) (hw : NormNear N d W w) (M0 : 0 < M) (N0 : 0 < N)
    (hMN : ((10 : ℝ) ^ 90)⁻¹ ≤ M * N) (hMN' : M * N ≤ 10 ^ 90) (c0 : 0 ≤ c) (c1 : c ≤ 100)
    (d0 : 0 ≤ d) (d1 : d ≤ 100) (hK : ‖Z‖ ≤ K * M) (K0 : 0 ≤ K) (K1 : K ≤ 10) (hL : ‖W‖ ≤ L * N)
    (L0 : 0 ≤ L) (L1 : L ≤ 10) :
    NormNear (M * N) (K * d + L * c + 4 * (K * L) + 1 / 1000) (Z * W) (z * w) := by
  obtain ⟨P, p1, p2⟩ := hz
  obtain ⟨Q, q1, q2⟩ := hw
  obtain ⟨u, hu⟩ : ∃ u : ℝ, u = 1 / 2 ^ 53 := ⟨_, rfl⟩
  have u0 : 0 < u := by rw [hu]; positivity
  have u1 : u ≤ 1 / 10 ^ 15 := by rw [hu]; norm_num
  rw [← hu] at p2 q2
  have T0 : 0 < M * N := by positivity
  have hP : ‖P‖ ≤ (K + c * u) * M := by
    have := norm_tri P Z
    calc ‖P‖ ≤ c * (u * M) + K * M := by linarith
      _ = (K + c * u) * M := by ring
  have hQ : ‖Q‖ ≤ (L + d * u) * N := by
    have := norm_tri Q W
    calc ‖Q‖ ≤ d * (u * N) + L * N := by linarith
      _ = (L + d * u) * N := by ring
  have cu : c * u ≤ 1 / 10 ^ 12 := by
    calc c * u ≤ 100 * (1 / 10 ^ 15) := mul_le_mul c1 u1 u0.le (by norm_num)
      _ ≤ 1 / 10 ^ 12 := by norm_num
  have du : d * u ≤ 1 / 10 ^ 12 := by
    calc d * u ≤ 100 * (1 / 10 ^ 15) := mul_le_mul d1 u1 u0.le (by norm_num)
      _ ≤ 1 / 10 ^ 12 := by norm_num
  have cu0 : 0 ≤ c * u := by positivity
  have du0 : 0 ≤ d * u := by positivity
  have hPQ : ‖P‖ * ‖Q‖ ≤ (K * L + 1 / 10 ^ 10) * (M * N) := by
    calc ‖P‖ * ‖Q‖ ≤ ((K + c * u) * M) * ((L + d * u) * N) :=
          mul_le_mul hP hQ (norm_nonneg _) (by positivity)
      _ = (K * L + (K * (d * u) + (c * u) * L + (c * u) * (d * u))) * (M * N) := by ring
      _ ≤ (K * L + 1 / 10 ^ 10) * (M * N) := by
          refine mul_le_mul_of_nonneg_right ?_ T0.le
          have a1 : K * (d * u) ≤ 10 * (1 / 10 ^ 12) := mul_le_mul K1 du du0 (by norm_num)
          have a2 : (c * u) * L ≤ (1 / 10 ^ 12) * 10 := mul_le_mul cu L1 L0 (by norm_num)
          have a3 : (c * u) * (d * u) ≤ (1 / 10 ^ 12) * (1 / 10 ^ 12) :=
            mul_le_mul cu du du0 (by norm_num)
          have : (10 : ℝ) * (1 / 10 ^ 12) + (1 / 10 ^ 12) * 10 + (1 / 10 ^ 12) * (1 / 10 ^ 12) ≤
            1 / 10 ^ 10 := by norm_num
          linarith
  obtain ⟨S, s1, s2⟩ := cmul_any p1 q1 (by
    have a : (K * L + 1 / 10 ^ 10) ≤ 101 := by
      have : K * L ≤ 10 * 10 := mul_le_mul K1 L1 L0 (by norm_num)
      have : (1 : ℝ) / 10 ^ 10 ≤ 1 := by norm_num
      linarith
    calc ‖P‖ * ‖Q‖ ≤ (K * L + 1 / 10 ^ 10) * (M * N) := hPQ
      _ ≤ 101 * 10 ^ 90 := mul_le_mul a hMN' T0.le (by norm_num)
      _ ≤ 10 ^ 99 := by norm_num)
  refine ⟨S, s1, ?_⟩
  have e1 : ‖P * Q - Z * W‖ ≤ (K * d + L * c + 1 / 10 ^ 9) * (u * (M * N)) := by
    have : P * Q - Z * W = P * (Q - W) + (P - Z) * W := by ring
    rw [this]
    refine (norm_add_le _ _).trans ?_
    rw [norm_mul, norm_mul]
    have b1 : ‖P‖ * ‖Q - W‖ ≤ ((K + c * u) * M) * (d * (u * N)) :=
      mul_le_mul hP q2 (norm_nonneg _) (by positivity)
    have b2 : ‖P - Z‖ * ‖W‖ ≤ (c * (u * M)) * (L * N) :=
      mul_le_mul p2 hL (norm_nonneg _) (by positivity)
    have b3 : ((K + c * u) * M) * (d * (u * N)) + (c * (u * M)) * (L * N) =
      (K * d + L * c + c * u * d) * (u * (M * N)) := by ring
    have b4 : c * u * d ≤ 1 / 10 ^ 9 := by
      calc c * u * d ≤ (1 / 10 ^ 12) * 100 := mul_le_mul cu d1 d0 (by norm_num)
        _ ≤ 1 / 10 ^ 9 := by norm_num
    calc ‖P‖ * ‖Q - W‖ + ‖P - Z‖ * ‖W‖ ≤ (K * d + L * c + c * u * d) * (u * (M * N)) := by
          rw [← b3]; linarith
      _ ≤ _ := mul_le_mul_of_nonneg_right (by linarith) (by positivity)
  have e2 : 4 / 2 ^ 53 * (‖P‖ * ‖Q‖) ≤ (4 * (K * L) + 4 / 10 ^ 10) * (u * (M * N)) := by
    calc 4 / 2 ^ 53 * (‖P‖ * ‖Q‖) ≤ 4 / 2 ^ 53 * ((K * L + 1 / 10 ^ 10) * (M * N)) :=
          mul_le_mul_of_nonneg_left hPQ (by positivity)
      _ = (4 * (K * L) + 4 / 10 ^ 10) * (u * (M * N)) := by rw [hu]; ring
  have e3 : ((10 : ℝ) ^ 190)⁻¹ ≤ 1 / 10 ^ 9 * (u * (M * N)) := by
    have : 1 / 10 ^ 9 * (u * ((10 : ℝ) ^ 90)⁻¹) ≤ 1 / 10 ^ 9 * (u * (M * N)) := by gcongr
    refine le_trans ?_ this
    rw [hu]
    norm_num
  have e4 : ‖S - Z * W‖ ≤ ‖S - P * Q‖ + ‖P * Q - Z * W‖ := by
    have := norm_add_le (S - P * Q) (P * Q - Z * W)
    rwa [sub_add_sub_cancel] at this
  rw [← hu]
  have e5 : (K * d + L * c + 1 / 10 ^ 9) * (u * (M * N)) + (4 * (K * L) + 4 / 10 ^ 10) * (u * (M * N)) +
      1 / 10 ^ 9 * (u * (M * N)) =
      (K * d + L * c + 4 * (K * L) + (1 / 10 ^ 9 + 4 / 10 ^ 10 + 1 / 10 ^ 9)) * (u * (M * N)) := by ring
  have e6 : (K * d + L * c + 4 * (K * L) + (1 / 10 ^ 9 + 4 / 10 ^ 10 + 1 / 10 ^ 9)) * (u * (M * N)) ≤
      (K * d + L * c + 4 * (K * L) + 1 / 1000) * (u * (M * N)) :=
    mul_le_mul_of_nonneg_right (by
      have : (1 : ℝ) / 10 ^ 9 + 4 / 10 ^ 10 + 1 / 10 ^ 9 ≤ 1 / 1000 := by norm_num
      linarith) (by positivity)
  linarith

/-- A product with a real coefficient. -/
theorem scale {a : Dbl} {γ : ℝ} (ha : NormNear 1 c γ (Cx.ofReal a)) (hz : NormNear M d Z z)
    (M0 : ((10 : ℝ) ^ 90)⁻¹ ≤ M) (M1 : M ≤ 10 ^ 90) (c0 : 0 ≤ c) (c1 : c ≤ 100) (d0 : 0 ≤ d)
    (d1 : d ≤ 100) (hγ : |γ| ≤ K) (K1 : K ≤ 10) (hL : ‖Z‖ ≤ L * M) (L0 : 0 ≤ L) (L1 : L ≤ 10) :
    NormNear M (K * d + L * c + 4 * (K * L) + 1 / 1000) (γ * Z) (rmul a z) := by
  have Mp : 0 < M := lt_of_lt_of_le (by positivity) M0
  have := NormNear.mul ha hz one_pos Mp (by rwa [one_mul]) (by rwa [one_mul]) c0 c1 d0 d1
    (by simpa using hγ) ((abs_nonneg _).trans hγ) K1 hL L0 L1
  rwa [one_mul] at this

theorem real {a : Dbl} {γ v : ℝ} (ha : a.val = .fin v) (h : |v - γ| ≤ c * (1 / 2 ^ 53)) :
    NormNear 1 c γ (Cx.ofReal a) := by
  refine ⟨(v : ℂ), ⟨by simpa [Cx.ofReal] using ha, by simp [Cx.ofReal, lit_zero_val]⟩, ?_⟩
  rw [← Complex.ofReal_sub, Complex.norm_real, mul_one]
  exact h

theorem exact (hz : StandsForCx z Z) : NormNear M 0 Z z := ⟨Z, hz, by simp⟩

theorem neg (hz : NormNear M c Z z) : NormNear M c (-Z) (Cx.neg z) := by
  obtain ⟨P, p1, p2⟩ := hz
  have := At.neg ⟨p1.1, p1.2⟩
  refine ⟨-P, ⟨by simpa using this.re, by simpa using this.im⟩, ?_⟩
  rwa [show -P - -Z = -(P - Z) by ring, norm_neg]

end NormNear

/-! ## The two solutions -/

/-- The coefficient of Bruggeman's quadratic equation. -/
def brugCoeffC (φ : ℝ) (x y : ℂ) : ℂ := (φ * (x - 2 * y) + (1 - φ) * (y - 2 * x)) / 2

/-- Two solutions determine the coefficients. -/
theorem bruggeman_pair {φ : ℝ} {x y e e' : ℂ} (h : BruggemanC φ x y e) (h' : BruggemanC φ x y e')
    (hne : e ≠ e') : brugCoeffC φ x y = -(e + e') ∧ -(x * y) / 2 = e * e' := by
  unfold BruggemanC at h h'
  unfold brugCoeffC
  have hs : e - e' ≠ 0 := sub_ne_zero.2 hne
  have h1 : (e - e') * ((φ * (x - 2 * y) + (1 - φ) * (y - 2 * x)) / 2 + (e + e')) = 0 := by
    linear_combination (-1 / 2) * h + (1 / 2) * h'
  have h2 := (mul_eq_zero.1 h1).resolve_left hs
  have h3 : (φ * (x - 2 * y) + (1 - φ) * (y - 2 * x)) / 2 = -(e + e') := by linear_combination h2
  exact ⟨h3, by linear_combination (-1 / 2) * h - e * h3⟩

section

variable {f : Dbl} {φ : ℝ} {z w : Cx Dbl} {x y : ℂ} {M : ℝ}

theorem brugP_any (hf : f.val = .fin φ) (f0 : 0 ≤ φ) (f1 : φ ≤ 1) (hz : StandsForCx z x)
    (hw : StandsForCx w y) (hx : ‖x‖ ≤ M) (hy : ‖y‖ ≤ M) (M0 : ((10 : ℝ) ^ 20)⁻¹ ≤ M)
    (M1 : M ≤ 10 ^ 20) :
    NormNear M 21 (brugCoeffC φ x y) (brugP f z w) ∧ ‖brugCoeffC φ x y‖ ≤ 3 / 2 * M := by
  have Mp : 0 < M := lt_of_lt_of_le (by positivity) M0
  have Ma : ((10 : ℝ) ^ 90)⁻¹ ≤ M := le_trans (by norm_num) M0
  have Mb : M ≤ 10 ^ 90 := M1.trans (by norm_num)
  have Mc : M ≤ 10 ^ 45 := M1.trans (by norm_num)
  have two : NormNear 1 0 ((2 : ℝ) : ℂ) (Cx.ofReal (lit 2 : Dbl)) :=
    NormNear.real (by exact_mod_cast Dbl.lit_int (n := 2) (by norm_num)) (by simp)
  have half : NormNear 1 0 (((1 : ℝ) / 2 : ℝ) : ℂ) (Cx.ofReal (lit 0.5 : Dbl)) :=
    NormNear.real half_val (by simp)
  have hfr : NormNear 1 0 (φ : ℂ) (Cx.ofReal f) := NormNear.real hf (by simp)
  obtain ⟨v, v1, v2⟩ := coeff_sub hf f0 f1
  have hgr : NormNear 1 (1 - φ) ((1 - φ : ℝ) : ℂ) (Cx.ofReal (lit 1 - f)) := NormNear.real v1 v2
  have n2 : ∀ {a b : ℂ}, ‖a‖ ≤ M → ‖b‖ ≤ M → ‖a - ((2 : ℝ) : ℂ) * b‖ ≤ 3 * M := by
    intro a b ha hb
    have := norm_sub_le a (((2 : ℝ) : ℂ) * b)
    rw [norm_mul, Complex.norm_real, Real.norm_eq_abs, abs_of_pos (by norm_num : (0 : ℝ) < 2)] at this
    linarith
  have diff : ∀ {a b : Cx Dbl} {A B : ℂ}, StandsForCx a A → StandsForCx b B → ‖A‖ ≤ M → ‖B‖ ≤ M →
      NormNear M (111 / 10) (A - ((2 : ℝ) : ℂ) * B) (a - rmul (lit 2) b) := by
    intro a b A B ha hb hA hB
    have h1 := NormNear.scale (K := 2) (L := 1) two (NormNear.exact (M := M) hb) Ma Mb le_rfl
      (by norm_num) le_rfl (by norm_num) (by norm_num) (by norm_num) (by linarith) (by norm_num)
      (by norm_num)
    have h2 := NormNear.sub (K := 3) (NormNear.exact (M := M) ha) h1 Mp Mc (by norm_num) (by norm_num)
      (n2 hA hB) (by norm_num)
    exact h2.mono Mp.le (by norm_num)
  have g0 : 0 ≤ 1 - φ := by linarith
  have t1 := NormNear.scale (K := φ) (L := 3) hfr (diff hz hw hx hy) Ma Mb le_rfl (by norm_num)
    (by norm_num) (by norm_num) (by rw [abs_of_nonneg f0]) (by linarith) (n2 hx hy) (by norm_num)
    (by norm_num)
  have t2 := NormNear.scale (K := 1 - φ) (L := 3) hgr (diff hw hz hy hx) Ma Mb g0 (by linarith)
    (by norm_num) (by norm_num) (by rw [abs_of_nonneg g0]) (by linarith) (n2 hy hx) (by norm_num)
    (by norm_num)
  have n3 : ‖(φ : ℂ) * (x - ((2 : ℝ) : ℂ) * y) + ((1 - φ : ℝ) : ℂ) * (y - ((2 : ℝ) : ℂ) * x)‖ ≤ 3 * M := by
    refine (norm_add_le _ _).trans ?_
    rw [norm_mul, norm_mul, Complex.norm_real, Complex.norm_real, Real.norm_eq_abs, Real.norm_eq_abs,
      abs_of_nonneg f0, abs_of_nonneg g0]
    have a1 := mul_le_mul_of_nonneg_left (n2 hx hy) f0
    have a2 := mul_le_mul_of_nonneg_left (n2 hy hx) g0
    have a3 : φ * (3 * M) + (1 - φ) * (3 * M) = 3 * M := by ring
    linarith
  have t3 := NormNear.add (K := 3) t1 t2 Mp Mc (by nlinarith) (by nlinarith) n3 (by norm_num)
  have t3' := t3.mono (c' := 293 / 10) Mp.le (by nlinarith)
  have t4 := NormNear.scale (K := 1 / 2) (L := 3) half t3' Ma Mb le_rfl (by norm_num) (by norm_num)
    (by norm_num) (by rw [abs_of_pos (by norm_num)]) (by norm_num) n3 (by norm_num) (by norm_num)
  have e : (((1 : ℝ) / 2 : ℝ) : ℂ) * ((φ : ℂ) * (x - ((2 : ℝ) : ℂ) * y) +
      ((1 - φ : ℝ) : ℂ) * (y - ((2 : ℝ) : ℂ) * x)) = brugCoeffC φ x y := by
    unfold brugCoeffC
    push_cast
    ring
  rw [e] at t4
  refine ⟨t4.mono Mp.le (by norm_num), ?_⟩
  rw [← e, norm_mul, Complex.norm_real, Real.norm_eq_abs, abs_of_pos (by norm_num)]
  linarith

/-- The signs of a square root. -/
theorem root_sign (R S : ℂ) : ∃ σ : ℝ, (σ = 1 ∨ σ = -1) ∧ ‖R - σ * S‖ * ‖S‖ ≤ ‖R ^ 2 - S ^ 2‖ := by
  have key : ‖S‖ ≤ ‖R + S‖ ∨ ‖S‖ ≤ ‖R - S‖ := by
    by_contra hc
    rw [not_or, not_le, not_le] at hc
    have h1 := norm_sub_le (R + S) (R - S)
    rw [show R + S - (R - S) = 2 * S by ring, norm_mul] at h1
    have n2 : ‖(2 : ℂ)‖ = 2 := by norm_num
    rw [n2] at h1
    linarith
  rcases key with k | k
  · refine ⟨1, .inl rfl, ?_⟩
    rw [show R ^ 2 - S ^ 2 = (R - S) * (R + S) by ring, norm_mul]
    simpa using mul_le_mul_of_nonneg_left k (norm_nonneg (R - S))
  · refine ⟨-1, .inr rfl, ?_⟩
    rw [show R ^ 2 - S ^ 2 = (R + S) * (R - S) by ring, norm_mul]
    simpa using mul_le_mul_of_nonneg_left k (norm_nonneg (R + S))

/-- What the two computed solutions are near to. -/
theorem brug_pair_any (hf : f.val = .fin φ) (f0 : 0 ≤ φ) (f1 : φ ≤ 1) (hz : StandsForCx z x)
    (hw : StandsForCx w y) (hx : ‖x‖ ≤ M) (hy : ‖y‖ ≤ M) (M0 : ((10 : ℝ) ^ 20)⁻¹ ≤ M)
    (M1 : M ≤ 10 ^ 20) {e e' : ℂ} (he : BruggemanC φ x y e) (he' : BruggemanC φ x y e')
    (hsep : 320 * (1 / 2 ^ 53) * M ^ 2 ≤ ‖e - e'‖ ^ 2) :
    ∃ S1 S2, StandsForCx (brug1 f z w) S1 ∧ StandsForCx (brug2 f z w) S2 ∧
      ‖e‖ ≤ 18 / 10 * M ∧ ‖e - e'‖ ≤ 208 / 100 * M ∧
      (‖S1 - e‖ * ‖e - e'‖ ≤ 120 * (1 / 2 ^ 53) * M ^ 2 ∧
          ‖S2 - e'‖ * ‖e - e'‖ ≤ 120 * (1 / 2 ^ 53) * M ^ 2 ∨
        ‖S1 - e'‖ * ‖e - e'‖ ≤ 120 * (1 / 2 ^ 53) * M ^ 2 ∧
          ‖S2 - e‖ * ‖e - e'‖ ≤ 120 * (1 / 2 ^ 53) * M ^ 2) := by
  have Mp : 0 < M := lt_of_lt_of_le (by positivity) M0
  have Ma : ((10 : ℝ) ^ 90)⁻¹ ≤ M := le_trans (by norm_num) M0
  have Mb : M ≤ 10 ^ 90 := M1.trans (by norm_num)
  have Mc : M ≤ 10 ^ 45 := M1.trans (by norm_num)
  have MMl : ((10 : ℝ) ^ 40)⁻¹ ≤ M * M := by
    calc ((10 : ℝ) ^ 40)⁻¹ = ((10 : ℝ) ^ 20)⁻¹ * ((10 : ℝ) ^ 20)⁻¹ := by norm_num
      _ ≤ M * M := mul_le_mul M0 M0 (by positivity) Mp.le
  have MMu : M * M ≤ 10 ^ 40 := by
    calc M * M ≤ 10 ^ 20 * 10 ^ 20 := mul_le_mul M1 M1 Mp.le (by positivity)
      _ = 10 ^ 40 := by norm_num
  have MMp : 0 < M * M := by positivity
  obtain ⟨u, hu⟩ : ∃ u : ℝ, u = 1 / 2 ^ 53 := ⟨_, rfl⟩
  have u0 : 0 < u := by rw [hu]; positivity
  have u1 : u ≤ 1 / 10 ^ 15 := by rw [hu]; norm_num
  have hne : e ≠ e' := by
    rintro rfl
    rw [sub_self, norm_zero] at hsep
    have : 0 < 320 * (1 / 2 ^ 53) * M ^ 2 := by positivity
    norm_num at hsep
    linarith
  obtain ⟨hp, hq⟩ := bruggeman_pair he he' hne
  obtain ⟨p1, p2⟩ := brugP_any hf f0 f1 hz hw hx hy M0 M1
  have half : NormNear 1 0 (((1 : ℝ) / 2 : ℝ) : ℂ) (Cx.ofReal (lit 0.5 : Dbl)) :=
    NormNear.real half_val (by simp)
  have mhalf : NormNear 1 0 ((-1 / 2 : ℝ) : ℂ) (Cx.ofReal (lit (-0.5) : Dbl)) :=
    NormNear.real minus_half_lit (by simp)
  set P := brugCoeffC φ x y with hP
  -- the coefficients
  have h1 := NormNear.scale (K := 1 / 2) (L := 3 / 2) half p1 Ma Mb le_rfl (by norm_num) (by norm_num)
    (by norm_num) (by rw [abs_of_pos (by norm_num)]) (by norm_num) p2 (by norm_num) (by norm_num)
  have h1' := h1.mono (c' := 1351 / 100) Mp.le (by norm_num)
  have nH : ‖(((1 : ℝ) / 2 : ℝ) : ℂ) * P‖ ≤ 3 / 4 * M := by
    rw [norm_mul, Complex.norm_real, Real.norm_eq_abs, abs_of_pos (by norm_num)]
    linarith
  have h2 := NormNear.mul (K := 3 / 4) (L := 3 / 4) h1' h1' Mp Mp (le_trans (by norm_num) MMl)
    (MMu.trans (by norm_num)) (by norm_num) (by norm_num) (by norm_num) (by norm_num) nH (by norm_num)
    (by norm_num) nH (by norm_num) (by norm_num)
  have h3 := NormNear.scale (K := 1 / 2) (L := 1) mhalf (NormNear.exact (M := M) hw) Ma Mb le_rfl
    (by norm_num) le_rfl (by norm_num) (by rw [abs_of_neg (by norm_num)]; norm_num) (by norm_num)
    (by linarith) (by norm_num) (by norm_num)
  have nA : ‖((-1 / 2 : ℝ) : ℂ) * y‖ ≤ 1 / 2 * M := by
    rw [norm_mul, Complex.norm_real, Real.norm_eq_abs, abs_of_neg (by norm_num)]
    linarith
  have h4 := NormNear.mul (K := 1 / 2) (L := 1) h3 (NormNear.exact (M := M) hz) Mp Mp
    (le_trans (by norm_num) MMl) (MMu.trans (by norm_num)) (by norm_num) (by norm_num) le_rfl
    (by norm_num) nA (by norm_num) (by norm_num) (by linarith) (by norm_num) (by norm_num)
  have nD : ‖(((1 : ℝ) / 2 : ℝ) : ℂ) * P * ((((1 : ℝ) / 2 : ℝ) : ℂ) * P) -
      ((-1 / 2 : ℝ) : ℂ) * y * x‖ ≤ 107 / 100 * (M * M) := by
    refine (norm_sub_le _ _).trans ?_
    rw [norm_mul, norm_mul (((-1 / 2 : ℝ) : ℂ) * y)]
    have a1 := mul_le_mul nH nH (norm_nonneg _) (by positivity)
    have a2 := mul_le_mul nA hx (norm_nonneg _) (by positivity)
    have a3 : 3 / 4 * M * (3 / 4 * M) = 9 / 16 * (M * M) := by ring
    have a4 : 1 / 2 * M * M = 1 / 2 * (M * M) := by ring
    rw [a3] at a1
    rw [a4] at a2
    linarith
  have h5 := NormNear.sub (K := 107 / 100) h2 h4 MMp (MMu.trans (by norm_num)) (by norm_num) (by norm_num)
    nD (by norm_num)
  obtain ⟨S, hS⟩ : ∃ S, S = (e - e') / 2 := ⟨_, rfl⟩
  have eD : (((1 : ℝ) / 2 : ℝ) : ℂ) * P * ((((1 : ℝ) / 2 : ℝ) : ℂ) * P) -
      ((-1 / 2 : ℝ) : ℂ) * y * x = S ^ 2 := by
    rw [hS, hp]
    push_cast
    linear_combination (-1 : ℂ) * hq
  rw [eD] at h5 nD
  obtain ⟨D, d1, d2⟩ := h5
  have d3 : ‖D - S ^ 2‖ ≤ 277 / 10 * (u * (M * M)) := by
    refine d2.trans ?_
    rw [hu]
    exact mul_le_mul_of_nonneg_right (by norm_num) (by positivity)
  have nS : ‖S ^ 2‖ = ‖e - e'‖ ^ 2 / 4 := by
    rw [hS, norm_pow, norm_div, div_pow]
    norm_num
  have nS0 : 80 * (u * (M * M)) ≤ ‖S ^ 2‖ := by
    rw [nS, hu]
    linarith
  have uM0 : 0 < u * (M * M) := by positivity
  have uM1 : u * (M * M) ≤ 1 / 10 ^ 15 * (M * M) := mul_le_mul_of_nonneg_right u1 MMp.le
  have dl : 52 * (u * (M * M)) ≤ ‖D‖ := by
    have := norm_tri (S ^ 2) D
    rw [norm_sub_rev] at this
    linarith
  have du : ‖D‖ ≤ 108 / 100 * (M * M) := by
    have := norm_tri D (S ^ 2)
    linarith
  obtain ⟨R, r1, r2⟩ := csqrt_any d1 (by
    refine le_trans ?_ dl
    have : 52 * (u * ((10 : ℝ) ^ 40)⁻¹) ≤ 52 * (u * (M * M)) := by gcongr
    refine le_trans ?_ this
    rw [hu]; norm_num) (by
    refine du.trans ?_
    have : (108 : ℝ) / 100 * 10 ^ 40 ≤ 10 ^ 60 := by norm_num
    linarith)
  rw [← hu] at r2
  have r3 : ‖R ^ 2 - S ^ 2‖ ≤ 4175 / 100 * (u * (M * M)) := by
    have := norm_add_le (R ^ 2 - D) (D - S ^ 2)
    rw [sub_add_sub_cancel] at this
    have k : 13 * u * ‖D‖ ≤ 13 * u * (108 / 100 * (M * M)) :=
      mul_le_mul_of_nonneg_left du (by positivity)
    have k2 : 13 * u * (108 / 100 * (M * M)) = 1404 / 100 * (u * (M * M)) := by ring
    linarith
  obtain ⟨σ, hσ, r4⟩ := root_sign R S
  have r5 := r4.trans r3
  have nS1 : ‖S‖ ≤ 104 / 100 * M := by
    refine le_of_sq_le_sq ?_ (by positivity)
    rw [← norm_pow]
    refine nD.trans ?_
    have : (104 / 100 * M) ^ 2 = 10816 / 10000 * (M * M) := by ring
    rw [this]
    exact mul_le_mul_of_nonneg_right (by norm_num) MMp.le
  have nR : ‖R‖ ≤ 106 / 100 * M := by
    refine le_of_sq_le_sq ?_ (by positivity)
    rw [← norm_pow]
    have k := norm_tri (R ^ 2) (S ^ 2)
    have : (106 / 100 * M) ^ 2 = 11236 / 10000 * (M * M) := by ring
    rw [this]
    linarith
  have hL : ‖e - e'‖ = 2 * ‖S‖ := by
    rw [hS, norm_div]
    norm_num
    ring
  -- the half sum
  have g1 := NormNear.mul (K := 3 / 2) (L := 1 / 2) (NormNear.neg p1) half Mp one_pos
    (by rw [mul_one]; exact Ma) (by rw [mul_one]; exact Mb) (by norm_num) (by norm_num) le_rfl
    (by norm_num) (by rw [norm_neg]; exact p2) (by norm_num) (by norm_num)
    (by rw [Complex.norm_real, Real.norm_eq_abs, abs_of_pos (by norm_num)]; norm_num) (by norm_num)
    (by norm_num)
  rw [mul_one] at g1
  obtain ⟨V, hV⟩ : ∃ V, V = (e + e') / 2 := ⟨_, rfl⟩
  have eV : -P * (((1 : ℝ) / 2 : ℝ) : ℂ) = V := by
    rw [hV, hp]; push_cast; ring
  have nV : ‖V‖ ≤ 3 / 4 * M := by
    rw [← eV, norm_mul, norm_neg, Complex.norm_real, Real.norm_eq_abs, abs_of_pos (by norm_num)]
    linarith
  rw [eV] at g1
  obtain ⟨G, g2, g3⟩ := g1.mono (c' := 1351 / 100) Mp.le (by norm_num)
  rw [← hu] at g3
  have uM : 0 < u * M := by positivity
  have uM' : u * M ≤ 1 / 10 ^ 15 * M := mul_le_mul_of_nonneg_right u1 Mp.le
  have nG : ‖G‖ ≤ 76 / 100 * M := by
    have := norm_tri G V
    linarith
  have near : ∀ {T A B : ℂ}, ‖A‖ ≤ 182 / 100 * M → ‖T - A‖ ≤ 1 / 2 ^ 53 * ‖A‖ →
      ‖A - B‖ ≤ ‖G - V‖ + ‖R - σ * S‖ → ‖T - B‖ * ‖e - e'‖ ≤ 120 * (1 / 2 ^ 53) * M ^ 2 := by
    intro T A B hA hT hAB
    rw [← hu] at hT ⊢
    have k1 := norm_add_le (T - A) (A - B)
    rw [sub_add_sub_cancel] at k1
    have k2 : u * ‖A‖ ≤ u * (182 / 100 * M) := mul_le_mul_of_nonneg_left hA u0.le
    have k3 : ‖T - B‖ ≤ 1533 / 100 * (u * M) + ‖R - σ * S‖ := by linarith
    rw [hL]
    have s0 := norm_nonneg S
    calc ‖T - B‖ * (2 * ‖S‖) ≤ (1533 / 100 * (u * M) + ‖R - σ * S‖) * (2 * ‖S‖) :=
          mul_le_mul_of_nonneg_right k3 (by positivity)
      _ = 3066 / 100 * (u * M) * ‖S‖ + 2 * (‖R - σ * S‖ * ‖S‖) := by ring
      _ ≤ 3066 / 100 * (u * M) * (104 / 100 * M) + 2 * (4175 / 100 * (u * (M * M))) := by
          refine add_le_add (mul_le_mul_of_nonneg_left nS1 (by positivity)) ?_
          linarith
      _ = (3066 / 100 * (104 / 100) + 2 * (4175 / 100)) * (u * M ^ 2) := by ring
      _ ≤ 120 * (u * M ^ 2) := mul_le_mul_of_nonneg_right (by norm_num) (by positivity)
      _ = 120 * u * M ^ 2 := by ring
  have big : 182 / 100 * M ≤ 10 ^ 100 := by
    have : (182 : ℝ) / 100 * 10 ^ 20 ≤ 10 ^ 100 := by norm_num
    linarith
  have nA1 : ‖G + R‖ ≤ 182 / 100 * M := (norm_add_le _ _).trans (by linarith)
  have nA2 : ‖G - R‖ ≤ 182 / 100 * M := (norm_sub_le _ _).trans (by linarith)
  obtain ⟨S1, a1, a2⟩ := cadd_any g2 r1 (nA1.trans big)
  obtain ⟨S2, b1, b2⟩ := csub_any g2 r1 (nA2.trans big)
  have c1 := near nA1 a2 (B := V + σ * S) (by
    have := norm_add_le (G - V) (R - σ * S)
    rwa [show G - V + (R - σ * S) = G + R - (V + σ * S) by ring] at this)
  have c2 := near nA2 b2 (B := V - σ * S) (by
    have := norm_sub_le (G - V) (R - σ * S)
    rwa [show G - V - (R - σ * S) = G - R - (V - σ * S) by ring] at this)
  refine ⟨S1, S2, a1, b1, ?_, by rw [hL]; linarith, ?_⟩
  · have : e = V + S := by rw [hV, hS]; ring
    rw [this]
    exact (norm_add_le _ _).trans (by linarith)
  · rcases hσ with rfl | rfl
    · left
      rw [show V + ((1 : ℝ) : ℂ) * S = e by rw [hV, hS]; push_cast; ring] at c1
      rw [show V - ((1 : ℝ) : ℂ) * S = e' by rw [hV, hS]; push_cast; ring] at c2
      exact ⟨c1, c2⟩
    · right
      rw [show V + ((-1 : ℝ) : ℂ) * S = e' by rw [hV, hS]; push_cast; ring] at c1
      rw [show V - ((-1 : ℝ) : ℂ) * S = e by rw [hV, hS]; push_cast; ring] at c2
      exact ⟨c1, c2⟩

/-- The solution that the medium takes. -/
theorem brugMix_any (hf : f.val = .fin φ) (f0 : 0 ≤ φ) (f1 : φ ≤ 1) (hz : StandsForCx z x)
    (hw : StandsForCx w y) (hx : ‖x‖ ≤ M) (hy : ‖y‖ ≤ M) (M0 : ((10 : ℝ) ^ 20)⁻¹ ≤ M)
    (M1 : M ≤ 10 ^ 20) {e e' : ℂ} (he : BruggemanC φ x y e) (he' : BruggemanC φ x y e')
    (i1 : 160 / 2 ^ 53 * M ^ 2 ≤ e.im * ‖e - e'‖) (i2 : 160 / 2 ^ 53 * M ^ 2 ≤ -e'.im * ‖e - e'‖) :
    ∃ Q, StandsForCx (brugMix f z w) Q ∧ ‖Q - e‖ * ‖e - e'‖ ≤ 120 * (1 / 2 ^ 53) * M ^ 2 ∧
      ‖Q‖ ≤ 181 / 100 * M ∧ ‖e - e'‖ ≤ 208 / 100 * M := by
  have Mp : 0 < M := lt_of_lt_of_le (by positivity) M0
  have T0 : 0 < 1 / 2 ^ 53 * M ^ 2 := by positivity
  obtain ⟨L, hL⟩ : ∃ L, L = ‖e - e'‖ := ⟨_, rfl⟩
  rw [← hL] at i1 i2
  have L0 : 0 ≤ L := by rw [hL]; exact norm_nonneg _
  have e160 : 160 / 2 ^ 53 * M ^ 2 = 160 * (1 / 2 ^ 53 * M ^ 2) := by ring
  rw [e160] at i1 i2
  have Lp : 0 < L := by
    rcases L0.lt_or_eq with h | h
    · exact h
    · rw [← h, mul_zero] at i1
      linarith
  have hsep : 320 * (1 / 2 ^ 53) * M ^ 2 ≤ L ^ 2 := by
    have h1 : (e - e').im ≤ L := by rw [hL]; exact (le_abs_self _).trans (Complex.abs_im_le_norm _)
    rw [Complex.sub_im] at h1
    have h2 := mul_le_mul_of_nonneg_right h1 L0
    nlinarith
  obtain ⟨S1, S2, s1, s2, ne, nL, hcase⟩ := brug_pair_any hf f0 f1 hz hw hx hy M0 M1 he he'
    (by rw [← hL]; exact hsep)
  rw [← hL] at nL hcase ⊢
  have zero := lit_zero_val
  have e120 : 120 * (1 / 2 ^ 53) * M ^ 2 = 120 * (1 / 2 ^ 53 * M ^ 2) := by ring
  rw [e120] at hcase ⊢
  have pos : ∀ {T : ℂ}, ‖T - e‖ * L ≤ 120 * (1 / 2 ^ 53 * M ^ 2) → 0 ≤ T.im := by
    intro T hT
    have h1 : e.im - T.im ≤ ‖T - e‖ := by
      have := (neg_le_abs (T - e).im).trans (Complex.abs_im_le_norm _)
      rw [Complex.sub_im] at this
      linarith
    have h2 := mul_le_mul_of_nonneg_right h1 L0
    have h3 : 0 ≤ T.im * L := by
      rw [sub_mul] at h2
      linarith
    exact nonneg_of_mul_nonneg_left h3 Lp
  have neg : ∀ {T : ℂ}, ‖T - e'‖ * L ≤ 120 * (1 / 2 ^ 53 * M ^ 2) → T.im < 0 := by
    intro T hT
    have h1 : T.im - e'.im ≤ ‖T - e'‖ := by
      have := (le_abs_self (T - e').im).trans (Complex.abs_im_le_norm _)
      rwa [Complex.sub_im] at this
    have h2 := mul_le_mul_of_nonneg_right h1 L0
    rw [sub_mul] at h2
    have h3 : T.im * L < 0 := by linarith
    by_contra hc
    have := mul_nonneg (not_lt.1 hc) L0
    linarith
  have size : ∀ {T : ℂ}, ‖T - e‖ * L ≤ 120 * (1 / 2 ^ 53 * M ^ 2) → ‖T‖ ≤ 181 / 100 * M := by
    intro T hT
    have hl : 1 / 10 ^ 7 * M ≤ L := by
      refine le_of_sq_le_sq (le_trans ?_ hsep) L0
      rw [mul_pow]
      exact mul_le_mul_of_nonneg_right (by norm_num) (by positivity)
    have h1 : ‖T - e‖ ≤ 1 / 100 * M := by
      have h2 : ‖T - e‖ * (1 / 10 ^ 7 * M) ≤ (1 / 100 * M) * (1 / 10 ^ 7 * M) := by
        refine (mul_le_mul_of_nonneg_left hl (norm_nonneg _)).trans (hT.trans ?_)
        have : (1 / 100 * M) * (1 / 10 ^ 7 * M) = (1 / 100 * (1 / 10 ^ 7)) * M ^ 2 := by ring
        rw [this, ← mul_assoc]
        exact mul_le_mul_of_nonneg_right (by norm_num) (by positivity)
      exact le_of_mul_le_mul_right h2 (by positivity)
    have := norm_tri T e
    linarith
  rcases hcase with ⟨c1, -⟩ | ⟨c1, c2⟩
  · refine ⟨S1, ?_, c1, size c1, nL⟩
    have : PyFloat.le (lit 0) (brug1 f z w).im = true := by
      show PyFloat.le (lit 0 : Dbl).val (brug1 f z w).im.val = true
      rw [zero, s1.2, XR.le_fin, decide_eq_true_eq]
      exact pos c1
    unfold brugMix
    rw [if_pos this]
    exact s1
  · refine ⟨S2, ?_, c2, size c2, nL⟩
    have h1 : PyFloat.le (lit 0) (brug1 f z w).im = false := by
      show PyFloat.le (lit 0 : Dbl).val (brug1 f z w).im.val = false
      rw [zero, s1.2, XR.le_fin, decide_eq_false_iff_not, not_le]
      exact neg c1
    have h2 : PyFloat.le (lit 0) (brug2 f z w).im = true := by
      show PyFloat.le (lit 0 : Dbl).val (brug2 f z w).im.val = true
      rw [zero, s2.2, XR.le_fin, decide_eq_true_eq]
      exact pos c2
    unfold brugMix
    rw [if_neg (by rw [h1]; decide), if_pos h2]
    exact s2

end

section

variable [SciPy Dbl]

/-- C142 for constituents with any complex permittivities: if the imaginary parts of the two solutions
of Bruggeman's equation have different signs and are not smaller than `η = 160·2⁻⁵³ M²/d`, with `M` the
larger modulus of the constituents and `d` the distance of the solutions, the medium is built and
reports the solution without gain up to `η`. Missing for the full claim: solutions whose imaginary part
is zero or lost in rounding errors, for which it is false. -/
theorem C142_conditioned_partial (s : Spectrum Dbl) (hal : Aligned s) (hs : GoodMetres s)
    (harr : ∃ ty xs, s.values = .array ty xs) (m1 m2 : Material Dbl) (f : Dbl) (φ : ℝ)
    (hf : f.val = .fin φ) (f0 : 0 ≤ φ) (f1 : φ ≤ 1) (e1 e2 : CVals Dbl)
    (h1 : (m1.getPermittivity s).1 = .ok e1) (h2 : (m2.getPermittivity s).1 = .ok e2)
    (n1 : ∀ z ∈ points e1, ModerateCx z) (n2 : ∀ z ∈ points e2, ModerateCx z)
    (ε ε' : ℕ → ℂ)
    (hsol : ∀ (i : ℕ) (z w : Cx Dbl) (a b : ℂ), (points e1)[i]? = some z → (points e2)[i]? = some w →
      StandsForCx z a → StandsForCx w b →
      BruggemanC φ a b (ε i) ∧ BruggemanC φ a b (ε' i) ∧
      160 / 2 ^ 53 * max ‖a‖ ‖b‖ ^ 2 ≤ (ε i).im * ‖ε i - ε' i‖ ∧
      160 / 2 ^ 53 * max ‖a‖ ‖b‖ ^ 2 ≤ -(ε' i).im * ‖ε i - ε' i‖) :
    ∃ m, (effectiveMedium .bruggeman s m1 m2 f).1 = .ok m ∧
      ∀ q : Spectrum Dbl, Aligned q → q.std = s.std → ∃ c, (m.getPermittivity q).1 = .ok c ∧
        ∀ (i : ℕ) (z w : Cx Dbl) (a b : ℂ), (points e1)[i]? = some z → (points e2)[i]? = some w →
          StandsForCx z a → StandsForCx w b →
          ∃ u x, (points c)[i]? = some u ∧ StandsForCx u x ∧
            ‖x - ε i‖ * ‖ε i - ε' i‖ ≤ 160 / 2 ^ 53 * max ‖a‖ ‖b‖ ^ 2 := by
  have l1' : (lit 1 : Dbl).val = .fin 1 := by exact_mod_cast Dbl.lit_int (n := 1) (by norm_num)
  have l0 : PyFloat.lt f (lit 0) = false := by
    rw [Dbl.lt_real hf lit_zero_val, decide_eq_false_iff_not, not_lt]; exact f0
  have l1 : PyFloat.lt (lit 1) f = false := by
    rw [Dbl.lt_real l1' hf, decide_eq_false_iff_not, not_lt]; exact f1
  obtain ⟨t1, t2⟩ := GoodMetres_table hs
  have pf1 := permittivity_form m1 hal h1
  have pf2 := permittivity_form m2 hal h2
  have hpe : ∀ c : CVals Dbl, c.elems = points c := by intro c; cases c <;> rfl
  have mixed : ∀ (i : ℕ) (z w : Cx Dbl) (a b : ℂ), (points e1)[i]? = some z →
      (points e2)[i]? = some w → StandsForCx z a → StandsForCx w b →
      ((10 : ℝ) ^ 20)⁻¹ ≤ max ‖a‖ ‖b‖ ∧ max ‖a‖ ‖b‖ ≤ 10 ^ 20 ∧
      ∃ Q, StandsForCx (brugMix f z w) Q ∧
        ‖Q - ε i‖ * ‖ε i - ε' i‖ ≤ 120 * (1 / 2 ^ 53) * max ‖a‖ ‖b‖ ^ 2 ∧
        ‖Q‖ ≤ 181 / 100 * max ‖a‖ ‖b‖ ∧ ‖ε i - ε' i‖ ≤ 208 / 100 * max ‖a‖ ‖b‖ := by
    intro i z w a b hz hw sa sb
    obtain ⟨a', sa', a1, a2⟩ := n1 z (List.mem_of_getElem? hz)
    obtain ⟨b', sb', b1, b2⟩ := n2 w (List.mem_of_getElem? hw)
    have := stands_unique sa sa'
    subst this
    have := stands_unique sb sb'
    subst this
    obtain ⟨k1, k2, k3, k4⟩ := hsol i z w _ _ hz hw sa sb
    have M0 := a1.trans (le_max_left ‖a‖ ‖b‖)
    have M1 : max ‖a‖ ‖b‖ ≤ 10 ^ 20 := max_le a2 b2
    exact ⟨M0, M1, brugMix_any hf f0 f1 sa sb (le_max_left _ _) (le_max_right _ _) M0 M1 k1 k2 k3 k4⟩
  obtain ⟨eps, hz, hform⟩ := zip_form (g := brugMix f) pf1 pf2
  have hmix : mixVals .bruggeman f e1 e2 = .ok eps := by
    obtain ⟨ty, xs, hv⟩ := harr
    rw [hv] at hform
    cases eps with
    | scalar z => exact hform.elim
    | array zs => simp only [mixVals, bind, Except.bind, hz]
  obtain ⟨m, hm⟩ := medium_builds (k := .bruggeman) hal hs.1 t1 t2 l0 l1 h1 h2 hmix
    (hform.length_std hal)
  refine ⟨m, hm, ?_⟩
  intro q hq hqs
  obtain ⟨-, -, d1, d2, eps', k1, k2, k3, k4⟩ := medium_entries_any hal (GoodMetres_mag hs) hm
  rw [h1] at k1
  cases k1
  rw [h2] at k2
  cases k2
  have he : eps' = eps := Except.ok.inj (k3.symm.trans hmix)
  subst he
  obtain ⟨c, c1, c2⟩ := k4 (by
    intro z hzm
    rw [← hpe] at hzm
    obtain ⟨i, x, y, hx, hy, rfl⟩ := zip_index hz pf1 pf2 z hzm
    rw [hpe] at hx hy
    obtain ⟨a, sa, -⟩ := n1 x (List.mem_of_getElem? hx)
    obtain ⟨b, sb, -⟩ := n2 y (List.mem_of_getElem? hy)
    obtain ⟨-, hM, Q, Q1, -, Q3, -⟩ := mixed i x y a b hx hy sa sb
    have hb : (181 : ℝ) / 100 * 10 ^ 20 ≤ 10 ^ 60 := by norm_num
    exact ⟨⟨_, Q1.1, by linarith [Complex.abs_re_le_norm Q]⟩,
      ⟨_, Q1.2, by linarith [Complex.abs_im_le_norm Q]⟩⟩) q hq hqs
  refine ⟨c, c1, ?_⟩
  intro i z w a b hzi hwi sa sb
  obtain ⟨M0, M1, Q, Q1, Q2, Q3, Q4⟩ := mixed i z w a b hzi hwi sa sb
  obtain ⟨u, u1, ⟨x, x1, x2⟩, ⟨y, y1, y2⟩⟩ := c2 i _ _ _ (zip_points hz hzi hwi) Q1.1 Q1.2
  refine ⟨u, ⟨x, y⟩, u1, ⟨x1, y1⟩, ?_⟩
  have g1 : ‖(⟨x, y⟩ : ℂ) - Q‖ ≤ 9 / 2 ^ 53 * ‖Q‖ + 2 * ((10 : ℝ) ^ 190)⁻¹ := by
    refine norm_scaled (by positivity) (by positivity) ?_ ?_
    · rw [Complex.sub_re]
      have e : 9 / 2 ^ 53 * |Q.re| = |Q.re| * 9 / 2 ^ 53 := by ring
      rw [e]; exact x2
    · rw [Complex.sub_im]
      have e : 9 / 2 ^ 53 * |Q.im| = |Q.im| * 9 / 2 ^ 53 := by ring
      rw [e]; exact y2
  have g2 : ‖(⟨x, y⟩ : ℂ) - ε i‖ ≤ ‖(⟨x, y⟩ : ℂ) - Q‖ + ‖Q - ε i‖ := by
    rw [show (⟨x, y⟩ : ℂ) - ε i = (⟨x, y⟩ - Q) + (Q - ε i) by ring]
    exact norm_add_le _ _
  obtain ⟨M, hM⟩ : ∃ M, M = max ‖a‖ ‖b‖ := ⟨_, rfl⟩
  rw [← hM] at M0 Q2 Q3 Q4 ⊢
  have Mp : 0 < M := lt_of_lt_of_le (by positivity) M0
  have g3 : ‖(⟨x, y⟩ : ℂ) - Q‖ ≤ 17 * (1 / 2 ^ 53) * M := by
    have a1 : 9 / 2 ^ 53 * ‖Q‖ ≤ 9 / 2 ^ 53 * (181 / 100 * M) :=
      mul_le_mul_of_nonneg_left Q3 (by positivity)
    have a2 : 2 * ((10 : ℝ) ^ 190)⁻¹ ≤ 1 / 10 * (1 / 2 ^ 53) * M := by
      refine le_trans ?_ (mul_le_mul_of_nonneg_left M0 (by positivity))
      norm_num
    have a3 : 9 / 2 ^ 53 * (181 / 100 * M) + 1 / 10 * (1 / 2 ^ 53) * M ≤ 17 * (1 / 2 ^ 53) * M := by
      have : 9 / 2 ^ 53 * (181 / 100 * M) + 1 / 10 * (1 / 2 ^ 53) * M =
        (9 / 2 ^ 53 * (181 / 100) + 1 / 10 * (1 / 2 ^ 53)) * M := by ring
      rw [this]
      exact mul_le_mul_of_nonneg_right (by norm_num) Mp.le
    linarith
  have L0 := norm_nonneg (ε i - ε' i)
  calc ‖(⟨x, y⟩ : ℂ) - ε i‖ * ‖ε i - ε' i‖
      ≤ (17 * (1 / 2 ^ 53) * M + ‖Q - ε i‖) * ‖ε i - ε' i‖ :=
        mul_le_mul_of_nonneg_right (by linarith) L0
    _ = 17 * (1 / 2 ^ 53) * M * ‖ε i - ε' i‖ + ‖Q - ε i‖ * ‖ε i - ε' i‖ := by ring
    _ ≤ 17 * (1 / 2 ^ 53) * M * (208 / 100 * M) + 120 * (1 / 2 ^ 53) * M ^ 2 :=
        add_le_add (mul_le_mul_of_nonneg_left Q4 (by positivity)) Q2
    _ = (17 * (208 / 100) + 120) * (1 / 2 ^ 53) * M ^ 2 := by ring
    _ ≤ 160 / 2 ^ 53 * M ^ 2 := mul_le_mul_of_nonneg_right (by norm_num) (by positivity)

end

/-- A case of `C142_conditioned_partial`: equal parts of `10 + 10j` and `2 + 2j`, at one metre, give
`5 + 5j` within 10⁻¹¹. -/
example [SciPy Dbl] [NumText Dbl] (rd : String → Res (FileDict Dbl)) : ∃ m1 m2 m : Material Dbl, ∃ c,
    Material.new rd [("fixed_eps", .cplx ⟨intDbl 10, intDbl 10⟩)] = .ok m1 ∧
    Material.new rd [("fixed_eps", .cplx ⟨intDbl 2, intDbl 2⟩)] = .ok m2 ∧
    (effectiveMedium .bruggeman oneMetre m1 m2 (lit 0.5)).1 = .ok m ∧
    (m.getPermittivity oneMetre).1 = .ok c ∧
    ∃ u x, (points c)[0]? = some u ∧ StandsForCx u x ∧ ‖x - ⟨5, 5⟩‖ ≤ 1 / 10 ^ 11 := by
  obtain ⟨m1, a1, a2⟩ := fixed_oneMetre rd ⟨intDbl 10, intDbl 10⟩
  obtain ⟨m2, b1, b2⟩ := fixed_oneMetre rd ⟨intDbl 2, intDbl 2⟩
  have k1 : IntCx (cplxOf (intDbl 10) (intDbl 10)) 10 10 :=
    cplx_int (intDbl_val (by norm_num)) (intDbl_val (by norm_num)) (by norm_num) (by norm_num)
  have k2 : IntCx (cplxOf (intDbl 2) (intDbl 2)) 2 2 :=
    cplx_int (intDbl_val (by norm_num)) (intDbl_val (by norm_num)) (by norm_num) (by norm_num)
  have sa : StandsForCx (cplxOf (intDbl 10) (intDbl 10)) ⟨10, 10⟩ :=
    ⟨by exact_mod_cast k1.re, by exact_mod_cast k1.im⟩
  have sb : StandsForCx (cplxOf (intDbl 2) (intDbl 2)) ⟨2, 2⟩ :=
    ⟨by exact_mod_cast k2.re, by exact_mod_cast k2.im⟩
  have na : ‖(⟨10, 10⟩ : ℂ)‖ ≤ 20 :=
    (Complex.norm_le_abs_re_add_abs_im _).trans (by norm_num)
  have nb : ‖(⟨2, 2⟩ : ℂ)‖ ≤ 20 :=
    (Complex.norm_le_abs_re_add_abs_im _).trans (by norm_num)
  have na' : 10 ≤ ‖(⟨10, 10⟩ : ℂ)‖ := le_trans (by norm_num) (Complex.abs_re_le_norm _)
  have nb' : 2 ≤ ‖(⟨2, 2⟩ : ℂ)‖ := le_trans (by norm_num) (Complex.abs_re_le_norm _)
  have nd : 7 ≤ ‖(⟨5, 5⟩ : ℂ) - ⟨-2, -2⟩‖ := by
    refine le_trans ?_ (Complex.abs_re_le_norm _)
    rw [Complex.sub_re]
    norm_num
  have hM : max ‖(⟨10, 10⟩ : ℂ)‖ ‖(⟨2, 2⟩ : ℂ)‖ ^ 2 ≤ 400 := by
    calc max ‖(⟨10, 10⟩ : ℂ)‖ ‖(⟨2, 2⟩ : ℂ)‖ ^ 2 ≤ 20 ^ 2 :=
          pow_le_pow_left₀ (le_max_of_le_left (norm_nonneg _)) (max_le na nb) 2
      _ = 400 := by norm_num
  obtain ⟨m, c1, c2⟩ := C142_conditioned_partial oneMetre oneMetre_aligned oneMetre_good ⟨_, _, rfl⟩ m1
    m2 (lit 0.5) (1 / 2) half_val (by norm_num) (by norm_num) _ _ a2 b2
    (by
      intro z hz
      rw [show z = _ from List.mem_singleton.1 hz]
      exact ⟨_, sa, le_trans (by norm_num) na', na.trans (by norm_num)⟩)
    (by
      intro z hz
      rw [show z = _ from List.mem_singleton.1 hz]
      exact ⟨_, sb, le_trans (by norm_num) nb', nb.trans (by norm_num)⟩)
    (fun _ => ⟨5, 5⟩) (fun _ => ⟨-2, -2⟩)
    (by
      intro i z w a b hz hw ha hb
      have hz' := List.mem_of_getElem? hz
      have hw' := List.mem_of_getElem? hw
      rw [show z = _ from List.mem_singleton.1 hz'] at ha
      rw [show w = _ from List.mem_singleton.1 hw'] at hb
      have := stands_unique ha sa
      subst this
      have := stands_unique hb sb
      subst this
      refine ⟨?_, ?_, ?_, ?_⟩
      · unfold BruggemanC
        apply Complex.ext <;> norm_num
      · unfold BruggemanC
        apply Complex.ext <;> norm_num
      · show _ ≤ 5 * _
        have : 160 / 2 ^ 53 * max ‖(⟨10, 10⟩ : ℂ)‖ ‖(⟨2, 2⟩ : ℂ)‖ ^ 2 ≤ 160 / 2 ^ 53 * 400 :=
          mul_le_mul_of_nonneg_left hM (by positivity)
        have : (160 : ℝ) / 2 ^ 53 * 400 ≤ 1 := by norm_num
        linarith
      · show _ ≤ -(-2) * _
        have : 160 / 2 ^ 53 * max ‖(⟨10, 10⟩ : ℂ)‖ ‖(⟨2, 2⟩ : ℂ)‖ ^ 2 ≤ 160 / 2 ^ 53 * 400 :=
          mul_le_mul_of_nonneg_left hM (by positivity)
        have : (160 : ℝ) / 2 ^ 53 * 400 ≤ 1 := by norm_num
        linarith)
  obtain ⟨c, d1, d2⟩ := c2 oneMetre oneMetre_aligned rfl
  obtain ⟨u, x, g1, g2, g3⟩ := d2 0 _ _ _ _ rfl rfl sa sb
  refine ⟨m1, m2, m, c, a1, b1, c1, d1, u, x, g1, g2, ?_⟩
  have h1 : ‖x - ⟨5, 5⟩‖ * 7 ≤ 1 / 10 ^ 11 * 7 := by
    refine (mul_le_mul_of_nonneg_left nd (norm_nonneg _)).trans (g3.trans ?_)
    refine (mul_le_mul_of_nonneg_left hM (by positivity)).trans ?_
    norm_num
  exact le_of_mul_le_mul_right h1 (by norm_num)

end

end Disp
