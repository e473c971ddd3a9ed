import Verif.Props.BoundedEntries
import Verif.Lemmas.ComplexRounding
/-!
# Maxwell-Garnett media of lossy constituents, in double precision

C134 is refuted because the denominator of the formula can cancel. Here the error is bounded in terms
of how much it cancels, for constituents with any complex permittivities; for dielectrics with loss
the medium is accurate to 72·2⁻⁵³ of the modulus.
-/

namespace Disp

noncomputable section

open Dbl Spec

namespace Spec

/-- A permittivity with a modulus between 10⁻²⁰ and 10²⁰. -/
def ModerateCx (z : Cx Dbl) : Prop :=
  ∃ a, StandsForCx z a ∧ ((10 : ℝ) ^ 20)⁻¹ ≤ ‖a‖ ∧ ‖a‖ ≤ 10 ^ 20

/-- The size of the terms of the Maxwell-Garnett formula: as the formula, with the moduli of the terms
in the numerator. -/
def maxwellGarnettSize (φ : ℝ) (a b : ℂ) : ℝ :=
  ‖a‖ * (2 * (1 - φ) * ‖a‖ + (1 + 2 * φ) * ‖b‖) / ‖(2 + φ) * a + (1 - φ) * b‖

end Spec

theorem tri_sub (a b : ℝ) : |a| ≤ |a - b| + |b| := by
  have := abs_add_le (a - b) b
  rwa [sub_add_cancel] at this

theorem norm_tri (a b : ℂ) : ‖a‖ ≤ ‖a - b‖ + ‖b‖ := by
  have := norm_add_le (a - b) b
  rwa [sub_add_cancel] at this

/-- A complex double times a real coefficient with a rounding error. -/
theorem scaled_any {c : Dbl} {z : Cx Dbl} {γ γ' : ℝ} {Z : ℂ} (hc : c.val = .fin γ')
    (hz : StandsForCx z Z) (h0 : 0 ≤ γ) (h1 : γ ≤ 4)
    (hγ : |γ' - γ| ≤ γ * (21 / 10 / 2 ^ 53) + ((10 : ℝ) ^ 200)⁻¹) (hZ : ‖Z‖ ≤ 10 ^ 20) :
    ∃ P, StandsForCx (rmul c z) P ∧
      ‖P - γ * Z‖ ≤ γ * ‖Z‖ * (62 / 10 / 2 ^ 53) + ((10 : ℝ) ^ 175)⁻¹ := by
  have hη : ((10 : ℝ) ^ 200)⁻¹ ≤ 1 := inv_le_one_of_one_le₀ (one_le_pow₀ (by norm_num))
  have hc' : StandsForCx (Cx.ofReal c) (γ' : ℂ) := ⟨by simpa [Cx.ofReal] using hc, by
    simp [Cx.ofReal, lit_zero_val]⟩
  have hg : |γ'| ≤ 6 := by
    have h2 := tri_sub γ' γ
    rw [abs_of_nonneg h0] at h2
    have h3 : γ * (21 / 10 / 2 ^ 53) ≤ 1 := by
      calc γ * (21 / 10 / 2 ^ 53) ≤ 4 * (21 / 10 / 2 ^ 53) := by gcongr
        _ ≤ 1 := by norm_num
    linarith
  have hn : ‖(γ' : ℂ)‖ = |γ'| := by simp
  obtain ⟨P, p1, p2⟩ := cmul_any hc' hz (by
    rw [hn]
    calc |γ'| * ‖Z‖ ≤ 6 * 10 ^ 20 := mul_le_mul hg hZ (norm_nonneg _) (by norm_num)
      _ ≤ 10 ^ 99 := by norm_num)
  refine ⟨P, p1, ?_⟩
  rw [hn] at p2
  have h2 : ‖P - γ * Z‖ ≤ ‖P - γ' * Z‖ + |γ' - γ| * ‖Z‖ := by
    have e : P - γ * Z = (P - γ' * Z) + ((γ' - γ : ℝ) : ℂ) * Z := by push_cast; ring
    rw [e]
    refine (norm_add_le _ _).trans ?_
    rw [norm_mul, Complex.norm_real, Real.norm_eq_abs]
  have h3 := mul_le_mul_of_nonneg_right hγ (norm_nonneg Z)
  have h4 : |γ'| * ‖Z‖ ≤ |γ' - γ| * ‖Z‖ + γ * ‖Z‖ := by
    rw [← add_mul]
    refine mul_le_mul_of_nonneg_right ?_ (norm_nonneg _)
    have := tri_sub γ' γ
    rwa [abs_of_nonneg h0] at this
  have h5 : ((10 : ℝ) ^ 200)⁻¹ * ‖Z‖ ≤ ((10 : ℝ) ^ 200)⁻¹ * 10 ^ 20 :=
    mul_le_mul_of_nonneg_left hZ (by positivity)
  have h6 : 0 ≤ γ * ‖Z‖ := by positivity
  have h7 : 2 * (((10 : ℝ) ^ 200)⁻¹ * 10 ^ 20) + ((10 : ℝ) ^ 190)⁻¹ ≤ ((10 : ℝ) ^ 175)⁻¹ := by norm_num
  have h8 : (γ * (21 / 10 / 2 ^ 53) + ((10 : ℝ) ^ 200)⁻¹) * ‖Z‖ =
    γ * ‖Z‖ * (21 / 10 / 2 ^ 53) + ((10 : ℝ) ^ 200)⁻¹ * ‖Z‖ := by ring
  rw [h8] at h3
  have h9 : 0 ≤ ((10 : ℝ) ^ 200)⁻¹ * (10 : ℝ) ^ 20 := by positivity
  clear h8 hγ hg hη
  generalize γ * ‖Z‖ = X at *
  generalize |γ' - γ| * ‖Z‖ = Y at *
  generalize |γ'| * ‖Z‖ = W at *
  generalize ((10 : ℝ) ^ 200)⁻¹ * ‖Z‖ = E at *
  generalize ((10 : ℝ) ^ 200)⁻¹ * (10 : ℝ) ^ 20 = E1 at *
  generalize ((10 : ℝ) ^ 190)⁻¹ = E2 at *
  generalize ((10 : ℝ) ^ 175)⁻¹ = E3 at *
  norm_num at p2 h3 ⊢
  linarith

/-- A sum of two such terms. -/
theorem terms_any {z w : Cx Dbl} {Z W P Q : ℂ} {x y : ℝ} (hz : StandsForCx z P)
    (hw : StandsForCx w Q) (h1 : ‖P - Z‖ ≤ x * (62 / 10 / 2 ^ 53) + ((10 : ℝ) ^ 175)⁻¹)
    (h2 : ‖Q - W‖ ≤ y * (62 / 10 / 2 ^ 53) + ((10 : ℝ) ^ 175)⁻¹) (hZ : ‖Z‖ ≤ x) (hW : ‖W‖ ≤ y)
    (hlo : ((10 : ℝ) ^ 20)⁻¹ ≤ x + y) (hhi : x + y ≤ 10 ^ 30) :
    ∃ S, StandsForCx (z + w) S ∧ ‖S - (Z + W)‖ ≤ (x + y) * (74 / 10 / 2 ^ 53) := by
  have hx : 0 ≤ x := (norm_nonneg _).trans hZ
  have hy : 0 ≤ y := (norm_nonneg _).trans hW
  have h3 : ‖P + Q - (Z + W)‖ ≤ ‖P - Z‖ + ‖Q - W‖ := by
    rw [show P + Q - (Z + W) = (P - Z) + (Q - W) by ring]
    exact norm_add_le _ _
  have h4 : ‖P + Q‖ ≤ ‖P + Q - (Z + W)‖ + (x + y) :=
    (norm_tri _ (Z + W)).trans (by linarith [norm_add_le Z W])
  have hE : ((10 : ℝ) ^ 175)⁻¹ ≤ 1 := inv_le_one_of_one_le₀ (one_le_pow₀ (by norm_num))
  have hE' : 4 * ((10 : ℝ) ^ 175)⁻¹ ≤ (x + y) * (1 / 10 / 2 ^ 53) := by
    refine le_trans ?_ (mul_le_mul_of_nonneg_right hlo (by positivity))
    norm_num
  obtain ⟨S, s1, s2⟩ := cadd_any hz hw (by
    have : x * (62 / 10 / 2 ^ 53) ≤ x := mul_le_of_le_one_right hx (by norm_num)
    have : y * (62 / 10 / 2 ^ 53) ≤ y := mul_le_of_le_one_right hy (by norm_num)
    have : 2 * (10 : ℝ) ^ 30 + 2 ≤ 10 ^ 100 := by norm_num
    linarith)
  refine ⟨S, s1, ?_⟩
  have h5 : ‖S - (Z + W)‖ ≤ ‖S - (P + Q)‖ + ‖P + Q - (Z + W)‖ := by
    rw [show S - (Z + W) = (S - (P + Q)) + (P + Q - (Z + W)) by ring]
    exact norm_add_le _ _
  generalize ((10 : ℝ) ^ 175)⁻¹ = E at *
  generalize ‖P + Q‖ = A at *
  generalize ‖S - (Z + W)‖ = B at *
  generalize ‖S - (P + Q)‖ = C at *
  generalize ‖P + Q - (Z + W)‖ = D at *
  norm_num at h1 h2 s2 hE' ⊢
  linarith

section

variable {f : Dbl} {φ : ℝ} (hf : f.val = .fin φ) (f0 : 0 ≤ φ) (f1 : φ ≤ 1)

include hf f0 f1

theorem coeff_sub : ∃ v, (lit 1 - f).val = .fin v ∧ |v - (1 - φ)| ≤ (1 - φ) * (1 / 2 ^ 53) := by
  obtain ⟨v, h1, h2⟩ := sub_any (show (lit 1 : Dbl).val = .fin 1 by
    exact_mod_cast Dbl.lit_int (n := 1) (by norm_num)) hf (by
      rw [abs_of_nonneg (by linarith)]
      have : (1 : ℝ) ≤ 10 ^ 100 := one_le_pow₀ (by norm_num)
      linarith)
  rw [abs_of_nonneg (by linarith : 0 ≤ 1 - φ)] at h2
  exact ⟨v, h1, h2⟩

/-- The coefficients of the formula. -/
theorem coeffs : (∃ v, (lit 1 - f).val = .fin v ∧
      |v - (1 - φ)| ≤ (1 - φ) * (21 / 10 / 2 ^ 53) + ((10 : ℝ) ^ 200)⁻¹) ∧
    (∃ v, (lit 2 + f).val = .fin v ∧
      |v - (2 + φ)| ≤ (2 + φ) * (21 / 10 / 2 ^ 53) + ((10 : ℝ) ^ 200)⁻¹) ∧
    (∃ v, (lit 2 * (lit 1 - f)).val = .fin v ∧
      |v - 2 * (1 - φ)| ≤ 2 * (1 - φ) * (21 / 10 / 2 ^ 53) + ((10 : ℝ) ^ 200)⁻¹) ∧
    ∃ v, (lit 1 + lit 2 * f).val = .fin v ∧
      |v - (1 + 2 * φ)| ≤ (1 + 2 * φ) * (21 / 10 / 2 ^ 53) + ((10 : ℝ) ^ 200)⁻¹ := by
  have l1 : (lit 1 : Dbl).val = .fin 1 := by exact_mod_cast Dbl.lit_int (n := 1) (by norm_num)
  have l2 : (lit 2 : Dbl).val = .fin 2 := by exact_mod_cast Dbl.lit_int (n := 2) (by norm_num)
  have hη0 : 0 ≤ ((10 : ℝ) ^ 200)⁻¹ := by positivity
  have hη1 : ((10 : ℝ) ^ 200)⁻¹ ≤ 1 / 10 / 2 ^ 54 := by norm_num
  have big : (100 : ℝ) ≤ 10 ^ 100 := by norm_num
  have hφ' : 0 ≤ 1 - φ := by linarith
  obtain ⟨v, v1, v2⟩ := coeff_sub hf f0 f1
  have hv := tri_sub v (1 - φ)
  rw [abs_of_nonneg hφ'] at hv
  have hv' : |v| ≤ 2 := by
    have : (1 - φ) * (1 / 2 ^ 53) ≤ 1 - φ := mul_le_of_le_one_right hφ' (by norm_num)
    linarith
  refine ⟨⟨v, v1, ?_⟩, ?_, ?_, ?_⟩
  · norm_num at v2 ⊢
    linarith
  · obtain ⟨w, w1, w2⟩ := add_any l2 hf (by rw [abs_of_nonneg (by linarith)]; linarith)
    rw [abs_of_nonneg (by linarith : 0 ≤ 2 + φ)] at w2
    refine ⟨w, w1, ?_⟩
    norm_num at w2 ⊢
    linarith
  · have h2v : |2 * v| = 2 * |v| := by rw [abs_mul]; norm_num
    obtain ⟨w, w1, w2⟩ := mul_any l2 v1 (by rw [h2v]; linarith)
    refine ⟨w, w1, ?_⟩
    rw [h2v] at w2
    have h3 : |w - 2 * (1 - φ)| ≤ |w - 2 * v| + 2 * |v - (1 - φ)| := by
      rw [show w - 2 * (1 - φ) = (w - 2 * v) + 2 * (v - (1 - φ)) by ring]
      refine (abs_add_le _ _).trans ?_
      rw [abs_mul 2 (v - (1 - φ))]
      norm_num
    generalize ((10 : ℝ) ^ 200)⁻¹ = E at *
    norm_num at w2 v2 ⊢
    linarith
  · have h2f : |2 * φ| = 2 * φ := abs_of_nonneg (by linarith)
    obtain ⟨t, t1, t2⟩ := mul_any l2 hf (by rw [h2f]; linarith)
    rw [h2f] at t2
    have h3 := tri_sub t (2 * φ)
    rw [h2f] at h3
    have h4 : 2 * φ * (1 / 2 ^ 53) ≤ 2 * φ := mul_le_of_le_one_right (by linarith) (by norm_num)
    have hη2 : ((10 : ℝ) ^ 200)⁻¹ ≤ 1 := inv_le_one_of_one_le₀ (one_le_pow₀ (by norm_num))
    obtain ⟨w, w1, w2⟩ := add_any l1 t1 (by
      have := abs_add_le 1 t
      rw [abs_one] at this
      linarith)
    refine ⟨w, w1, ?_⟩
    have h5 : |1 + t| ≤ |t - 2 * φ| + (1 + 2 * φ) := by
      have := tri_sub (1 + t) (1 + 2 * φ)
      rw [abs_of_nonneg (by linarith : 0 ≤ 1 + 2 * φ), show 1 + t - (1 + 2 * φ) = t - 2 * φ by ring] at this
      exact this
    have h6 : |w - (1 + 2 * φ)| ≤ |w - (1 + t)| + |t - 2 * φ| := by
      rw [show w - (1 + 2 * φ) = (w - (1 + t)) + (t - 2 * φ) by ring]
      exact abs_add_le _ _
    generalize ((10 : ℝ) ^ 200)⁻¹ = E at *
    norm_num at t2 w2 hη1 ⊢
    linarith

variable {z w : Cx Dbl} {a b : ℂ} (hz : StandsForCx z a) (hw : StandsForCx w b)
  (ha1 : ((10 : ℝ) ^ 20)⁻¹ ≤ ‖a‖) (ha2 : ‖a‖ ≤ 10 ^ 20) (hb1 : ((10 : ℝ) ^ 20)⁻¹ ≤ ‖b‖)
  (hb2 : ‖b‖ ≤ 10 ^ 20)

include hz hw ha1 ha2 hb1 hb2

/-- The numerator. -/
theorem mgUp_any : ∃ U, StandsForCx (mgUp f z w) U ∧
    ‖U - (2 * (1 - φ) * a + (1 + 2 * φ) * b)‖ ≤
      (2 * (1 - φ) * ‖a‖ + (1 + 2 * φ) * ‖b‖) * (74 / 10 / 2 ^ 53) := by
  obtain ⟨-, -, ⟨v, v1, v2⟩, ⟨v', v1', v2'⟩⟩ := coeffs hf f0 f1
  obtain ⟨P, p1, p2⟩ := scaled_any v1 hz (by linarith) (by linarith) v2 ha2
  obtain ⟨Q, q1, q2⟩ := scaled_any v1' hw (by linarith) (by linarith) v2' hb2
  have n1 : ‖((2 * (1 - φ) : ℝ) : ℂ) * a‖ = 2 * (1 - φ) * ‖a‖ := by
    rw [norm_mul, Complex.norm_real, Real.norm_eq_abs, abs_of_nonneg (by linarith)]
  have n2 : ‖((1 + 2 * φ : ℝ) : ℂ) * b‖ = (1 + 2 * φ) * ‖b‖ := by
    rw [norm_mul, Complex.norm_real, Real.norm_eq_abs, abs_of_nonneg (by linarith)]
  have m1 : 2 * (1 - φ) * ‖a‖ ≤ 4 * 10 ^ 20 := mul_le_mul (by linarith) ha2 (norm_nonneg _) (by norm_num)
  have m2 : (1 + 2 * φ) * ‖b‖ ≤ 4 * 10 ^ 20 := mul_le_mul (by linarith) hb2 (norm_nonneg _) (by norm_num)
  have m3 : 0 ≤ 2 * (1 - φ) * ‖a‖ := mul_nonneg (by linarith) (norm_nonneg _)
  have m4 : 1 * ‖b‖ ≤ (1 + 2 * φ) * ‖b‖ := mul_le_mul_of_nonneg_right (by linarith) (norm_nonneg _)
  have m5 : 8 * (10 : ℝ) ^ 20 ≤ 10 ^ 30 := by norm_num
  obtain ⟨S, s1, s2⟩ := terms_any p1 q1 p2 q2 n1.le n2.le (by linarith) (by linarith)
  refine ⟨S, s1, ?_⟩
  push_cast at s2
  exact s2

/-- The denominator. -/
theorem mgDown_any : ∃ V, StandsForCx (mgDown f z w) V ∧
    ‖V - ((2 + φ) * a + (1 - φ) * b)‖ ≤
      ((2 + φ) * ‖a‖ + (1 - φ) * ‖b‖) * (74 / 10 / 2 ^ 53) := by
  obtain ⟨⟨v', v1', v2'⟩, ⟨v, v1, v2⟩, -, -⟩ := coeffs hf f0 f1
  obtain ⟨P, p1, p2⟩ := scaled_any v1 hz (by linarith) (by linarith) v2 ha2
  obtain ⟨Q, q1, q2⟩ := scaled_any v1' hw (by linarith) (by linarith) v2' hb2
  have n1 : ‖((2 + φ : ℝ) : ℂ) * a‖ = (2 + φ) * ‖a‖ := by
    rw [norm_mul, Complex.norm_real, Real.norm_eq_abs, abs_of_nonneg (by linarith)]
  have n2 : ‖((1 - φ : ℝ) : ℂ) * b‖ = (1 - φ) * ‖b‖ := by
    rw [norm_mul, Complex.norm_real, Real.norm_eq_abs, abs_of_nonneg (by linarith)]
  have m1 : (2 + φ) * ‖a‖ ≤ 4 * 10 ^ 20 := mul_le_mul (by linarith) ha2 (norm_nonneg _) (by norm_num)
  have m2 : (1 - φ) * ‖b‖ ≤ 4 * 10 ^ 20 := mul_le_mul (by linarith) hb2 (norm_nonneg _) (by norm_num)
  have m3 : 0 ≤ (1 - φ) * ‖b‖ := mul_nonneg (by linarith) (norm_nonneg _)
  have m4 : 1 * ‖a‖ ≤ (2 + φ) * ‖a‖ := mul_le_mul_of_nonneg_right (by linarith) (norm_nonneg _)
  have m5 : 8 * (10 : ℝ) ^ 20 ≤ 10 ^ 30 := by norm_num
  obtain ⟨S, s1, s2⟩ := terms_any p1 q1 p2 q2 n1.le n2.le (by linarith) (by linarith)
  refine ⟨S, s1, ?_⟩
  push_cast at s2
  exact s2

/-- The Maxwell-Garnett formula in double precision, with a bound on the cancellation in the
denominator. -/
theorem mgMix_any {K : ℝ} (hK0 : 0 ≤ K) (hK : K ≤ 2 ^ 40)
    (hcond : (2 + φ) * ‖a‖ + (1 - φ) * ‖b‖ ≤ K * ‖(2 + φ) * a + (1 - φ) * b‖) :
    absTrue (mgDown f z w) = true ∧ ∃ Q, StandsForCx (mgMix f z w) Q ∧
      ‖Q - maxwellGarnettC φ a b‖ ≤ (26 + 8 * K) / 2 ^ 53 * maxwellGarnettSize φ a b ∧
      ‖maxwellGarnettC φ a b‖ ≤ maxwellGarnettSize φ a b ∧
      ((10 : ℝ) ^ 62)⁻¹ ≤ maxwellGarnettSize φ a b ∧ maxwellGarnettSize φ a b ≤ 10 ^ 35 := by
  obtain ⟨U, u1, u2⟩ := mgUp_any hf f0 f1 hz hw ha1 ha2 hb1 hb2
  obtain ⟨V, v1, v2⟩ := mgDown_any hf f0 f1 hz hw ha1 ha2 hb1 hb2
  unfold maxwellGarnettC maxwellGarnettSize
  have hU0 : ‖2 * (1 - (φ : ℂ)) * a + (1 + 2 * φ) * b‖ ≤ 2 * (1 - φ) * ‖a‖ + (1 + 2 * φ) * ‖b‖ := by
    refine (norm_add_le _ _).trans ?_
    have n1 : ‖2 * (1 - (φ : ℂ)) * a‖ = 2 * (1 - φ) * ‖a‖ := by
      rw [show 2 * (1 - (φ : ℂ)) = ((2 * (1 - φ) : ℝ) : ℂ) by push_cast; ring, norm_mul,
        Complex.norm_real, Real.norm_eq_abs, abs_of_nonneg (by linarith)]
    have n2 : ‖(1 + 2 * (φ : ℂ)) * b‖ = (1 + 2 * φ) * ‖b‖ := by
      rw [show 1 + 2 * (φ : ℂ) = ((1 + 2 * φ : ℝ) : ℂ) by push_cast; ring, norm_mul,
        Complex.norm_real, Real.norm_eq_abs, abs_of_nonneg (by linarith)]
    rw [n1, n2]
  have hV0 : ‖(2 + (φ : ℂ)) * a + (1 - φ) * b‖ ≤ (2 + φ) * ‖a‖ + (1 - φ) * ‖b‖ := by
    refine (norm_add_le _ _).trans ?_
    have n1 : ‖(2 + (φ : ℂ)) * a‖ = (2 + φ) * ‖a‖ := by
      rw [show 2 + (φ : ℂ) = ((2 + φ : ℝ) : ℂ) by push_cast; ring, norm_mul,
        Complex.norm_real, Real.norm_eq_abs, abs_of_nonneg (by linarith)]
    have n2 : ‖(1 - (φ : ℂ)) * b‖ = (1 - φ) * ‖b‖ := by
      rw [show 1 - (φ : ℂ) = ((1 - φ : ℝ) : ℂ) by push_cast; ring, norm_mul,
        Complex.norm_real, Real.norm_eq_abs, abs_of_nonneg (by linarith)]
    rw [n1, n2]
  have m1 : 2 * (1 - φ) * ‖a‖ ≤ 3 * 10 ^ 20 := mul_le_mul (by linarith) ha2 (norm_nonneg _) (by norm_num)
  have m2 : (1 + 2 * φ) * ‖b‖ ≤ 3 * 10 ^ 20 := mul_le_mul (by linarith) hb2 (norm_nonneg _) (by norm_num)
  have m3 : 0 ≤ 2 * (1 - φ) * ‖a‖ := mul_nonneg (by linarith) (norm_nonneg _)
  have m4 : 1 * ‖b‖ ≤ (1 + 2 * φ) * ‖b‖ := mul_le_mul_of_nonneg_right (by linarith) (norm_nonneg _)
  have k1 : (2 + φ) * ‖a‖ ≤ 3 * 10 ^ 20 := mul_le_mul (by linarith) ha2 (norm_nonneg _) (by norm_num)
  have k2 : (1 - φ) * ‖b‖ ≤ 3 * 10 ^ 20 := mul_le_mul (by linarith) hb2 (norm_nonneg _) (by norm_num)
  have k3 : 0 ≤ (1 - φ) * ‖b‖ := mul_nonneg (by linarith) (norm_nonneg _)
  have k4 : 1 * ‖a‖ ≤ (2 + φ) * ‖a‖ := mul_le_mul_of_nonneg_right (by linarith) (norm_nonneg _)
  set u : ℂ := 2 * (1 - (φ : ℂ)) * a + (1 + 2 * φ) * b with hu
  set v : ℂ := (2 + (φ : ℂ)) * a + (1 - φ) * b with hv
  set Su := 2 * (1 - φ) * ‖a‖ + (1 + 2 * φ) * ‖b‖ with hSu
  set Sv := (2 + φ) * ‖a‖ + (1 - φ) * ‖b‖ with hSv
  have s1 : ((10 : ℝ) ^ 20)⁻¹ ≤ Su := by rw [hSu]; linarith
  have s2 : Su ≤ 6 * 10 ^ 20 := by rw [hSu]; linarith
  have s3 : ((10 : ℝ) ^ 20)⁻¹ ≤ Sv := by rw [hSv]; linarith
  have s4 : Sv ≤ 6 * 10 ^ 20 := by rw [hSv]; linarith
  have s5 : ‖a‖ ≤ Sv := by rw [hSv]; linarith
  clear_value u v Su Sv
  clear hu hv hSu hSv m1 m2 m3 m4 k1 k2 k3 k4
  have hSu0 : 0 < Su := lt_of_lt_of_le (by positivity) s1
  have hSv0 : 0 < Sv := lt_of_lt_of_le (by positivity) s3
  have ha0 : 0 < ‖a‖ := lt_of_lt_of_le (by positivity) ha1
  have hv0 : 0 < ‖v‖ := by
    by_contra h
    have : ‖v‖ = 0 := le_antisymm (not_lt.1 h) (norm_nonneg _)
    rw [this, mul_zero] at hcond
    linarith
  have hvn : v ≠ 0 := norm_pos_iff.1 hv0
  have hvlo : ((10 : ℝ) ^ 33)⁻¹ ≤ ‖v‖ := by
    have h1 : Sv ≤ 2 ^ 40 * ‖v‖ := hcond.trans (mul_le_mul_of_nonneg_right hK hv0.le)
    have h2 : ((10 : ℝ) ^ 33)⁻¹ * 2 ^ 40 ≤ ((10 : ℝ) ^ 20)⁻¹ := by norm_num
    nlinarith
  -- the denominator
  have hVe : ‖V - v‖ ≤ K * ‖v‖ * (74 / 10 / 2 ^ 53) :=
    v2.trans (mul_le_mul_of_nonneg_right hcond (by positivity))
  have hVe' : ‖V - v‖ ≤ ‖v‖ * (1 / 1000) := by
    refine hVe.trans ?_
    have : K * (74 / 10 / 2 ^ 53) ≤ 1 / 1000 := by
      calc K * (74 / 10 / 2 ^ 53) ≤ 2 ^ 40 * (74 / 10 / 2 ^ 53) := by gcongr
        _ ≤ 1 / 1000 := by norm_num
    calc K * ‖v‖ * (74 / 10 / 2 ^ 53) = ‖v‖ * (K * (74 / 10 / 2 ^ 53)) := by ring
      _ ≤ ‖v‖ * (1 / 1000) := mul_le_mul_of_nonneg_left this hv0.le
  have hVlo : ‖v‖ * (999 / 1000) ≤ ‖V‖ := by
    have := norm_tri v V
    rw [norm_sub_rev] at this
    linarith
  have hVhi : ‖V‖ ≤ ‖v‖ * (1001 / 1000) := by linarith [norm_tri V v]
  have hV0' : 0 < ‖V‖ := lt_of_lt_of_le (by positivity) hVlo
  have hVn : V ≠ 0 := norm_pos_iff.1 hV0'
  refine ⟨?_, ?_⟩
  · have hne : ¬ (V.re = 0 ∧ V.im = 0) := fun h => hVn (Complex.ext h.1 h.2)
    have q1 : PyFloat.eq (mgDown f z w).re (lit 0) = decide (V.re = 0) := by
      show PyFloat.eq (mgDown f z w).re.val (lit 0 : Dbl).val = _
      rw [v1.1, lit_zero_val, XR.eq_fin]
    have q2 : PyFloat.eq (mgDown f z w).im (lit 0) = decide (V.im = 0) := by
      show PyFloat.eq (mgDown f z w).im.val (lit 0 : Dbl).val = _
      rw [v1.2, lit_zero_val, XR.eq_fin]
    unfold absTrue
    rw [q1, q2]
    have hne' := not_and_or.1 hne
    simpa using hne'
  -- the numerator
  have hU1 : ‖U‖ ≤ Su * (1001 / 1000) := by
    have h1 := norm_tri U u
    have h2 : Su * (74 / 10 / 2 ^ 53) ≤ Su * (1 / 1000) :=
      mul_le_mul_of_nonneg_left (by norm_num) hSu0.le
    linarith
  have hX0 : 0 < ‖a‖ * Su := by positivity
  have hXlo : ((10 : ℝ) ^ 40)⁻¹ ≤ ‖a‖ * Su := by
    calc ((10 : ℝ) ^ 40)⁻¹ = ((10 : ℝ) ^ 20)⁻¹ * ((10 : ℝ) ^ 20)⁻¹ := by norm_num
      _ ≤ ‖a‖ * Su := mul_le_mul ha1 s1 (by positivity) ha0.le
  have hXhi : ‖a‖ * Su ≤ 6 * 10 ^ 40 := by
    calc ‖a‖ * Su ≤ 10 ^ 20 * (6 * 10 ^ 20) := mul_le_mul ha2 s2 hSu0.le (by positivity)
      _ = 6 * 10 ^ 40 := by norm_num
  have haU : ‖a‖ * ‖U‖ ≤ ‖a‖ * Su * (1001 / 1000) := by
    rw [mul_assoc]
    exact mul_le_mul_of_nonneg_left hU1 ha0.le
  obtain ⟨A, A1, A2⟩ := cmul_any hz u1 (by
    have : (6 : ℝ) * 10 ^ 40 * (1001 / 1000) ≤ 10 ^ 99 := by norm_num
    linarith)
  have hAe : ‖A - a * u‖ ≤ ‖a‖ * Su * (115 / 10 / 2 ^ 53) := by
    have h1 : ‖A - a * u‖ ≤ ‖A - a * U‖ + ‖a‖ * ‖U - u‖ := by
      rw [show A - a * u = (A - a * U) + a * (U - u) by ring]
      refine (norm_add_le _ _).trans ?_
      rw [norm_mul]
    have h2 : ‖a‖ * ‖U - u‖ ≤ ‖a‖ * Su * (74 / 10 / 2 ^ 53) := by
      rw [mul_assoc]
      exact mul_le_mul_of_nonneg_left u2 ha0.le
    have h3 : ((10 : ℝ) ^ 190)⁻¹ ≤ ‖a‖ * Su * (1 / 100 / 2 ^ 53) := by
      refine le_trans ?_ (mul_le_mul_of_nonneg_right hXlo (by positivity))
      norm_num
    generalize ‖a‖ * Su = X at *
    generalize ‖a‖ * ‖U‖ = Y at *
    generalize ((10 : ℝ) ^ 190)⁻¹ = E at *
    norm_num at A2 h2 h3 ⊢
    linarith
  have hau : ‖a * u‖ ≤ ‖a‖ * Su := by
    rw [norm_mul]
    exact mul_le_mul_of_nonneg_left hU0 ha0.le
  have hA : ‖A‖ ≤ ‖a‖ * Su * (1001 / 1000) := by
    have h1 := norm_tri A (a * u)
    have h2 : ‖a‖ * Su * (115 / 10 / 2 ^ 53) ≤ ‖a‖ * Su * (1 / 1000) :=
      mul_le_mul_of_nonneg_left (by norm_num) hX0.le
    linarith
  obtain ⟨Q, Q1, Q2⟩ := cdiv_any A1 v1 (by
      have : (6 : ℝ) * 10 ^ 40 * (1001 / 1000) ≤ 10 ^ 45 := by norm_num
      linarith) (by
      have : ((10 : ℝ) ^ 50)⁻¹ ≤ ((10 : ℝ) ^ 33)⁻¹ * (999 / 1000) := by norm_num
      linarith) (by
      have : (6 : ℝ) * 10 ^ 20 * (1001 / 1000) ≤ 10 ^ 50 := by norm_num
      linarith)
  have hT0 : 0 < ‖a‖ * Su / ‖v‖ := by positivity
  have hTlo : ((10 : ℝ) ^ 62)⁻¹ ≤ ‖a‖ * Su / ‖v‖ := by
    rw [le_div_iff₀ hv0]
    have h1 : ‖v‖ ≤ 6 * 10 ^ 20 := hV0.trans s4
    calc ((10 : ℝ) ^ 62)⁻¹ * ‖v‖ ≤ ((10 : ℝ) ^ 62)⁻¹ * (6 * 10 ^ 20) :=
          mul_le_mul_of_nonneg_left h1 (by positivity)
      _ ≤ ((10 : ℝ) ^ 40)⁻¹ := by norm_num
      _ ≤ _ := hXlo
  have hThi : ‖a‖ * Su / ‖v‖ ≤ 10 ^ 35 := by
    rw [div_le_iff₀ hv0]
    calc ‖a‖ * Su ≤ (2 ^ 40 * ‖v‖) * (6 * 10 ^ 20) :=
          mul_le_mul (s5.trans (hcond.trans (mul_le_mul_of_nonneg_right hK hv0.le))) s2 hSu0.le
            (by positivity)
      _ = 2 ^ 40 * (6 * 10 ^ 20) * ‖v‖ := by ring
      _ ≤ 10 ^ 35 * ‖v‖ := mul_le_mul_of_nonneg_right (by norm_num) hv0.le
  refine ⟨Q, Q1, ?_, ?_, hTlo, hThi⟩
  rotate_left
  · rw [norm_div]
    exact div_le_div_of_nonneg_right hau hv0.le
  have hi : 1 / ‖V‖ ≤ 1 / ‖v‖ * (1002 / 1000) := by
    rw [div_le_iff₀ hV0']
    have h1 : 1 / ‖v‖ * (1002 / 1000) * (‖v‖ * (999 / 1000)) = 1002 / 1000 * (999 / 1000) := by
      field_simp
    have h2 := mul_le_mul_of_nonneg_left hVlo (by positivity : 0 ≤ 1 / ‖v‖ * (1002 / 1000))
    rw [h1] at h2
    refine le_trans ?_ h2
    norm_num
  have hTe : ‖a‖ * Su / ‖v‖ = ‖a‖ * Su * (1 / ‖v‖) := by ring
  have r1 : ‖A‖ / ‖V‖ ≤ ‖a‖ * Su / ‖v‖ * (1004 / 1000) := by
    have h1 : ‖A‖ / ‖V‖ = ‖A‖ * (1 / ‖V‖) := by ring
    rw [h1]
    refine (mul_le_mul hA hi (by positivity) (by positivity)).trans ?_
    have h2 : ‖a‖ * Su * (1001 / 1000) * (1 / ‖v‖ * (1002 / 1000)) =
      ‖a‖ * Su / ‖v‖ * (1001 / 1000 * (1002 / 1000)) := by ring
    rw [h2]
    exact mul_le_mul_of_nonneg_left (by norm_num) hT0.le
  have r2 : ‖A / V - a * u / v‖ ≤ ‖A - a * u‖ * (1 / ‖V‖) + ‖a * u‖ * ‖V - v‖ * (1 / ‖v‖ * (1 / ‖V‖)) := by
    have e : A / V - a * u / v = (A - a * u) * (1 / V) + a * u * (v - V) * (1 / v * (1 / V)) := by
      field_simp
      ring
    rw [e]
    refine (norm_add_le _ _).trans ?_
    rw [norm_mul, norm_mul, norm_mul (a * u), norm_mul (1 / v), norm_div, norm_div, norm_one,
      norm_sub_rev v V]
  have r3 : ‖A - a * u‖ * (1 / ‖V‖) ≤ ‖a‖ * Su / ‖v‖ * (116 / 10 / 2 ^ 53) := by
    refine (mul_le_mul hAe hi (by positivity) (by positivity)).trans ?_
    have h2 : ‖a‖ * Su * (115 / 10 / 2 ^ 53) * (1 / ‖v‖ * (1002 / 1000)) =
      ‖a‖ * Su / ‖v‖ * (115 / 10 / 2 ^ 53 * (1002 / 1000)) := by ring
    rw [h2]
    exact mul_le_mul_of_nonneg_left (by norm_num) hT0.le
  have r4 : ‖a * u‖ * ‖V - v‖ * (1 / ‖v‖ * (1 / ‖V‖)) ≤ ‖a‖ * Su / ‖v‖ * K * (75 / 10 / 2 ^ 53) := by
    have h1 : ‖a * u‖ * ‖V - v‖ ≤ ‖a‖ * Su * (K * ‖v‖ * (74 / 10 / 2 ^ 53)) :=
      mul_le_mul hau hVe (norm_nonneg _) hX0.le
    have h2 : 1 / ‖v‖ * (1 / ‖V‖) ≤ 1 / ‖v‖ * (1 / ‖v‖ * (1002 / 1000)) :=
      mul_le_mul_of_nonneg_left hi (by positivity)
    refine (mul_le_mul h1 h2 (by positivity) (by positivity)).trans ?_
    have h3 : ‖a‖ * Su * (K * ‖v‖ * (74 / 10 / 2 ^ 53)) * (1 / ‖v‖ * (1 / ‖v‖ * (1002 / 1000))) =
      ‖a‖ * Su / ‖v‖ * K * (74 / 10 / 2 ^ 53 * (1002 / 1000)) := by
      field_simp
    rw [h3]
    exact mul_le_mul_of_nonneg_left (by norm_num) (by positivity)
  have r5 : ‖Q - a * u / v‖ ≤ ‖Q - A / V‖ + ‖A / V - a * u / v‖ := by
    rw [show Q - a * u / v = (Q - A / V) + (A / V - a * u / v) by ring]
    exact norm_add_le _ _
  have r6 : ((10 : ℝ) ^ 89)⁻¹ ≤ ‖a‖ * Su / ‖v‖ * (1 / 10 / 2 ^ 53) := by
    refine le_trans ?_ (mul_le_mul_of_nonneg_right hTlo (by positivity))
    norm_num
  have r7 : 0 ≤ ‖a‖ * Su / ‖v‖ * K := by positivity
  have r8 : (26 + 8 * K) / 2 ^ 53 * (‖a‖ * Su / ‖v‖) =
    26 / 2 ^ 53 * (‖a‖ * Su / ‖v‖) + 8 / 2 ^ 53 * (‖a‖ * Su / ‖v‖ * K) := by ring
  rw [r8]
  clear hTe hTlo hThi hXlo hXhi hi hAe hA hU1 hVe hVe' u2 v2 A2 r8
  generalize ‖a‖ * Su / ‖v‖ * K = TK at *
  generalize ‖a‖ * Su / ‖v‖ = T at *
  generalize ‖A‖ / ‖V‖ = R1 at *
  generalize ‖A - a * u‖ * (1 / ‖V‖) = R3 at *
  generalize ‖a * u‖ * ‖V - v‖ * (1 / ‖v‖ * (1 / ‖V‖)) = R4 at *
  generalize ((10 : ℝ) ^ 89)⁻¹ = E at *
  norm_num at Q2 r1 r3 r4 r6 ⊢
  linarith

end

theorem zip_index {F : Type} {g : Cx F → Cx F → Cx F} {a b c : CVals F} (h : CVals.zip g a b = .ok c)
    {v : Vals F} (ha : CForm a v) (hb : CForm b v) :
    ∀ z ∈ c.elems, ∃ (i : ℕ) (x y : Cx F), a.elems[i]? = some x ∧ b.elems[i]? = some y ∧
      z = g x y := by
  intro z hz
  cases v with
  | scalar _ =>
    cases a with
    | array _ => exact ha.elim
    | scalar x =>
      cases b with
      | array _ => exact hb.elim
      | scalar y =>
        simp only [CVals.zip, Except.ok.injEq] at h
        subst h
        exact ⟨0, x, y, rfl, rfl, List.mem_singleton.1 hz⟩
  | array _ vs =>
    cases a with
    | scalar _ => exact ha.elim
    | array xs =>
      cases b with
      | scalar _ => exact hb.elim
      | array ys =>
        simp only [CVals.zip] at h
        split at h
        · cases h
          obtain ⟨i, hi⟩ := List.mem_iff_getElem?.1 hz
          have hi : (List.zipWith g xs ys)[i]? = some z := hi
          rw [List.getElem?_zipWith] at hi
          split at hi
          · rename_i x y h1 h2
            exact ⟨i, x, y, h1, h2, (Option.some.inj hi).symm⟩
          · cases hi
        · cases h

theorem stands_unique {z : Cx Dbl} {a b : ℂ} (h1 : StandsForCx z a) (h2 : StandsForCx z b) : a = b :=
  Complex.ext (XR.fin.inj (h1.1.symm.trans h2.1)) (XR.fin.inj (h1.2.symm.trans h2.2))

section

variable [SciPy Dbl]

/-- C134 for constituents with any complex permittivities: if the denominator of the formula is not
smaller than the moduli of its terms by more than a factor `K`, the medium is built and reports the
formula up to `36 + 8 K` units of 2⁻⁵³ of the size of its terms. Missing for the full claim:
denominators that cancel by more than twelve digits, for which it is false. -/
theorem C134_conditioned_partial (s : Spectrum Dbl) (hal : Aligned s) (hs : GoodMetres s)
    (m1 m2 : Material Dbl) (f : Dbl) (φ : ℝ) (hf : f.val = .fin φ) (f0 : 0 ≤ φ) (f1 : φ ≤ 1)
    (e1 e2 : CVals Dbl) (h1 : (m1.getPermittivity s).1 = .ok e1)
    (h2 : (m2.getPermittivity s).1 = .ok e2) (n1 : ∀ z ∈ points e1, ModerateCx z)
    (n2 : ∀ z ∈ points e2, ModerateCx z) (K : ℝ) (hK0 : 0 ≤ K) (hK : K ≤ 2 ^ 40)
    (hcond : ∀ (i : ℕ) (z w : Cx Dbl) (a b : ℂ), (points e1)[i]? = some z → (points e2)[i]? = some w →
      StandsForCx z a → StandsForCx w b →
      (2 + φ) * ‖a‖ + (1 - φ) * ‖b‖ ≤ K * ‖(2 + φ) * a + (1 - φ) * b‖) :
    ∃ m, (effectiveMedium .maxwellGarnett s m1 m2 f).1 = .ok m ∧
      ∀ q : Spectrum Dbl, Aligned q → q.std = s.std → ∃ c, (m.getPermittivity q).1 = .ok c ∧
        ∀ (i : ℕ) (z w : Cx Dbl) (a b : ℂ), (points e1)[i]? = some z → (points e2)[i]? = some w →
          StandsForCx z a → StandsForCx w b →
          ∃ u e, (points c)[i]? = some u ∧ StandsForCx u e ∧
            ‖e - maxwellGarnettC φ a b‖ ≤ (36 + 8 * K) / 2 ^ 53 * maxwellGarnettSize φ a b := by
  have l1' : (lit 1 : Dbl).val = .fin 1 := by exact_mod_cast Dbl.lit_int (n := 1) (by norm_num)
  have l0 : PyFloat.lt f (lit 0) = false := by
    rw [Dbl.lt_real hf lit_zero_val, decide_eq_false_iff_not, not_lt]; exact f0
  have l1 : PyFloat.lt (lit 1) f = false := by
    rw [Dbl.lt_real l1' hf, decide_eq_false_iff_not, not_lt]; exact f1
  obtain ⟨t1, t2⟩ := GoodMetres_table hs
  have pf1 := permittivity_form m1 hal h1
  have pf2 := permittivity_form m2 hal h2
  have hpe : ∀ c : CVals Dbl, c.elems = points c := by intro c; cases c <;> rfl
  have mixed : ∀ (i : ℕ) (z w : Cx Dbl) (a b : ℂ), (points e1)[i]? = some z →
      (points e2)[i]? = some w → StandsForCx z a → StandsForCx w b →
      absTrue (mgDown f z w) = true ∧ ∃ Q, StandsForCx (mgMix f z w) Q ∧
      ‖Q - maxwellGarnettC φ a b‖ ≤ (26 + 8 * K) / 2 ^ 53 * maxwellGarnettSize φ a b ∧
      ‖maxwellGarnettC φ a b‖ ≤ maxwellGarnettSize φ a b ∧
      ((10 : ℝ) ^ 62)⁻¹ ≤ maxwellGarnettSize φ a b ∧ maxwellGarnettSize φ a b ≤ 10 ^ 35 := by
    intro i z w a b hz hw sa sb
    obtain ⟨a', sa', a1, a2⟩ := n1 z (List.mem_of_getElem? hz)
    obtain ⟨b', sb', b1, b2⟩ := n2 w (List.mem_of_getElem? hw)
    have := stands_unique sa sa'
    subst this
    have := stands_unique sb sb'
    subst this
    exact mgMix_any hf f0 f1 sa sb a1 a2 b1 b2 hK0 hK (hcond i z w _ _ hz hw sa sb)
  have size : ∀ {Q : ℂ} {a b : ℂ},
      ‖Q - maxwellGarnettC φ a b‖ ≤ (26 + 8 * K) / 2 ^ 53 * maxwellGarnettSize φ a b →
      ‖maxwellGarnettC φ a b‖ ≤ maxwellGarnettSize φ a b → 0 ≤ maxwellGarnettSize φ a b →
      ‖Q‖ ≤ maxwellGarnettSize φ a b * (101 / 100) := by
    intro Q a b q1 q2 q3
    have h3 := norm_tri Q (maxwellGarnettC φ a b)
    have h4 : (26 + 8 * K) / 2 ^ 53 ≤ 1 / 100 := by
      rw [div_le_div_iff₀ (by positivity) (by norm_num)]
      have : (26 + 8 * 2 ^ 40 : ℝ) * 100 ≤ 1 * 2 ^ 53 := by norm_num
      nlinarith
    have h5 := mul_le_mul_of_nonneg_right h4 q3
    linarith
  obtain ⟨eps, hz, hform⟩ := zip_form (g := mgMix f) pf1 pf2
  obtain ⟨down, hdz, hdform⟩ := zip_form (g := mgDown f) pf1 pf2
  have hany : down.elems.any absTrue = true := by
    have hl := hdform.length_std hal
    have hpos : 0 < down.elems.length := by
      rw [← hl]; exact List.length_pos_iff.2 hs.1
    obtain ⟨z, hzm⟩ := List.exists_mem_of_length_pos hpos
    rw [List.any_eq_true]
    refine ⟨z, hzm, ?_⟩
    obtain ⟨i, x, y, hx, hy, rfl⟩ := zip_index hdz pf1 pf2 z hzm
    rw [hpe] at hx hy
    obtain ⟨a, sa, -⟩ := n1 x (List.mem_of_getElem? hx)
    obtain ⟨b, sb, -⟩ := n2 y (List.mem_of_getElem? hy)
    exact (mixed i x y a b hx hy sa sb).1
  have hmix : mixVals .maxwellGarnett f e1 e2 = .ok eps := by
    simp only [mixVals, bind, Except.bind, hdz, hany, if_true, hz]
  obtain ⟨m, hm⟩ := medium_builds (k := .maxwellGarnett) hal hs.1 t1 t2 l0 l1 h1 h2 hmix
    (hform.length_std hal)
  refine ⟨m, hm, ?_⟩
  intro q hq hqs
  obtain ⟨-, -, d1, d2, eps', k1, k2, k3, k4⟩ := medium_entries_any hal (GoodMetres_mag hs) hm
  rw [h1] at k1
  cases k1
  rw [h2] at k2
  cases k2
  have he : eps' = eps := Except.ok.inj (k3.symm.trans hmix)
  subst he
  obtain ⟨c, c1, c2⟩ := k4 (by
    intro z hzm
    rw [← hpe] at hzm
    obtain ⟨i, x, y, hx, hy, rfl⟩ := zip_index hz pf1 pf2 z hzm
    rw [hpe] at hx hy
    obtain ⟨a, sa, -⟩ := n1 x (List.mem_of_getElem? hx)
    obtain ⟨b, sb, -⟩ := n2 y (List.mem_of_getElem? hy)
    obtain ⟨-, Q, Q1, Q2, Q3, Q4, Q5⟩ := mixed i x y a b hx hy sa sb
    have hQ := size Q2 Q3 ((by positivity : (0 : ℝ) ≤ ((10 : ℝ) ^ 62)⁻¹).trans Q4)
    have hb : (10 : ℝ) ^ 35 * (101 / 100) ≤ 10 ^ 60 := by norm_num
    exact ⟨⟨_, Q1.1, by linarith [Complex.abs_re_le_norm Q]⟩,
      ⟨_, Q1.2, by linarith [Complex.abs_im_le_norm Q]⟩⟩) q hq hqs
  refine ⟨c, c1, ?_⟩
  intro i z w a b hzi hwi sa sb
  obtain ⟨-, Q, Q1, Q2, Q3, Q4, Q5⟩ := mixed i z w a b hzi hwi sa sb
  have hT0 : 0 ≤ maxwellGarnettSize φ a b := (by positivity : (0 : ℝ) ≤ ((10 : ℝ) ^ 62)⁻¹).trans Q4
  have hQ := size Q2 Q3 hT0
  obtain ⟨u, u1, ⟨x, x1, x2⟩, ⟨y, y1, y2⟩⟩ := c2 i _ _ _ (zip_points hz hzi hwi) Q1.1 Q1.2
  refine ⟨u, ⟨x, y⟩, u1, ⟨x1, y1⟩, ?_⟩
  have g1 : ‖(⟨x, y⟩ : ℂ) - Q‖ ≤ 9 / 2 ^ 53 * ‖Q‖ + 2 * ((10 : ℝ) ^ 190)⁻¹ := by
    refine norm_scaled (by positivity) (by positivity) ?_ ?_
    · rw [Complex.sub_re]
      have e : 9 / 2 ^ 53 * |Q.re| = |Q.re| * 9 / 2 ^ 53 := by ring
      rw [e]; exact x2
    · rw [Complex.sub_im]
      have e : 9 / 2 ^ 53 * |Q.im| = |Q.im| * 9 / 2 ^ 53 := by ring
      rw [e]; exact y2
  have g2 : ‖(⟨x, y⟩ : ℂ) - maxwellGarnettC φ a b‖ ≤ ‖(⟨x, y⟩ : ℂ) - Q‖ +
      ‖Q - maxwellGarnettC φ a b‖ := by
    rw [show (⟨x, y⟩ : ℂ) - maxwellGarnettC φ a b = (⟨x, y⟩ - Q) + (Q - maxwellGarnettC φ a b) by ring]
    exact norm_add_le _ _
  have g3 : 2 * ((10 : ℝ) ^ 190)⁻¹ ≤ 1 / 10 / 2 ^ 53 * maxwellGarnettSize φ a b := by
    refine le_trans ?_ (mul_le_mul_of_nonneg_left Q4 (by positivity))
    norm_num
  have g4 : (36 + 8 * K) / 2 ^ 53 * maxwellGarnettSize φ a b =
    (26 + 8 * K) / 2 ^ 53 * maxwellGarnettSize φ a b + 10 / 2 ^ 53 * maxwellGarnettSize φ a b := by ring
  rw [g4]
  have g5 : 9 / 2 ^ 53 * ‖Q‖ ≤ 9 / 2 ^ 53 * (maxwellGarnettSize φ a b * (101 / 100)) :=
    mul_le_mul_of_nonneg_left hQ (by positivity)
  generalize (26 + 8 * K) / 2 ^ 53 * maxwellGarnettSize φ a b = T1 at *
  generalize maxwellGarnettSize φ a b = T at *
  norm_num at g1 g3 g5 ⊢
  linarith

end

namespace Spec

/-- A dielectric with or without loss: neither part of the permittivity is negative. -/
def LossyDielectric (z : Cx Dbl) : Prop :=
  ∃ a, StandsForCx z a ∧ ((10 : ℝ) ^ 20)⁻¹ ≤ ‖a‖ ∧ ‖a‖ ≤ 10 ^ 20 ∧ 0 ≤ a.re ∧ 0 ≤ a.im

end Spec

/-- Sums in a quadrant cancel little. -/
theorem quadrant_sum {x y : ℝ} {a b : ℂ} (hx : 0 ≤ x) (hy : 0 ≤ y) (ha : 0 ≤ a.re ∧ 0 ≤ a.im)
    (hb : 0 ≤ b.re ∧ 0 ≤ b.im) : x * ‖a‖ + y * ‖b‖ ≤ 3 / 2 * ‖(x : ℂ) * a + y * b‖ := by
  have e : ‖(x : ℂ) * a + y * b‖ ^ 2 = x ^ 2 * ‖a‖ ^ 2 + y ^ 2 * ‖b‖ ^ 2 +
      2 * (x * y) * (a.re * b.re + a.im * b.im) := by
    rw [← parts_norm, ← parts_norm, ← parts_norm]
    simp only [Complex.add_re, Complex.add_im, Complex.mul_re, Complex.mul_im, Complex.ofReal_re,
      Complex.ofReal_im]
    ring
  have h1 : 0 ≤ 2 * (x * y) * (a.re * b.re + a.im * b.im) := by
    have := mul_nonneg ha.1 hb.1
    have := mul_nonneg ha.2 hb.2
    positivity
  refine abs_le_of_sq_le_sq' (a := x * ‖a‖ + y * ‖b‖) ?_ (by positivity) |>.2
  have h2 := sq_nonneg (x * ‖a‖ - y * ‖b‖)
  have h3 : 0 ≤ (x * ‖a‖) ^ 2 + (y * ‖b‖) ^ 2 := by positivity
  nlinarith

section

variable [SciPy Dbl]

/-- C134 for dielectrics with loss: the medium is built and reports the Maxwell-Garnett formula up to
72·2⁻⁵³ of its modulus. -/
theorem C134_lossy_partial (s : Spectrum Dbl) (hal : Aligned s) (hs : GoodMetres s)
    (m1 m2 : Material Dbl) (f : Dbl) (φ : ℝ) (hf : f.val = .fin φ) (f0 : 0 ≤ φ) (f1 : φ ≤ 1)
    (e1 e2 : CVals Dbl) (h1 : (m1.getPermittivity s).1 = .ok e1)
    (h2 : (m2.getPermittivity s).1 = .ok e2) (n1 : ∀ z ∈ points e1, LossyDielectric z)
    (n2 : ∀ z ∈ points e2, LossyDielectric z) :
    ∃ m, (effectiveMedium .maxwellGarnett s m1 m2 f).1 = .ok m ∧
      ∀ q : Spectrum Dbl, Aligned q → q.std = s.std → ∃ c, (m.getPermittivity q).1 = .ok c ∧
        ∀ (i : ℕ) (z w : Cx Dbl) (a b : ℂ), (points e1)[i]? = some z → (points e2)[i]? = some w →
          StandsForCx z a → StandsForCx w b →
          ∃ u e, (points c)[i]? = some u ∧ StandsForCx u e ∧
            ‖e - maxwellGarnettC φ a b‖ ≤ ‖maxwellGarnettC φ a b‖ * 72 / 2 ^ 53 := by
  have quad : ∀ {z : Cx Dbl} {a : ℂ}, LossyDielectric z → StandsForCx z a → 0 ≤ a.re ∧ 0 ≤ a.im := by
    rintro z a ⟨a', h, -, -, h3, h4⟩ h'
    rw [stands_unique h' h]
    exact ⟨h3, h4⟩
  obtain ⟨m, hm, hq⟩ := C134_conditioned_partial s hal hs m1 m2 f φ hf f0 f1 e1 e2 h1 h2
    (fun z h => (n1 z h).imp fun a h => ⟨h.1, h.2.1, h.2.2.1⟩)
    (fun z h => (n2 z h).imp fun a h => ⟨h.1, h.2.1, h.2.2.1⟩) (3 / 2) (by norm_num) (by norm_num) (by
      intro i z w a b hz hw sa sb
      have := quadrant_sum (x := 2 + φ) (y := 1 - φ) (by linarith) (by linarith)
        (quad (n1 z (List.mem_of_getElem? hz)) sa) (quad (n2 w (List.mem_of_getElem? hw)) sb)
      push_cast at this
      exact this)
  refine ⟨m, hm, ?_⟩
  intro q hal' hqs
  obtain ⟨c, c1, c2⟩ := hq q hal' hqs
  refine ⟨c, c1, ?_⟩
  intro i z w a b hz hw sa sb
  obtain ⟨u, e, u1, u2, u3⟩ := c2 i z w a b hz hw sa sb
  refine ⟨u, e, u1, u2, u3.trans ?_⟩
  have h3 := quadrant_sum (x := 2 * (1 - φ)) (y := 1 + 2 * φ) (by linarith) (by linarith)
    (quad (n1 z (List.mem_of_getElem? hz)) sa) (quad (n2 w (List.mem_of_getElem? hw)) sb)
  push_cast at h3
  have h4 : maxwellGarnettSize φ a b ≤ 3 / 2 * ‖maxwellGarnettC φ a b‖ := by
    unfold maxwellGarnettSize maxwellGarnettC
    rw [norm_div, norm_mul, ← mul_div_assoc]
    refine div_le_div_of_nonneg_right ?_ (norm_nonneg _)
    have := mul_le_mul_of_nonneg_left h3 (norm_nonneg a)
    linarith
  have e' : (36 + 8 * (3 / 2) : ℝ) / 2 ^ 53 = 48 / 2 ^ 53 := by norm_num
  rw [e']
  calc 48 / 2 ^ 53 * maxwellGarnettSize φ a b ≤ 48 / 2 ^ 53 * (3 / 2 * ‖maxwellGarnettC φ a b‖) :=
        mul_le_mul_of_nonneg_left h4 (by positivity)
    _ = ‖maxwellGarnettC φ a b‖ * 72 / 2 ^ 53 := by ring

end

/-- A case of `C134_conditioned_partial`: half a metal of permittivity `-10 + 1j` in a host of
permittivity 2, at the resonance of the medium, where the denominator is `0.5j`. -/
example [SciPy Dbl] [NumText Dbl] (rd : String → Res (FileDict Dbl)) : ∃ m1 m2 m : Material Dbl, ∃ c,
    Material.new rd [("fixed_eps", .cplx ⟨intDbl 2, intDbl 0⟩)] = .ok m1 ∧
    Material.new rd [("fixed_eps", .cplx ⟨intDbl (-10), intDbl 1⟩)] = .ok m2 ∧
    (effectiveMedium .maxwellGarnett oneMetre m1 m2 (lit 0.5)).1 = .ok m ∧
    (m.getPermittivity oneMetre).1 = .ok c ∧
    ∃ u e, (points c)[0]? = some u ∧ StandsForCx u e ∧
      ‖e - maxwellGarnettC (1 / 2 : ℝ) 2 ⟨-10, 1⟩‖ ≤
        (36 + 8 * 22) / 2 ^ 53 * maxwellGarnettSize (1 / 2) 2 ⟨-10, 1⟩ := by
  obtain ⟨m1, a1, a2⟩ := fixed_oneMetre rd ⟨intDbl 2, intDbl 0⟩
  obtain ⟨m2, b1, b2⟩ := fixed_oneMetre rd ⟨intDbl (-10), intDbl 1⟩
  have h2 : IntCx (cplxOf (intDbl 2) (intDbl 0)) 2 0 :=
    cplx_int (intDbl_val (by norm_num)) (intDbl_val (by norm_num)) (by norm_num) (by norm_num)
  have h10 : IntCx (cplxOf (intDbl (-10)) (intDbl 1)) (-10) 1 :=
    cplx_int (intDbl_val (by norm_num)) (intDbl_val (by norm_num)) (by norm_num) (by norm_num)
  have s2 : StandsForCx (cplxOf (intDbl 2) (intDbl 0)) 2 :=
    ⟨by simpa using h2.re, by simpa using h2.im⟩
  have s10 : StandsForCx (cplxOf (intDbl (-10)) (intDbl 1)) ⟨-10, 1⟩ :=
    ⟨by simpa using h10.re, by simpa using h10.im⟩
  have n10 : ‖(⟨-10, 1⟩ : ℂ)‖ ^ 2 = 101 := by rw [← parts_norm]; norm_num
  have n10' : 10 ≤ ‖(⟨-10, 1⟩ : ℂ)‖ ∧ ‖(⟨-10, 1⟩ : ℂ)‖ ≤ 11 := by
    have h0 := norm_nonneg (⟨-10, 1⟩ : ℂ)
    constructor <;> nlinarith
  obtain ⟨m, c1, c2⟩ := C134_conditioned_partial oneMetre oneMetre_aligned oneMetre_good m1 m2 (lit 0.5)
    (1 / 2) half_val (by norm_num) (by norm_num) _ _ a2 b2
    (by
      intro z hz
      rw [show z = _ from List.mem_singleton.1 hz]
      exact ⟨_, s2, by norm_num, by norm_num⟩)
    (by
      intro z hz
      rw [show z = _ from List.mem_singleton.1 hz]
      exact ⟨_, s10, by linarith [n10'.1, show ((10 : ℝ) ^ 20)⁻¹ ≤ 1 by norm_num],
        by linarith [n10'.2, show (11 : ℝ) ≤ 10 ^ 20 by norm_num]⟩)
    22 (by norm_num) (by norm_num)
    (by
      intro i z w a b hz hw ha hb
      cases i with
      | succ i => simp [points] at hz
      | zero =>
        have hz : cplxOf (intDbl 2) (intDbl 0) = z := by simpa [points] using hz
        have hw : cplxOf (intDbl (-10)) (intDbl 1) = w := by simpa [points] using hw
        subst hz hw
        rw [← stands_unique s2 ha, ← stands_unique s10 hb]
        have e : (2 + ((1 / 2 : ℝ) : ℂ)) * 2 + (1 - ((1 / 2 : ℝ) : ℂ)) * ⟨-10, 1⟩ = ⟨0, 1 / 2⟩ := by
          apply Complex.ext <;> simp <;> norm_num
        have e2 : ‖(⟨0, 1 / 2⟩ : ℂ)‖ = 1 / 2 := by
          have h3 : ‖(⟨0, 1 / 2⟩ : ℂ)‖ ^ 2 = 1 / 4 := by rw [← parts_norm]; norm_num
          nlinarith [norm_nonneg (⟨0, 1 / 2⟩ : ℂ)]
        rw [e, e2]
        have : ‖(2 : ℂ)‖ = 2 := by norm_num
        rw [this]
        linarith [n10'.2])
  obtain ⟨c, d1, d2⟩ := c2 oneMetre oneMetre_aligned rfl
  exact ⟨m1, m2, m, c, a1, b1, c1, d1, d2 0 _ _ _ _ rfl rfl s2 s10⟩

end

end Disp
