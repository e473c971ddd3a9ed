import Mathlib.Analysis.SpecialFunctions.Trigonometric.ArctanDeriv
import Mathlib.Analysis.SpecialFunctions.Log.Deriv
import Verif.Lemmas.PrincipalValue
/-!
# An antiderivative for the Tauc-Lorentz model
-/

namespace Disp
open MeasureTheory Filter Topology Set Spec

namespace TL

/-- `x² + α x + E0²`; the denominator of the model is the product for `α` and `-α`. -/
def quad (al e0 x : ℝ) : ℝ := x ^ 2 + al * x + e0 ^ 2

/-- Twice the coefficient of `(x² + E0²)` over the denominator. -/
noncomputable def coefAtan (al e0 eg e : ℝ) : ℝ :=
  -((e ^ 2 - e0 ^ 2) * (e0 ^ 2 + eg ^ 2) + eg ^ 2 * (4 * e0 ^ 2 - al ^ 2)) / (2 * e0 ^ 2)

/-- The coefficient of `(x² - E0²)`. -/
noncomputable def coefLog (al e0 eg e : ℝ) : ℝ :=
  ((eg ^ 2 - e0 ^ 2) * e ^ 2 + eg ^ 2 * (4 * e0 ^ 2 - al ^ 2) - e0 ^ 2 * (e0 ^ 2 + 3 * eg ^ 2)) /
    (2 * e0 ^ 2)

/-- `E² - γ²`. -/
noncomputable def shift (al e0 e : ℝ) : ℝ := e ^ 2 - (al ^ 2 / 2 - e0 ^ 2)

theorem split_fraction {al e0 eg e x : ℝ} (hal : al ≠ 0) (h0 : e0 ≠ 0) (he : e ≠ 0)
    (h1 : x - e ≠ 0) (h2 : x + e ≠ 0) (h3 : quad al e0 x ≠ 0) (h4 : quad (-al) e0 x ≠ 0)
    (h5 : quad al e0 e * quad (-al) e0 e ≠ 0) :
    ((e - eg) ^ 2 / (2 * e) / (x - e) + -(e + eg) ^ 2 / (2 * e) / (x + e) +
      ((eg / 2 - coefLog al e0 eg e / (2 * al)) * (2 * x + al) +
        (coefAtan al e0 eg e / 2 - eg * shift al e0 e / al)) / quad al e0 x +
      ((eg / 2 + coefLog al e0 eg e / (2 * al)) * (2 * x - al) +
        (coefAtan al e0 eg e / 2 + eg * shift al e0 e / al)) / quad (-al) e0 x) /
      (quad al e0 e * quad (-al) e0 e) =
    (x - eg) ^ 2 / (quad al e0 x * quad (-al) e0 x * (x ^ 2 - e ^ 2)) := by
  have h6 : x ^ 2 - e ^ 2 ≠ 0 := by
    have : x ^ 2 - e ^ 2 = (x - e) * (x + e) := by ring
    rw [this]; exact mul_ne_zero h1 h2
  unfold coefLog coefAtan shift
  rw [div_eq_div_iff h5 (mul_ne_zero (mul_ne_zero h3 h4) h6)]
  field_simp
  unfold quad
  ring

/-- The antiderivative, times `ζ⁴`. -/
noncomputable def anti (al e0 c eg e x : ℝ) : ℝ :=
  (e - eg) ^ 2 / (2 * e) * Real.log (x - e) + -(e + eg) ^ 2 / (2 * e) * Real.log (x + e) +
    ((eg / 2 - coefLog al e0 eg e / (2 * al)) * Real.log (quad al e0 x) +
      (coefAtan al e0 eg e / c - 2 * (eg * shift al e0 e / al) / c) *
        Real.arctan ((2 * x + al) / c)) +
    ((eg / 2 + coefLog al e0 eg e / (2 * al)) * Real.log (quad (-al) e0 x) +
      (coefAtan al e0 eg e / c + 2 * (eg * shift al e0 e / al) / c) *
        Real.arctan ((2 * x + -al) / c))

/-- `x² ± α x + E0² > 0`. -/
theorem quad_pos {al e0 c : ℝ} (hc : c ≠ 0) (hal : al ^ 2 = 4 * e0 ^ 2 - c ^ 2) (x : ℝ) :
    0 < quad al e0 x := by
  unfold quad
  have : 0 < c ^ 2 := by positivity
  nlinarith [sq_nonneg (2 * x + al)]

theorem quad_deriv (al e0 x : ℝ) : HasDerivAt (quad al e0) (2 * x + al) x := by
  unfold quad
  have h1 : HasDerivAt (fun x : ℝ => x ^ 2) (2 * x) x := by simpa using hasDerivAt_pow 2 x
  have h2 : HasDerivAt (fun x : ℝ => al * x) al x := by simpa using (hasDerivAt_id x).const_mul al
  exact (h1.add h2).add_const _

theorem arctan_deriv {al e0 c : ℝ} (hc : c ≠ 0) (hal : al ^ 2 = 4 * e0 ^ 2 - c ^ 2) (x : ℝ) :
    HasDerivAt (fun x => Real.arctan ((2 * x + al) / c)) (c / 2 / quad al e0 x) x := by
  have h1 : HasDerivAt (fun x : ℝ => (2 * x + al) / c) (2 / c) x := by
    simpa using (((hasDerivAt_id x).const_mul 2).add_const al).div_const c
  have h2 := h1.arctan
  convert h2 using 1
  have hq := (quad_pos hc hal x).ne'
  have hp : 1 + ((2 * x + al) / c) ^ 2 ≠ 0 := by positivity
  have e1 : 4 * quad al e0 x = c ^ 2 + (2 * x + al) ^ 2 := by
    unfold quad; nlinarith
  have e2 : 1 + ((2 * x + al) / c) ^ 2 = 4 * quad al e0 x / c ^ 2 := by
    rw [e1]; field_simp
  rw [e2]
  field_simp
  norm_num

theorem anti_deriv {al e0 c eg e x : ℝ} (hal0 : al ≠ 0) (h0 : e0 ≠ 0) (hc : c ≠ 0)
    (hal : al ^ 2 = 4 * e0 ^ 2 - c ^ 2) (he : e ≠ 0) (h1 : x - e ≠ 0) (h2 : x + e ≠ 0) :
    HasDerivAt (anti al e0 c eg e)
      ((quad al e0 e * quad (-al) e0 e) *
        ((x - eg) ^ 2 / (quad al e0 x * quad (-al) e0 x * (x ^ 2 - e ^ 2)))) x := by
  have hal' : (-al) ^ 2 = 4 * e0 ^ 2 - c ^ 2 := by rw [neg_sq, hal]
  have h3 := (quad_pos hc hal x).ne'
  have h4 := (quad_pos hc hal' x).ne'
  have h5 : quad al e0 e * quad (-al) e0 e ≠ 0 :=
    mul_ne_zero (quad_pos hc hal e).ne' (quad_pos hc hal' e).ne'
  rw [← split_fraction hal0 h0 he h1 h2 h3 h4 h5, mul_div_cancel₀ _ h5]
  have d1 : HasDerivAt (fun x => Real.log (x - e)) (1 / (x - e)) x :=
    ((hasDerivAt_id x).sub_const e).log h1
  have d2 : HasDerivAt (fun x => Real.log (x + e)) (1 / (x + e)) x :=
    ((hasDerivAt_id x).add_const e).log h2
  have d3 := (quad_deriv al e0 x).log h3
  have d4 := (quad_deriv (-al) e0 x).log h4
  have d5 := arctan_deriv hc hal x
  have d6 := arctan_deriv hc hal' x
  have := (((d1.const_mul ((e - eg) ^ 2 / (2 * e))).add
    (d2.const_mul (-(e + eg) ^ 2 / (2 * e)))).add
    ((d3.const_mul (eg / 2 - coefLog al e0 eg e / (2 * al))).add
      (d5.const_mul (coefAtan al e0 eg e / c - 2 * (eg * shift al e0 e / al) / c)))).add
    ((d4.const_mul (eg / 2 + coefLog al e0 eg e / (2 * al))).add
      (d6.const_mul (coefAtan al e0 eg e / c + 2 * (eg * shift al e0 e / al) / c)))
  refine HasDerivAt.congr_deriv (f := anti al e0 c eg e) this ?_
  field_simp
  ring

/-- Logarithms of polynomials with the same leading term differ by little at infinity. -/
theorem log_lin (k : ℝ) : Tendsto (fun x => Real.log (x + k) - Real.log x) atTop (𝓝 0) := by
  have h1 : Tendsto (fun x : ℝ => 1 + k / x) atTop (𝓝 1) := by
    have a1 : Tendsto (fun x : ℝ => k / x) atTop (𝓝 0) := tendsto_const_nhds.div_atTop tendsto_id
    simpa using (tendsto_const_nhds (x := (1 : ℝ))).add a1
  have h2 := ((Real.continuousAt_log one_ne_zero).tendsto.comp h1)
  rw [Real.log_one] at h2
  refine h2.congr' ?_
  filter_upwards [eventually_gt_atTop 0, eventually_gt_atTop (-k)] with x hx hk
  have : 1 + k / x = (x + k) / x := by field_simp
  simp only [Function.comp]
  rw [this, Real.log_div (by linarith) hx.ne']

theorem log_quad {al e0 : ℝ} : Tendsto (fun x => Real.log (quad al e0 x) - 2 * Real.log x) atTop
    (𝓝 0) := by
  have h1 : Tendsto (fun x : ℝ => 1 + al / x + e0 ^ 2 / x ^ 2) atTop (𝓝 1) := by
    have a1 : Tendsto (fun x : ℝ => al / x) atTop (𝓝 0) := tendsto_const_nhds.div_atTop tendsto_id
    have a2 : Tendsto (fun x : ℝ => e0 ^ 2 / x ^ 2) atTop (𝓝 0) :=
      tendsto_const_nhds.div_atTop (tendsto_pow_atTop two_ne_zero)
    simpa using (tendsto_const_nhds (x := (1 : ℝ))).add a1 |>.add a2
  have h2 := ((Real.continuousAt_log one_ne_zero).tendsto.comp h1)
  rw [Real.log_one] at h2
  refine h2.congr' ?_
  filter_upwards [eventually_gt_atTop 0, h1.eventually (lt_mem_nhds one_pos)] with x hx hpos
  have e1 : quad al e0 x = x ^ 2 * (1 + al / x + e0 ^ 2 / x ^ 2) := by
    unfold quad; field_simp
  simp only [Function.comp]
  rw [e1, Real.log_mul (by positivity) hpos.ne', Real.log_pow]
  push_cast
  ring

theorem arctan_top {al c : ℝ} (hc : 0 < c) :
    Tendsto (fun x => Real.arctan ((2 * x + al) / c)) atTop (𝓝 (Real.pi / 2)) := by
  refine (Real.tendsto_arctan_atTop.mono_right nhdsWithin_le_nhds).comp ?_
  refine Tendsto.atTop_div_const hc ?_
  exact tendsto_atTop_add_const_right _ _ (tendsto_id.const_mul_atTop two_pos)

theorem anti_top {al e0 c eg e : ℝ} (he : e ≠ 0) (hc : 0 < c) :
    Tendsto (anti al e0 c eg e) atTop (𝓝 (coefAtan al e0 eg e / c * Real.pi)) := by
  have l1 := (log_lin (-e)).const_mul ((e - eg) ^ 2 / (2 * e))
  have l2 := (log_lin e).const_mul (-(e + eg) ^ 2 / (2 * e))
  have l3 := (log_quad (al := al) (e0 := e0)).const_mul (eg / 2 - coefLog al e0 eg e / (2 * al))
  have l4 := (log_quad (al := -al) (e0 := e0)).const_mul (eg / 2 + coefLog al e0 eg e / (2 * al))
  have l5 := (arctan_top (al := al) hc).const_mul
    (coefAtan al e0 eg e / c - 2 * (eg * shift al e0 e / al) / c)
  have l6 := (arctan_top (al := -al) hc).const_mul
    (coefAtan al e0 eg e / c + 2 * (eg * shift al e0 e / al) / c)
  have := ((l1.add l2).add (l3.add l5)).add (l4.add l6)
  convert this using 1
  · funext x
    unfold anti
    simp only [← sub_eq_add_neg]
    field_simp
    ring
  · congr 1
    ring

end TL

end Disp
