import Mathlib.MeasureTheory.Integral.IntegralEqImproper
/-!
# Specification: principal values and the relations of Kramers and Kronig
-/

namespace Disp.Spec
open MeasureTheory Filter Topology

/-- The positive numbers at a distance of at least `d` from `e`. -/
def away (e d : ℝ) : Set ℝ := {x | 0 < x ∧ d ≤ |x - e|}

/-- `v` is the principal value of the integral of `f` from zero to infinity, with a window around
`e` that shrinks: the integrals over what is outside the window exist and tend to `v`. -/
structure PrincipalValue (f : ℝ → ℝ) (e v : ℝ) : Prop where
  integrable : ∀ d, 0 < d → IntegrableOn f (away e d)
  tendsto : Tendsto (fun d => ∫ x in away e d, f x) (𝓝[>] 0) (𝓝 v)

/-- The relation of Kramers and Kronig at the energy `e`: the real part is the high-energy limit
`einf` plus `2 / π` times the principal value of the integral of `x ε₂(x) / (x² - e²)`. -/
def KramersKronig (re im : ℝ → ℝ) (einf e : ℝ) : Prop :=
  ∃ v, PrincipalValue (fun x => x * im x / (x ^ 2 - e ^ 2)) e v ∧ re e = einf + 2 / Real.pi * v

end Disp.Spec
