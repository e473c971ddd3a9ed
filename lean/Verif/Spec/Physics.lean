import Mathlib.Analysis.SpecialFunctions.Trigonometric.Basic
/-!
# Specification: the physical relations between wavelength, frequency, energy and wavenumber
-/

namespace Disp.Spec

noncomputable section

/-- Speed of light, Planck constant and elementary charge (exact SI values). -/
def c : ℝ := 299792458
def h : ℝ := 662607015 / 10 ^ 42
def e : ℝ := 1602176634 / 10 ^ 28

/-- Metres per length unit. -/
def lengthUnit (u : String) : ℝ :=
  if u = "nm" then 1 / 10 ^ 9
  else if u = "cm" then 1 / 10 ^ 2
  else if u = "um" then 1 / 10 ^ 6
  else if u = "a" then 1 / 10 ^ 10
  else 1

/-- The vacuum wavelength in metres belonging to the value `x` of a type and unit: a length,
a frequency in Hz (`L = c/f`), a photon energy in eV (`L = hc/(eE)`), an angular frequency in
1/s (`L = 2πc/ω`) or a wavenumber in 1/cm (`L = 2π/k`). -/
def metres (t u : String) (x : ℝ) : ℝ :=
  if t = "frequency" then c / x
  else if t = "energy" then h * c / (e * x)
  else if t = "angularfrequency" then 2 * Real.pi * c / x
  else if t = "wavenumber" then 2 * Real.pi / (x * 100)
  else x * lengthUnit u

/-- The value of a type and unit that belongs to the vacuum wavelength `l` in metres. -/
def ofMetres (t u : String) (l : ℝ) : ℝ :=
  if t = "frequency" then c / l
  else if t = "energy" then h * c / (e * l)
  else if t = "angularfrequency" then 2 * Real.pi * c / l
  else if t = "wavenumber" then 2 * Real.pi / (l * 100)
  else l / lengthUnit u

/-- Number of decimals to which a conversion rounds (`none`: it does not round). -/
def decimals (t u : String) : Option ℕ :=
  if t = "energy" then some 9
  else if t = "wavelength" then
    (if u = "cm" then some 5 else if u = "nm" then some 12 else if u = "um" then some 9
     else if u = "a" then some 13 else none)
  else none

/-- `y` is `v` rounded to the given number of decimals: a decimal fraction of that many places
at a distance of at most half a unit in the last place. -/
def Rounded : Option ℕ → ℝ → ℝ → Prop
  | none, y, v => y = v
  | some d, y, v => (∃ m : ℤ, y = m / 10 ^ d) ∧ |y - v| ≤ 1 / 2 / 10 ^ d

/-- The types that are inversely proportional to the wavelength. -/
def Reciprocal (t : String) : Prop := t ≠ "wavelength"

end

end Disp.Spec
