import Verif.Model.Material
/-!
# Specification: the documented arguments of `Material`

Written from the class documentation (material.py 50-96), independently of the model's argument
processing.
-/

namespace Disp.Spec

/-- The documented type of a data argument. -/
inductive DocType
  | text | real | complex | table (columns : Nat) | model
  deriving DecidableEq

/-- The data arguments and their documented types. -/
def sources : List (String × DocType) :=
  [("file_path", .text), ("fixed_n", .real), ("fixed_nk", .complex), ("fixed_eps_r", .real),
   ("fixed_eps", .complex), ("tabulated_n", .table 2), ("tabulated_nk", .table 3),
   ("tabulated_n_alpha", .table 3), ("tabulated_eps", .table 3), ("model_kw", .model)]

/-- The other documented arguments. -/
def textOptions : List String := ["spectrum_type", "unit"]

/-- A value has the Python type of the documentation. -/
def HasType {F : Type} : DocType → PyVal F → Prop
  | .text, v => ∃ s, v = .str s
  | .real, v => ∃ x, v = .float x
  | .complex, v => ∃ z, v = .cplx z
  | .table _, v => ∃ a, v = .arr a
  | .model, v => ∃ d, v = .dict d

/-- A table has two axes and the documented number of columns; other values have no shape. -/
def HasShape {F : Type} : DocType → PyVal F → Prop
  | .table n, v => ∃ dt rows, v = .arr (.d2 n dt rows)
  | _, _ => True

/-- An argument is given: present and not `None`. -/
def Given {F : Type} (kw : Kwargs F) (name : String) : Prop :=
  ∃ v, (name, v) ∈ kw ∧ v ≠ PyVal.none

/-- The data argument `name` with value `v` is the only one that is given. -/
structure Only {F : Type} (kw : Kwargs F) (name : String) (t : DocType) (v : PyVal F) : Prop where
  source : (name, t) ∈ sources
  mem : (name, v) ∈ kw
  given : v ≠ PyVal.none
  unique : ∀ n ty, (n, ty) ∈ sources → Given kw n → n = name

/-- The options are strings, and the undocumented name `interp_oder` is not used. -/
structure PlainOptions {F : Type} (kw : Kwargs F) : Prop where
  text : ∀ n ∈ textOptions, ∀ v, (n, v) ∈ kw → v = .none ∨ ∃ s, v = .str s
  noTypo : ¬ Given kw "interp_oder"

/-- The quantity that an argument describes. -/
def quantity : String → Option String
  | "fixed_n" => some "nk"
  | "fixed_nk" => some "nk"
  | "tabulated_n" => some "nk"
  | "tabulated_nk" => some "nk"
  | "tabulated_n_alpha" => some "nk"
  | "fixed_eps_r" => some "eps"
  | "fixed_eps" => some "eps"
  | "tabulated_eps" => some "eps"
  | _ => none

/-- The index models and the permittivity models. -/
def indexModels : List String :=
  ["Sellmeier", "Sellmeier2", "Polynomial", "RefractiveIndexInfo", "Cauchy", "Gases",
   "Herzberger", "Retro", "Exotic"]

/-- See `indexModels`. -/
def permittivityModels : List String := ["Drude", "DrudeLorentz", "TaucLorentz"]

end Disp.Spec
