import Verif.Lemmas.Files
/-!
# What is assumed of the YAML library

Mappings of text can be written and read back, whatever the order of the keys afterwards, also
behind lines of comment. Numbers are left out: what the libraries do with NumPy's numbers depends
on the library.
-/

namespace Disp

variable {F : Type}

/-- Text of printable ASCII characters and line feeds. -/
def Spec.PlainText (s : String) : Prop :=
  ∀ c ∈ s.toList, c = '\n' ∨ (32 ≤ c.toNat ∧ c.toNat ≤ 126)

/-- The keys of a mapping are distinct. -/
def Spec.Distinct {α : Type} (d : List (String × α)) : Prop := (d.map Prod.fst).Nodup

/-- A dataset of text. -/
def Spec.TextDataset (d : Dataset F) : Prop :=
  Distinct d ∧ ∀ p ∈ d, PlainText p.1 ∧ (p.2 = .none ∨ ∃ s, p.2 = .str s ∧ PlainText s)

/-- A value of text. -/
def Spec.TextValue : YVal F → Prop
  | .entry (.str s) => PlainText s
  | .entry (.dict d) => Distinct d ∧ ∀ p ∈ d, PlainText p.1 ∧ PlainText p.2
  | .data ds => ∀ d ∈ ds, TextDataset d

/-- A mapping of text that is not empty. -/
structure Spec.TextMapping (yd : YDict F) : Prop where
  ne : yd ≠ []
  distinct : Distinct yd
  keys : ∀ p ∈ yd, PlainText p.1
  values : ∀ p ∈ yd, TextValue p.2

/-- The same value up to the order of keys. -/
inductive Spec.SameValue : YVal F → YVal F → Prop
  | text (s : String) : SameValue (.entry (.str s)) (.entry (.str s))
  | dict {a b : List (String × String)} : a.Perm b → SameValue (.entry (.dict a)) (.entry (.dict b))
  | data {a b : List (Dataset F)} : List.Forall₂ List.Perm a b → SameValue (.data a) (.data b)

/-- The same mapping up to the order of keys. -/
def Spec.SameMapping (a b : YDict F) : Prop :=
  ∃ p : YDict F, a.Perm p ∧ List.Forall₂ (fun x y => x.1 = y.1 ∧ SameValue x.2 y.2) p b

open Spec in
/-- The contract of `ruamel.yaml` and `PyYAML`. -/
class YamlLaws (F : Type) [YamlIO F] : Prop where
  /-- The text of a mapping does not begin with a comment. -/
  head : ∀ yd : YDict F, TextMapping yd → ∀ c ∈ (YamlIO.dump yd).head?, c ≠ '#' ∧ c ≠ ';'
  /-- Lines end with line feeds. -/
  noCr : ∀ yd : YDict F, TextMapping yd → '\r' ∉ YamlIO.dump yd
  /-- A mapping can be read back. -/
  load : ∀ yd : YDict F, TextMapping yd → ∃ yd', YamlIO.load (YamlIO.dump yd) = .ok yd' ∧
    SameMapping yd yd'
  /-- A mapping can be read back behind a comment and an empty line. -/
  comment : ∀ yd : YDict F, TextMapping yd → ∀ bs : List (List Char),
    (∀ b ∈ bs, PlainText (String.ofList b) ∧ '\n' ∉ b) → ∃ yd',
    YamlIO.load (hashLines bs ++ '\n' :: YamlIO.dump yd) = .ok yd' ∧ SameMapping yd yd'

end Disp
