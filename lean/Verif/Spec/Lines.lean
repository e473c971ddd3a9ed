import Verif.Py.Text
/-!
# Specification: lines of text that contain given words
-/

namespace Disp

/-- A word: not empty and without white space. -/
def Word (t : List Char) : Prop := t ≠ [] ∧ ∀ c ∈ t, pySpace c = false

/-- The line consists of the given words, in this order, in any layout: white space may
precede the first and follow the last word, and at least one white space character separates
neighbouring words. -/
inductive LineOf : List (List Char) → List Char → Prop
  | blank {s : List Char} (h : ∀ c ∈ s, pySpace c = true) : LineOf [] s
  | word {s t rest : List Char} {ts : List (List Char)} (hs : ∀ c ∈ s, pySpace c = true)
      (ht : Word t) (hsep : ∀ c ∈ rest.head?, pySpace c = true) (hrest : LineOf ts rest) :
      LineOf (t :: ts) (s ++ t ++ rest)

/-- Lines put under each other, separated by line feeds. -/
def unlines : List (List Char) → List Char
  | [] => []
  | [l] => l
  | l :: m :: ls => l ++ '\n' :: unlines (m :: ls)

end Disp
