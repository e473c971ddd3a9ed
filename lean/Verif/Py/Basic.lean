/-!
# Python basics: exceptions and strings

Nothing in this file is specific to the package; it fixes the vocabulary in which the
package is modelled.
-/

namespace Disp

/-- The exception classes that the modelled code can raise. Only the class is kept, not the
message. `unboundLocal` is a subclass of `name`, `notImplemented` of `runtime` and
`fileNotFound` of `os`; see `PyErr.isA`. -/
inductive PyErr
  | value | type | key | attribute | index | name | unboundLocal | runtime | notImplemented
  | overflow | zeroDivision | os | fileNotFound | assertion | eof
  deriving DecidableEq, Repr

/-- `isinstance(e, c)` for exception classes: does `except c` catch `e`? -/
def PyErr.isA (e c : PyErr) : Bool :=
  e == c || (e == .unboundLocal && c == .name) || (e == .notImplemented && c == .runtime)
    || (e == .fileNotFound && c == .os)

/-- A Python call that returns or raises. -/
abbrev Res (α : Type) := Except PyErr α

/-- `str.lower` on ASCII letters. Python lowers all Unicode letters; no non-ASCII character
lowers to one of the (ASCII) names that the package compares with, except the Kelvin sign
`U+212A`, which lowers to `k` and occurs in no name either. -/
def lower (s : String) : String := String.ofList (s.toList.map Char.toLower)

/-- Python `dict` lookup `d[k]` on an association list: `KeyError` when the key is missing. -/
def dictGet {α : Type} : List (String × α) → String → Res α
  | [], _ => .error .key
  | (k, v) :: d, x => if k = x then .ok v else dictGet d x

/-- Python `k in d`. -/
def dictHas {α : Type} (d : List (String × α)) (x : String) : Bool :=
  d.any (fun p => p.1 = x)

/-- Python `d[k] = v`: replaces the value in place or appends a new key. -/
def dictSet {α : Type} : List (String × α) → String → α → List (String × α)
  | [], x, w => [(x, w)]
  | (k, v) :: d, x, w => if k = x then (k, w) :: d else (k, v) :: dictSet d x w

/-- Python `xs[i]` for `0 ≤ i`: `IndexError` beyond the end. -/
def pyIdx {α : Type} (xs : List α) (i : Nat) : Res α :=
  match xs[i]? with
  | some x => .ok x
  | none => .error .index

end Disp
