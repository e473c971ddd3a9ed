import Verif.Model.Catalogue
import Verif.Model.Files
import Verif.Model.EffectiveMedium
/-!
# The model on IEEE doubles

An instance of the arithmetic class on Lean's `Float`, so that the model can be executed. No
theorem uses this file. It serves to compare the model with the values in the tests and in the
documentation of the package (`Check/RepoTests`).
-/

namespace Disp.Check

/-- `10^k` for the smallest `k ≤ fuel` such that `d` divides it. -/
def decimals (d : Nat) : Nat → Nat → Nat
  | 0, k => k
  | fuel + 1, k => if 10 ^ k % d = 0 then k else decimals d fuel (k + 1)

/-- The double nearest to a decimal literal. -/
def ofRat (q : ℚ) : Float :=
  let k := decimals q.den 400 0
  let m := Float.ofScientific (q.num.natAbs * (10 ^ k / q.den)) true k
  if q.num < 0 then -m else m

/-- C's `rint`: to the nearest integer, ties to even. -/
def rint (x : Float) : Float :=
  let f := x.floor
  let d := x - f
  if d < 0.5 then f
  else if d > 0.5 then f + 1
  else if (f / 2).floor * 2 == f then f else f + 1

/-- `np.round`. -/
def npRound (d : Nat) (x : Float) : Float :=
  let p := Float.ofScientific (10 ^ d) false 0
  rint (x * p) / p

def hypot (x y : Float) : Float := (x * x + y * y).sqrt

/-- NumPy's complex division (Smith's algorithm). -/
def cdiv (a b : Cx Float) : Cx Float :=
  if b.im.abs ≤ b.re.abs then
    if b.re == 0 && b.im == 0 then ⟨a.re / b.re.abs, a.im / b.re.abs⟩
    else
      let rat := b.im / b.re
      let scl := 1.0 / (b.re + b.im * rat)
      ⟨(a.re + a.im * rat) * scl, (a.im - a.re * rat) * scl⟩
  else
    let rat := b.re / b.im
    let scl := 1.0 / (b.im + b.re * rat)
    ⟨(a.re * rat + a.im) * scl, (a.im * rat - a.re) * scl⟩

/-- NumPy's complex square root. -/
def csqrt (z : Cx Float) : Cx Float :=
  if z.re == 0 && z.im == 0 then ⟨0, z.im⟩
  else if z.im.isInf then ⟨1.0 / 0.0, z.im⟩
  else if z.re.isNaN then ⟨z.re, z.re⟩
  else if z.re.isInf then
    if z.re < 0 then ⟨(z.im - z.im).abs, if z.im < 0 then z.re else -z.re⟩ else ⟨z.re, z.im - z.im⟩
  else if z.re ≥ 0 then
    let t := ((z.re + hypot z.re z.im) * 0.5).sqrt
    ⟨t, z.im / (2 * t)⟩
  else
    let t := ((-z.re + hypot z.re z.im) * 0.5).sqrt
    ⟨z.im.abs / (2 * t), if z.im < 0 then -t else t⟩

instance : PyFloat Float where
  lit := ofRat
  inf := 1.0 / 0.0
  nan := 0.0 / 0.0
  pi := 3.141592653589793
  abs := Float.abs
  pow x y := if y == 2 then x * x else x.pow y
  sqrt := Float.sqrt
  log := Float.log
  atan := Float.atan
  atan2 := Float.atan2
  round := npRound
  trunc x := if x < 0 then x.ceil else x.floor
  lt x y := x < y
  le x y := x ≤ y
  eq x y := x == y
  isNaN := Float.isNaN
  cdiv := cdiv
  csqrt := csqrt

/-- `np.geomspace`, and no splines. -/
instance : SciPy Float where
  Spl := Unit
  geomspace a b n := .ok ((List.range n).map (fun i =>
    if i = 0 then a else if i + 1 = n then b
    else a * (b / a).pow (i.toFloat / (n - 1).toFloat)))
  splrep _ _ _ := .error .notImplemented
  splev _ _ := 0
  interpK _ _ _ := .error .notImplemented

/-- Value of decimal digits. -/
def digits (cs : List Char) : Option Nat :=
  if cs.all Char.isDigit then some (cs.foldl (fun a c => 10 * a + (c.toNat - 48)) 0) else none

/-- Splits at the first character with the property. -/
def splitAtChar (p : Char → Bool) (cs : List Char) : List Char × Option (List Char) :=
  match cs.span (fun c => !p c) with
  | (a, []) => (a, none)
  | (a, _ :: b) => (a, some b)

/-- `float(s)` for unsigned decimal numbers, with an optional exponent. -/
def parseUnsigned (cs : List Char) : Option Float :=
  let (man, ex) := splitAtChar (fun c => c = 'e' || c = 'E') cs
  let (whole, frac) := splitAtChar (· = '.') man
  let frac := frac.getD []
  if (whole ++ frac).isEmpty then none else
  let expo : Option Int := match ex with
    | none => some 0
    | some ('-' :: ds) => (digits ds).map (fun n => -(n : Int))
    | some ('+' :: ds) => (digits ds).map (fun n => (n : Int))
    | some ds => (digits ds).map (fun n => (n : Int))
  match digits (whole ++ frac), expo with
  | some m, some e =>
    let e' := e - frac.length
    some (if e' < 0 then Float.ofScientific m true e'.natAbs else Float.ofScientific m false e'.natAbs)
  | _, _ => none

instance : NumText Float where
  parseFloat cs :=
    let r := match rstrip (lstrip cs) with
      | '-' :: cs => (parseUnsigned cs).map (fun x => -x)
      | '+' :: cs => parseUnsigned cs
      | cs => parseUnsigned cs
    match r with
    | some x => .ok x
    | none => .error .value

/-- `"%.8f" % x`, for numbers below 1e7. -/
def fixed8 (x : Float) : List Char :=
  let n := (rint (x.abs * 1e8)).toUInt64.toNat
  let frac := (toString (n % 100000000)).toList
  (if x < 0 then ['-'] else []) ++ (toString (n / 100000000)).toList ++ ['.']
    ++ List.replicate (8 - frac.length) '0' ++ frac

/-- Numbers in arrays are written with eight decimals (NumPy uses as few as possible). -/
instance : Printing Float where
  cell _ x := fixed8 x
  shown _ x := x
  fmt8 := fixed8
  shown8 x := x

/-- `np.isclose`. -/
def close (a b : Float) : Bool := (a - b).abs ≤ 1e-8 + 1e-5 * b.abs

/-- The values of a result, compared with `np.isclose`. -/
def closeVals : Res (Vals Float) → List Float → Bool
  | .ok v, xs => v.toList.length == xs.length && (v.toList.zip xs).all (fun p => close p.1 p.2)
  | _, _ => false

/-- A complex scalar result, compared with `np.isclose`. -/
def closeCx : Res (CVals Float) → Float → Float → Bool
  | .ok (.scalar z), x, y => close z.re x && close z.im y
  | _, _, _ => false

end Disp.Check
