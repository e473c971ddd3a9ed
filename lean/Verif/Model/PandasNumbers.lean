import Verif.Model.NumpyText
import Verif.Model.Csv
/-!
# The numbers in a catalogue file (catalogue.py 110-114 and 211-215)

`Model/Csv` treats the text of a number as a black box. Here is what the box contains for doubles and
the version of pandas that `requirements.txt` (line 1) asks for: `DataFrame.to_csv` writes the `repr`
of a number, and `read_csv` converts a field with `xstrtod` (pandas 0.22,
`pandas/_libs/src/parser/tokenizer.c` and `_try_double` in `parsers.pyx`), which multiplies digit by
digit and rounds at every step.

Simplified: exponents have any number of digits (a C `int` overflows), and there is a single zero.
-/

namespace Disp

noncomputable section

/-! ## Writing: `repr(x)` -/

/-- The decimal number `m * 10^e` is one of those with the fewest digits that are read as the
double `|x|`. -/
structure Shortest (x : ℝ) (m : ℕ) (e : ℤ) : Prop where
  reads : nearest ((m : ℝ) * 10 ^ e) = |x|
  short : ∀ (m' : ℕ) (e' : ℤ), nearest ((m' : ℝ) * 10 ^ e') = |x| → Nat.log 10 m ≤ Nat.log 10 m'

/-- It is also the nearest to `|x|` among these (mode 0 of `_Py_dg_dtoa`). -/
structure PythonDigits (x : ℝ) (m : ℕ) (e : ℤ) : Prop extends Shortest x m e where
  closest : ∀ (m' : ℕ) (e' : ℤ), Shortest x m' e' →
    abs ((m : ℝ) * 10 ^ e - |x|) ≤ abs ((m' : ℝ) * 10 ^ e' - |x|)

open Classical in
/-- The digits that Python writes. -/
def pyDigits (x : ℝ) : ℕ × ℤ :=
  if h : ∃ p : ℕ × ℤ, PythonDigits x p.1 p.2 then h.choose else (0, 0)

/-- `e-07`: the exponent has a sign and at least two digits. -/
def reprExponent (p : ℤ) : List Char :=
  'e' :: (if p < 0 then '-' else '+') :: digits (max 2 (Nat.log 10 p.natAbs + 1)) p.natAbs

/-- The text of `m * 10^e`: the point is written at its place if the number is at least `1e-4` and
below `1e16`. -/
def reprDigits (m : ℕ) (e : ℤ) : List Char :=
  if -4 < (Nat.log 10 m + 1 : ℤ) + e ∧ (Nat.log 10 m + 1 : ℤ) + e ≤ 16 then
    if 0 ≤ e then wholeText (m * 10 ^ e.toNat) ++ ['.', '0']
    else wholeText (m / 10 ^ (-e).toNat) ++ '.' :: digits (-e).toNat m
  else
    digitOf (m / 10 ^ Nat.log 10 m) ::
      (if Nat.log 10 m = 0 then [] else '.' :: digits (Nat.log 10 m) m) ++
        reprExponent (Nat.log 10 m + e)

/-- `repr(x)` for a finite number. -/
def reprText (x : ℝ) : List Char :=
  if x = 0 then ['0', '.', '0'] else signText x ++ reprDigits (pyDigits x).1 (pyDigits x).2

/-- The text of a number in a catalogue file. -/
def csvNumber (a : Dbl) : List Char :=
  match a.val with
  | .fin x => reprText x
  | .pinf => ['i', 'n', 'f']
  | .ninf => ['-', 'i', 'n', 'f']
  | .nan => ['n', 'a', 'n']

/-! ## Reading: `xstrtod` -/

/-- The loops over digits: `number = number * 10. + (*p - '0')`. -/
def gather (a : Dbl) (cs : List Char) : Dbl :=
  cs.foldl (fun a c => a * PyFloat.lit 10 + PyFloat.lit (digitValue c : ℚ)) a

/-- "Scale the result": for every bit of the exponent a division or a multiplication by a power of
ten, which is squared at every step. -/
def scaleBy (down : Bool) (n : ℕ) (p a : Dbl) : Dbl :=
  if n = 0 then a
  else scaleBy down (n / 2) (p * p)
    (if n % 2 = 1 then (if down then a / p else a * p) else a)
  termination_by n
  decreasing_by omega

/-- `isspace`. -/
def cSpace (c : Char) : Bool := c = ' ' || (9 ≤ c.toNat && c.toNat ≤ 13)

/-- Blanks before and after the number are skipped. -/
def unspaced (cs : List Char) : List Char :=
  ((cs.dropWhile cSpace).reverse.dropWhile cSpace).reverse

/-- The number for the given digits (before and after the point), sign and exponent. `HUGE_VAL`, and an
exponent out of the range of doubles, are errors. -/
def assemble (neg : Bool) (is fs : List Char) (e : ℤ) : Option Dbl :=
  if e - fs.length < -1021 ∨ 1024 < e - fs.length then Option.none
  else
    let a := gather (PyFloat.lit 0) (is ++ fs)
    let r := scaleBy (decide (e - fs.length < 0)) (e - fs.length).natAbs (PyFloat.lit 10)
      (if neg then -a else a)
    match r.val with
    | .pinf => Option.none
    | _ => some r

/-- `xstrtod`, and the test of `_try_double` that the field ends with the number. -/
def xstrtod (cs : List Char) : Option Dbl :=
  let s := splitSign (unspaced cs)
  let is := s.2.takeWhile Char.isDigit
  let fr := readFraction (s.2.dropWhile Char.isDigit)
  if is = [] ∧ fr.1 = [] then Option.none
  else match readExponent fr.2 with
    | some e => assemble s.1 is fr.1 e
    | Option.none => Option.none

/-- `_try_double`: a field that is not a number may be an infinity. -/
def csvParse (cs : List Char) : Res Dbl :=
  match xstrtod cs with
  | some r => .ok r
  | Option.none =>
    if cs.map Char.toLower = ['i', 'n', 'f'] then .ok PyFloat.inf
    else if cs.map Char.toLower = ['-', 'i', 'n', 'f'] then .ok (-PyFloat.inf)
    else .error .value

/-- The other library functions, which are arbitrary: the texts of dictionaries and arrays and the
quoting of carriage returns. -/
class PandasTexts where
  dictText : List (String × String) → List Char
  arrayText : List Dbl → List Char
  quotesCr : Bool

/-- pandas 0.22 with doubles. -/
instance [PandasTexts] : CsvIO Dbl where
  num := csvNumber
  parse := csvParse
  dictText := PandasTexts.dictText
  arrayText := PandasTexts.arrayText
  quotesCr := PandasTexts.quotesCr

end
end Disp
