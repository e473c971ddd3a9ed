import Mathlib.Data.Nat.Log
import Verif.Py.Double
import Verif.Model.Printing
/-!
# How Python and NumPy read and write doubles

`Model/Printing` treats the text of a number as a black box. Here is what the box contains for
doubles: `float(text)`, `"%.8f" % x` and the formats of `numpy/_core/arrayprint.py`
(`FloatingFormat`, with the default print options `precision=8`, `floatmode='maxprec'`,
`suppress=False`).

Simplified: `float` also accepts blanks around the number and underscores between digits (the words
of a file have neither). NumPy stops at the digits that identify a double: a number from 2^26 to 10^8
in positional notation, or a subnormal number, can be written with fewer digits than here; it denotes
the same double. The minus sign of a negative zero is not written, because there is a single zero.
-/

namespace Disp

/-! ## Reading: `float(text)` -/

/-- The character of the last digit of a number. -/
def digitOf (n : ℕ) : Char := Char.ofNat (48 + n % 10)

/-- The value of a digit. -/
def digitValue (c : Char) : ℕ := c.toNat - 48

/-- The number with the given decimal digits. -/
def digitsValue (cs : List Char) : ℕ := cs.foldl (fun a c => 10 * a + digitValue c) 0

/-- An optional sign. -/
def splitSign : List Char → Bool × List Char
  | [] => (false, [])
  | c :: cs => if c = '-' then (true, cs) else if c = '+' then (false, cs) else (false, c :: cs)

/-- An optional exponent at the end. -/
def readExponent : List Char → Option ℤ
  | [] => some 0
  | c :: cs =>
    if (c = 'e' ∨ c = 'E') ∧ (splitSign cs).2 ≠ [] ∧ (splitSign cs).2.all Char.isDigit then
      some ((if (splitSign cs).1 then -1 else 1) * (digitsValue (splitSign cs).2 : ℤ))
    else Option.none

/-- An optional fraction: its digits and the rest. -/
def readFraction : List Char → List Char × List Char
  | [] => ([], [])
  | c :: cs => if c = '.' then (cs.takeWhile Char.isDigit, cs.dropWhile Char.isDigit) else ([], c :: cs)

/-- A decimal number without its sign: digits before and after the point, exponent. -/
def readUnsigned (cs : List Char) : Option ℚ :=
  if cs.takeWhile Char.isDigit = [] ∧ (readFraction (cs.dropWhile Char.isDigit)).1 = [] then Option.none
  else (readExponent (readFraction (cs.dropWhile Char.isDigit)).2).map fun e =>
    (digitsValue (cs.takeWhile Char.isDigit ++ (readFraction (cs.dropWhile Char.isDigit)).1) : ℚ) *
      10 ^ (e - ((readFraction (cs.dropWhile Char.isDigit)).1.length : ℤ))

noncomputable section

/-- `float(text)`: the double nearest to the decimal number. -/
def readDouble (cs : List Char) : Res Dbl :=
  if (splitSign cs).2.map Char.toLower = ['n', 'a', 'n'] then .ok PyFloat.nan
  else if (splitSign cs).2.map Char.toLower = ['i', 'n', 'f'] ∨
      (splitSign cs).2.map Char.toLower = ['i', 'n', 'f', 'i', 'n', 'i', 't', 'y'] then
    .ok (if (splitSign cs).1 then -PyFloat.inf else PyFloat.inf)
  else match readUnsigned (splitSign cs).2 with
    | some q => .ok (Dbl.rnd (.fin (((if (splitSign cs).1 then -1 else 1) * q : ℚ) : ℝ)))
    | Option.none => .error .value

instance : NumText Dbl := ⟨readDouble⟩

/-! ## Writing -/

/-- The last `w` digits of a number. -/
def digits : ℕ → ℕ → List Char
  | 0, _ => []
  | w + 1, n => digits w (n / 10) ++ [digitOf n]

/-- The digits of a number. -/
def wholeText (n : ℕ) : List Char := digits (Nat.log 10 n + 1) n

/-- Removes the zeros at the end (`trim='.'`). -/
def trimZeros (cs : List Char) : List Char := (cs.reverse.dropWhile (fun c => c = '0')).reverse

/-- The minus sign of a negative number. -/
def signText (x : ℝ) : List Char := if x < 0 then ['-'] else []

/-- The size of a number in units of the eighth decimal, rounded. -/
def eighths (x : ℝ) : ℕ := (XR.rint (|x| * 10 ^ 8)).toNat

/-- `"%.8f" % x` for a finite number. -/
def fixedText (x : ℝ) : List Char :=
  signText x ++ wholeText (eighths x / 10 ^ 8) ++ '.' :: digits 8 (eighths x)

/-- The decimal exponent of a number, rounded to nine significant digits. -/
def decExp (x : ℝ) : ℤ :=
  if XR.rint (|x| / 10 ^ (Int.log 10 |x| - 8)) = 10 ^ 9 then Int.log 10 |x| + 1 else Int.log 10 |x|

/-- The nine significant digits. -/
def significand (x : ℝ) : ℕ := (XR.rint (|x| / 10 ^ (decExp x - 8))).toNat

/-- The number rounded to nine significant digits. -/
def nineDigits (x : ℝ) : ℝ := (if x < 0 then -1 else 1) * significand x * 10 ^ (decExp x - 8)

/-- How the entries of an array are written. -/
structure CellFormat where
  /-- scientific notation -/
  sci : Bool
  /-- width of the part before the point -/
  left : ℕ
  /-- width of the part after the point (with the exponent) -/
  right : ℕ
  /-- digits after the point -/
  frac : ℕ
  /-- digits of the exponent -/
  expo : ℕ

/-- The finite entries. -/
def finites (xs : List Dbl) : List ℝ := xs.filterMap fun x =>
  match x.val with
  | .fin r => some r
  | _ => Option.none

open Classical in
/-- `absolute(finite_vals[finite_vals != 0])`. -/
def sizes (xs : List Dbl) : List Dbl :=
  ((finites xs).filter (fun r => r ≠ 0)).map (fun r => Dbl.rnd (.fin |r|))

/-- `FloatingFormat.fillFormat`: scientific notation for sizes from 10^8, sizes below 0.0001 and a
quotient of the largest and the smallest size (the largest of all quotients) above 1000. -/
def useSci (xs : List Dbl) : Bool :=
  (sizes xs).any (fun a => PyFloat.le (PyFloat.lit (10 ^ 8)) a) ||
  (sizes xs).any (fun a => PyFloat.lt a (PyFloat.lit (1 / 10 ^ 4))) ||
  (sizes xs).any (fun a => (sizes xs).any (fun b => PyFloat.lt (PyFloat.lit 1000) (a / b)))

/-- The longest of some texts. -/
def longest (ts : List (List Char)) : ℕ := (ts.map List.length).foldr max 0

/-- The part before the point in positional notation. -/
def wholePart (x : ℝ) : List Char := signText x ++ wholeText (eighths x / 10 ^ 8)

/-- The part after the point in positional notation. -/
def fracPart (x : ℝ) : List Char := trimZeros (digits 8 (eighths x))

/-- The part before the point in scientific notation. -/
def leadPart (x : ℝ) : List Char := signText x ++ [digitOf (significand x / 10 ^ 8)]

/-- The digits of the exponent. -/
def expoText (x : ℝ) : List Char := wholeText (decExp x).natAbs

/-- `FloatingFormat.fillFormat`: widths for the finite entries. -/
def finiteFormat (xs : List Dbl) : CellFormat :=
  if finites xs = [] then { sci := useSci xs, left := 0, right := 0, frac := 0, expo := 2 }
  else if useSci xs then
    { sci := true
      left := longest ((finites xs).map leadPart)
      right := max 2 (longest ((finites xs).map expoText)) + 2 +
        longest ((finites xs).map fun x => trimZeros (digits 8 (significand x)))
      frac := longest ((finites xs).map fun x => trimZeros (digits 8 (significand x)))
      expo := max 2 (longest ((finites xs).map expoText)) }
  else
    { sci := false
      left := longest ((finites xs).map wholePart)
      right := longest ((finites xs).map fracPart)
      frac := 8
      expo := 2 }

open Classical in
/-- `FloatingFormat.fillFormat`: more room if there are infinities or NaN. -/
def formatOf (xs : List Dbl) : CellFormat :=
  if (finites xs).length = xs.length then finiteFormat xs
  else { finiteFormat xs with
    left := max (finiteFormat xs).left
      (3 + (if ∃ x ∈ xs, x.val = .ninf then 1 else 0) - ((finiteFormat xs).right + 1)) }

/-- Blanks. -/
def blanks (n : ℕ) : List Char := List.replicate n ' '

/-- `dragon4_positional`. -/
def positional (f : CellFormat) (x : ℝ) : List Char :=
  blanks (f.left - (wholePart x).length) ++ (wholePart x ++ '.' :: fracPart x) ++
    blanks (f.right - (fracPart x).length)

/-- The text of a number in scientific notation. -/
def sciText (f : CellFormat) (x : ℝ) : List Char :=
  leadPart x ++ '.' :: (digits 8 (significand x)).take f.frac ++
    'e' :: (if decExp x < 0 then '-' else '+') ::
      digits (max f.expo (Nat.log 10 (decExp x).natAbs + 1)) (decExp x).natAbs

/-- `dragon4_scientific`. -/
def scientific (f : CellFormat) (x : ℝ) : List Char :=
  blanks (f.left - (leadPart x).length) ++ sciText f x

/-- The text of a special value, on the right. -/
def special (f : CellFormat) (s : List Char) : List Char :=
  blanks (f.left + f.right + 1 - s.length) ++ s

/-- `FloatingFormat.__call__`. -/
def cellText (f : CellFormat) (x : Dbl) : List Char :=
  match x.val with
  | .fin r => if f.sci then scientific f r else positional f r
  | .nan => special f ['n', 'a', 'n']
  | .pinf => special f ['i', 'n', 'f']
  | .ninf => special f ['-', 'i', 'n', 'f']

/-- The double denoted by the text of an entry. -/
def cellShown (sci : Bool) (x : Dbl) : Dbl :=
  match x.val with
  | .fin r => Dbl.rnd (.fin (if sci then nineDigits r else XR.roundDec 8 r))
  | _ => x

/-- `"%.8f" % x`. -/
def percentText (x : Dbl) : List Char :=
  match x.val with
  | .fin r => fixedText r
  | .nan => ['n', 'a', 'n']
  | .pinf => ['i', 'n', 'f']
  | .ninf => ['-', 'i', 'n', 'f']

open Classical in
/-- The array whose entry `x` is written: `xs`. (A value that is no entry of `xs` is never written;
it is treated as an array of its own.) -/
def arrayOf (xs : List Dbl) (x : Dbl) : List Dbl := if x ∈ xs then xs else [x]

/-- NumPy and Python. -/
instance : Printing Dbl where
  cell xs x := cellText (formatOf (arrayOf xs x)) x
  shown xs x := cellShown (useSci (arrayOf xs x)) x
  fmt8 := percentText
  shown8 x := cellShown false x

end

end Disp
