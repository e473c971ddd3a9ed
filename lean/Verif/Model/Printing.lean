import Verif.Model.Tables
/-!
# Printing of arrays: `np.array2string` and `_numeric_to_string_table`

How NumPy writes one number is a black box (`Printing`). How it lays the numbers out (the
brackets, the line width of 75 characters, the abbreviation of arrays with more than 1000
entries) follows `numpy/_core/arrayprint.py` (`_array2string`, `_formatArray`, `_extendLine`).
-/

namespace Disp

/-- How NumPy and Python write numbers. `cell xs x` is the text of the entry `x` of an array
with entries `xs` (all entries of an array share one format and are padded to one width),
`shown xs x` the number that this text denotes. `fmt8 x` is `"%.8f" % x`, and `shown8 x` the
number that it denotes. -/
class Printing (F : Type) where
  cell : List F → F → List Char
  shown : List F → F → F
  fmt8 : F → List Char
  shown8 : F → F

variable {F : Type} [Printing F]

/-- `_extendLine`: adds a word to the current line, after a line break if it does not fit. -/
def extendLine (width : Nat) (indent : List Char) (s line word : List Char) :
    List Char × List Char :=
  if width < line.length + word.length ∧ indent.length < line.length then
    (s ++ rstrip line ++ ['\n'], indent ++ word)
  else (s, line ++ word)

/-- The loop of `_formatArray` over the last axis: words separated by blanks. -/
def layWords (width : Nat) (indent : List Char) :
    List (List Char) → List Char → List Char → List Char
  | [], s, line => s ++ line
  | [w], s, line => (extendLine width indent s line w).1 ++ (extendLine width indent s line w).2
  | w :: v :: ws, s, line =>
    layWords width indent (v :: ws) (extendLine width indent s line w).1
      ((extendLine width indent s line w).2 ++ [' '])

/-- `_formatArray` on the last axis. -/
def formatWords (width : Nat) (indent : List Char) (words : List (List Char)) : List Char :=
  '[' :: (layWords width indent words [] indent).drop indent.length ++ [']']

/-- `...` -/
def dots : List Char := ['.', '.', '.']

/-- The items of an axis that are shown: with more than 1000 entries in the array, an axis with
more than six items is abbreviated to its first and last three. -/
def abbreviate (summary : Bool) (items : List (List Char)) : List (List Char) :=
  if summary && 6 < items.length then
    items.take 3 ++ [dots] ++ items.drop (items.length - 3)
  else items

/-- `_formatArray` on the first of two axes: one item per line. -/
def formatRows : List (List Char) → List Char
  | [] => ['[', ']']
  | r :: rs => '[' :: r ++ (rs.flatMap (fun q => '\n' :: ' ' :: q)) ++ [']']

/-- `np.array2string(a)` for one and two axes (zero entries give `[]`). -/
def array2string : NDArr F → List Char
  | .d1 _ xs =>
    if xs = [] then ['[', ']']
    else formatWords 74 [' '] (abbreviate (1000 < xs.length) (xs.map (Printing.cell xs)))
  | .d2 m _ rows =>
    if rows = [] ∨ m = 0 then ['[', ']']
    else formatRows (abbreviate (1000 < rows.flatten.length) (rows.map (fun r =>
      formatWords 73 [' ', ' '] (abbreviate (1000 < rows.flatten.length)
        (r.map (Printing.cell rows.flatten))))))
  | .other => ['[', ']']

/-- `re.sub(r'[\[\]]', '', s)`. -/
def noBrackets (cs : List Char) : List Char := cs.filter (fun c => c ≠ '[' && c ≠ ']')

/-- `re.sub(r'\n ', "\n", s)`. -/
def noIndent : List Char → List Char
  | [] => []
  | [c] => [c]
  | c :: d :: cs => if c = '\n' ∧ d = ' ' then c :: noIndent cs else c :: noIndent (d :: cs)

/-- io.py 61-69 `_numeric_to_string_table`. -/
def numericToString (a : NDArr F) : List Char :=
  lstrip (rstrip (noIndent (noBrackets (array2string a))))

end Disp
