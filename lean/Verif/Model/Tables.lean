import Verif.Model.Spectrum
import Verif.Py.Text
/-!
# Model of the tables of `src/dispersion/io.py`

Arrays, and the conversion of tables in text form.
-/

namespace Disp

variable {F : Type} [PyFloat F]

/-- A NumPy array of numbers with one or two axes. In `d2 ncols dt rows` every row is meant to
have `ncols` entries (`NDArr.WF`). Arrays with zero or more than two axes are `other`. -/
inductive NDArr (F : Type)
  | d1 (dt : DType) (xs : List F)
  | d2 (ncols : Nat) (dt : DType) (rows : List (List F))
  | other

namespace NDArr

/-- `len(a.shape) == 2 and a.shape[1] == n`. -/
def hasCols {F : Type} (n : Nat) : NDArr F → Bool
  | d2 m _ _ => m = n
  | _ => false

/-- The entries of a two-dimensional array have the shape that is stored. -/
def WF {F : Type} : NDArr F → Prop
  | d2 m _ rows => ∀ r ∈ rows, r.length = m
  | _ => True

/-- `a[:, j]`: `IndexError` if there is no such column or only one axis. -/
def col {F : Type} : NDArr F → Nat → Res (List F)
  | d2 m _ rows, j => if j < m then rows.mapM (fun r => pyIdx r j) else .error .index
  | _, _ => .error .index

/-- `a.dtype`. -/
def dtype {F : Type} : NDArr F → DType
  | d1 dt _ => dt
  | d2 _ dt _ => dt
  | other => .float

/-- `a[:, [i, j]]` as a list of pairs. -/
def cols2 {F : Type} (a : NDArr F) (i j : Nat) : Res (List (F × F)) := do
  let xs ← a.col i
  let ys ← a.col j
  .ok (xs.zip ys)

end NDArr

/-- A table as it stands in a file dictionary: text, an array, or something else. -/
inductive TableArg (F : Type)
  | text (s : List Char)
  | array (a : NDArr F)
  | other

/-- One line of io.py 83-87: the numbers separated by white space. -/
def parseRow [NumText F] (line : List Char) : Res (List F) :=
  (splitSpaces line).mapM NumText.parseFloat

/-- The loop io.py 82-88: stops at the first blank line. -/
def parseLines [NumText F] : List (List Char) → Res (List (List F))
  | [] => .ok []
  | l :: ls =>
    if isBlank l then .ok []
    else do
      let r ← parseRow l
      let rs ← parseLines ls
      .ok (r :: rs)

/-- `np.array(rows)` of a list of lists of floats (io.py 89): no rows give a one-dimensional
array, rows of different lengths are rejected (`ValueError` since NumPy 1.24). -/
def arrayOfRows (rows : List (List F)) : Res (NDArr F) :=
  match rows with
  | [] => .ok (.d1 .float [])
  | r :: rs => if rs.all (fun q => q.length = r.length) then .ok (.d2 r.length .float (r :: rs))
    else .error .value

/-- `np.all(xs[1:] > xs[:-1])`. -/
def increasing : List F → Bool
  | [] => true
  | [_] => true
  | x :: y :: rest => PyFloat.lt x y && increasing (y :: rest)

/-- io.py 100-105 `validate_table`. -/
def validateTable (t : NDArr F) : Res Bool := do
  let xs ← t.col 0
  .ok (increasing xs)

/-- The loop io.py 114-120. -/
def fixRows (last : F) : List (List F) → Res (List (List F))
  | [] => .ok []
  | r :: rs => do
    let x ← pyIdx r 0
    if PyFloat.lt last x then do
      let rest ← fixRows x rs
      .ok (r :: rest)
    else fixRows last rs

/-- io.py 108-121 `fix_table`. -/
def fixTable : NDArr F → Res (NDArr F)
  | .d2 m dt (r :: rs) => do
    let x ← pyIdx r 0
    let rest ← fixRows x rs
    .ok (.d2 m dt (r :: rest))
  | _ => .error .index

/-- io.py 71-96 `_str_table_to_numeric`. `validate_table` returns a NumPy boolean, which is
never the object `False`, so that `fix_table` (line 95) is not reached; `validate_table` can
still raise. -/
def strTableToNumeric [NumText F] (t : TableArg F) : Res (NDArr F) := do
  let a ← match t with
    | .array a => .ok a
    | .text s => (do
      let rows ← parseLines (splitOnChar '\n' s)
      arrayOfRows rows)
    | .other => .error .type
  let _ ← validateTable a
  .ok a

end Disp
