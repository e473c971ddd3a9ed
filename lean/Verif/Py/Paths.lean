import Verif.Py.Text
/-!
# Paths

`os.path.join`, `normpath` and `splitext` of CPython's `posixpath`, on which the catalogue relies.
-/

namespace Disp

/-- `os.path.join(a, b)`: an absolute second part replaces the first. -/
def joinChars (a b : List Char) : List Char :=
  if b.head? = some '/' then b
  else if a = [] ∨ a.getLast? = some '/' then a ++ b
  else a ++ '/' :: b

/-- `os.path.join(a, b)`. -/
def joinPath (a b : String) : String := String.ofList (joinChars a.toList b.toList)

/-- One round of the loop of `posixpath.normpath`, on the components kept so far, the last one
first: empty components and `.` are dropped, `..` removes the component before it. -/
def normStep (root : Bool) (kept : List (List Char)) (comp : List Char) : List (List Char) :=
  if comp = [] ∨ comp = ['.'] then kept
  else if comp ≠ ['.', '.'] then comp :: kept
  else match kept with
    | [] => if root then [] else [comp]
    | k :: ks => if k = ['.', '.'] then comp :: k :: ks else ks

/-- The components of a normalised path. -/
def normComps (root : Bool) (path : List Char) : List (List Char) :=
  ((splitOnChar '/' path).foldl (normStep root) []).reverse

/-- The slashes at the beginning that are kept: two if there are exactly two, otherwise one. -/
def rootOf : List Char → List Char
  | '/' :: '/' :: '/' :: _ => ['/']
  | '/' :: '/' :: _ => ['/', '/']
  | '/' :: _ => ['/']
  | _ => []

/-- `'/'.join(comps)`. -/
def joinSlash : List (List Char) → List Char
  | [] => []
  | [c] => c
  | c :: cs => c ++ '/' :: joinSlash cs

/-- `posixpath.normpath`. -/
def normChars (path : List Char) : List Char :=
  let r := rootOf path
  let p := r ++ joinSlash (normComps (r ≠ []) path)
  if p = [] then ['.'] else p

/-- `os.path.normpath`. -/
def normPath (path : String) : String := String.ofList (normChars path.toList)

/-- `s.replace('\\', '/')`. -/
def unixSlashes (s : String) : String :=
  String.ofList (s.toList.map (fun c => if c = '\\' then '/' else c))

/-- `os.path.splitext` of a file name without slashes: the extension begins at the last dot,
unless only dots are before it. -/
def splitExt (name : String) : String × String :=
  let cs := name.toList
  let ext := (cs.reverse.takeWhile (· ≠ '.')).reverse
  let stem := (cs.reverse.dropWhile (· ≠ '.')).tail.reverse
  if cs.contains '.' ∧ stem.any (· ≠ '.') then (String.ofList stem, String.ofList ('.' :: ext))
  else (name, "")

end Disp
