import Verif.Py.Float
/-!
# Python text: `str.split`, `str.isspace`, numbers in text

Strings are handled as lists of characters.
-/

namespace Disp

/-- The characters for which `str.isspace` holds: the ASCII white space and separators, and the
Unicode spaces. -/
def pySpaces : List Char :=
  [' ', '\t', '\n', '\r', '\x0b', '\x0c', '\x1c', '\x1d', '\x1e', '\x1f', '\x85', '\xa0',
    '\u1680', '\u2000', '\u2001', '\u2002', '\u2003', '\u2004', '\u2005', '\u2006', '\u2007',
    '\u2008', '\u2009', '\u200a', '\u2028', '\u2029', '\u202f', '\u205f', '\u3000']

/-- `str.isspace` on one character. -/
def pySpace (c : Char) : Bool := pySpaces.contains c

/-- The characters up to the first one satisfying `p`, and the rest starting with it. -/
def spanNot (p : Char → Bool) : List Char → List Char × List Char
  | [] => ([], [])
  | c :: cs => if p c then ([], c :: cs) else ((c :: (spanNot p cs).1), (spanNot p cs).2)

/-- `str.split(d)` for a one-character separator: always at least one piece. -/
def splitOnChar (d : Char) : List Char → List (List Char)
  | [] => [[]]
  | c :: cs =>
    if c = d then [] :: splitOnChar d cs
    else match splitOnChar d cs with
      | [] => [[c]]
      | w :: ws => (c :: w) :: ws

/-- Does the text begin with a character that is not white space? -/
def startsWord : List Char → Bool
  | [] => false
  | c :: _ => !pySpace c

/-- Puts a character in front of the first word, or makes it a word of its own. -/
def glue (c : Char) (joined : Bool) (ws : List (List Char)) : List (List Char) :=
  match joined, ws with
  | true, w :: ws => (c :: w) :: ws
  | _, ws => [c] :: ws

/-- `str.split()`: the maximal runs of non-space characters. -/
def splitSpaces : List Char → List (List Char)
  | [] => []
  | c :: cs => if pySpace c then splitSpaces cs else glue c (startsWord cs) (splitSpaces cs)

/-- `s.isspace() or s == ""`. -/
def isBlank (cs : List Char) : Bool := cs.all pySpace

/-- `str.lstrip()`. -/
def lstrip (cs : List Char) : List Char := cs.dropWhile pySpace

/-- `str.rstrip()`. -/
def rstrip (cs : List Char) : List Char := (cs.reverse.dropWhile pySpace).reverse

/-- Numbers in text: `float(s)` (`ValueError` if `s` is not a number). -/
class NumText (F : Type) where
  parseFloat : List Char → Res F

end Disp
