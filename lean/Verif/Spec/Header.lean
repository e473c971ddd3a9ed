import Verif.Py.Text
/-!
# Specification: which field a header line fills, and dictionaries with the same entries
-/

namespace Disp.Spec

/-- The header line `line` fills the field `key` with `arg`: it consists of blanks, the name of
the key in upper or lower case, possibly more text, a colon (the first one), and the value. Blanks in front
of the value and line ends behind it do not count. -/
def Fills (key : List Char) (line arg : List Char) : Prop :=
  ∃ blanks word more rest nls pad,
    line = blanks ++ word ++ more ++ ':' :: rest ∧
    (∀ c ∈ blanks, pySpace c = true) ∧ ':' ∉ blanks ++ word ++ more ∧
    word.map Char.toUpper = key.map Char.toUpper ∧
    rest = pad ++ arg ++ nls ∧ (∀ c ∈ pad, pySpace c = true) ∧
    (∀ c ∈ nls, c = '\n' ∨ c = '\r') ∧
    (∀ c ∈ arg.head?, pySpace c = false) ∧
    (∀ c ∈ (pad ++ arg).getLast?, c ≠ '\n' ∧ c ≠ '\r')

/-- The fields of a file. -/
def fileFields : List String :=
  ["Comment", "Reference", "Author", "Name", "FullName", "MetaComment"]

/-- The fields of a dataset. -/
def datasetFields : List String := ["ValidRange", "DataType", "SpectrumType", "Unit", "Yields"]

/-- The fields that a text file keeps. -/
def textFields : List String := ["Reference", "Author", "FullName", "Name", "Comment"]

/-- The names under which the fields of a dataset are recognised in a YAML file, beside their own
except for the first two. -/
def fieldNames (field : String) : List String :=
  if field = "ValidRange" then ["validRange", "range", "spectra_range", "wavelength_range"]
  else if field = "DataType" then ["t", "y", "p", "e"]
  else [field]

end Disp.Spec
