import Verif.Model.Files
/-!
# The example files of the setup script
(/repo/src/dispersion/scripts/setup_dispersion.py 117-166)

Joining the path of the directory and the names of the files is not modelled: the result is the
text that is written, or the exception.
-/

namespace Disp

variable {F : Type} [PyFloat F] [SciPy F] [NumText F] [Printing F]

/-- setup_dispersion.py 129-136 and 150-157: the metadata of both examples. -/
def exampleMeta (md : List (String × MetaVal)) : List (String × MetaVal) :=
  dictSet (dictSet (dictSet (dictSet (dictSet (dictSet md
    "Reference" (.str "Literature reference to the data"))
    "Comment" (.str "Any additional information goes here"))
    "Name" (.str "Short name of the material"))
    "FullName" (.str "Full name of the material"))
    "Author" (.str "The author of this data file"))
    "MetaComment" (.str
      " This is a multiline meta-comment\n which provides information not\n in metadata")

/-- setup_dispersion.py 123-126: the table of the first example. -/
def exampleTable : List (List F) :=
  [[lit 400, lit (17 / 10), lit (1 / 10)], [lit 500, lit (16 / 10), lit (5 / 100)],
   [lit 600, lit (15 / 10), lit 0], [lit 700, lit (14 / 10), lit 0]]

/-- setup_dispersion.py 122-136: the material of the first example. -/
def exampleMaterial (rd : String → Res (FileDict F)) : Res (Material F) := do
  let m ← Material.new rd [("tabulated_nk", .arr (.d2 3 .float exampleTable)),
    ("spectrum_type", .str "wavelength"), ("unit", .str "nanometer")]
  .ok { m with metaData := m.metaData.map exampleMeta }

/-- setup_dispersion.py 122-139 `make_example_txt`. -/
def makeExampleTxt [YamlIO F] (rd : String → Res (FileDict F)) : Res (List Char) := do
  let m ← exampleMaterial rd
  let w ← Writer.new ".txt" m
  (w.writeFile true false).1

/-- setup_dispersion.py 142-148: the parameters of the second example. The misspelt entry
`specrtrum_type` is not read by anyone. -/
def exampleModel : ModelKw F :=
  { name := some "Sellmeier", stype := Option.none, unit := some "micrometer",
    params := some [lit 0, lit 1, lit (5 / 100), lit 2, lit (1 / 10), lit 10, lit 25],
    validRange := some (.ndarray .float [lit (35 / 100), lit 2]) }

/-- setup_dispersion.py 158-161: the table of the second example. -/
def exampleExtinction : List (F × F) :=
  [(lit 400, lit (1 / 10)), (lit 500, lit (5 / 100)), (lit 600, lit 0), (lit 700, lit 0)]

/-- setup_dispersion.py 142-163: the material of the second example. -/
def exampleMaterial2 (rd : String → Res (FileDict F)) : Res (Material F) := do
  let m ← Material.new rd [("model_kw", .dict exampleModel),
    ("spectrum_type", .str "wavelength"), ("unit", .str "micrometer")]
  let k ← RealData.newInterp .float exampleExtinction "wavelength" "nm" 1
  .ok { m with metaData := m.metaData.map exampleMeta, imag := some k }

/-- setup_dispersion.py 141-166 `make_example_yaml`. -/
def makeExampleYaml [YamlIO F] (rd : String → Res (FileDict F)) : Res (List Char) := do
  let m ← exampleMaterial2 rd
  let w ← Writer.new ".yml" m
  (w.writeFile true false).1

end Disp
