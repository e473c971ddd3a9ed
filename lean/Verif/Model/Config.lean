import Verif.Model.Csv
/-!
# Configuration (/repo/src/dispersion/config.py and the construction of a Catalogue)

Modelled for POSIX systems. The content of a YAML file is the value it stands for; keys are
texts. `valid_file_name` (io.py 234-251) opens files in a temporary directory: what `open` does is
a parameter. Warnings are not modelled.
-/

namespace Disp

/-- A value from a YAML file. -/
inductive YamlVal (F : Type)
  | none
  | bool (b : Bool)
  | int (n : Int)
  | float (x : F)
  | str (s : String)
  | list (xs : List (YamlVal F))
  | dict (d : List (String × YamlVal F))

/-- The surroundings: `$HOME`, the directory of the package, the temporary directory, the file
system (`files p = some r` if `p` is a file and reading it gives `r`), `os.mkdir` and
`open`. -/
structure CfgSys (F : Type) where
  home : Option String
  package : String
  temp : String
  exist : String → Bool
  isdir : String → Bool
  files : String → Option (Res (YamlVal F))
  mkdir : String → Res Unit
  openR : String → Res Unit
  openW : String → Res Unit

/-- What is left behind: the directories that were made. -/
abbrev Made := List String

variable {F : Type} [PyFloat F]

/-! ## Validation -/

/-- `config[key]`: a TypeError for what is no mapping. (A list or a text with a text as index is a
TypeError, too.) -/
def YamlVal.get (v : YamlVal F) (key : String) : Res (YamlVal F) :=
  match v with
  | .dict d => dictGet d key
  | _ => .error .type

/-- config.py 43-50 `check_type(value, str)`. -/
def YamlVal.asStr : YamlVal F → Res String
  | .str s => .ok s
  | _ => .error .value

/-- `check_type(value, bool)`. -/
def YamlVal.asBool : YamlVal F → Res Bool
  | .bool b => .ok b
  | _ => .error .value

/-- `check_type(value, float)`: an `int` is no `float`. -/
def YamlVal.asFloat : YamlVal F → Res F
  | .float x => .ok x
  | _ => .error .value

/-- config.py 34 and 37: `assert key in config`. -/
def YamlVal.has (v : YamlVal F) (key : String) : Res Unit :=
  match v with
  | .dict d => if dictHas d key then .ok () else .error .assertion
  | _ => .error .type

/-- `config['Modules'].values()`. -/
def YamlVal.items : YamlVal F → Res (List (String × YamlVal F))
  | .dict d => .ok d
  | _ => .error .attribute

/-- io.py 234-251 `valid_file_name`. -/
def CfgSys.validName (sys : CfgSys F) (name : String) : Res Bool :=
  match sys.openR (joinPath sys.temp name) with
  | .ok _ => .ok true
  | .error e =>
    if e.isA .os then
      match sys.openW (joinPath sys.temp name) with
      | .ok _ => .ok true
      | .error e' => if e'.isA .os then .ok false else .error e'
    else .error e

/-- `if not condition: raise IOError`. -/
def orIOError (b : Bool) : Res Unit := if b then .ok () else .error .os

/-- config.py 35-36: the values of `Modules`. -/
def checkModules (d : List (String × YamlVal F)) : Res (List (String × Bool)) :=
  d.mapM (fun p => do .ok (p.1, ← p.2.asBool))

/-- config.py 16-41 `validate_config`. -/
def validateConfig (sys : CfgSys F) (c : YamlVal F) : Res Unit := do
  let path ← (← c.get "Path").asStr
  orIOError (sys.isdir path)
  let file ← (← c.get "File").asStr
  orIOError (← sys.validName file)
  let _ ← (← c.get "Interactive").asBool
  let _ ← (← c.get "WarnMissingPackages").asBool
  c.has "Modules"
  let _ ← checkModules (← (← c.get "Modules").items)
  c.has "ReferenceSpectrum"
  let ref ← c.get "ReferenceSpectrum"
  let _ ← (← ref.get "Value").asFloat
  let _ ← (← ref.get "SpectrumType").asStr
  let _ ← (← ref.get "Unit").asStr
  .ok ()

/-! ## Lookup -/

/-- The name of the configuration file in a directory. -/
def configFile (dir : String) : String := joinPath dir "config.yaml"

/-- config.py 77-87 `_get_user_config_dir`. -/
def userConfigDir (sys : CfgSys F) (made : Made) : Res String × Made :=
  match sys.home with
  | Option.none => (.error .key, made)
  | some h =>
    let d := joinPath (joinPath h ".config") "dispersion"
    if sys.exist d || made.contains d then (.ok d, made)
    else match sys.mkdir d with
      | .ok _ => (.ok d, d :: made)
      | .error e => (.error e, made)

/-- config.py 93-103 `_get_config_dir`. -/
def configDir (sys : CfgSys F) (made : Made) : Res String × Made :=
  match userConfigDir sys made with
  | (.error e, m) => (.error e, m)
  | (.ok d, m) =>
    if (sys.files (configFile d)).isSome then (.ok d, m)
    else if (sys.files (configFile sys.package)).isSome then (.ok sys.package, m)
    else (.error .value, m)

/-- Reads a YAML file. -/
def CfgSys.readYaml (sys : CfgSys F) (path : String) : Res (YamlVal F) :=
  match sys.files path with
  | some r => r
  | Option.none => .error .fileNotFound

/-- config.py 123-134 `read_config`. -/
def readConfig (sys : CfgSys F) (made : Made) : Res (YamlVal F) × Made :=
  match configDir sys made with
  | (.error e, m) => (.error e, m)
  | (.ok d, m) => (sys.readYaml (configFile d), m)

/-- Cuts a text at the first `" #"`, where a comment begins in YAML. -/
def cutComment : List Char → List Char
  | [] => []
  | c :: cs => if c = ' ' ∧ cs.head? = some '#' then [] else c :: cutComment cs

/-- The value of the line `Path: <text>` in YAML, for absolute paths without `": "`, a colon at the
end, tabs and line breaks: comments and blanks at the end do not belong to it. -/
def plainScalar (s : String) : String :=
  String.ofList (((cutComment s.toList).reverse.dropWhile (· = ' ')).reverse)

/-- config.py 53-75: the default configuration for a given directory. -/
def defaultFor (dir : String) : YamlVal F :=
  .dict [("Path", .str (plainScalar dir)), ("File", .str "catalogue.csv"),
    ("Interactive", .bool false), ("WarnMissingPackages", .bool false),
    ("Modules", .dict [("UserData", .bool true), ("RefractiveIndexInfo", .bool true)]),
    ("ReferenceSpectrum", .dict [("Value", .float (lit (6328 / 10))),
      ("SpectrumType", .str "wavelength"), ("Unit", .str "nanometer")])]

/-- config.py 53-75 `default_config`. -/
def defaultConfig (sys : CfgSys F) (made : Made) : Res (YamlVal F) × Made :=
  match userConfigDir sys made with
  | (.error e, m) => (.error e, m)
  | (.ok d, m) => (.ok (defaultFor d), m)

/-- config.py 136-153 `get_config`. -/
def getConfig (sys : CfgSys F) (made : Made) : Res (YamlVal F) × Made :=
  match readConfig sys made with
  | (.error e, m) => if e.isA .os then defaultConfig sys m else (.error e, m)
  | r => r

/-- `dispersion/__init__.py` 19-22: the configuration of the package on import. -/
def importConfig (sys : CfgSys F) (made : Made) : Res (YamlVal F) × Made :=
  match getConfig sys made with
  | (.error e, m) => if e.isA .value then defaultConfig sys m else (.error e, m)
  | r => r

/-- Writes a YAML file that reads as the value `c`. -/
def CfgSys.write (sys : CfgSys F) (path : String) (c : YamlVal F) : CfgSys F :=
  { sys with files := fun p => if p = path then some (.ok c) else sys.files p }

/-- config.py 106-121 `write_config`, where the directory can be written to. -/
def writeConfig (sys : CfgSys F) (made : Made) (c : YamlVal F) (dir : Option String) :
    Res (CfgSys F) × Made :=
  match dir with
  | some d => (.ok (sys.write (configFile d) c), made)
  | Option.none =>
    match configDir sys made with
    | (.error e, m) => (.error e, m)
    | (.ok d, m) => (.ok (sys.write (configFile d) c), m)

/-! ## Opening a catalogue -/

variable [SciPy F] [NumText F] [CsvIO F]

/-- The entries of a configuration that a Catalogue uses. -/
structure CatConfig (F : Type) where
  path : String
  file : String
  modules : List (String × Bool)
  value : F
  stype : String
  unit : String

/-- catalogue.py 103-105, 132 and 271-273: the entries are taken from the configuration. -/
def CatConfig.ofYaml (c : YamlVal F) : Res (CatConfig F) := do
  let ref ← c.get "ReferenceSpectrum"
  let value ← (← ref.get "Value").asFloat
  let stype ← (← ref.get "SpectrumType").asStr
  let unit ← (← ref.get "Unit").asStr
  let path ← (← c.get "Path").asStr
  let file ← (← c.get "File").asStr
  let modules ← checkModules (← (← c.get "Modules").items)
  .ok { path := path, file := file, modules := modules, value := value, stype := stype,
        unit := unit }

/-- catalogue.py 98-118: a Catalogue for a given configuration. `csv` is the content of the
catalogue file, if there is one. `none` if the file is outside of the model of `read_csv`. -/
def newCatalogue (sys : CfgSys F) (fs : FileSys F) (csv : String → Option (List Char))
    (c : YamlVal F) (rb : Rebuild) : Option (Res (Frame F)) :=
  match (do
    validateConfig sys c
    let cc ← CatConfig.ofYaml c
    let ref ← Spectrum.new (.float cc.value) cc.stype cc.unit
    .ok (cc, ref)) with
  | .error e => some (.error e)
  | .ok (cc, ref) =>
    let stored : Option (Res (Frame F)) :=
      if rb = .text "All" then some (.ok [])
      else match csv (joinPath cc.path cc.file) with
        | Option.none => some (.error .fileNotFound)
        | some text => loadCsv text
    stored.map (fun s => startCatalogue fs ref cc.path cc.modules s rb)

end Disp
