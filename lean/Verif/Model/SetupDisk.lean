import Verif.Model.Disk
import Verif.Model.Setup
import Verif.Model.Examples
/-!
# The setup script on a disk (/repo/src/dispersion/scripts/setup_dispersion.py)

`Model/Setup` computes what the script decides. Here the same functions act on a disk
(`Model/Disk`) and read the lines that the user types, so that also a run that is broken off (no
more input, or an exception) leaves something behind. A file is replaced at once; what an
interruption in the middle of the writing leaves is the subject of `Model/Interrupted`.
-/

namespace Disp

/-- A script acts on the disk and the lines to come, and returns or raises. -/
def Script (α : Type) : Type := Disk × List String → Res α × (Disk × List String)

instance : Monad Script where
  pure a := fun s => (.ok a, s)
  bind x f := fun s =>
    match x s with
    | (.error e, s') => (.error e, s')
    | (.ok a, s') => f a s'

/-- Something that acts on the disk only. -/
def onDisk {α : Type} (f : Disk → Res α × Disk) : Script α :=
  fun s => ((f s.1).1, ((f s.1).2, s.2))

/-- setup_dispersion.py 75-89 `get_confirmation`. -/
def confirm : Script Bool := fun s =>
  match getConfirmation s.2 with
  | .error e => (.error e, (s.1, []))
  | .ok (b, rest) => (.ok b, (s.1, rest))

/-- setup_dispersion.py 60-73 `ask`, with a validator that acts on the disk. -/
def askLoop (valid : String → Disk → Res Bool × Disk) (dflt : String) :
    List String → Disk → Res String × (Disk × List String)
  | [], d => (.error .eof, (d, []))
  | x :: rest, d =>
    match valid (if x = "" then dflt else x) d with
    | (.ok true, d') => (.ok (if x = "" then dflt else x), (d', rest))
    | (.ok false, d') => askLoop valid dflt rest d'
    | (.error e, d') => (.error e, (d', rest))

/-- setup_dispersion.py 60-73 `ask`. -/
def askD (valid : String → Disk → Res Bool × Disk) (dflt : String) : Script String :=
  fun s => askLoop valid dflt s.2 s.1

/-- setup_dispersion.py 34-57 `ask_and_confirm`. -/
def askConfirmD (valid : String → Disk → Res Bool × Disk) (dflt : String) :
    Script (String × Bool) := do
  let a ← askD valid dflt
  let b ← confirm
  pure (a, b)

theorem askLoop_rest {valid : String → Disk → Res Bool × Disk} {dflt a : String}
    {inputs : List String} {d : Disk} {s' : Disk × List String}
    (h : askLoop valid dflt inputs d = (.ok a, s')) : s'.2.length < inputs.length := by
  induction inputs generalizing d with
  | nil => cases h
  | cons x rest ih =>
    rw [askLoop] at h
    split at h
    · injection h with _ h
      rw [← h]; simp
    · have := ih h
      simp; omega
    · cases h

theorem askConfirmD_rest {valid : String → Disk → Res Bool × Disk} {dflt : String}
    {p : String × Bool} {s s' : Disk × List String}
    (h : askConfirmD valid dflt s = (.ok p, s')) : s'.2.length < s.2.length := by
  unfold askConfirmD at h
  simp only [bind, askD, confirm] at h
  cases h1 : askLoop valid dflt s.2 s.1 with
  | mk r t =>
    rw [h1] at h
    cases r with
    | error e => cases h
    | ok a =>
      simp only at h
      have h2 := askLoop_rest h1
      cases h3 : getConfirmation t.2 with
      | error e => rw [h3] at h; cases h
      | ok q =>
        rw [h3] at h
        simp only [pure] at h
        injection h with _ h
        have := confirmation_rest (b := q.1) (rest := q.2) h3
        rw [← h]; simp only; omega

/-- setup_dispersion.py 214-216 and 219-221: the loops of `main`. -/
def untilD (valid : String → Disk → Res Bool × Disk) (dflt : String) (s : Disk × List String) :
    Res String × (Disk × List String) :=
  match h : askConfirmD valid dflt s with
  | (.error e, s') => (.error e, s')
  | (.ok (a, true), s') => (.ok a, s')
  | (.ok (_, false), s') => untilD valid dflt s'
termination_by s.2.length
decreasing_by exact askConfirmD_rest h

/-- The same as a script. -/
def untilS (valid : String → Disk → Res Bool × Disk) (dflt : String) : Script String :=
  fun s => untilD valid dflt s

/-- config.py 77-87 `_get_user_config_dir`. -/
def userDirD (m : Machine) : Script String := fun s =>
  match m.home with
  | none => (.error .key, s)
  | some h =>
    if m.exist s.1 (joinPath (joinPath h ".config") "dispersion") then
      (.ok (joinPath (joinPath h ".config") "dispersion"), s)
    else
      match m.mkdir s.1 (joinPath (joinPath h ".config") "dispersion") with
      | (.error e, d) => (.error e, (d, s.2))
      | (.ok _, d) => (.ok (joinPath (joinPath h ".config") "dispersion"), (d, s.2))

/-- setup_dispersion.py 109-111: the folder of a module. -/
def folder (m : Machine) (p : String) : Script Unit :=
  onDisk (fun d => if m.isDir d p then (.ok (), d) else m.mkdir d p)

/-- Writes a text, if it can be made. -/
def writeMade (m : Machine) (p : String) (text : Res (List Char)) : Script Unit := fun s =>
  match text with
  | .error e => (.error e, s)
  | .ok t => onDisk (fun d => m.write d p t) s

/-- What the script uses besides the disk: the YAML library for the configuration file, git, and
what `Catalogue(config, rebuild='All')` makes of a valid configuration, which it only reads. -/
structure Tools (F : Type) where
  dump : YamlVal F → List Char
  clone : String → Disk → Res Unit × Disk
  build : YamlVal F → Disk → Res (Frame F)

variable {F : Type} [PyFloat F] [SciPy F] [NumText F] [Printing F] [YamlIO F] [CsvIO F]

/-- setup_dispersion.py 117-120 `install_userdata`. The constructor of the examples reads no
file. -/
def installUserD (F : Type) [PyFloat F] [SciPy F] [NumText F] [Printing F] [YamlIO F]
    (m : Machine) (dir : String) : Script Bool := do
  writeMade m (joinPath dir "example_file.txt")
    (makeExampleTxt (F := F) (fun _ => .error .fileNotFound))
  writeMade m (joinPath dir "example_file2.yml")
    (makeExampleYaml (F := F) (fun _ => .error .fileNotFound))
  pure true

/-- setup_dispersion.py 183-201: is the module of refractiveindex.info there? -/
def riiThere (m : Machine) (dir : String) (d : Disk) : Bool :=
  m.isDir d dir && m.isDir d (joinPath dir "database") &&
    m.isFile d (joinPath (joinPath dir "database") "library.yml")

/-- setup_dispersion.py 168-201 `install_rii`. -/
def installRiiD (m : Machine) (tools : Tools F) (dir : String) : Script Bool := do
  let b ← confirm
  if b then do
    onDisk (tools.clone dir)
    pure true
  else onDisk (fun d => (.ok (riiThere m dir d), d))

/-- setup_dispersion.py 97-98 and 112: the function that installs a module. -/
def installModuleD (m : Machine) (tools : Tools F) (modl dir : String) : Script Bool :=
  if modl = "UserData" then installUserD F m dir
  else if modl = "RefractiveIndexInfo" then installRiiD m tools dir
  else fun s => (.error .key, s)

/-- setup_dispersion.py 101-105: is a module to be installed? -/
def wantedD (modl : String) : Script Bool :=
  if modl = "UserData" then pure true else confirm

/-- One round of the loop setup_dispersion.py 100-114: the new setting of the module. -/
def setupModuleD (m : Machine) (tools : Tools F) (path modl : String) : Script Bool := do
  let b ← wantedD modl
  if b then do
    folder m (joinPath path modl)
    installModuleD m tools modl (joinPath path modl)
  else pure false

/-- setup_dispersion.py 92-115 `install_modules`. -/
def installModulesD (m : Machine) (tools : Tools F) (path : String) :
    List String → Script (List (String × Bool))
  | [] => pure []
  | modl :: ms => do
    let b ← setupModuleD m tools path modl
    let l ← installModulesD m tools path ms
    pure ((modl, b) :: l)

/-- setup_dispersion.py 206-208: the catalogue is built and saved. -/
def rebuildD (m : Machine) (tools : Tools F) (path name : String) (conf : YamlVal F) :
    Script Unit := do
  onDisk (fun d => m.validate d conf)
  let f ← onDisk (fun d => (tools.build conf d, d))
  writeMade m (joinPath path name) (.ok (csvText f))

/-- The local variables of `main` at its end: root directory, file name, modules, and whether the
catalogue was built. -/
structure SetupDone where
  path : String
  name : String
  modules : List (String × Bool)
  rebuilt : Bool

/-- setup_dispersion.py 203-208 and 226-229: what follows the installation of the modules. -/
def finishD (m : Machine) (tools : Tools F) (path name : String) (modules : List (String × Bool)) :
    Script Bool := do
  let dir ← userDirD m
  writeMade m (configFile dir) (.ok (tools.dump (setupConfig path name modules)))
  let b ← confirm
  if b then do
    rebuildD m tools path name (setupConfig path name modules)
    pure true
  else pure false

/-- setup_dispersion.py 210-229 `main`. -/
def setupRun (m : Machine) (tools : Tools F) : Script SetupDone := do
  let dir ← userDirD m
  let path ← untilS (fun x d => (isAbs x, d)) (plainScalar dir)
  let name ← untilS (fun x d => m.validFileName d x) "catalogue.csv"
  let modules ← installModulesD m tools path ["UserData", "RefractiveIndexInfo"]
  let b ← finishD m tools path name modules
  pure { path := path, name := name, modules := modules, rebuilt := b }

end Disp
