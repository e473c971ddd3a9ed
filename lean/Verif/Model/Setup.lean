import Verif.Model.Config
/-!
# The setup script and the question before rebuilding
(/repo/src/dispersion/scripts/setup_dispersion.py, /repo/src/dispersion/catalogue.py 32-44)

What the user types is a list of lines; when it is used up, `input` raises an EOFError. Printed
texts are not modelled. Cloning a repository and writing the example files are parameters; the
example files themselves are in `Model/Examples`.
-/

namespace Disp

/-- setup_dispersion.py 60-73 `ask`. The answer and the lines that are left. -/
def ask (valid : String → Res Bool) (dflt : String) : List String → Res (String × List String)
  | [] => .error .eof
  | x :: rest =>
    match valid (if x = "" then dflt else x) with
    | .ok true => .ok (if x = "" then dflt else x, rest)
    | .ok false => ask valid dflt rest
    | .error e => .error e

/-- setup_dispersion.py 75-89 `get_confirmation`. -/
def getConfirmation : List String → Res (Bool × List String)
  | [] => .error .eof
  | x :: rest =>
    if x = "y" ∨ x = "yes" then .ok (true, rest)
    else if x = "n" ∨ x = "no" then .ok (false, rest)
    else getConfirmation rest

/-- setup_dispersion.py 34-57 `ask_and_confirm`. -/
def askAndConfirm (valid : String → Res Bool) (dflt : String) (inputs : List String) :
    Res ((String × Bool) × List String) := do
  let (a, rest) ← ask valid dflt inputs
  let (b, rest) ← getConfirmation rest
  .ok ((a, b), rest)

theorem ask_rest {valid : String → Res Bool} {dflt : String} {inputs rest : List String}
    {a : String} (h : ask valid dflt inputs = .ok (a, rest)) : rest.length < inputs.length := by
  induction inputs with
  | nil => simp [ask] at h
  | cons x inputs ih =>
    rw [ask] at h
    split at h
    · simp only [Except.ok.injEq, Prod.mk.injEq] at h
      rw [← h.2]; simp
    · have := ih h
      simp; omega
    · simp at h

theorem confirmation_rest {inputs rest : List String} {b : Bool}
    (h : getConfirmation inputs = .ok (b, rest)) : rest.length < inputs.length := by
  induction inputs with
  | nil => simp [getConfirmation] at h
  | cons x inputs ih =>
    rw [getConfirmation] at h
    split at h
    · simp only [Except.ok.injEq, Prod.mk.injEq] at h
      rw [← h.2]; simp
    · split at h
      · simp only [Except.ok.injEq, Prod.mk.injEq] at h
        rw [← h.2]; simp
      · have := ih h
        simp; omega

theorem askAndConfirm_rest {valid : String → Res Bool} {dflt : String} {inputs rest : List String}
    {p : String × Bool} (h : askAndConfirm valid dflt inputs = .ok (p, rest)) :
    rest.length < inputs.length := by
  unfold askAndConfirm at h
  cases h1 : ask valid dflt inputs with
  | error e => simp [h1, bind, Except.bind] at h
  | ok q =>
    obtain ⟨a, r1⟩ := q
    cases h2 : getConfirmation r1 with
    | error e => simp [h1, h2, bind, Except.bind] at h
    | ok q =>
      obtain ⟨b, r2⟩ := q
      simp only [h1, h2, bind, Except.bind, Except.ok.injEq, Prod.mk.injEq] at h
      have := ask_rest h1
      have := confirmation_rest h2
      rw [← h.2]; omega

/-- setup_dispersion.py 214-216 and 219-221: the loops of `main`. -/
def untilConfirmed (valid : String → Res Bool) (dflt : String) (inputs : List String) :
    Res (String × List String) :=
  match h : askAndConfirm valid dflt inputs with
  | .error e => .error e
  | .ok ((a, true), rest) => .ok (a, rest)
  | .ok ((_, false), rest) => untilConfirmed valid dflt rest
termination_by inputs.length
decreasing_by exact askAndConfirm_rest h

/-- catalogue.py 32-40: the loop of `rebuild_catalogue`. Is the catalogue rebuilt? -/
def reallyRebuild : List String → Res (Bool × List String)
  | [] => .error .eof
  | x :: rest =>
    if x = "n" then .ok (false, rest)
    else if x = "y" then .ok (true, rest)
    else reallyRebuild rest

/-- catalogue.py 32-44 `rebuild_catalogue`: the content of the catalogue file afterwards. `build`
is `Catalogue(rebuild='All')`. -/
def rebuildCatalogue {F : Type} [PyFloat F] [CsvIO F] (build : Res (Frame F))
    (old : Option (List Char)) (inputs : List String) : Res Unit × Option (List Char) :=
  match reallyRebuild inputs with
  | .error e => (.error e, old)
  | .ok (false, _) => (.ok (), old)
  | .ok (true, _) =>
    match build with
    | .error e => (.error e, old)
    | .ok f => (.ok (), some (csvText f))

/-! ## Installation of the modules -/

/-- What the script needs besides `CfgSys`: writing the example files, and cloning the
repository. -/
structure Installer where
  examples : String → Res Unit
  clone : String → Res Unit

variable {F : Type}

/-- `os.path.isdir`, after directories were made. -/
def CfgSys.dirNow (sys : CfgSys F) (made : Made) (p : String) : Bool :=
  sys.isdir p || made.contains p

/-- setup_dispersion.py 168-201 `install_rii`: was the module installed? -/
def installRii (sys : CfgSys F) (ins : Installer) (made : Made) (dir : String)
    (inputs : List String) : Res (Bool × List String) := do
  let (b, rest) ← getConfirmation inputs
  if b then do
    ins.clone dir
    .ok (true, rest)
  else .ok (sys.dirNow made dir && sys.isdir (joinPath dir "database") &&
    (sys.files (joinPath (joinPath dir "database") "library.yml")).isSome, rest)

/-- setup_dispersion.py 109-111: the folder of a module. -/
def makeFolder (sys : CfgSys F) (made : Made) (dir : String) : Res Made :=
  if sys.dirNow made dir then .ok made
  else do
    sys.mkdir dir
    .ok (dir :: made)

/-- setup_dispersion.py 97-98 and 112: the function that installs a module. -/
def installModule (sys : CfgSys F) (ins : Installer) (made : Made) (modl dir : String)
    (inputs : List String) : Res (Bool × List String) :=
  if modl = "UserData" then do
    ins.examples dir
    .ok (true, inputs)
  else if modl = "RefractiveIndexInfo" then installRii sys ins made dir inputs
  else .error .key

/-- setup_dispersion.py 101-105: is a module to be installed? -/
def wanted (modl : String) (inputs : List String) : Res (Bool × List String) :=
  if modl = "UserData" then .ok (true, inputs) else getConfirmation inputs

/-- One round of the loop setup_dispersion.py 100-114: the new setting of the module. -/
def setupModule (sys : CfgSys F) (ins : Installer) (path modl : String)
    (st : Made × List String) : Res (Bool × (Made × List String)) := do
  let (b, rest) ← wanted modl st.2
  if b then do
    let made ← makeFolder sys st.1 (joinPath path modl)
    let (ok, rest) ← installModule sys ins made modl (joinPath path modl) rest
    .ok (ok, (made, rest))
  else .ok (false, (st.1, rest))

/-- setup_dispersion.py 92-115 `install_modules`. -/
def installModules (sys : CfgSys F) (ins : Installer) (path : String) :
    List String → Made × List String → Res (List (String × Bool) × (Made × List String))
  | [], st => .ok ([], st)
  | m :: ms, st => do
    let (b, st) ← setupModule sys ins path m st
    let (l, st) ← installModules sys ins path ms st
    .ok ((m, b) :: l, st)

/-- `os.path.isabs`. -/
def isAbs (s : String) : Res Bool := .ok (s.toList.head? = some '/')

/-- The default configuration with new entries for `Path`, `File` and `Modules`. -/
def setupConfig [PyFloat F] (path file : String) (modules : List (String × Bool)) : YamlVal F :=
  .dict [("Path", .str path), ("File", .str file),
    ("Interactive", .bool false), ("WarnMissingPackages", .bool false),
    ("Modules", .dict (modules.map (fun p => (p.1, .bool p.2)))),
    ("ReferenceSpectrum", .dict [("Value", .float (lit (6328 / 10))),
      ("SpectrumType", .str "wavelength"), ("Unit", .str "nanometer")])]

/-- What `main` leaves behind: the configuration it wrote, and whether the catalogue is to be
rebuilt. -/
structure SetupResult (F : Type) where
  config : YamlVal F
  file : String
  rebuild : Bool
  made : Made

/-- setup_dispersion.py 210-229 `main`, up to the rebuilding. The default configuration and the
user's directory are in `dir`, which exists by then. -/
def setupMain [PyFloat F] (sys : CfgSys F) (ins : Installer) (inputs : List String) :
    Res (SetupResult F) := do
  let (dir, made) ← (do
    match userConfigDir sys [] with
    | (.error e, _) => .error e
    | (.ok d, m) => .ok (d, m) : Res (String × Made))
  let (path, rest) ← untilConfirmed isAbs (plainScalar dir) inputs
  let (name, rest) ← untilConfirmed sys.validName "catalogue.csv" rest
  let (modules, (made, rest)) ←
    installModules sys ins path ["UserData", "RefractiveIndexInfo"] (made, rest)
  let (b, _) ← getConfirmation rest
  .ok { config := setupConfig path name modules, file := configFile dir, rebuild := b,
        made := made }

end Disp
