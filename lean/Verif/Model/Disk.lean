import Verif.Model.Config
/-!
# The file system under `valid_file_name` and `validate_config`
(/repo/src/dispersion/io.py 234-251, /repo/src/dispersion/config.py 16-41)

`Model/Config` takes what `open` and `os.mkdir` answer as parameters. Here files are opened and
directories are made on a disk that remembers it: a tree of directories and text files without
links, as POSIX has them. Permissions are fixed: `readable` and `writable` say where files can be
opened, and where a file or directory can be made or replaced. The limit of 255 bytes for a name is
modelled, the one for whole paths is not.
-/

namespace Disp

/-- A place on the disk: the names on the way from the root. -/
abbrev Loc := List (List Char)

/-- What is at a place. -/
inductive Node
  | dir
  | file (text : List Char)
  deriving DecidableEq

/-- A disk. -/
abbrev Disk := Loc → Option Node

/-- The machine: the working directory, `$HOME`, `tempfile.gettempdir()`, the name that
`tempfile.mkdtemp` chooses (`none` if it finds no unused one), and the permissions. -/
structure Machine where
  cwd : Loc
  home : Option String
  temp : Loc
  fresh : Disk → Option (List Char)
  readable : Loc → Bool
  writable : Loc → Bool

/-- Puts something at a place. -/
def Disk.put (d : Disk) (l : Loc) (n : Node) : Disk := fun x => if x = l then some n else d x

/-- `shutil.rmtree`. -/
def Disk.rmTree (d : Disk) (l : Loc) : Disk := fun x => if l <+: x then none else d x

/-- At most 255 bytes. -/
def fitsName (c : List Char) : Bool := (String.ofList c).utf8ByteSize ≤ 255

/-- Path resolution: every name but the last must be that of a directory. -/
def Disk.walk (d : Disk) : Loc → List (List Char) → Res Loc
  | cur, [] => .ok cur
  | cur, c :: cs =>
    match d cur with
    | some .dir =>
      if c = [] ∨ c = ['.'] then d.walk cur cs
      else if c = ['.', '.'] then d.walk cur.dropLast cs
      else if fitsName c then d.walk (cur ++ [c]) cs
      else .error .os
    | some (.file _) => .error .os
    | none => .error .fileNotFound

/-- Where a path begins. -/
def Machine.start (m : Machine) (p : List Char) : Loc :=
  if p.head? = some '/' then [] else m.cwd

/-- The place that a path stands for; nothing needs to be there. A path with a NUL character is a
ValueError. -/
def Machine.find (m : Machine) (d : Disk) (p : String) : Res Loc :=
  if '\x00' ∈ p.toList then .error .value
  else if p = "" then .error .fileNotFound
  else d.walk (m.start p.toList) (splitOnChar '/' p.toList)

/-- `open(p, 'r')`. -/
def Machine.openR (m : Machine) (d : Disk) (p : String) : Res Unit :=
  match m.find d p with
  | .error e => .error e
  | .ok l =>
    match d l with
    | some (.file _) => if m.readable l then .ok () else .error .os
    | some .dir => .error .os
    | none => .error .fileNotFound

/-- Opens a file for writing and writes `text`. -/
def Machine.write (m : Machine) (d : Disk) (p : String) (text : List Char) : Res Unit × Disk :=
  match m.find d p with
  | .error e => (.error e, d)
  | .ok l =>
    if d l = some .dir then (.error .os, d)
    else if m.writable l then (.ok (), d.put l (.file text))
    else (.error .os, d)

/-- `open(p, 'w')`: the file is empty afterwards. -/
def Machine.openW (m : Machine) (d : Disk) (p : String) : Res Unit × Disk := m.write d p []

/-- `os.mkdir(p)`, for paths without a slash at the end. -/
def Machine.mkdir (m : Machine) (d : Disk) (p : String) : Res Unit × Disk :=
  match m.find d p with
  | .error e => (.error e, d)
  | .ok l =>
    if (d l).isSome then (.error .os, d)
    else if m.writable l then (.ok (), d.put l .dir)
    else (.error .os, d)

/-- What a path leads to. -/
def Machine.look (m : Machine) (d : Disk) (p : String) : Option Node :=
  match m.find d p with
  | .error _ => none
  | .ok l => d l

/-- `os.path.exists(p)`. -/
def Machine.exist (m : Machine) (d : Disk) (p : String) : Bool := (m.look d p).isSome

/-- `os.path.isdir(p)`. -/
def Machine.isDir (m : Machine) (d : Disk) (p : String) : Bool := m.look d p = some .dir

/-- `os.path.isfile(p)`. -/
def Machine.isFile (m : Machine) (d : Disk) (p : String) : Bool :=
  match m.look d p with
  | some (.file _) => true
  | _ => false

/-- The path of a place below the root. -/
def placeText (l : Loc) : String := String.ofList (l.flatMap ('/' :: ·))

/-- `tempfile.mkdtemp()`. -/
def Machine.mkTemp (m : Machine) (d : Disk) : Res Loc × Disk :=
  match m.fresh d with
  | none => (.error .os, d)
  | some t =>
    if d m.temp = some .dir then
      if m.writable (m.temp ++ [t]) then (.ok (m.temp ++ [t]), d.put (m.temp ++ [t]) .dir)
      else (.error .os, d)
    else (.error .fileNotFound, d)

/-- io.py 243-251: what happens in the temporary directory `dir`. -/
def Machine.tryName (m : Machine) (d : Disk) (dir : Loc) (name : String) : Res Bool × Disk :=
  match m.openR d (joinPath (placeText dir) name) with
  | .ok _ => (.ok true, d)
  | .error e =>
    if e.isA .os then
      match m.openW d (joinPath (placeText dir) name) with
      | (.ok _, d') => (.ok true, d')
      | (.error e', d') => if e'.isA .os then (.ok false, d') else (.error e', d')
    else (.error e, d)

/-- io.py 234-251 `valid_file_name`. The temporary directory is removed in any case. -/
def Machine.validFileName (m : Machine) (d : Disk) (name : String) : Res Bool × Disk :=
  match m.mkTemp d with
  | (.error e, d) => (.error e, d)
  | (.ok dir, d1) => ((m.tryName d1 dir name).1, (m.tryName d1 dir name).2.rmTree dir)

variable {F : Type} [PyFloat F]

/-- config.py 24-28: the checks before the file name, and the file name. -/
def Machine.configName (m : Machine) (d : Disk) (c : YamlVal F) : Res String := do
  let path ← (← c.get "Path").asStr
  orIOError (m.isDir d path)
  (← c.get "File").asStr

/-- config.py 30-41: the checks after the file name. -/
def configRest (c : YamlVal F) : Res Unit := do
  let _ ← (← c.get "Interactive").asBool
  let _ ← (← c.get "WarnMissingPackages").asBool
  c.has "Modules"
  let _ ← checkModules (← (← c.get "Modules").items)
  c.has "ReferenceSpectrum"
  let ref ← c.get "ReferenceSpectrum"
  let _ ← (← ref.get "Value").asFloat
  let _ ← (← ref.get "SpectrumType").asStr
  let _ ← (← ref.get "Unit").asStr
  .ok ()

/-- config.py 16-41 `validate_config`, with what it leaves on the disk. -/
def Machine.validate (m : Machine) (d : Disk) (c : YamlVal F) : Res Unit × Disk :=
  match m.configName d c with
  | .error e => (.error e, d)
  | .ok name =>
    match m.validFileName d name with
    | (.error e, d') => (.error e, d')
    | (.ok b, d') => ((do orIOError b; configRest c), d')

/-- The machine as `Model/Config` sees it, with `load` for the reading of YAML files and `package`
for the directory of the package. The temporary directory has been made. -/
def Machine.asSys (m : Machine) (load : List Char → Res (YamlVal F)) (package : String) (d : Disk) :
    CfgSys F where
  home := m.home
  package := package
  temp := placeText (m.temp ++ (m.fresh d).toList)
  exist := m.exist d
  isdir := m.isDir d
  files := fun p => match m.find d p with
    | .ok l => fileAt l (d l)
    | .error _ => Option.none
  mkdir := fun p => (m.mkdir d p).1
  openR := m.openR (m.mkTemp d).2
  openW := fun p => (m.openW (m.mkTemp d).2 p).1
where
  /-- What reading a file gives. -/
  fileAt (l : Loc) : Option Node → Option (Res (YamlVal F))
    | some (.file text) => some (if m.readable l then load text else .error .os)
    | _ => Option.none

end Disp
