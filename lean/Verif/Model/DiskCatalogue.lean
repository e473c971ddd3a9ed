import Verif.Model.Disk
import Verif.Model.Catalogue
/-!
# The disk as the catalogue reads it

`Model/Catalogue` takes what it reads from the disk as a `FileSys`. Here this is made from a disk
(`Model/Disk`).
-/

namespace Disp

/-- What the libraries make of the files: the names in a directory in the order of `os.listdir`,
the content of a data file (`Reader(path).read_file()`, which depends on the extension as well), and
the content of a library file of refractiveindex.info. -/
structure Contents (F : Type) where
  names : Loc → List String
  data : String → List Char → Res (FileDict F)
  library : List Char → Res (List Shelf)

/-- io.py 141, 331-346 and 358: a file is opened and what it holds is taken. -/
def Machine.readWith {α : Type} (m : Machine) (d : Disk) (p : String) (f : List Char → Res α) :
    Res α :=
  match m.find d p with
  | .error e => .error e
  | .ok l =>
    match d l with
    | some (.file t) => if m.readable l then f t else .error .os
    | some .dir => .error .os
    | none => .error .fileNotFound

/-- `os.listdir(p)`. -/
def Machine.listNames (m : Machine) (d : Disk) (p : String) (names : Loc → List String) :
    Res (List String) :=
  match m.find d p with
  | .error e => .error e
  | .ok l =>
    match d l with
    | some .dir => if m.readable l then .ok (names l) else .error .os
    | some (.file _) => .error .os
    | none => .error .fileNotFound

/-- A disk, as the catalogue reads it. -/
def Machine.fileSys {F : Type} (m : Machine) (c : Contents F) (d : Disk) : FileSys F where
  listdir := fun p => m.listNames d p c.names
  isfile := m.isFile d
  isdir := m.isDir d
  read := fun p => m.readWith d p (c.data p)
  library := fun p => m.readWith d p c.library

end Disp
