import Verif.Py.Paths
import Verif.Model.Files
/-!
# The catalogue (/repo/src/dispersion/catalogue.py)

The table is a pandas DataFrame with the columns `META_DATA` (catalogue.py 80-93). It is modelled
as a list of rows with their index labels. What pandas does is taken from pandas 1.x; from
version 2.0 on `DataFrame.append`, which `build_catalogue` calls, does not exist.
`view_interactive`, `edit_interactive` and `save_interactive` are in `Model/Session`. Not modelled:
warnings, and library files whose entries lack the keys that are read.
-/

namespace Disp

variable {F : Type} [PyFloat F] [SciPy F] [NumText F]

/-- A text cell of the table: `nan` marks a missing value, `dict` a dictionary from a file. -/
inductive Cell
  | nan
  | str (s : String)
  | dict (d : List (String × String))
  deriving DecidableEq

/-- A metadata value as it is stored in the table. -/
def MetaVal.cell : MetaVal → Cell
  | .str s => .str s
  | .dict d => .dict d

/-- A row of the table (catalogue.py 80-93). -/
structure Row (F : Type) where
  al : Cell
  name : Cell
  fullName : Cell
  author : Cell
  comment : Cell
  reference : Cell
  stype : Cell
  unit : Cell
  lower : F
  upper : F
  nRef : Vals F
  kRef : Vals F
  path : Cell
  modl : Cell

/-- The row that pandas adds when a cell of a missing row is set: all other cells are missing. -/
def Row.added (al : String) : Row F :=
  { al := .str al, name := .nan, fullName := .nan, author := .nan, comment := .nan,
    reference := .nan, stype := .nan, unit := .nan, lower := PyFloat.nan, upper := PyFloat.nan,
    nRef := .scalar PyFloat.nan, kRef := .scalar PyFloat.nan, path := .nan, modl := .nan }

/-- The table: rows with their index labels. -/
abbrev Frame (F : Type) := List (Int × Row F)

/-- `ignore_index=True`: rows labelled by their positions. -/
def numbered (rows : List (Row F)) : Frame F :=
  rows.zipIdx.map (fun p => ((p.2 : Int), p.1))

/-! ## Aliases -/

/-- The argument `row_id` of `register_alias`: an `int`, a DataFrame with certain labels, or
something else. -/
inductive RowId
  | int (n : Int)
  | selection (labels : List Int)
  | other
  deriving DecidableEq

/-- catalogue.py 236: `alias in self.database.loc[:, 'Alias'].values`. -/
def inUse (f : Frame F) (al : String) : Bool := f.any (fun p => p.2.al = .str al)

/-- catalogue.py 237: `self.database.at[index, 'Alias'] == alias` as a truth value. A missing
label is a KeyError, and with several rows of this label the truth value is ambiguous. -/
def sameAlias (f : Frame F) (n : Int) (al : String) : Res Bool :=
  match f.filter (fun p => p.1 = n) with
  | [] => .error .key
  | [p] => .ok (p.2.al = .str al)
  | _ => .error .value

/-- Sets the alias of the rows with the given labels. -/
def setAlias (f : Frame F) (labels : List Int) (al : String) : Frame F :=
  f.map (fun p => if p.1 ∈ labels then (p.1, { p.2 with al := .str al }) else p)

/-- catalogue.py 242: `self.database.at[index, 'Alias'] = alias` with an `int`. A row is added if
the label is missing. -/
def setAt (f : Frame F) (n : Int) (al : String) : Frame F :=
  if f.any (fun p => p.1 = n) then setAlias f [n] al else f ++ [(n, Row.added al)]

/-- catalogue.py 217-242 `register_alias`. The table is unchanged if an exception is raised. With
a DataFrame the label is a whole index: reading with `.at` raises a TypeError, setting falls back
to `.loc`, which needs all labels (and unique ones). -/
def registerAlias (f : Frame F) (id : RowId) (al : String) : Res (Frame F) :=
  match id with
  | .other => .error .value
  | .int n =>
    if inUse f al then do
      if ← sameAlias f n al then .ok (setAt f n al) else .error .value
    else .ok (setAt f n al)
  | .selection labels =>
    if inUse f al then .error .type
    else if ¬ (f.map Prod.fst).Nodup then .error .value
    else if labels.all (fun l => f.any (fun p => p.1 = l)) then .ok (setAlias f labels al)
    else .error .key

/-! ## Materials -/

/-- `database.iloc[i, :]`. -/
def iloc (f : Frame F) (i : Int) : Res (Row F) :=
  if 0 ≤ i then
    match f[i.toNat]? with
    | some p => .ok p.2
    | none => .error .index
  else if 0 ≤ i + f.length then
    match f[(i + f.length).toNat]? with
    | some p => .ok p.2
    | none => .error .index
  else .error .index

/-- The argument of `get_material`. -/
inductive Identifier
  | str (a : String)
  | int (n : Int)
  | other
  deriving DecidableEq

/-- catalogue.py 246-259: the row. The label of the first row with the alias is used as a
position. -/
def findRow (f : Frame F) : Identifier → Res (Row F)
  | .str a =>
    match (f.filter (fun p => p.2.al = .str a)).map Prod.fst with
    | [] => .error .value
    | l :: _ => iloc f l
  | .int n => iloc f n
  | .other => .error .value

/-- The arguments of the call of `Material` in catalogue.py. -/
def rowKw (path : String) (stype unit : PyVal F) : Kwargs F :=
  [("file_path", .str path), ("spectrum_type", stype), ("unit", unit)]

/-- A cell as an argument. -/
def Cell.toPy : Cell → PyVal F
  | .str s => .str s
  | .nan => .float PyFloat.nan
  | .dict _ => .int 0

/-- catalogue.py 260-265: the file of a row is loaded. -/
def loadRow (rd : String → Res (FileDict F)) (base : String) (r : Row F) : Res (Material F) :=
  match r.path with
  | .str p =>
    match r.modl with
    | .str m =>
      Material.new rd (rowKw (normPath (joinPath (joinPath base m) (unixSlashes p))) r.stype.toPy
        r.unit.toPy)
    | _ => .error .type
  | _ => .error .attribute

/-- catalogue.py 244-266 `get_material`. -/
def getMaterial (rd : String → Res (FileDict F)) (base : String) (f : Frame F) (id : Identifier) :
    Res (Material F) := do
  let r ← findRow f id
  loadRow rd base r

/-! ## Reading the modules -/

/-- A page of a book in the library file: a divider, a page with its data file, or an entry with
neither key. -/
inductive Page
  | divider
  | page (id data : String)
  | other

/-- An entry of a shelf. -/
inductive Book
  | divider
  | book (id name : String) (pages : List Page)
  | other

/-- A shelf of the library file. -/
structure Shelf where
  books : List Book

/-- What is read from the disk: directories, data files (`Reader(path).read_file()`) and library
files. -/
structure FileSys (F : Type) where
  listdir : String → Res (List String)
  isfile : String → Bool
  isdir : String → Bool
  read : String → Res (FileDict F)
  library : String → Res (List Shelf)

/-- `np.real`. -/
def CVals.reals : CVals F → Vals F
  | .scalar z => .scalar z.re
  | .array zs => .array .float (zs.map Cx.re)

/-- `np.imag`. -/
def CVals.imags : CVals F → Vals F
  | .scalar z => .scalar z.im
  | .array zs => .array .float (zs.map Cx.im)

/-- catalogue.py 367-371 and 418-421: the index at the reference point, or NaN if a ValueError is
raised. -/
def refIndex (m : Material F) (ref : Spectrum F) : Res (CVals F) :=
  match (m.getNk ref).1 with
  | .ok v => .ok v
  | .error e => if e.isA .value then .ok (.scalar ⟨PyFloat.nan, PyFloat.nan⟩) else .error e

/-- `mat.meta_data[key]`. -/
def metaCell (m : Material F) (key : String) : Res Cell :=
  match m.metaData with
  | some md => do .ok (← dictGet md key).cell
  | none => .error .type

/-- catalogue.py 395: `allowed_ext`. -/
def allowedExt : List String := [".txt", ".csv", ".yml"]

/-- One round of the loop catalogue.py 393-424, after the extension has been checked. -/
def textRow (fs : FileSys F) (ref : Spectrum F) (dir modl file : String) : Res (Row F) := do
  let m ← Material.new fs.read (rowKw (joinPath dir file) (.str "wavelength") (.str "nanometer"))
  let fullName ← metaCell m "FullName"
  let author ← metaCell m "Author"
  let comment ← metaCell m "Comment"
  let reference ← metaCell m "Reference"
  let range ← m.maxRange
  let lower ← pyIdx range.toList 0
  let upper ← pyIdx range.toList 1
  let v ← refIndex m ref
  .ok { al := .str "", name := .str (splitExt file).1, fullName := fullName, author := author,
        comment := comment, reference := reference, stype := .str "wavelength",
        unit := .str "nanometer", lower := lower, upper := upper, nRef := v.reals, kRef := v.imags,
        path := .str (normPath file), modl := .str modl }

/-- catalogue.py 385-427 `_read_text_db`. -/
def readTextDb (fs : FileSys F) (ref : Spectrum F) (dir modl : String) : Res (List (Row F)) := do
  let names ← fs.listdir dir
  let files := names.filter (fun f => fs.isfile (joinPath dir f))
  (files.filter (fun f => allowedExt.contains (splitExt f).2)).mapM (textRow fs ref dir modl)

/-- catalogue.py 334-343: the folder of the data files. -/
def dataFolder (fs : FileSys F) (dir : String) : Res String :=
  if fs.isdir (joinPath (joinPath dir "database") "data") then .ok "database/data"
  else if fs.isdir (joinPath (joinPath dir "database") "data-nk") then .ok "database/data-nk"
  else .error .value

/-- catalogue.py 353-375: the row of a page whose material was loaded. -/
def pageRow (ref : Spectrum F) (book fullName page rel : String) (m : Material F) :
    Res (Row F) := do
  let range ← m.maxRange
  let lower ← pyIdx range.toList 0
  let upper ← pyIdx range.toList 1
  let reference ← metaCell m "Reference"
  let comment ← metaCell m "Comment"
  let v ← refIndex m ref
  .ok { al := .str "", name := .str book, fullName := .str fullName, author := .str page,
        comment := comment, reference := reference, stype := .str "wavelength",
        unit := .str "micrometer", lower := lower, upper := upper, nRef := v.reals, kRef := v.imags,
        path := .str (normPath rel), modl := .str "RefractiveIndexInfo" }

/-- One round of the loop catalogue.py 330-375: pages whose file cannot be opened (OSError) are
skipped. -/
def readPage (fs : FileSys F) (ref : Spectrum F) (dir book fullName : String) :
    Page → Res (List (Row F))
  | .page id data => do
    let folder ← dataFolder fs dir
    let rel := joinPath folder data
    match Material.new fs.read (rowKw (joinPath dir rel) (.str "wavelength") (.str "micrometer")) with
    | .error e => if e.isA .os then .ok [] else .error e
    | .ok m => do
      let r ← pageRow ref book fullName id rel m
      .ok [r]
  | _ => .ok []

/-- catalogue.py 307-319. -/
def readBook (fs : FileSys F) (ref : Spectrum F) (dir : String) : Book → Res (List (Row F))
  | .book id name pages => do .ok (← pages.mapM (readPage fs ref dir id name)).flatten
  | _ => .ok []

/-- catalogue.py 283-286: the library file. -/
def readLibrary (fs : FileSys F) (dir : String) : Res (List Shelf) :=
  match fs.library (joinPath (joinPath dir "database") "catalog-nk.yml") with
  | .error .fileNotFound => fs.library (joinPath (joinPath dir "database") "library.yml")
  | r => r

/-- catalogue.py 278-304 `read_ri_info_db`. -/
def readRii (fs : FileSys F) (ref : Spectrum F) (dir : String) : Res (List (Row F)) := do
  let shelves ← readLibrary fs dir
  .ok (← (shelves.flatMap Shelf.books).mapM (readBook fs ref dir)).flatten

/-- catalogue.py 133-135 and 143: the function for a module. -/
def readModule (fs : FileSys F) (ref : Spectrum F) (base modl : String) : Res (List (Row F)) :=
  if modl = "RefractiveIndexInfo" then readRii fs ref (joinPath base modl)
  else if modl = "Filmetrics" then readTextDb fs ref (joinPath base modl) "Filmetrics"
  else if modl = "UserData" then readTextDb fs ref (joinPath base modl) "UserData"
  else .error .key

/-! ## Building -/

/-- The argument `rebuild`: `None`, a string or a list of strings. -/
inductive Rebuild
  | none
  | text (s : String)
  | list (ss : List String)
  deriving DecidableEq

/-- catalogue.py 139: `module in rebuild or rebuild == 'All'`. In a string every substring
counts. -/
def Rebuild.asks (r : Rebuild) (modl : String) : Res Bool :=
  match r with
  | .none => .error .type
  | .text s => .ok (hasSub modl.toList s.toList || s = "All")
  | .list ss => .ok (ss.contains modl)

/-- One round of the loop catalogue.py 137-163: the rows that are appended for a module. -/
def buildModule (fs : FileSys F) (ref : Spectrum F) (base : String) (old : Frame F) (rb : Rebuild)
    (modl : String) (enabled : Bool) : Res (List (Row F)) :=
  if enabled then do
    if ← rb.asks modl then readModule fs ref base modl
    else .ok ((old.filter (fun p => p.2.modl = .str modl)).map Prod.snd)
  else if rb = .text modl then .error .value
  else .ok []

/-- catalogue.py 128-164 `build_catalogue`. -/
def buildCatalogue (fs : FileSys F) (ref : Spectrum F) (base : String)
    (modules : List (String × Bool)) (old : Frame F) (rb : Rebuild) : Res (Frame F) := do
  let parts ← modules.mapM (fun p => buildModule fs ref base old rb p.1 p.2)
  .ok (numbered parts.flatten)

/-- catalogue.py 106-118 of `__init__`: the table of a new object. `stored` is what `read_csv`
returns for the catalogue file. -/
def startCatalogue (fs : FileSys F) (ref : Spectrum F) (base : String)
    (modules : List (String × Bool)) (stored : Res (Frame F)) (rb : Rebuild) : Res (Frame F) := do
  let old ← if rb = .text "All" then .ok [] else stored
  if rb = .text "None" then .ok old else buildCatalogue fs ref base modules old rb

end Disp
