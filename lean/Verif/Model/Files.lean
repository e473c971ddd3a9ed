import Verif.Model.Material
import Verif.Model.Printing
/-!
# Model of `Reader`, `Writer` and `prepend_text_to_file` (`src/dispersion/io.py`)

A file is its text, a list of characters; the encoding is not modelled. The sets of metadata
keys are iterated in an order that changes from process to process: the order is a parameter
(`KeyOrder`). YAML is a black box (`YamlIO`) that turns text into a dictionary and back.
-/

namespace Disp

/-! ## Text files -/

/-- `str.upper` on ASCII letters. Python upper-cases all Unicode letters; the two non-ASCII
characters whose upper case is an ASCII letter (dotless i, long s) are not modelled. -/
def upper (cs : List Char) : List Char := cs.map Char.toUpper

/-- The characters at which `str.splitlines`, and with it a `codecs` reader, ends a line. -/
def isLineEnd (c : Char) : Bool := lineEnds.contains c
where
  /-- The line ends. -/
  lineEnds : List Char :=
    ['\n', '\r', '\x0b', '\x0c', '\x1c', '\x1d', '\x1e', '\x85', '\u2028', '\u2029']

/-- Puts a character in front of the first line. -/
def consHead (c : Char) : List (List Char) → List (List Char)
  | [] => [[c]]
  | l :: ls => (c :: l) :: ls

/-- `str.splitlines(keepends=True)`; `\r\n` ends one line. -/
def splitLines : List Char → List (List Char)
  | [] => []
  | c :: cs =>
    if isLineEnd c && !(c = '\r' && cs.head? = some '\n') then [c] :: splitLines cs
    else consHead c (splitLines cs)

/-- `s.rstrip("\n\r")`. -/
def rstripNl (cs : List Char) : List Char :=
  (cs.reverse.dropWhile (fun c => c = '\n' || c = '\r')).reverse

/-- io.py 353-364 `_read_text_comment`: the first lines that begin with `#` or `;`. -/
def commentLines : List (List Char) → List (List Char)
  | [] => []
  | [] :: _ => []
  | (c :: l) :: ls => if c = '#' ∨ c = ';' then rstripNl l :: commentLines ls else []

/-- io.py 353-364 on the text of a file. -/
def readComment (text : List Char) : List (List Char) := commentLines (splitLines text)

/-- Reading in text mode: `\r\n` and `\r` become `\n`. -/
def universal : List Char → List Char
  | [] => []
  | c :: cs =>
    if c = '\r' then (if cs.head? = some '\n' then universal cs else '\n' :: universal cs)
    else c :: universal cs

/-- The fields of a line for `np.loadtxt`: what follows the comment character is dropped, the
rest split at white space or at the delimiter. -/
def fieldsOf (comment : Char) (delim : Option Char) (line : List Char) : List (List Char) :=
  let cut := line.takeWhile (· ≠ comment)
  match delim with
  | none => splitSpaces cut
  | some d => if cut = [] then [] else (splitOnChar d cut).map (fun f => lstrip (rstrip f))

variable {F : Type}

/-- The rows read by `np.loadtxt`; lines without fields are skipped. -/
def loadRows [NumText F] (comment : Char) (delim : Option Char) :
    List (List Char) → Res (List (List F))
  | [] => .ok []
  | l :: ls =>
    match fieldsOf comment delim l with
    | [] => loadRows comment delim ls
    | f :: fs => do
      let r ← (f :: fs).mapM NumText.parseFloat
      let rs ← loadRows comment delim ls
      .ok (r :: rs)

/-- The array returned by `np.loadtxt`: axes of length one are removed, and rows of different
lengths raise `ValueError`. -/
def squeezeRows (rows : List (List F)) : Res (NDArr F) :=
  match rows with
  | [] => .ok (.d1 .float [])
  | [[_]] => .ok .other
  | [r] => .ok (.d1 .float r)
  | r :: rs =>
    if rs.all (fun q => q.length = r.length) then
      (if r.length = 1 then .ok (.d1 .float (r :: rs).flatten)
      else .ok (.d2 r.length .float (r :: rs)))
    else .error .value

/-- `np.loadtxt`. -/
def loadtxt [NumText F] (comment : Char) (delim : Option Char) (text : List Char) :
    Res (NDArr F) := do
  let rows ← loadRows comment delim (splitOnChar '\n' (universal text))
  squeezeRows rows

/-! ## Reader -/

/-- io.py 272-273 `FILE_META_DATA_KEYS`. -/
def fileMetaKeys : List String :=
  ["Comment", "Reference", "Author", "Name", "FullName", "MetaComment"]

/-- io.py 275-277 `DATASET_META_DATA_KEYS`. -/
def datasetMetaKeys : List String := ["ValidRange", "DataType", "SpectrumType", "Unit", "Yields"]

/-- The order in which the two sets are iterated in this process. -/
structure KeyOrder where
  file : List String
  dataset : List String

/-- The orders list the elements of the sets. -/
def KeyOrder.Valid (o : KeyOrder) : Prop :=
  o.file.Perm fileMetaKeys ∧ o.dataset.Perm datasetMetaKeys

/-- io.py 296-303 `_create_default_data_dict`. -/
def defaultDataset (o : KeyOrder) : Dataset F :=
  o.dataset.map (fun k => (k, .str "")) ++ [("Data", .emptyList)]

/-- io.py 285-294 `_create_default_file_dict`: the metadata. -/
def defaultMeta (o : KeyOrder) : List (String × MetaVal) :=
  o.file.map (fun k => (k, .str "")) ++ [("Specification", .dict [])]

/-- The state of a `Reader`: the dictionary `default_file_dict`, whose parts are shared with
the dictionaries that `read_file` returns (io.py 377 and 429 make shallow copies). -/
structure Reader (F : Type) where
  metaData : List (String × MetaVal)
  datasets : List (Dataset F)

/-- io.py 279-283 `Reader.__init__`. -/
def Reader.fresh (o : KeyOrder) : Reader F :=
  { metaData := defaultMeta o, datasets := [defaultDataset o] }

/-- The first key whose upper case is a prefix of the keyword (io.py 389-396 and 398-402). -/
def matchKey (keys : List String) (kwd : List Char) : Option String :=
  keys.find? (fun k => (upper k.toList).isPrefixOf kwd)

/-- `":".join(pieces)`. -/
def joinColon : List (List Char) → List Char
  | [] => []
  | [p] => p
  | p :: q :: ps => p ++ ':' :: joinColon (q :: ps)

/-- What one header line does (io.py 380-408). -/
inductive LineRole
  | comment
  | file (key : String) (arg : List Char)
  | dataset (key : String) (arg : List Char)
  deriving DecidableEq

/-- io.py 380-408: the role of a header line. -/
def lineRole (o : KeyOrder) (line : List Char) : LineRole :=
  match splitOnChar ':' line with
  | [] => .comment
  | [_] => .comment
  | k :: rest =>
    let kwd := lstrip (upper k)
    let arg := lstrip (rstripNl (joinColon rest))
    match matchKey o.file kwd with
    | some key => .file key arg
    | none =>
      match matchKey o.dataset kwd with
      | some key => .dataset key arg
      | none => .comment

/-- The variables of the loop io.py 379-408. -/
structure TextState (F : Type) where
  metaData : List (String × MetaVal)
  dataset : Dataset F
  multi : List Char

/-- One round of the loop io.py 380-408. -/
def textStep (o : KeyOrder) (st : TextState F) (line : List Char) : TextState F :=
  match lineRole o line with
  | .comment => { st with multi := st.multi ++ line ++ ['\n'] }
  | .file key arg => { st with metaData := dictSet st.metaData key (.str (String.ofList arg)) }
  | .dataset key arg => { st with dataset := dictSet st.dataset key (.str (String.ofList arg)) }

/-- io.py 414-418: the data type of a table without one, from the number of columns. -/
def inferType (d : Dataset F) : Res (Dataset F) :=
  match dictGet d "DataType" with
  | .ok (.str s) =>
    if s = "" then
      match d.get "Data" with
      | .arr (.d2 m _ _) =>
        if m = 3 then .ok (dictSet d "DataType" (.str "tabulated nk"))
        else if m = 2 then .ok (dictSet d "DataType" (.str "tabulated n"))
        else .ok d
      | .arr _ => .error .index
      | _ => .error .attribute
    else .ok d
  | .ok _ => .ok d
  | .error e => .error e

/-- io.py 323-351: comment character and delimiter by extension. -/
def textFormat (ext : String) : Option (Char × Option Char) :=
  if ext = ".txt" then some ('#', none)
  else if ext = ".csv" then some ('#', some ',')
  else if ext = ".nk" then some (';', none)
  else none

/-- io.py 410-419: what `_read_text_file` returns, and the reader afterwards. -/
def Reader.textResult (r : Reader F) (st : TextState F) : Res (FileDict F) × Reader F :=
  let md := if st.multi = [] then st.metaData
    else dictSet st.metaData "MetaComment" (.str (String.ofList st.multi))
  match inferType st.dataset with
  | .error e => (.error e, { metaData := md, datasets := st.dataset :: r.datasets.drop 1 })
  | .ok d =>
    (.ok { metaData := md, datasets := d :: r.datasets.drop 1 },
      { metaData := md, datasets := d :: r.datasets.drop 1 })

/-- The variables before the loop io.py 379-408. -/
def Reader.textStart (r : Reader F) (o : KeyOrder) (a : NDArr F) : TextState F :=
  { metaData := r.metaData, dataset := dictSet (defaultDataset o) "Data" (.arr a), multi := [] }

/-- io.py 366-419 `_read_text_file`: the outcome and the reader afterwards. -/
def Reader.readText [NumText F] (r : Reader F) (o : KeyOrder) (fmt : Char × Option Char)
    (text : List Char) : Res (FileDict F) × Reader F :=
  match (loadtxt fmt.1 fmt.2 text : Res (NDArr F)) with
  | .error e => (.error e, r)
  | .ok a => r.textResult ((readComment text).foldl (textStep o) (r.textStart o a))

/-- A value of a YAML mapping: text or a mapping of text, or a list of datasets. Numbers, dates
and other lists at the top level are not modelled. -/
inductive YVal (F : Type)
  | entry (v : MetaVal)
  | data (ds : List (Dataset F))

/-- A YAML mapping. -/
abbrev YDict (F : Type) := List (String × YVal F)

/-- `ruamel.yaml` or `PyYAML`: `load` reads the text of a file, `dump` writes a mapping. -/
class YamlIO (F : Type) where
  load : List Char → Res (YDict F)
  dump : YDict F → List Char

/-- io.py 486-488 and 519-522: the names under which a key of a dataset is recognised. The aliases of
`DataType` are the characters of the string `'type'`. -/
def datasetAliases (key : String) : List String :=
  if key = "ValidRange" then ["validRange", "range", "spectra_range", "wavelength_range"]
  else if key = "DataType" then ["t", "y", "p", "e"]
  else [key]

/-- io.py 513-527: the key that an entry of a dataset fills. -/
def datasetKey (o : KeyOrder) (kwd : String) : Option String :=
  o.dataset.find? (fun k => (datasetAliases k).any (fun a => upper kwd.toList = upper a.toList))

/-- `try: d[a] except KeyError: d[b]`. -/
def getEither (d : Dataset F) (a b : String) : Res (DVal F) :=
  match dictGet d a with
  | .ok v => .ok v
  | .error _ => dictGet d b

/-- io.py 493-496: the data type of an entry. -/
def entryType (d : Dataset F) : Res (List Char) :=
  match getEither d "type" "DataType" with
  | .ok (.str s) => .ok (lstrip s.toList)
  | .ok _ => .error .attribute
  | .error e => .error e

/-- io.py 498-510: the data of an entry. -/
def entryData (d : Dataset F) (dt : List Char) : Res (DVal F) :=
  if "formula".toList.isPrefixOf dt || "model".toList.isPrefixOf dt then
    getEither d "coefficients" "Parameters"
  else if "tabulated".toList.isPrefixOf dt then getEither d "data" "Data"
  else .error .key

/-- io.py 512-527: the other fields of an entry. -/
def fillFields (o : KeyOrder) (d out : Dataset F) : Dataset F :=
  d.foldl (fun out kv => match datasetKey o kv.1 with
    | some key => dictSet out key kv.2
    | none => out) out

/-- One round of the loop io.py 490-529. -/
def processMatData1 (o : KeyOrder) (d : Dataset F) : Res (Dataset F) := do
  let dt ← entryType d
  let v ← entryData d dt
  .ok (fillFields o d (dictSet (dictSet (defaultDataset o) "DataType" (.str (String.ofList dt)))
    "Data" v))

/-- io.py 472-531 `_process_mat_data_dict`; a text instead of a list of datasets fails. -/
def processMatData (o : KeyOrder) : YVal F → Res (List (Dataset F))
  | .data ds => ds.mapM (processMatData1 o)
  | .entry _ => .error .type

/-- io.py 453-469, for one key of the mapping: the metadata and the datasets afterwards. -/
def matStep (o : KeyOrder) (yd : YDict F) (kwd : String)
    (st : List (String × MetaVal) × List (Dataset F)) :
    Res (List (String × MetaVal) × List (Dataset F)) := do
  let up := upper kwd.toList
  let arg ← dictGet yd (String.ofList up)
  if up = "DATA".toList then do
    let ds ← processMatData o arg
    .ok (st.1, ds)
  else
    match arg with
    | .data _ =>
      -- not modelled: a list of mappings as a metadata value
      if up = "SPECS".toList then .error .type
      else match matchKey o.file up with
        | some _ => .error .type
        | none => .ok st
    | .entry v =>
      if up = "SPECS".toList then .ok (dictSet st.1 "Specification" v, st.2)
      else match matchKey o.file up with
        | some key => .ok (dictSet st.1 key v, st.2)
        | none => .ok st

/-- io.py 436-470 `_process_mat_dict`: the outcome, and the state when it ended. -/
def matLoop (o : KeyOrder) (yd : YDict F) : List String →
    List (String × MetaVal) × List (Dataset F) →
    Res Unit × (List (String × MetaVal) × List (Dataset F))
  | [], st => (.ok (), st)
  | k :: ks, st =>
    match matStep o yd k st with
    | .ok st' => matLoop o yd ks st'
    | .error e => (.error e, st)

/-- io.py 421-434 `_read_yaml_mat_file`. The list of datasets is replaced in the copy only. -/
def Reader.readYaml [YamlIO F] (r : Reader F) (o : KeyOrder) (text : List Char) :
    Res (FileDict F) × Reader F :=
  match (YamlIO.load (universal text) : Res (YDict F)) with
  | .error e => (.error e, r)
  | .ok yd =>
    match matLoop o yd (yd.map (·.1)) (r.metaData, r.datasets) with
    | (.error e, st) => (.error e, { r with metaData := st.1 })
    | (.ok _, st) =>
      let md := dictSet st.1 "MetaComment"
        (.str (String.ofList (joinLines (readComment text)).dropLast))
      (.ok { metaData := md, datasets := st.2 }, { r with metaData := md })
where
  /-- `"\n".join(lines)`. -/
  joinLines : List (List Char) → List Char
  | [] => []
  | [p] => p
  | p :: q :: ps => p ++ '\n' :: joinLines (q :: ps)

/-- io.py 305-321 `read_file`, for a file with the given extension. -/
def Reader.readFile [NumText F] [YamlIO F] (r : Reader F) (o : KeyOrder) (ext : String)
    (text : List Char) : Res (FileDict F) × Reader F :=
  match textFormat ext with
  | some fmt => r.readText o fmt text
  | none => if ext = ".yml" then r.readYaml o text else (.error .value, r)

/-! ## Material to dictionary -/

section dicts
variable [PyFloat F] [SciPy F] [NumText F] [Printing F]

/-- `type(self).__name__` of the model classes. -/
def Formula.className : Formula → String
  | .sellmeier => "Sellmeier"
  | .sellmeier2 => "Sellmeier2"
  | .polynomial => "Polynomial"
  | .refractiveIndexInfo => "RefractiveIndexInfo"
  | .cauchy => "Cauchy"
  | .gases => "Gases"
  | .herzberger => "Herzberger"
  | .retro => "Retro"
  | .exotic => "Exotic"
  | .fano => "Fano"

/-- `_numeric_to_string_table(self.valid_range.values)`; a scalar has no attribute `size`. -/
def rangeText (s : Spectrum F) : Res (DVal F) :=
  match s.values with
  | .array dt xs => .ok (.str (String.ofList (numericToString (.d1 dt xs))))
  | .scalar _ => .error .attribute

/-- spectral_data.py 103-113 (Constant), 225-235 (Interpolation), 265-276 (Model) `dict_repr`;
`Extrapolation` has none. Model parameters are taken to be an array. The entries of a table
are printed as floats. -/
def RealData.dictRepr : RealData F → Res (Dataset F)
  | .constant c r t u => do
    let vr ← rangeText r
    .ok [("DataType", .str "constant"), ("ValidRange", vr), ("SpectrumType", .str t),
      ("Unit", .str u), ("Value", .num c)]
  | .interp _ rows r t u => do
    let vr ← rangeText r
    .ok [("DataType", .str "tabulated"), ("ValidRange", vr), ("SpectrumType", .str t),
      ("Unit", .str u), ("Data", .str (String.ofList
        (numericToString (.d2 2 .float (rows.map (fun p => [p.1, p.2]))))))]
  | .model k p r t u => do
    let vr ← rangeText r
    .ok [("DataType", .str ("model " ++ k.className)), ("ValidRange", vr),
      ("SpectrumType", .str t), ("Unit", .str u),
      ("Yields", match k.output with | some s => .str s | Option.none => .none),
      ("Parameters", .str (String.ofList (numericToString (.d1 .float p))))]
  | .extrap .. => .error .attribute

/-- material.py 820-837 `add_dtype_suffix`, for the parts `real` and `imag`. -/
def addDtypeSuffix (name : String) (dtype : String) (isReal : Bool) : Res String :=
  if name = "nk" then .ok (dtype ++ (if isReal then " n" else " k"))
  else if name = "eps" then .ok (dtype ++ (if isReal then " eps_r" else " eps_k"))
  else .error .value

/-- `isinstance(spec_data, (Constant, Interpolation))`. -/
def RealData.isPlain : RealData F → Bool
  | .constant .. => true
  | .interp .. => true
  | _ => false

/-- One round of the loop material.py 861-870. -/
def partToDict (name : String) (d : Option (RealData F)) (isReal : Bool) : Res (Dataset F) :=
  match d with
  | Option.none => .error .attribute
  | some d => do
    let dict ← d.dictRepr
    if d.isPlain then do
      let dt ← dict.getStr "DataType"
      let dt ← addDtypeSuffix name dt isReal
      .ok (dictSet dict "DataType" (.str dt))
    else .ok dict

/-- `n_data[:, 0] == k_data[:, 0]` and `np.all` (material.py 888): arrays of different lengths
are not comparable (`ValueError` since NumPy 1.25) unless one of them has length one. -/
def allEqual (xs ys : List F) : Res Bool :=
  if xs.length = ys.length then .ok ((xs.zip ys).all (fun p => PyFloat.eq p.1 p.2))
  else match xs, ys with
    | [x], ys => .ok (ys.all (fun y => PyFloat.eq x y))
    | xs, [y] => .ok (xs.all (fun x => PyFloat.eq x y))
    | _, _ => .error .value

/-- Equality of the values that occur under `Unit` and `SpectrumType`. -/
def DVal.strEq : DVal F → DVal F → Bool
  | .str a, .str b => a = b
  | _, _ => false

/-- The table of a dataset with the given data type (material.py 876-882). -/
def tableIf (d : Dataset F) (dtype : String) : Res (Option (NDArr F)) := do
  let t ← d.getStr "DataType"
  if t = dtype then do
    let v ← dictGet d "Data"
    let a ← strTableToNumeric v.asTable
    .ok (some a)
  else .ok Option.none

/-- `np.concatenate([n, k[:, 1:2]], axis=1)` (material.py 904-905). -/
def joinColumns (n k : NDArr F) : Res (NDArr F) := do
  let ks ← k.col 1
  match n with
  | .d2 m dt rows =>
    if rows.length = ks.length then
      .ok (.d2 (m + 1) dt (List.zipWith (fun r y => r ++ [y]) rows ks))
    else .error .value
  | _ => .error .value

/-- material.py 874-907 `collapse_datasets` on the datasets of the two parts. -/
def collapseDatasets (d0 d1 : Dataset F) : Res (List (Dataset F)) := do
  let n0 ← tableIf d0 "tabulated n"
  let k0 ← tableIf d0 "tabulated k"
  let n1 ← tableIf d1 "tabulated n"
  let k1 ← tableIf d1 "tabulated k"
  -- the real part carries the suffix n, the imaginary part k
  match n1.or n0, k1.or k0 with
  | some n, some k => do
    let xs ← n.col 0
    let ys ← k.col 0
    let same ← allEqual xs ys
    let u0 ← dictGet d0 "Unit"
    let u1 ← dictGet d1 "Unit"
    let t0 ← dictGet d0 "SpectrumType"
    let t1 ← dictGet d1 "SpectrumType"
    if same && u0.strEq u1 && t0.strEq t1 then do
      let table ← joinColumns n k
      .ok [[("Unit", u0), ("SpectrumType", t0), ("DataType", .str "tabulated nk"),
        ("Data", .str (String.ofList (numericToString table)))]]
    else .ok [d0, d1]
  | _, _ => .ok [d0, d1]

/-- material.py 839-872 `dataset_to_dict`. With complex data the loop runs over the characters
of the string `'complex'`. -/
def Material.datasetToDict (m : Material F) : Res (List (Dataset F)) :=
  match m.cplx with
  | some _ => .error .key
  | Option.none => do
    let d0 ← partToDict m.name m.real true
    let d1 ← partToDict m.name m.imag false
    collapseDatasets d0 d1

/-- The state of a `Writer`: the extension and the dictionary to be written. -/
structure Writer (F : Type) where
  ext : String
  metaData : List (String × MetaVal)
  datasets : List (Dataset F)

/-- material.py 807-818 `prepare_file_dict` and io.py 587-594 `Writer.__init__`. -/
def Writer.new (ext : String) (m : Material F) : Res (Writer F) :=
  match m.metaData with
  | Option.none => .error .attribute
  | some md => do
    let ds ← m.datasetToDict
    .ok { ext := ext, metaData := md.filter (fun p => p.1 ≠ "Alias"), datasets := ds }

/-! ## Writer -/

/-- io.py 217-232 `prepend_text_to_file`: the text that is put in front. -/
def commentBlock (text : List Char) (extra : Bool) : List Char :=
  '#' :: ((rstripNl text).flatMap (fun c => if c = '\n' then ['\n', '#'] else [c]))
    ++ (if extra then ['\n', '\n'] else ['\n'])

/-- io.py 217-232 `prepend_text_to_file`: the file afterwards. It is read in text mode. -/
def prependText (text : List Char) (extra : Bool) (content : List Char) : List Char :=
  commentBlock text extra ++ universal content

/-- io.py 217-232: what the file may contain when the process is interrupted. Opening for
writing empties the file; after that some part of the new text has reached the disk. -/
def prependStates (text : List Char) (extra : Bool) (content : List Char) : List (List Char) :=
  content :: (List.range ((prependText text extra content).length + 1)).map
    (fun i => (prependText text extra content).take i)

/-- io.py 559-565 `KEY_ALIASES`. -/
def keyAliases : List (String × String) :=
  [("Reference", "REFERENCES"), ("Author", "AUTHOR"), ("FullName", "FULLNAME"), ("Name", "NAME"),
   ("Comment", "COMMENTS"), ("Specification", "SPECS"), ("Datasets", "DATA")]

/-- io.py 567-579 `RII_ALIASES`. -/
def riiAliases : List (String × String) :=
  [("ValidRange", "wavelength_range"), ("DataType", "type"), ("Parameters", "coefficients"),
   ("Data", "data"), ("Model:Sellmeier", "formula 1"), ("Model:Sellmeier2", "formula 2"),
   ("Model:Polynomial", "formula 3"), ("Model:RefractiveIndexInfo", "formula 4"),
   ("Model:Cauchy", "formula 5"), ("Model:Gases", "formula 6"), ("Model:Herzberger", "formula 7"),
   ("Model:Retro", "formula 8"), ("Model:Exotic", "formula 9")]

/-- io.py 581-582 `DATA_META_DATA_KEYS`. -/
def writtenKeys : List String := ["Reference", "Author", "FullName", "Name", "Comment"]

/-- `"{}: {}\n".format(al, value)`. Only text is modelled as a value. -/
def headerLine (al : String) (value : List Char) : List Char :=
  al.toList ++ ':' :: ' ' :: value ++ ['\n']

/-- io.py 626-631: the header lines of the metadata. -/
def metaHeader (md : List (String × MetaVal)) : List String → Res (List Char)
  | [] => .ok []
  | k :: ks => do
    let rest ← metaHeader md ks
    match dictGet md k with
    | .error _ => .ok rest
    | .ok (.str s) => do
      let al ← dictGet keyAliases k
      .ok (headerLine al s.toList ++ rest)
    | .ok (.dict _) => .error .type

/-- io.py 53-59 `multi_key` with a set of two keys, iterated in the given order. -/
def multiKey (d : Dataset F) : List String → Res (DVal F)
  | [] => .error .key
  | k :: ks => if dictHas d k then dictGet d k else multiKey d ks

/-- A dataset value as text in a header line. -/
def DVal.text : DVal F → Res (List Char)
  | .str s => .ok s.toList
  | _ => .error .type

/-- The text of a table for `np.savetxt` with `fmt="%.8f"`. -/
def savetxtRows (delim : Char) (rows : List (List F)) : List Char :=
  rows.flatMap (fun r => (joinWith delim (r.map Printing.fmt8)) ++ ['\n'])
where
  /-- `delim.join(words)`. -/
  joinWith (delim : Char) : List (List Char) → List Char
  | [] => []
  | [w] => w
  | w :: v :: ws => w ++ delim :: joinWith delim (v :: ws)

/-- `np.savetxt(path, data, delimiter, header, fmt="%.8f")`: the text of the file. -/
def savetxt (delim : Char) (header : List Char) (rows : List (List F)) : List Char :=
  '#' :: ' ' :: header.flatMap (fun c => if c = '\n' then ['\n', '#', ' '] else [c])
    ++ '\n' :: savetxtRows delim rows

/-- io.py 653-656: the delimiter is not set for `.nk`. -/
def delimiterOf (ext : String) : Res Char :=
  if ext = ".txt" then .ok '\t' else if ext = ".csv" then .ok ',' else .error .unboundLocal

/-- io.py 637-639: the first dataset. -/
def firstDataset : List (Dataset F) → Res (Dataset F)
  | [] => .error .value
  | d :: _ => .ok d

/-- io.py 622-662 `_write_text_file`: the text of the file. -/
def Writer.writeText (w : Writer F) : Res (List Char) := do
  let header ← metaHeader w.metaData writtenKeys
  let d ← firstDataset w.datasets
  let st ← multiKey d ["SpectrumType", "spectrum_type"]
  let st ← st.text
  let un ← multiKey d ["Unit", "unit"]
  let un ← un.text
  let dt ← multiKey d ["DataType", "type"]
  let dt ← dt.text
  let header := header ++ headerLine "SPECTRUMTYPE" st ++ headerLine "UNIT" un
    ++ headerLine "DATATYPE" dt
  let v ← multiKey d ["Data", "data"]
  let a ← strTableToNumeric v.asTable
  let delim ← delimiterOf w.ext
  match a with
  | .d2 _ _ rows => .ok (savetxt delim header rows)
  | _ => .error .index

/-- `sub in s` for text. -/
def hasSub (sub s : List Char) : Bool := s.tails.any (fun t => sub.isPrefixOf t)

/-- io.py 676-681: the positions of the constant datasets. -/
def constantIds (ds : List (Dataset F)) : Res (List Nat) := do
  let flags ← ds.mapM (fun d => do
    let t ← d.getStr "DataType"
    .ok (hasSub "constant".toList t.toList))
  .ok ((List.range ds.length).filter (fun i => flags.getD i false))

/-- io.py 682-683: the pops, in ascending order, on the list as it shrinks. -/
def popAll {α : Type} : List Nat → List α → Res Unit × List α
  | [], xs => (.ok (), xs)
  | i :: is, xs => if i < xs.length then popAll is (xs.eraseIdx i) else (.error .index, xs)

/-- io.py 691-697: the metadata under the keys of the file. An unknown key gets the value of the
key before it. -/
def aliasMeta : List (String × MetaVal) → Option MetaVal → YDict F → Res (YDict F)
  | [], _, yd => .ok yd
  | (k, v) :: md, last, yd =>
    match dictGet keyAliases k with
    | .ok al => aliasMeta md (some v) (dictSet yd al (.entry v))
    | .error _ =>
      match last with
      | some m => aliasMeta md last (dictSet yd k (.entry m))
      | Option.none => .error .unboundLocal

/-- io.py 702-718: a dataset under the names of refractiveindex.info. -/
def riiDataset (d : Dataset F) : Dataset F :=
  d.foldl (fun out kv =>
    if ["SpectrumType", "Unit", "Yields"].contains kv.1 then out
    else
      let value := match kv.2 with
        | .str s => (match dictGet riiAliases s with | .ok t => .str t | .error _ => .str s)
        | v => v
      match dictGet riiAliases kv.1 with
      | .ok key => dictSet out key value
      | .error _ => dictSet out kv.1 value) []

/-- io.py 722-729 `spec_order`. -/
def specOrder : List String :=
  ["n_absolute", "wavelength_vacuum", "film_thickness", "substrate", "temperature", "pressure",
   "deposition_temperature", "direction"]

/-- io.py 734-737: the specification entries in the order of `spec_order`. -/
def orderSpecs (specs : List (String × String)) : List (String × String) :=
  specOrder.filterMap (fun k => (specs.find? (fun p => p.1 = k)).map (fun p => (k, p.2)))

/-- `yaml_dict.pop('SPECS')`. -/
def dictPop {α : Type} (d : List (String × α)) (k : String) : Res (α × List (String × α)) := do
  let v ← dictGet d k
  .ok (v, d.filter (fun p => p.1 ≠ k))

/-- io.py 691-738: the mapping that is written. -/
def Writer.yamlDict (w : Writer F) (rii : Bool) : Res (YDict F) := do
  let yd ← aliasMeta w.metaData Option.none []
  let yd := dictSet yd "DATA" (.data (if rii then w.datasets.map riiDataset else w.datasets))
  let (specs, yd) ← dictPop yd "SPECS"
  match specs with
  | .entry (.dict s) =>
    if 0 < s.length then .ok (dictSet yd "SPECS" (.entry (.dict (orderSpecs s)))) else .ok yd
  | .entry (.str s) => if s = "" then .ok yd else .error .attribute
  | .data _ => .error .attribute

/-- io.py 665-740 `_write_yaml_file`: the text of the file, and the writer afterwards. -/
def Writer.writeYaml [YamlIO F] (w : Writer F) (ignoreConstant rii : Bool) :
    Res (List Char) × Writer F :=
  match constantIds w.datasets with
  | .error e => (.error e, w)
  | .ok ids =>
    match popAll (if ignoreConstant then ids else []) w.datasets with
    | (.error e, ds) => (.error e, { w with datasets := ds })
    | (.ok _, ds) =>
      let w' := { w with datasets := ds }
      match w'.yamlDict rii with
      | .error e => (.error e, w')
      | .ok yd => (.ok (YamlIO.dump yd), w')

/-- io.py 597-619 `write_file`: the text of the file after the call, and the writer
afterwards. -/
def Writer.writeFile [YamlIO F] (w : Writer F) (ignoreConstant rii : Bool) :
    Res (List Char) × Writer F :=
  match dictPop w.metaData "MetaComment" with
  | .error e => (.error e, w)
  | .ok (comment, md) =>
    let w := { w with metaData := md }
    match textFormat w.ext with
    | some _ =>
      match w.writeText with
      | .error e => (.error e, w)
      | .ok text => (finish comment false text, w)
    | Option.none =>
      if w.ext = ".yml" then
        match w.writeYaml ignoreConstant rii with
        | (.error e, w') => (.error e, w')
        | (.ok text, w') => (finish comment true text, w')
      else (.error .value, w)
where
  /-- io.py 607-615: a comment that is not empty is put in front. -/
  finish (comment : MetaVal) (extra : Bool) (text : List Char) : Res (List Char) :=
    match comment with
    | .str s => if s = "" then .ok text else .ok (prependText s.toList extra text)
    | .dict _ => .error .attribute

end dicts

end Disp
