import Verif.Model.SpectralData
import Verif.Model.Tables
/-!
# Model of `src/dispersion/material.py`: class `Material`

A constructor that raises leaves no object behind, so the processing functions of the
constructor are modelled as `Res (Material F)`. Methods that change an existing object return
the outcome together with the object afterwards. Printing and plotting are not modelled, except
for the spectrum that a plot evaluates.
-/

namespace Disp

variable {F : Type}

/-! ## Arguments -/

/-- The dictionary given as `model_kw`; an absent key is `none`. `validRange` is anything that
the Spectrum constructor accepts or rejects. -/
structure ModelKw (F : Type) where
  name : Option String
  stype : Option String
  unit : Option String
  params : Option (List F)
  validRange : Option (Raw F)

/-- A keyword argument of the constructor. -/
inductive PyVal (F : Type)
  | none
  | str (s : String)
  | int (n : Int)
  | float (x : F)
  | cplx (z : Cx F)
  | arr (a : NDArr F)
  | dict (d : ModelKw F)
  | other

/-- `v is not None`. -/
def PyVal.given : PyVal F → Bool
  | .none => false
  | _ => true

/-- `**kwargs`. -/
abbrev Kwargs (F : Type) := List (String × PyVal F)

/-- `args[name]` if present, otherwise `None`. -/
def Kwargs.get (kw : Kwargs F) (name : String) : PyVal F :=
  match dictGet kw name with
  | .ok v => v
  | .error _ => .none

/-- material.py 164-168 `mutually_exclusive`. -/
def mutuallyExclusive : List String :=
  ["file_path", "fixed_n", "fixed_nk", "fixed_eps_r", "fixed_eps", "tabulated_nk",
   "tabulated_n_alpha", "tabulated_n", "tabulated_eps", "model_kw"]

/-- material.py 170-175: the number of exclusive arguments that are given. -/
def countExclusive (kw : Kwargs F) : Nat :=
  (kw.filter (fun p => mutuallyExclusive.contains p.1 && p.2.given)).length

/-- The Python types used in `_check_type`. -/
inductive PyType
  | str | int | float | complex | dict | ndarray
  deriving DecidableEq

/-- `isinstance(v, t)`, where `float` stands for `{float, np.double}` and `complex` for
`{complex, np.cdouble}`. -/
def PyVal.isOf : PyVal F → PyType → Bool
  | .str _, .str => true
  | .int _, .int => true
  | .float _, .float => true
  | .cplx _, .complex => true
  | .dict _, .dict => true
  | .arr _, .ndarray => true
  | _, _ => false

/-- material.py 228-245 `_check_type`. Every failure is a `TypeError`, so the iteration order of
the set of names does not matter. -/
def checkType (kw : Kwargs F) (names : List String) (t : PyType) : Res Unit :=
  if names.all (fun n => !(kw.get n).given || (kw.get n).isOf t) then .ok ()
  else .error .type

/-- material.py 41-48 `_check_table_shape`; `None` has no `shape`. -/
def checkTableShape (v : PyVal F) (ncols : Nat) : Res Unit :=
  match v with
  | .arr a => if a.hasCols ncols then .ok () else .error .value
  | _ => .error .attribute

/-- The result of `_parse_args`: the keyword arguments with their defaults. -/
structure Parsed (F : Type) where
  kw : Kwargs F
  stype : String
  unit : String
  interpOrder : PyVal F

/-- material.py 160-226 `_parse_args`. Line 220 checks the shape of `tabulated_nk` where
`tabulated_n_alpha` is meant; line 202 checks the name `interp_oder`. -/
def parseArgs (kw : Kwargs F) : Res (Parsed F) := do
  if countExclusive kw = 0 then .error .value
  else if countExclusive kw > 1 then .error .value
  else do
    checkType kw ["file_path", "spectrum_type", "unit"] .str
    let stype := match kw.get "spectrum_type" with
      | .str s => s
      | _ => "wavelength"
    let unit := match kw.get "unit" with
      | .str s => s
      | _ => "nanometer"
    let interpOrder := if dictHas kw "interp_order" then kw.get "interp_order" else .int 1
    checkType kw ["interp_oder"] .int
    checkType kw ["fixed_n", "fixed_eps_r"] .float
    checkType kw ["fixed_nk", "fixed_eps"] .complex
    checkType kw ["model_kw"] .dict
    checkType kw ["tabulated_nk", "tabulated_n", "tabulated_eps", "tabulated_n_alpha"] .ndarray
    if (kw.get "tabulated_nk").given then checkTableShape (kw.get "tabulated_nk") 3 else .ok ()
    if (kw.get "tabulated_n_alpha").given then checkTableShape (kw.get "tabulated_nk") 3
      else .ok ()
    if (kw.get "tabulated_n").given then checkTableShape (kw.get "tabulated_n") 2 else .ok ()
    if (kw.get "tabulated_eps").given then checkTableShape (kw.get "tabulated_eps") 3 else .ok ()
    .ok { kw := kw, stype := stype, unit := unit, interpOrder := interpOrder }

/-! ## The object -/

/-- A value in `meta_data`: text, or a dictionary (for `Specification`). -/
inductive MetaVal
  | str (s : String)
  | dict (d : List (String × String))
  deriving DecidableEq

/-- A `Material` object. `metaData` is `none` for effective media, which never set it. -/
structure Material (F : Type) [SciPy F] where
  metaData : Option (List (String × MetaVal))
  name : String
  real : Option (RealData F)
  imag : Option (RealData F)
  cplx : Option (CplxData F)
  interpOrder : PyVal F
  defType : String
  defUnit : String

/-- A value in a dataset dictionary of a file. -/
inductive DVal (F : Type)
  | str (s : String)
  | num (x : F)
  | arr (a : NDArr F)
  | emptyList
  | none

/-- A dataset of a file. -/
abbrev Dataset (F : Type) := List (String × DVal F)

/-- What `Reader.read_file` returns. -/
structure FileDict (F : Type) where
  metaData : List (String × MetaVal)
  datasets : List (Dataset F)

variable [PyFloat F] [SciPy F]

/-- `Constant(0.0)`. -/
def constantZero : Res (RealData F) :=
  RealData.newConstant (lit 0) defaultRange "wavelength" "m"

/-- material.py 247-256 `_complete_partial_data`. -/
def Material.completePartialData (m : Material F) : Res (Material F) := do
  let real ← match m.real with
    | some d => .ok (some d)
    | none => (do .ok (some (← constantZero)))
  let imag ← match m.imag with
    | some d => .ok (some d)
    | none => (do .ok (some (← constantZero)))
  .ok { m with real := real, imag := imag }

/-- material.py 258-267 `remove_absorption`. -/
def Material.removeAbsorption (m : Material F) : Res Unit × Material F :=
  match constantZero (F := F) with
  | .ok d => (.ok (), { m with imag := some d })
  | .error e => (.error e, m)

/-- One round of the loop material.py 295-300. -/
def extrapolatePart (d : Option (RealData F)) (s : Spectrum F) (order : Nat) :
    Res (Option (RealData F)) × Spectrum F :=
  match d with
  | some (.constant c r t u) => (.ok (some (.constant c r t u)), s)
  | some d =>
    match d.newExtrap s order with
    | (.ok e, s') => (.ok (some e), s')
    | (.error e, s') => (.error e, s')
  | none => (.error .attribute, s)

/-- material.py 269-304 `extrapolate`: the outcome, the material and the caller's Spectrum
afterwards. The real part is replaced before the imaginary part is attempted. -/
def Material.extrapolate (m : Material F) (s : Spectrum F) (order : Nat) :
    Res Unit × Material F × Spectrum F :=
  match m.cplx with
  | some _ => (.error .notImplemented, m, s)
  | none =>
    match extrapolatePart m.real s order with
    | (.error e, s1) => (.error e, m, s1)
    | (.ok re, s1) =>
      match extrapolatePart m.imag s1 order with
      | (.error e, s2) => (.error e, { m with real := re }, s2)
      | (.ok im, s2) => (.ok (), { m with real := re, imag := im }, s2)

/-! ## Processing of the arguments -/

/-- `Constant(x)`. -/
def constantOf (x : F) : Res (RealData F) :=
  RealData.newConstant x defaultRange "wavelength" "m"

/-- material.py 306-334 `_process_fixed_value`. -/
def processFixedValue (m : Material F) (kw : Kwargs F) : Res (Material F) :=
  match kw.get "fixed_n", kw.get "fixed_nk", kw.get "fixed_eps_r", kw.get "fixed_eps" with
  | .float x, _, _, _ => do
    let r ← constantOf x
    .ok { m with name := "nk", real := some r }
  | _, .cplx z, _, _ => do
    let r ← constantOf z.re
    let i ← constantOf z.im
    .ok { m with name := "nk", real := some r, imag := some i }
  | _, _, .float x, _ => do
    let r ← constantOf x
    .ok { m with name := "eps", real := some r }
  | _, _, _, .cplx z => do
    let r ← constantOf z.re
    let i ← constantOf z.im
    .ok { m with name := "eps", real := some r, imag := some i }
  | _, _, _, _ => .error .runtime

/-- What a name denotes in the module `spectral_data`. -/
inductive ClassRef
  | real (k : Formula)
  | cplx (k : EpsFormula)
  | baseModel
  | otherClass
  | notClass
  | missing
  deriving DecidableEq

/-- material.py 398-423 `_str_to_class`, by the names of spectral_data.py. Dunder attributes of
the module are not listed. -/
def classRef (name : String) : ClassRef :=
  if name = "Sellmeier" then .real .sellmeier
  else if name = "Sellmeier2" then .real .sellmeier2
  else if name = "Polynomial" then .real .polynomial
  else if name = "RefractiveIndexInfo" then .real .refractiveIndexInfo
  else if name = "Cauchy" then .real .cauchy
  else if name = "Gases" then .real .gases
  else if name = "Herzberger" then .real .herzberger
  else if name = "Retro" then .real .retro
  else if name = "Exotic" then .real .exotic
  else if name = "Fano" then .real .fano
  else if name = "Drude" then .cplx .drude
  else if name = "DrudeLorentz" then .cplx .drudeLorentz
  else if name = "TaucLorentz" then .cplx .taucLorentz
  else if name = "Model" then .baseModel
  else if ["SpectralData", "Constant", "Extrapolation", "Interpolation", "Spectrum",
    "interp1d"].contains name then .otherClass
  else if ["re", "np", "splrep", "splev", "_numeric_to_string_table"].contains name then .notClass
  else .missing

/-- material.py 377-396: the part in which the output of a model is stored. -/
def storeReal (m : Material F) (output : Option String) (d : RealData F) : Res (Material F) :=
  match output with
  | some "n" => .ok { m with name := "nk", real := some d }
  | some "k" => .ok { m with name := "nk", imag := some d }
  | some "epsr" => .ok { m with name := "eps", real := some d }
  | some "epsi" => .ok { m with name := "eps", imag := some d }
  | _ => .error .value

/-- material.py 336-396 `_process_model_dict`. Classes that are not models fail with different
exceptions, which are summarised as `AttributeError` (no attribute `output`). -/
def processModelDict (m : Material F) (d : ModelKw F) : Res (Material F) := do
  let name ← match d.name with
    | some n => .ok n
    | none => .error .key
  let defType := d.stype.getD m.defType
  let defUnit := d.unit.getD m.defUnit
  let stype := d.stype.getD "wavelength"
  let unit := d.unit.getD "m"
  match classRef name with
  | .missing => .error .name
  | .notClass => .error .type
  | cls =>
    let params ← match d.params with
      | some p => .ok p
      | none => .error .key
    let vr ← match d.validRange with
      | some r => .ok r
      | none => .error .key
    match cls with
    | .real k => do
      let md ← RealData.newModel k params vr stype unit
      storeReal { m with defType := defType, defUnit := defUnit } k.output md
    | .cplx k => do
      let md ← CplxData.new k params vr stype unit
      .ok { m with defType := defType, defUnit := defUnit, name := "eps", cplx := some md }
    | .baseModel => do
      let _ ← Spectrum.new vr stype unit
      .error .value
    | _ => .error .attribute

/-- material.py 493-519 `_spec_data_from_table`, on the columns `i` and `j` of a table. The
interpolation always has the default order 1. -/
def specDataFromTable (defType defUnit : String) (a : NDArr F) (i j : Nat) :
    Res (RealData F) := do
  let rows ← a.cols2 i j
  match rows with
  | [(x, y)] => RealData.newConstant y (.list a.dtype [x, x]) defType defUnit
  | rows => RealData.newInterp a.dtype rows defType defUnit 1

/-- material.py 474-480: the table of `k` from a table of absorption coefficients. -/
def alphaToK (defType defUnit : String) (a : NDArr F) : Res (NDArr F) := do
  let xs ← a.col 0
  let sp ← Spectrum.new (.ndarray a.dtype xs) defType defUnit
  let wvls ← sp.convertTo "wavelength" "cm"
  let alpha ← a.col 2
  let k := List.zipWith (fun al w => al * w / (PyFloat.pi * lit 4)) alpha wvls.toList
  .ok (.d2 2 .float (List.zipWith (fun x y => [x, y]) xs k))

/-- A non-empty string value of a dataset dictionary. -/
def DVal.nonEmptyStr : DVal F → Option String
  | .str s => if s = "" then Option.none else Option.some s
  | _ => Option.none

/-- `d.get(key)`. -/
def Dataset.get (d : Dataset F) (key : String) : DVal F :=
  match dictGet d key with
  | .ok v => v
  | .error _ => .none

/-- material.py 453-491 `_process_table`. Other identifiers set nothing. -/
def processTable (m : Material F) (a : NDArr F) (identifier : String) (meta_data : Dataset F) :
    Res (Material F) := do
  let defType := ((meta_data.get "SpectrumType").nonEmptyStr).getD m.defType
  let defUnit := ((meta_data.get "Unit").nonEmptyStr).getD m.defUnit
  let m := { m with defType := defType, defUnit := defUnit }
  if identifier = "nk" then do
    let r ← specDataFromTable defType defUnit a 0 1
    let i ← specDataFromTable defType defUnit a 0 2
    .ok { m with name := "nk", real := some r, imag := some i }
  else if identifier = "n_alpha" then do
    let r ← specDataFromTable defType defUnit a 0 1
    let t ← alphaToK defType defUnit a
    let i ← specDataFromTable defType defUnit t 0 1
    .ok { m with name := "nk", real := some r, imag := some i }
  else if identifier = "n" then do
    let r ← specDataFromTable defType defUnit a 0 1
    .ok { m with name := "nk", real := some r }
  else if identifier = "k" then do
    let i ← specDataFromTable defType defUnit a 0 1
    .ok { m with name := "nk", imag := some i }
  else if identifier = "eps" then do
    let r ← specDataFromTable defType defUnit a 0 1
    let i ← specDataFromTable defType defUnit a 0 2
    .ok { m with name := "eps", real := some r, imag := some i }
  else .ok m

/-! ## Processing of a file -/

/-- `d[key]`, which must be a string (other values have no `split`). -/
def Dataset.getStr (d : Dataset F) (key : String) : Res String :=
  match dictGet d key with
  | .ok (.str s) => .ok s
  | .ok _ => .error .attribute
  | .error e => .error e

/-- `data_type, identifier = text.split()`. -/
def splitTwo (s : String) : Res (String × String) :=
  match splitSpaces s.toList with
  | [a, b] => .ok (String.ofList a, String.ofList b)
  | _ => .error .value

/-- material.py 559-563 `method_ids`. -/
def methodIds : List (Int × String) :=
  [(1, "Sellmeier"), (2, "Sellmeier2"), (3, "Polynomial"), (4, "RefractiveIndexInfo"),
   (5, "Cauchy"), (6, "Gases"), (7, "Herzberger"), (8, "Retro"), (9, "Exotic")]

/-- The name of a model (material.py 533-534 and 565-568). `int(text)` is modelled by
`String.toInt?` (Python also accepts a leading `+` and underscores). -/
def formulaName (dataType identifier : String) : Res String :=
  if dataType = "formula" then
    match identifier.toInt? with
    | none => .error .value
    | some n => match methodIds.lookup n with
      | some s => .ok s
      | none => .error .key
  else .ok identifier

/-- material.py 536-541: an empty valid range leaves the variable unbound. -/
def parseRange [NumText F] (d : Dataset F) : Res (List F) :=
  match dictGet d "ValidRange" with
  | .error e => .error e
  | .ok (.str s) =>
    if s = "" then .error .unboundLocal
    else (splitSpaces s.toList).mapM NumText.parseFloat
  | .ok (.emptyList) => .error .unboundLocal
  | .ok (.none) => .error .unboundLocal
  | .ok _ => .error .attribute

/-- material.py 521-570 `_process_formula_data`. The KeyError of an unknown formula number is
raised after the numbers have been read. -/
def processFormulaData [NumText F] (m : Material F) (d : Dataset F) : Res (Material F) := do
  let dt ← d.getStr "DataType"
  let (dataType, identifier) ← splitTwo dt
  if ¬ (dataType = "formula" ∨ dataType = "model") then .error .value
  else do
    if dataType = "formula" ∧ identifier.toInt? = none then .error .value else .ok ()
    let vr ← parseRange d
    let text ← d.getStr "Data"
    let coeffs ← (splitSpaces text.toList).mapM NumText.parseFloat
    let st ← dictGet d "SpectrumType"
    let stype := st.nonEmptyStr.getD m.defType
    let un ← dictGet d "Unit"
    let unit := un.nonEmptyStr.getD m.defUnit
    let name ← formulaName dataType identifier
    processModelDict m { name := some name, stype := some stype, unit := some unit,
                         params := some coeffs, validRange := some (.list .float vr) }

/-- The value under `Data` as an argument of `_str_table_to_numeric`. -/
def DVal.asTable : DVal F → TableArg F
  | .str s => .text s.toList
  | .arr a => .array a
  | _ => .other

/-- One round of the loop material.py 439-451. -/
def processDataset [NumText F] (m : Material F) (d : Dataset F) : Res (Material F) := do
  let dt ← d.getStr "DataType"
  let (dataType, identifier) ← splitTwo dt
  if dataType = "tabulated" then do
    let v ← dictGet d "Data"
    let a ← strTableToNumeric v.asTable
    processTable m a identifier d
  else if dataType = "formula" ∨ dataType = "model" then processFormulaData m d
  else .error .value

/-- material.py 425-451 `_process_file_data`. -/
def processFileData [NumText F] (m : Material F) (fd : FileDict F) : Res (Material F) := do
  let meta_data ← ["Reference", "Comment", "Name", "FullName", "Author", "MetaComment",
    "Specification"].mapM (fun k => do .ok (k, ← dictGet fd.metaData k))
  fd.datasets.foldlM processDataset { m with metaData := some meta_data }

/-- material.py 104-112: the metadata of a new object. -/
def blankMeta : List (String × MetaVal) :=
  [("Reference", .str ""), ("Comment", .str ""), ("Name", .str ""), ("FullName", .str ""),
   ("Author", .str ""), ("Alias", .str ""), ("MetaComment", .str ""), ("Specification", .dict [])]

/-- The object before its data are processed (material.py 104-120). -/
def blankMaterial (p : Parsed F) : Material F :=
  { metaData := some blankMeta, name := "", real := none, imag := none, cplx := none,
    interpOrder := p.interpOrder, defType := p.stype, defUnit := p.unit }

/-- material.py 122-137: the dispatch on the given argument. `rd` is
`Reader(file_path).read_file()`. -/
def dispatch [NumText F] (rd : String → Res (FileDict F)) (m : Material F) (kw : Kwargs F) :
    Res (Material F) :=
  match kw.get "file_path" with
  | .str path => do
    let fd ← rd path
    processFileData m fd
  | _ => match kw.get "model_kw" with
    | .dict d => processModelDict m d
    | _ => match kw.get "tabulated_nk" with
      | .arr a => processTable m a "nk" []
      | _ => match kw.get "tabulated_n_alpha" with
        | .arr a => processTable m a "n_alpha" []
        | _ => match kw.get "tabulated_n" with
          | .arr a => processTable m a "n" []
          | _ => match kw.get "tabulated_eps" with
            | .arr a => processTable m a "eps" []
            | _ => processFixedValue m kw

/-- material.py 98-139 `Material.__init__`. -/
def Material.new [NumText F] (rd : String → Res (FileDict F)) (kw : Kwargs F) :
    Res (Material F) := do
  let p ← parseArgs kw
  let m ← dispatch rd (blankMaterial p) kw
  m.completePartialData

/-! ## Evaluation -/

/-- `real + 1j*imag` on floats. -/
def cplxOf (x y : F) : Cx F := Cx.ofReal x + Cx.I * Cx.ofReal y

/-- `real + 1j*imag` with NumPy's broadcasting (material.py 611-612, 656-657). -/
def combineParts : Vals F → Vals F → Res (CVals F)
  | .scalar x, .scalar y => .ok (.scalar (cplxOf x y))
  | .array _ xs, .array _ ys =>
    if xs.length = ys.length then .ok (.array (List.zipWith cplxOf xs ys)) else .error .value
  | .scalar x, .array _ ys => .ok (.array (ys.map (fun y => cplxOf x y)))
  | .array _ xs, .scalar y => .ok (.array (xs.map (fun x => cplxOf x y)))

/-- Elementwise complex function. -/
def CVals.map (f : Cx F → Cx F) : CVals F → CVals F
  | .scalar z => .scalar (f z)
  | .array zs => .array (zs.map f)

/-- `self.data[part].evaluate(spectrum)`; `None` has no `evaluate`. -/
def evalPart (d : Option (RealData F)) (s : Spectrum F) : Res (Vals F) × Spectrum F :=
  match d with
  | some d => d.evaluate s
  | none => (.error .attribute, s)

/-- material.py 609-614 and 654-659: the stored quantity at a spectrum, and the Spectrum object
afterwards. -/
def Material.evalStored (m : Material F) (s : Spectrum F) : Res (CVals F) × Spectrum F :=
  match m.cplx with
  | some d => (d.evaluate s, s)
  | none =>
    match evalPart m.real s with
    | (.error e, s1) => (.error e, s1)
    | (.ok r, s1) =>
      match evalPart m.imag s1 with
      | (.error e, s2) => (.error e, s2)
      | (.ok i, s2) => (combineParts r i, s2)

/-- The values of a Spectrum object as an argument of the constructor. -/
def Vals.toRaw : Vals F → Raw F
  | .scalar x => .float x
  | .array dt xs => .ndarray dt xs

/-- material.py 602-618 of `get_nk_data`, after the arguments have been read. -/
def Material.nkCore (m : Material F) (raw : Raw F) (stype unit : String) : Res (CVals F) := do
  let s ← Spectrum.new raw stype unit
  if ¬ (m.name = "nk" ∨ m.name = "eps") then .error .value
  else do
    let v ← (m.evalStored s).1
    .ok (if m.name = "eps" then v.map PyFloat.csqrt else v)

/-- material.py 573-618 `get_nk_data` with a Spectrum object. A new Spectrum is built from its
values, so the caller's object is not touched. -/
def Material.getNk (m : Material F) (s : Spectrum F) : Res (CVals F) × Spectrum F :=
  (m.nkCore s.values.toRaw s.stype s.unit, s)

/-- material.py 573-618 `get_nk_data` with plain values. -/
def Material.getNkRaw (m : Material F) (raw : Raw F) (stype unit : String) : Res (CVals F) :=
  m.nkCore raw stype unit

/-- material.py 620-663 `get_permittivity` with a Spectrum object, which is used directly. -/
def Material.getPermittivity (m : Material F) (s : Spectrum F) : Res (CVals F) × Spectrum F :=
  if ¬ (m.name = "nk" ∨ m.name = "eps") then (.error .value, s)
  else
    match m.evalStored s with
    | (.error e, s') => (.error e, s')
    | (.ok v, s') => (.ok (if m.name = "nk" then v.map Cx.sq else v), s')

/-- material.py 620-663 `get_permittivity` with plain values. -/
def Material.getPermittivityRaw (m : Material F) (raw : Raw F) (stype unit : String) :
    Res (CVals F) := do
  let s ← Spectrum.new raw stype unit
  (m.getPermittivity s).1

/-! ## Ranges -/

/-- The element type of a value. -/
def Vals.dtype : Vals F → DType
  | .scalar _ => .float
  | .array dt _ => dt

/-- The type of an array made of two numbers. -/
def DType.join : DType → DType → DType
  | .int, .int => .int
  | _, _ => .float

/-- The range in metres (material.py 681-693), as the array `[lower, upper]`. In the complex
case the values of the range, whatever their unit, are taken as they are. -/
def Material.rangeArray (m : Material F) : Res (DType × F × F) :=
  match m.cplx with
  | some d => do
    let lo ← npMin d.range.values
    let hi ← npMax d.range.values
    .ok (d.range.values.dtype, lo, hi)
  | none =>
    match m.real, m.imag with
    | some r, some i => do
      let rl ← npMin r.range.std
      let ru ← npMax r.range.std
      let il ← npMin i.range.std
      let iu ← npMax i.range.std
      let dt := r.range.std.dtype.join i.range.std.dtype
      let lo ← npMax (.array dt [rl, il])
      let hi ← npMin (.array dt [ru, iu])
      .ok (dt, lo, hi)
    | _, _ => .error .attribute

/-- material.py 665-696 `get_maximum_valid_range`. -/
def Material.maxRange (m : Material F) : Res (Vals F) := do
  if ¬ (m.name = "nk" ∨ m.name = "eps") then .error .runtime
  else do
    let (dt, lo, hi) ← m.rangeArray
    let s ← Spectrum.new (.ndarray dt [lo, hi]) "wavelength" "m"
    s.convertTo m.defType m.defUnit

/-- material.py 797-801: the ends of the sample are clamped to the range. -/
def clampEnds (lo hi : F) (values : List F) : List F :=
  let v0 := match values with
    | [] => []
    | x :: xs => (if PyFloat.lt x lo then lo else x) :: xs
  match v0.getLast? with
  | none => v0
  | some z => if PyFloat.lt hi z then v0.dropLast ++ [hi] else v0

/-- material.py 789-805 `get_sample_spectrum`. -/
def Material.sampleSpectrum (m : Material F) : Res (Spectrum F) := do
  let r ← m.maxRange
  let lo ← pyIdx r.toList 0
  let hi ← pyIdx r.toList 1
  if PyFloat.eq lo (lit 0) || PyFloat.eq hi PyFloat.inf then do
    let g ← SciPy.geomspace (lit 100) (lit 2000) 1000
    Spectrum.new (.ndarray .float g) "wavelength" "nm"
  else do
    let g ← SciPy.geomspace lo hi 1000
    Spectrum.new (.ndarray .float (clampEnds lo hi g)) m.defType m.defUnit

/-- material.py 762-787 `_prepare_plot_data` without `values`: the spectrum that is plotted. -/
def Material.plotSpectrum (m : Material F) (stype unit : Option String) :
    Res (Spectrum F) := do
  let t := stype.getD m.defType
  let u := unit.getD m.defUnit
  let s ← m.sampleSpectrum
  let v ← s.convertTo t u
  Spectrum.new v.toRaw t u

/-! ## Equality -/

/-- Python equality of two dictionaries of strings. -/
def dictEq (a b : List (String × String)) : Bool :=
  a.length = b.length && a.all (fun p => match dictGet b p.1 with
    | .ok v => v = p.2
    | .error _ => false)

/-- Python equality of two metadata values. -/
def MetaVal.pyEq : MetaVal → MetaVal → Bool
  | .str a, .str b => a = b
  | .dict a, .dict b => dictEq a b
  | _, _ => false

/-- The loop material.py 149-152: `KeyError` if the other object lacks a key. -/
def metaLoop : List (String × MetaVal) → List (String × MetaVal) → Res Bool
  | [], _ => .ok true
  | (k, v) :: rest, other => do
    let w ← dictGet other k
    if v.pyEq w then metaLoop rest other else .ok false

/-- material.py 141-156 `__eq__` for two Material objects. -/
def Material.pyEq (a b : Material F) : Res Bool := do
  let ma ← match a.metaData with
    | some d => .ok d
    | none => .error .attribute
  let same ← match ma with
    | [] => .ok true
    | _ => match b.metaData with
      | some mb => metaLoop ma mb
      | none => .error .attribute
  if same then .ok (a.name = b.name) else .ok false

end Disp
