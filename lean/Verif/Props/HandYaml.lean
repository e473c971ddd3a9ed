import Verif.Props.PlainTables
import Verif.Props.FormulaFiles
/-!
# C150, C151: YAML files written by hand

A dataset may use the names of this library or those of refractiveindex.info, in any order, and
further entries. It gives the material of the equivalent argument of the constructor. Names that
nothing knows are passed over in silence, although the code prepares an exception for them.
-/

namespace Disp

open Spec

section spec
variable {F : Type}

/-- The name is one of the given ones, in small or capital letters. -/
def Spec.Spelled (k : String) (ns : List String) : Prop :=
  ∃ n ∈ ns, k.toList.map Char.toUpper = n.toList.map Char.toUpper

/-- The names of the range of validity. -/
def Spec.rangeNames : List String := ["ValidRange", "range", "spectra_range", "wavelength_range"]

/-- The text under one of two names; the first one counts. -/
def Spec.Under (d : Dataset F) (a b x : String) : Prop :=
  (a, DVal.str x) ∈ d ∨ (b, DVal.str x) ∈ d ∧ ∀ p ∈ d, p.1 ≠ a

/-- The text under a name that may be spelled in small or capital letters, and the empty text if
there is no such entry. There are no two such entries. -/
def Spec.Field (d : Dataset F) (ns : List String) (x : String) : Prop :=
  (∃ k, (k, DVal.str x) ∈ d ∧ Spelled k ns ∧ ∀ p ∈ d, Spelled p.1 ns → p.1 = k) ∨
    x = "" ∧ ∀ p ∈ d, ¬ Spelled p.1 ns

/-- A dataset written by hand: its kind, its numbers (under one of the two names `a` and `b`), its
range, spectrum type and unit, in any order and among other entries. -/
structure Spec.HandEntry (d : Dataset F) (a b kind numbers range t u : String) : Prop where
  keys : Keys d
  kind : Under d "type" "DataType" kind
  numbers : Under d a b numbers
  range : Field d rangeNames range
  type : Field d ["SpectrumType"] t
  unit : Field d ["Unit"] u
  letters : ∀ p ∈ d, ¬ Spelled p.1 ["t", "y", "p", "e"]

/-- The numbered formulas. -/
def Spec.formulaNumbers : List (ℕ × String) :=
  [(1, "Sellmeier"), (2, "Sellmeier2"), (3, "Polynomial"), (4, "RefractiveIndexInfo"),
   (5, "Cauchy"), (6, "Gases"), (7, "Herzberger"), (8, "Retro"), (9, "Exotic")]

/-- The kind names a model, by its name or by the number of the formula, in any layout. -/
inductive Spec.NamesModel : String → String → Prop
  | model {kind k : String} : LineOf ["model".toList, k.toList] kind.toList → NamesModel kind k
  | formula {kind k : String} {n : ℕ} : (n, k) ∈ formulaNumbers →
      LineOf ["formula".toList, (toString n).toList] kind.toList → NamesModel kind k

/-- The text lists the numbers. -/
def Spec.Lists [NumText F] (x : String) (cs : List F) : Prop :=
  ∃ ts, LineOf ts x.toList ∧ List.Forall₂ (fun t c => NumText.parseFloat t = .ok c) ts cs

/-- The kinds of tables for which there is an argument of the constructor. -/
inductive Spec.TableSource : String → ℕ → String → Prop
  | n : TableSource "n" 2 "tabulated_n"
  | nk : TableSource "nk" 3 "tabulated_nk"
  | eps : TableSource "eps" 3 "tabulated_eps"

/-- Two materials with the same data: they answer every question in the same way. -/
structure Spec.AlikeData [PyFloat F] [SciPy F] (m m' : Material F) : Prop where
  name : m.name = m'.name
  real : m.real = m'.real
  imag : m.imag = m'.imag
  cplx : m.cplx = m'.cplx
  type : m.defType = m'.defType
  unit : m.defUnit = m'.defUnit

/-- Two calls of the constructor with the same result: the same exception, or materials with the
same data. -/
inductive Spec.SameResult [PyFloat F] [SciPy F] : Res (Material F) → Res (Material F) → Prop
  | ok {m m' : Material F} : AlikeData m m' → SameResult (.ok m) (.ok m')
  | error {e : PyErr} : SameResult (.error e) (.error e)

/-- A name that the reader knows. -/
def Spec.KnownName (k : String) : Prop :=
  k ∈ ["type", "DataType", "coefficients", "Parameters", "data", "Data"] ∨
    Spelled k (rangeNames ++ ["SpectrumType", "Unit", "Yields", "t", "y", "p", "e"])

end spec

section reading
variable {F : Type}

/-! ## Reading an entry -/

theorem spelled_field {o : KeyOrder} (ho : o.Valid) (k : String) :
    (datasetKey o k = some "ValidRange" ↔ Spelled k rangeNames) ∧
    (datasetKey o k = some "SpectrumType" ↔ Spelled k ["SpectrumType"]) ∧
    (datasetKey o k = some "Unit" ↔ Spelled k ["Unit"]) ∧
    (datasetKey o k = some "DataType" ↔ Spelled k ["t", "y", "p", "e"]) ∧
    (datasetKey o k = some "Yields" ↔ Spelled k ["Yields"]) := by
  have e0 : upper "validRange".toList = upper "ValidRange".toList := by decide +kernel
  refine ⟨?_, ?_, ?_, ?_, ?_⟩ <;> rw [C44_yaml_field ho]
  · constructor
    · rintro ⟨-, a, ha, e⟩
      have : a ∈ ["validRange", "range", "spectra_range", "wavelength_range"] := ha
      simp only [List.mem_cons, List.not_mem_nil, or_false] at this
      rcases this with rfl | rfl | rfl | rfl
      · exact ⟨"ValidRange", by decide, e.trans e0⟩
      · exact ⟨_, by decide, e⟩
      · exact ⟨_, by decide, e⟩
      · exact ⟨_, by decide, e⟩
    · rintro ⟨a, ha, e⟩
      refine ⟨by decide, ?_⟩
      simp only [rangeNames, List.mem_cons, List.not_mem_nil, or_false] at ha
      rcases ha with rfl | rfl | rfl | rfl
      · exact ⟨"validRange", by decide, e.trans e0.symm⟩
      · exact ⟨"range", by decide, e⟩
      · exact ⟨"spectra_range", by decide, e⟩
      · exact ⟨"wavelength_range", by decide, e⟩
  all_goals
    constructor
    · rintro ⟨-, a, ha, e⟩
      exact ⟨a, ha, e⟩
    · rintro ⟨a, ha, e⟩
      exact ⟨by decide, a, ha, e⟩

theorem field_of_key {o : KeyOrder} (ho : o.Valid) {k key : String}
    (h : datasetKey o k = some key) :
    key ∈ ["ValidRange", "DataType", "SpectrumType", "Unit", "Yields"] :=
  ((C44_yaml_field ho k key).1 h).1

/-- A field that no entry fills keeps its value. -/
theorem fill_none {o : KeyOrder} {key : String} : ∀ (d out : Dataset F),
    (∀ p ∈ d, datasetKey o p.1 ≠ some key) →
    dictGet (fillFields o d out) key = dictGet out key := by
  intro d
  induction d with
  | nil => intro out _; rfl
  | cons p d ih =>
    intro out h
    have step : fillFields o (p :: d) out = fillFields o d (match datasetKey o p.1 with
      | some key => dictSet out key p.2
      | Option.none => out) := rfl
    rw [step, ih _ (fun q hq => h q (List.mem_cons_of_mem _ hq))]
    have hp := h p (List.mem_cons_self ..)
    cases hk : datasetKey o p.1 with
    | none => rfl
    | some key' =>
      rw [hk] at hp
      simp only
      rw [dictGet_set, if_neg (fun e => hp (by rw [e]))]

/-- A field that one entry fills. -/
theorem fill_one {o : KeyOrder} {key k : String} {v : DVal F} : ∀ (d out : Dataset F), Keys d →
    (k, v) ∈ d → datasetKey o k = some key →
    (∀ p ∈ d, datasetKey o p.1 = some key → p.1 = k) →
    dictGet (fillFields o d out) key = .ok v := by
  intro d
  induction d with
  | nil => intro out _ h; cases h
  | cons p d ih =>
    intro out hk hm hkey hu
    have hk' : Keys d := (List.nodup_cons.1 hk).2
    have hnot : p.1 ∉ d.map Prod.fst := (List.nodup_cons.1 hk).1
    have step : fillFields o (p :: d) out = fillFields o d (match datasetKey o p.1 with
      | some key => dictSet out key p.2
      | Option.none => out) := rfl
    rw [step]
    rcases List.mem_cons.1 hm with rfl | hm
    · simp only [hkey]
      rw [fill_none, dictGet_set, if_pos rfl]
      intro q hq he
      have := hu q (List.mem_cons_of_mem _ hq) he
      exact hnot (List.mem_map.2 ⟨q, hq, this⟩)
    · exact ih _ hk' hm hkey (fun q hq => hu q (List.mem_cons_of_mem _ hq))

theorem Spec.Field.fills {o : KeyOrder} {d : Dataset F} (hk : Keys d) {ns : List String}
    {x key : String} (h : Field d ns x) (hs : ∀ k, datasetKey o k = some key ↔ Spelled k ns)
    {out : Dataset F} (hout : dictGet out key = .ok (.str "")) :
    dictGet (fillFields o d out) key = .ok (.str x) := by
  rcases h with ⟨k, h1, h2, h3⟩ | ⟨rfl, h⟩
  · exact fill_one d out hk h1 ((hs k).2 h2) fun p hp he => h3 p hp ((hs _).1 he)
  · rw [fill_none d out fun p hp he => h p hp ((hs _).1 he), hout]

theorem Spec.Under.gets {d : Dataset F} (hk : Keys d) {a b x : String} (h : Under d a b x) :
    getEither d a b = .ok (.str x) := by
  rw [getEither]
  rcases h with h | ⟨h, hn⟩
  · rw [dictGet_of_mem hk h]
  · cases hd : dictGet d a with
    | ok v => exact absurd rfl (hn _ (dictGet_mem hd))
    | error e => exact dictGet_of_mem hk h

/-- A line without its leading blanks. -/
theorem lstrip_line {t : List Char} {ts : List (List Char)} {l : List Char}
    (h : LineOf (t :: ts) l) : LineOf (t :: ts) (lstrip l) ∧ t.isPrefixOf (lstrip l) = true := by
  cases h with
  | word hs ht hsep hrest =>
    rename_i s rest
    have : lstrip (s ++ t ++ rest) = [] ++ t ++ rest := by
      rw [lstrip, List.append_assoc, List.dropWhile_append_of_pos (by simpa using hs)]
      obtain ⟨hne, hall⟩ := ht
      cases t with
      | nil => exact absurd rfl hne
      | cons c t =>
        rw [List.cons_append, List.dropWhile_cons_of_neg (by rw [hall c (by simp)]; decide)]
        rfl
    rw [this]
    exact ⟨.word (by simp) ht hsep hrest, by simp⟩

/-- Reading an entry that was written by hand. -/
theorem Spec.HandEntry.process {o : KeyOrder} (ho : o.Valid) {d : Dataset F}
    {a b kind numbers range t u : String} (h : HandEntry d a b kind numbers range t u)
    (he : entryData d (lstrip kind.toList) = getEither d a b) :
    ∃ out, processMatData1 o d = .ok out ∧
      dictGet out "DataType" = .ok (.str (String.ofList (lstrip kind.toList))) ∧
      dictGet out "Data" = .ok (.str numbers) ∧ dictGet out "ValidRange" = .ok (.str range) ∧
      dictGet out "SpectrumType" = .ok (.str t) ∧ dictGet out "Unit" = .ok (.str u) := by
  have h1 : entryType d = .ok (lstrip kind.toList) := by
    rw [entryType, h.kind.gets h.keys]
  rw [h.numbers.gets h.keys] at he
  have hpr : processMatData1 o d = .ok (fillFields o d (dictSet (dictSet (defaultDataset o)
      "DataType" (.str (String.ofList (lstrip kind.toList)))) "Data" (.str numbers))) := by
    rw [processMatData1, h1]
    simp only [bind, Except.bind, he]
  have hdef : ∀ k ∈ datasetMetaKeys, dictGet (defaultDataset o : Dataset F) k = .ok (.str "") := by
    intro k hk
    rw [defaultDataset, dictGet_const, if_pos (ho.2.mem_iff.2 hk)]
  have hout : ∀ k ∈ datasetMetaKeys, k ≠ "DataType" → dictGet (dictSet (dictSet (defaultDataset o)
      "DataType" (.str (String.ofList (lstrip kind.toList)))) "Data" (.str numbers) : Dataset F) k =
      .ok (.str "") := by
    intro k hk hne
    have : "Data" ≠ k := by rintro rfl; revert hk; decide
    rw [dictGet_set, if_neg this, dictGet_set, if_neg (Ne.symm hne)]
    exact hdef k hk
  refine ⟨_, hpr, ?_, ?_, ?_, ?_, ?_⟩
  · rw [fill_none _ _ fun p hp hh => h.letters p hp ((spelled_field ho _).2.2.2.1.1 hh),
      dictGet_set, if_neg (by decide), dictGet_set, if_pos rfl]
  · rw [fill_none, dictGet_set, if_pos rfl]
    intro p _ hh
    exact absurd (field_of_key ho hh) (by decide)
  · exact h.range.fills h.keys (fun k => (spelled_field ho k).1) (hout _ (by decide) (by decide))
  · exact h.type.fills h.keys (fun k => (spelled_field ho k).2.1) (hout _ (by decide) (by decide))
  · exact h.unit.fills h.keys (fun k => (spelled_field ho k).2.2.1) (hout _ (by decide) (by decide))

end reading

variable {F : Type} [PyFloat F] [SciPy F] [NumText F]

/-! ## Models -/

omit [PyFloat F] [SciPy F] in
theorem Spec.Lists.parse {x : String} {cs : List F} (h : Lists x cs) :
    (splitSpaces x.toList).mapM NumText.parseFloat = .ok cs := by
  obtain ⟨ts, h1, h2⟩ := h
  rw [splitSpaces_line h1]
  exact mapM_reads h2

omit [PyFloat F] [SciPy F] in
theorem Spec.Lists.ne {x : String} {cs : List F} (h : Lists x cs) (hne : cs ≠ []) : x ≠ "" := by
  rintro rfl
  have := h.parse
  rw [show splitSpaces "".toList = [] from rfl] at this
  cases this
  exact hne rfl

theorem Spec.NamesModel.split {kind k : String} (h : NamesModel kind k) :
    ∃ dt id, splitTwo (String.ofList (lstrip kind.toList)) = .ok (dt, id) ∧
      (dt = "formula" ∨ dt = "model") ∧ (dt = "formula" → id.toInt? ≠ Option.none) ∧
      formulaName dt id = .ok k ∧
      ("formula".toList.isPrefixOf (lstrip kind.toList) ||
        "model".toList.isPrefixOf (lstrip kind.toList)) = true := by
  cases h with
  | model h =>
    obtain ⟨h1, h2⟩ := lstrip_line h
    refine ⟨"model", k, ?_, .inr rfl, fun e => absurd e (by decide), ?_, ?_⟩
    · rw [splitTwo, String.toList_ofList, splitSpaces_line h1]
      simp only [String.ofList_toList]
    · rw [formulaName, if_neg (by decide)]
    · rw [h2, Bool.or_true]
  | @formula n hn h =>
    obtain ⟨h1, h2⟩ := lstrip_line h
    refine ⟨"formula", toString n, ?_, .inl rfl, fun _ => ?_, ?_, ?_⟩
    · rw [splitTwo, String.toList_ofList, splitSpaces_line h1]
      simp only [String.ofList_toList]
    · rw [number_int]; simp
    · rw [formulaName, if_pos rfl, number_int]
      simp only [formulaNumbers, List.mem_cons, List.not_mem_nil, or_false, Prod.mk.injEq] at hn
      rcases hn with ⟨rfl, rfl⟩ | ⟨rfl, rfl⟩ | ⟨rfl, rfl⟩ | ⟨rfl, rfl⟩ | ⟨rfl, rfl⟩ | ⟨rfl, rfl⟩ |
        ⟨rfl, rfl⟩ | ⟨rfl, rfl⟩ | ⟨rfl, rfl⟩ <;> rfl
    · rw [h2, Bool.true_or]

omit [PyFloat F] [SciPy F] [NumText F] in
theorem stated_eq (v x : String) : ((DVal.str v : DVal F).nonEmptyStr).getD x = stated v x := by
  show (if v = "" then Option.none else some v).getD x = if v = "" then x else v
  split <;> rfl

/-- The dictionary of a model. -/
def modelArg (k : String) (ps rs : List F) (t u : String) : ModelKw F :=
  { name := some k, stype := some t, unit := some u, params := some ps,
    validRange := some (.list .float rs) }

theorem load_named (m : Material F) {d : Dataset F} {kind k x y t u : String} {ps rs : List F}
    (hn : NamesModel kind k)
    (hd : dictGet d "DataType" = .ok (.str (String.ofList (lstrip kind.toList))))
    (hv : dictGet d "Data" = .ok (.str x)) (hr : dictGet d "ValidRange" = .ok (.str y))
    (hx : Lists x ps) (hy : Lists y rs) (hne : rs ≠ [])
    (ht : dictGet d "SpectrumType" = .ok (.str t)) (hu : dictGet d "Unit" = .ok (.str u)) :
    processDataset m d = processModelDict m
      (modelArg k ps rs (stated t m.defType) (stated u m.defUnit)) := by
  obtain ⟨dt, id, s1, s2, s3, s4, -⟩ := hn.split
  have s5 : dt ≠ "tabulated" := by rcases s2 with rfl | rfl <;> decide
  have s6 : ¬ (dt = "formula" ∧ id.toInt? = Option.none) := fun h => s3 h.1 h.2
  have e1 : parseRange d = .ok rs := by
    rw [parseRange, hr]
    simp only [if_neg (hy.ne hne), hy.parse]
  unfold processDataset
  simp only [Dataset.getStr, hd, bind, Except.bind, s1, if_neg s5, if_pos s2]
  unfold processFormulaData
  simp only [Dataset.getStr, hd, hv, bind, Except.bind, s1, not_true, s2, if_false, if_neg s6, e1,
    hx.parse, ht, hu, stated_eq, s4]
  rfl

omit [NumText F] in
/-- A model does not depend on what was there before. -/
theorem model_same (m m' : Material F) (h : m.real = m'.real ∧ m.imag = m'.imag ∧
    m.cplx = m'.cplx) (k : String) (ps rs : List F) (t u : String) :
    SameResult ((processModelDict m (modelArg k ps rs t u)).map finish)
      ((processModelDict m' (modelArg k ps rs t u)).map finish) := by
  obtain ⟨h1, h2, h3⟩ := h
  simp only [processModelDict, modelArg, Option.getD_some, bind, Except.bind]
  cases classRef k with
  | missing => exact .error
  | notClass => exact .error
  | real f =>
    simp only
    cases RealData.newModel f ps (.list .float rs) t u with
    | error e => exact .error
    | ok r =>
      simp only [storeReal]
      split
      all_goals first
        | exact .error
        | exact .ok ⟨rfl, by simp [finish, h1], by simp [finish, h2], by simp [finish, h3], rfl, rfl⟩
  | cplx f =>
    simp only
    cases CplxData.new f ps (.list .float rs) t u with
    | error e => exact .error
    | ok r => exact .ok ⟨rfl, by simp [finish, h1], by simp [finish, h2], by simp [finish], rfl, rfl⟩
  | baseModel =>
    simp only
    cases Spectrum.new (.list .float rs) t u with
    | error e => exact .error
    | ok r => exact .error
  | _ => exact .error

/-- The constructor with the dictionary of a model. -/
theorem new_model_dict (rd : String → Res (FileDict F)) {kw : Kwargs F} (hnd : (kw.map Prod.fst).Nodup)
    (hp : PlainOptions kw) {d : ModelKw F} (h : Only kw "model_kw" .model (.dict d)) :
    Material.new rd kw = (processModelDict (blankMaterial (parsedOf kw)) d).map finish := by
  rw [new_eq_dispatch rd hnd hp h ⟨_, rfl⟩ trivial (by decide), dispatch_eq rd _ hnd h ⟨_, rfl⟩]
  simp only [dispatchOn, bind, Except.bind]
  cases processModelDict (blankMaterial (parsedOf kw)) d with
  | error e => rfl
  | ok m => simp only [complete_eq]; rfl

variable [YamlIO F]

/-- C150 for models: a YAML file with one dataset that names a model, by its name or by the number
of a formula, gives the result of the argument `model_kw` with the same name, parameters and range:
the same data or the same exception. Spectrum type and unit are those of the dataset and, where it
has none, those of the call. -/
theorem C150_model {o : KeyOrder} (ho : o.Valid) {text : List Char} {d : Dataset F}
    (hf : YamlFile text [d]) {kind x y t u : String}
    (hd : HandEntry d "coefficients" "Parameters" kind x y t u) {k : String}
    (hn : NamesModel kind k) {ps rs : List F} (hx : Lists x ps) (hy : Lists y rs) (hne : rs ≠ [])
    {kw kw' : Kwargs F} (hnd : (kw.map Prod.fst).Nodup) (hp : PlainOptions kw) {p : String}
    (hk : Only kw "file_path" .text (.str p)) (hnd' : (kw'.map Prod.fst).Nodup)
    (hp' : PlainOptions kw') (hk' : Only kw' "model_kw" .model (.dict
      { name := some k, stype := some (stated t (defaultsOf kw).1),
        unit := some (stated u (defaultsOf kw).2), params := some ps,
        validRange := some (.list .float rs) })) (rd : String → Res (FileDict F)) :
    ∃ fd r', (Reader.fresh o : Reader F).readFile o ".yml" text = (.ok fd, r') ∧
      SameResult (Material.new (fun _ => .ok fd) kw) (Material.new rd kw') := by
  obtain ⟨dt, id, -, -, -, -, hpre⟩ := hn.split
  obtain ⟨out, o1, o2, o3, o4, o5, o6⟩ := hd.process ho (by rw [entryData, if_pos hpre])
  obtain ⟨fd, r', f1, f2, f3⟩ := hf.read ho (ds' := [out]) (by
    simp only [List.mapM_cons, List.mapM_nil, o1]; rfl)
  refine ⟨fd, r', f1, ?_⟩
  obtain ⟨md, -, e⟩ := new_path hnd hp hk f2
  have h1 : (fd.datasets.foldlM processDataset
      { blankMaterial (parsedOf kw) with metaData := some md }) = processModelDict
      { blankMaterial (parsedOf kw) with metaData := some md }
      (modelArg k ps rs (stated t (defaultsOf kw).1) (stated u (defaultsOf kw).2)) := by
    rw [f3, List.foldlM_cons, load_named _ hn o2 o3 o4 hx hy hne o5 o6]
    exact bind_pure _
  have h2 := new_model_dict rd hnd' hp' hk'
  have h3 := model_same { blankMaterial (parsedOf kw) with metaData := some md }
    (blankMaterial (parsedOf kw')) ⟨rfl, rfl, rfl⟩ k ps rs (stated t (defaultsOf kw).1)
    (stated u (defaultsOf kw).2)
  rw [e, h1, h2]
  exact h3

/-! ## Tables -/

omit [NumText F] [YamlIO F] in
theorem table_same (m m' : Material F) (h : m.real = m'.real ∧ m.imag = m'.imag ∧
    m.cplx = m'.cplx) {id : String} {n : ℕ} {arg : String} (hs : TableSource id n arg) (a : NDArr F)
    {d : Dataset F} {t u : String} (ht : dictGet d "SpectrumType" = .ok (.str t))
    (hu : dictGet d "Unit" = .ok (.str u)) (hst : m'.defType = stated t m.defType)
    (hun : m'.defUnit = stated u m.defUnit) :
    SameResult ((processTable m a id d).map finish) ((processTable m' a id []).map finish) := by
  obtain ⟨h1, h2, h3⟩ := h
  have e1 : ((Dataset.get d "SpectrumType").nonEmptyStr).getD m.defType = m'.defType := by
    rw [Dataset.get, ht, hst]; exact stated_eq _ _
  have e2 : ((Dataset.get d "Unit").nonEmptyStr).getD m.defUnit = m'.defUnit := by
    rw [Dataset.get, hu, hun]; exact stated_eq _ _
  have g : ∀ key x, ((Dataset.get ([] : Dataset F) key).nonEmptyStr).getD x = x := fun _ _ => rfl
  unfold processTable
  simp only [e1, e2, g]
  cases hs with
  | n =>
    simp only [show ¬ ("n" = "nk") from by decide, show ¬ ("n" = "n_alpha") from by decide, if_false,
      if_true, bind, Except.bind]
    cases specDataFromTable m'.defType m'.defUnit a 0 1 with
    | error e => exact .error
    | ok r => exact .ok ⟨rfl, rfl, by simp [finish, h2], by simp [finish, h3], rfl, rfl⟩
  | nk =>
    simp only [if_true, bind, Except.bind]
    cases specDataFromTable m'.defType m'.defUnit a 0 1 with
    | error e => exact .error
    | ok r =>
      simp only
      cases specDataFromTable m'.defType m'.defUnit a 0 2 with
      | error e => exact .error
      | ok i => exact .ok ⟨rfl, rfl, rfl, by simp [finish, h3], rfl, rfl⟩
  | eps =>
    simp only [show ¬ ("eps" = "nk") from by decide, show ¬ ("eps" = "n_alpha") from by decide,
      show ¬ ("eps" = "n") from by decide, show ¬ ("eps" = "k") from by decide, if_false,
      if_true, bind, Except.bind]
    cases specDataFromTable m'.defType m'.defUnit a 0 1 with
    | error e => exact .error
    | ok r =>
      simp only
      cases specDataFromTable m'.defType m'.defUnit a 0 2 with
      | error e => exact .error
      | ok i => exact .ok ⟨rfl, rfl, rfl, by simp [finish, h3], rfl, rfl⟩

omit [YamlIO F] in
/-- The constructor with a table of the documented shape. -/
theorem new_table (rd : String → Res (FileDict F)) {kw : Kwargs F} (hnd : (kw.map Prod.fst).Nodup)
    (hp : PlainOptions kw) {id arg : String} {n : ℕ} (hs : TableSource id n arg)
    {rows : List (List F)} (h : Only kw arg (.table n) (.arr (.d2 n .float rows))) :
    Material.new rd kw =
      (processTable (blankMaterial (parsedOf kw)) (.d2 n .float rows) id []).map finish := by
  have hcomp : ∀ r : Res (Material F), (r >>= fun m => m.completePartialData) = r.map finish := by
    intro r
    cases r with
    | error e => rfl
    | ok m => exact complete_eq m
  cases hs <;>
  · rw [new_eq_dispatch rd hnd hp h ⟨_, rfl⟩ ⟨_, _, rfl⟩ (by decide),
      dispatch_eq rd _ hnd h ⟨_, rfl⟩, hcomp]
    rfl

/-- C150 for tables: a YAML file with one dataset `tabulated n`, `tabulated nk` or `tabulated eps`
gives the result of the argument with the same rows, be it a material or an exception. -/
theorem C150_table {o : KeyOrder} (ho : o.Valid) {text : List Char} {d : Dataset F}
    (hf : YamlFile text [d]) {kind x y t u : String} (hd : HandEntry d "data" "Data" kind x y t u)
    {id arg : String} {n : ℕ} (hs : TableSource id n arg)
    (hn : LineOf ["tabulated".toList, id.toList] kind.toList) {toks : List (List (List Char))}
    {rows : List (List F)} (hx : TextOf toks x.toList)
    (hv : List.Forall₂ (List.Forall₂ Reads) toks rows) (hne : rows ≠ [])
    (hw : ∀ r ∈ rows, r.length = n)
    {kw kw' : Kwargs F} (hnd : (kw.map Prod.fst).Nodup) (hp : PlainOptions kw) {p : String}
    (hk : Only kw "file_path" .text (.str p)) (hnd' : (kw'.map Prod.fst).Nodup)
    (hp' : PlainOptions kw') (hk' : Only kw' arg (.table n) (.arr (.d2 n .float rows)))
    (hst : (defaultsOf kw').1 = stated t (defaultsOf kw).1)
    (hun : (defaultsOf kw').2 = stated u (defaultsOf kw).2) (rd : String → Res (FileDict F)) :
    ∃ fd r', (Reader.fresh o : Reader F).readFile o ".yml" text = (.ok fd, r') ∧
      SameResult (Material.new (fun _ => .ok fd) kw) (Material.new rd kw') := by
  obtain ⟨l1, l2⟩ := lstrip_line hn
  have hno : ("formula".toList.isPrefixOf (lstrip kind.toList) ||
      "model".toList.isPrefixOf (lstrip kind.toList)) = false := by
    obtain ⟨r, hr⟩ := List.isPrefixOf_iff_prefix.1 l2
    rw [← hr]
    rfl
  obtain ⟨out, o1, o2, o3, o4, o5, o6⟩ := hd.process ho (by
    rw [entryData, if_neg (by rw [hno]; decide), if_pos l2])
  obtain ⟨fd, r', f1, f2, f3⟩ := hf.read ho (ds' := [out]) (by
    simp only [List.mapM_cons, List.mapM_nil, o1]; rfl)
  refine ⟨fd, r', f1, ?_⟩
  obtain ⟨md, -, e⟩ := new_path hnd hp hk f2
  have hsp : splitTwo (String.ofList (lstrip kind.toList)) = .ok ("tabulated", id) := by
    rw [splitTwo, String.toList_ofList, splitSpaces_line l1]
    simp only [String.ofList_toList]
  have hload : processDataset { blankMaterial (parsedOf kw) with metaData := some md } out =
      processTable { blankMaterial (parsedOf kw) with metaData := some md }
        (.d2 n .float rows) id out := by
    unfold processDataset
    simp only [Dataset.getStr, o2, bind, Except.bind, hsp, if_true, o3, DVal.asTable,
      C43_parse hx hv hne hw]
  have h1 : (fd.datasets.foldlM processDataset
      { blankMaterial (parsedOf kw) with metaData := some md }) = processTable
      { blankMaterial (parsedOf kw) with metaData := some md } (.d2 n .float rows) id out := by
    rw [f3, List.foldlM_cons, hload]
    exact bind_pure _
  have h2 := new_table rd hnd' hp' hs hk'
  have h3 := table_same { blankMaterial (parsedOf kw) with metaData := some md }
    (blankMaterial (parsedOf kw')) ⟨rfl, rfl, rfl⟩ hs (.d2 n .float rows) o5 o6 hst hun
  rw [e, h1, h2]
  exact h3

/-! ## A case -/

/-- A glass in the names of this library, with some liberties. -/
def handGlass : Dataset XR := [("unit", .str "um"), ("Parameters", .str "1.5 0.004 -2"),
  ("Colour", .str "green"), ("DataType", .str " model  Cauchy"), ("SPECTRUMTYPE", .str "wavelength"),
  ("Range", .str "0.5 2")]

theorem hand_glass :
    HandEntry handGlass "coefficients" "Parameters" " model  Cauchy" "1.5 0.004 -2" "0.5 2"
      "wavelength" "um" := by
  refine ⟨by unfold Keys; decide +kernel, .inr ⟨by simp [handGlass], by simp [handGlass]⟩,
    .inr ⟨by simp [handGlass], by simp [handGlass]⟩, .inl ⟨"Range", by simp [handGlass], ?_, ?_⟩,
    .inl ⟨"SPECTRUMTYPE", by simp [handGlass], ?_, ?_⟩, .inl ⟨"unit", by simp [handGlass], ?_, ?_⟩, ?_⟩
  · exact ⟨"range", by decide, by decide +kernel⟩
  · have : ∀ k ∈ handGlass.map Prod.fst, (∃ n ∈ rangeNames,
        k.toList.map Char.toUpper = n.toList.map Char.toUpper) → k = "Range" := by decide +kernel
    exact fun p hp => this p.1 (List.mem_map_of_mem hp)
  · exact ⟨"SpectrumType", by decide, by decide +kernel⟩
  · have : ∀ k ∈ handGlass.map Prod.fst, (∃ n ∈ ["SpectrumType"],
        k.toList.map Char.toUpper = n.toList.map Char.toUpper) → k = "SPECTRUMTYPE" := by
      decide +kernel
    exact fun p hp => this p.1 (List.mem_map_of_mem hp)
  · exact ⟨"Unit", by decide, by decide +kernel⟩
  · have : ∀ k ∈ handGlass.map Prod.fst, (∃ n ∈ ["Unit"],
        k.toList.map Char.toUpper = n.toList.map Char.toUpper) → k = "unit" := by decide +kernel
    exact fun p hp => this p.1 (List.mem_map_of_mem hp)
  · have : ∀ k ∈ handGlass.map Prod.fst, ¬ (∃ n ∈ ["t", "y", "p", "e"],
        k.toList.map Char.toUpper = n.toList.map Char.toUpper) := by decide +kernel
    exact fun p hp => this p.1 (List.mem_map_of_mem hp)

/-- Concrete case for `C150_model`: the file of the glass gives the material of the dictionary, and
there is one, in micrometres, although the call does not say so. -/
example [SciPy XR] (text : List Char) {o : KeyOrder} (ho : o.Valid) : letI := glassNumbers
    letI : YamlIO XR := ⟨fun _ => .ok [("DATA", .data [handGlass])], fun _ => []⟩
    ∃ fd r' m, (Reader.fresh o : Reader XR).readFile o ".yml" text = (.ok fd, r') ∧
      Material.new (fun _ => .ok fd) [("file_path", .str "a.yml")] = .ok m ∧ m.defUnit = "um" := by
  letI := glassNumbers
  letI : YamlIO XR := ⟨fun _ => .ok [("DATA", .data [handGlass])], fun _ => []⟩
  have hf : YamlFile text [handGlass] :=
    ⟨⟨_, rfl, by simp [Keys], by unfold UpperKeys; simp; decide +kernel, rfl, by
      intro p hp hne
      simp only [List.mem_cons, List.not_mem_nil, or_false] at hp
      exact absurd (by rw [hp]) hne⟩⟩
  have word : ∀ {s t rest : List Char} {ts : List (List Char)}, (∀ c ∈ s, pySpace c = true) →
      Word t → (∀ c ∈ rest.head?, pySpace c = true) → LineOf ts rest →
      LineOf (t :: ts) (s ++ t ++ rest) := fun h1 h2 h3 h4 => .word h1 h2 h3 h4
  have hn : NamesModel " model  Cauchy" "Cauchy" := by
    have w : ∀ t ∈ ["model".toList, "Cauchy".toList], Word t := by unfold Word; decide +kernel
    have := word (s := [' ']) (t := "model".toList) (by decide +kernel) (w _ (by simp))
      (by decide +kernel) (word (s := [' ', ' ']) (t := "Cauchy".toList) (by decide +kernel)
        (w _ (by simp)) (by simp) (.blank (s := []) (by simp)))
    exact .model this
  obtain ⟨x, hx, x1⟩ := glass_entry.coefficients
  obtain ⟨y, hy, y1⟩ := glass_entry.range
  obtain rfl : "1.5 0.004 -2" = x := by injection hx with h; injection h
  obtain rfl : "0.5 2" = y := by injection hy with h; injection h
  have hl : ∀ {x : String} {cs : List ℝ}, ListsNumbers x cs → Lists x (cs.map XR.fin) :=
    fun ⟨ts, a, b⟩ => ⟨ts, a, List.forall₂_map_right_iff.2 b⟩
  have l1 : Lists "1.5 0.004 -2" [XR.fin 1.5, XR.fin 0.004, XR.fin (-2)] := hl x1
  have l2 : Lists "0.5 2" [XR.fin 0.5, XR.fin 2] := hl y1
  obtain ⟨k1, k2⟩ := only_single (F := XR) (n := "file_path") (t := .text) (v := .str "a.yml")
    (by decide) (by simp)
  let md : ModelKw XR := modelArg "Cauchy" [XR.fin 1.5, XR.fin 0.004, XR.fin (-2)]
    [XR.fin 0.5, XR.fin 2] "wavelength" "um"
  obtain ⟨k3, k4⟩ := only_single (F := XR) (n := "model_kw") (t := .model) (v := .dict md)
    (by decide) (by simp)
  have p1 := plain_single (F := XR) (n := "file_path") (v := .str "a.yml") (by decide) (by decide)
  have p2 := plain_single (F := XR) (n := "model_kw") (v := .dict md) (by decide) (by decide)
  obtain ⟨fd, r', e1, e2⟩ := C150_model ho hf hand_glass hn l1 l2 (by simp) k1 p1 k2 k3 p2 k4
    (fun _ => .error .os)
  obtain ⟨f, m', -, -, e3⟩ := ((C24_model_partial (fun _ => .error .os) _ k3 p2 md k4 "Cauchy" rfl _
    rfl _ rfl rfl "wavelength" "um" rfl rfl).1 (by decide)).1 ⟨by decide +kernel, by decide +kernel⟩
  rw [e3] at e2
  cases hm : Material.new (fun _ => .ok fd) [("file_path", .str "a.yml")] with
  | error e => rw [hm] at e2; cases e2
  | ok m =>
    rw [hm] at e2
    cases e2 with
    | ok h => exact ⟨fd, r', m, e1, hm, h.unit⟩

end Disp
