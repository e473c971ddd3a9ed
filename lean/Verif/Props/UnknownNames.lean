import Verif.Props.HandYaml
/-!
# C151: names in YAML files that nothing knows
-/

namespace Disp

open Spec

section spec
variable {F : Type}

/-- The second dataset has the entries of the first one, in their order, except for some whose names
are not known. -/
inductive Spec.Trimmed : Dataset F → Dataset F → Prop
  | nil : Trimmed [] []
  | keep {p : String × DVal F} {d d' : Dataset F} : Trimmed d d' → Trimmed (p :: d) (p :: d')
  | drop {p : String × DVal F} {d d' : Dataset F} : ¬ KnownName p.1 → Trimmed d d' →
      Trimmed (p :: d) d'

end spec

section reading
variable {F : Type}

theorem unknown_key {o : KeyOrder} (ho : o.Valid) {k : String} (h : ¬ KnownName k) :
    datasetKey o k = Option.none := by
  cases hk : datasetKey o k with
  | none => rfl
  | some key =>
    have up : ∀ {ns : List String}, Spelled k ns → (∀ n ∈ ns, n ∈ rangeNames ++
        ["SpectrumType", "Unit", "Yields", "t", "y", "p", "e"]) → KnownName k :=
      fun ⟨n, h1, h2⟩ hs => .inr ⟨n, hs n h1, h2⟩
    obtain ⟨s1, s2, s3, s4, s5⟩ := spelled_field ho k
    have := field_of_key ho hk
    simp only [List.mem_cons, List.not_mem_nil, or_false] at this
    rcases this with rfl | rfl | rfl | rfl | rfl
    · exact absurd (up (s1.1 hk) (by decide)) h
    · exact absurd (up (s4.1 hk) (by decide)) h
    · exact absurd (up (s2.1 hk) (by decide)) h
    · exact absurd (up (s3.1 hk) (by decide)) h
    · exact absurd (up (s5.1 hk) (by decide)) h

theorem Spec.Trimmed.get {d d' : Dataset F} (h : Trimmed d d') {k : String} (hk : KnownName k) :
    dictGet d k = dictGet d' k := by
  induction h with
  | nil => rfl
  | keep _ ih => simp only [dictGet]; split <;> first | rfl | exact ih
  | drop hp _ ih =>
    rw [dictGet, if_neg (fun e => hp (by rw [e]; exact hk))]
    exact ih

theorem Spec.Trimmed.fill {o : KeyOrder} (ho : o.Valid) {d d' : Dataset F} (h : Trimmed d d') :
    ∀ out, fillFields o d out = fillFields o d' out := by
  induction h with
  | nil => intro out; rfl
  | keep _ ih => intro out; exact ih _
  | @drop p d d' hp _ ih =>
    intro out
    have step : fillFields o (p :: d) out = fillFields o d (match datasetKey o p.1 with
      | some key => dictSet out key p.2
      | Option.none => out) := rfl
    rw [step, unknown_key ho hp]
    exact ih out

theorem Spec.Trimmed.process {o : KeyOrder} (ho : o.Valid) {d d' : Dataset F} (h : Trimmed d d') :
    processMatData1 o d = processMatData1 o d' := by
  have e : ∀ {a b : String}, a ∈ ["type", "DataType", "coefficients", "Parameters", "data", "Data"] →
      b ∈ ["type", "DataType", "coefficients", "Parameters", "data", "Data"] →
      getEither d a b = getEither d' a b := by
    intro a b ha hb
    rw [getEither, getEither, h.get (.inl ha), h.get (.inl hb)]
  have e1 : entryType d = entryType d' := by
    rw [entryType, entryType, e (by decide) (by decide)]
  have e2 : ∀ dt, entryData d dt = entryData d' dt := by
    intro dt
    rw [entryData, entryData, e (a := "coefficients") (by decide) (by decide),
      e (a := "data") (by decide) (by decide)]
  rw [processMatData1, processMatData1, e1]
  simp only [e2, h.fill ho]

theorem trimmed_all {o : KeyOrder} (ho : o.Valid) {ds ds' : List (Dataset F)}
    (h : List.Forall₂ Trimmed ds ds') :
    ds.mapM (processMatData1 o) = ds'.mapM (processMatData1 o) := by
  induction h with
  | nil => rfl
  | cons h _ ih => rw [List.mapM_cons, List.mapM_cons, h.process ho, ih]

/-- A dataset that cannot be processed stops the reading of a file. -/
theorem matLoop_stops {o : KeyOrder} {yd : YDict F} (hk : Keys yd) (hu : UpperKeys yd)
    {ds : List (Dataset F)} {e : PyErr} (hd : dictGet yd "DATA" = .ok (.data ds))
    (hx : ∀ p ∈ yd, p.1 ≠ "DATA" → ∃ v, p.2 = .entry v)
    (hp : ds.mapM (processMatData1 o) = .error e) : ∀ (ks : List String),
    (∀ k ∈ ks, k ∈ yd.map Prod.fst) → "DATA" ∈ ks → ∀ s, (matLoop o yd ks s).1 = .error e := by
  intro ks
  induction ks with
  | nil => intro _ h; cases h
  | cons k ks ih =>
    intro hks hm s
    obtain ⟨p, hpm, rfl⟩ := List.mem_map.1 (hks k (List.mem_cons_self ..))
    have hup := hu p hpm
    have hget : dictGet yd p.1 = .ok p.2 := dictGet_of_mem hk hpm
    by_cases hD : p.1 = "DATA"
    · have : matStep o yd p.1 s = .error e := by
        have hv : p.2 = .data ds := by
          rw [hD, hd] at hget
          exact (Except.ok.inj hget).symm
        unfold matStep
        simp only [hup, String.ofList_toList, hget, hv, bind, Except.bind,
          if_pos (congrArg String.toList hD), processMatData, hp]
      rw [matLoop, this]
    · obtain ⟨v, hv⟩ := hx p hpm hD
      have hD' : p.1.toList ≠ "DATA".toList := fun h => hD (String.toList_injective h)
      have : ∃ t, matStep o yd p.1 s = .ok t := by
        unfold matStep
        simp only [hup, String.ofList_toList, hget, hv, bind, Except.bind, if_neg hD']
        split
        · exact ⟨_, rfl⟩
        · split <;> exact ⟨_, rfl⟩
      obtain ⟨t, ht⟩ := this
      rw [matLoop, ht]
      refine ih (fun k hk' => hks k (List.mem_cons_of_mem _ hk')) ?_ t
      rcases List.mem_cons.1 hm with h | h
      · exact absurd h.symm hD
      · exact h

theorem Spec.YamlFile.read_error [NumText F] [YamlIO F] {o : KeyOrder} {text : List Char}
    {ds : List (Dataset F)} {e : PyErr} (h : YamlFile text ds)
    (hp : ds.mapM (processMatData1 o) = .error e) :
    ((Reader.fresh o : Reader F).readFile o ".yml" text).1 = .error e := by
  obtain ⟨yd, hl, hk, hu, hd, hx⟩ := h.loads
  have h1 := matLoop_stops hk hu hd hx hp (yd.map Prod.fst) (fun _ h => h)
    (List.mem_map.2 ⟨_, dictGet_mem hd, rfl⟩)
    ((Reader.fresh o : Reader F).metaData, (Reader.fresh o : Reader F).datasets)
  rw [Reader.readFile]
  simp only [show textFormat ".yml" = Option.none from by decide, if_true]
  rw [Reader.readYaml, hl]
  simp only
  cases hm : matLoop o yd (yd.map Prod.fst) ((Reader.fresh o : Reader F).metaData,
      (Reader.fresh o : Reader F).datasets) with
  | mk r st =>
    rw [hm] at h1
    cases h1
    rfl

end reading

variable {F : Type} [PyFloat F] [SciPy F] [NumText F]

/-! ## The metadata do not matter -/

/-- The same material with other metadata. -/
def Material.withMeta (m : Material F) (o : Option (List (String × MetaVal))) : Material F :=
  { m with metaData := o }

omit [NumText F] in
theorem storeReal_withMeta (m : Material F) (o : Option (List (String × MetaVal)))
    (out : Option String) (d : RealData F) :
    storeReal (m.withMeta o) out d = (storeReal m out d).map (·.withMeta o) := by
  unfold storeReal
  split <;> rfl

omit [NumText F] in
theorem processModelDict_withMeta (m : Material F) (o : Option (List (String × MetaVal)))
    (d : ModelKw F) :
    processModelDict (m.withMeta o) d = (processModelDict m d).map (·.withMeta o) := by
  unfold processModelDict
  cases d.name with
  | none => rfl
  | some k =>
    simp only [bind, Except.bind]
    cases classRef k with
    | missing => rfl
    | notClass => rfl
    | real f =>
      cases d.params with
      | none => rfl
      | some p =>
        cases d.validRange with
        | none => rfl
        | some r =>
          simp only
          cases RealData.newModel f p r (d.stype.getD "wavelength") (d.unit.getD "m") with
          | error e => rfl
          | ok md =>
            exact storeReal_withMeta
              { m with defType := d.stype.getD m.defType, defUnit := d.unit.getD m.defUnit } o _ md
    | cplx f =>
      cases d.params with
      | none => rfl
      | some p =>
        cases d.validRange with
        | none => rfl
        | some r =>
          simp only
          cases CplxData.new f p r (d.stype.getD "wavelength") (d.unit.getD "m") <;> rfl
    | baseModel =>
      cases d.params with
      | none => rfl
      | some p =>
        cases d.validRange with
        | none => rfl
        | some r =>
          simp only
          cases Spectrum.new r (d.stype.getD "wavelength") (d.unit.getD "m") <;> rfl
    | otherClass => cases d.params <;> cases d.validRange <;> rfl

omit [NumText F] in
theorem processTable_withMeta (m : Material F) (o : Option (List (String × MetaVal))) (a : NDArr F)
    (i : String) (d : Dataset F) :
    processTable (m.withMeta o) a i d = (processTable m a i d).map (·.withMeta o) := by
  unfold processTable
  simp only [Material.withMeta, bind, Except.bind]
  repeat' split
  all_goals first | rfl | simp_all [Except.map]

theorem processFormulaData_withMeta (m : Material F) (o : Option (List (String × MetaVal)))
    (d : Dataset F) :
    processFormulaData (m.withMeta o) d = (processFormulaData m d).map (·.withMeta o) := by
  unfold processFormulaData
  simp only [bind, Except.bind]
  repeat' split
  all_goals first
    | rfl
    | (simp_all [Except.map]; done)
    | exact processModelDict_withMeta m o _

theorem processDataset_withMeta (m : Material F) (o : Option (List (String × MetaVal)))
    (d : Dataset F) :
    processDataset (m.withMeta o) d = (processDataset m d).map (·.withMeta o) := by
  unfold processDataset
  simp only [bind, Except.bind, processTable_withMeta, processFormulaData_withMeta]
  repeat' split
  all_goals first
    | rfl
    | (simp_all [Except.map]; done)

theorem processDatasets_withMeta (o : Option (List (String × MetaVal))) :
    ∀ (ds : List (Dataset F)) (m : Material F),
    ds.foldlM processDataset (m.withMeta o) = (ds.foldlM processDataset m).map (·.withMeta o)
  | [], m => rfl
  | d :: ds, m => by
    simp only [List.foldlM_cons, bind, Except.bind, processDataset_withMeta]
    cases processDataset m d with
    | error e => rfl
    | ok m' => exact processDatasets_withMeta o ds m'

/-- A file that cannot be read. -/
theorem new_unread {kw : Kwargs F} {p : String} (hnd : (kw.map Prod.fst).Nodup)
    (hp : PlainOptions kw) (hk : Only kw "file_path" .text (.str p)) (e : PyErr) :
    Material.new (fun _ => .error e) kw = .error e := by
  rw [new_eq_dispatch _ hnd hp hk ⟨_, rfl⟩ trivial (by decide), dispatch_eq _ _ hnd hk ⟨_, rfl⟩]
  rfl

/-- Loading two files with the same processed datasets. -/
theorem same_datasets {kw : Kwargs F} {p : String} (hnd : (kw.map Prod.fst).Nodup)
    (hp : PlainOptions kw) (hk : Only kw "file_path" .text (.str p)) {fd fd' : FileDict F}
    (h : HasMeta fd.metaData) (h' : HasMeta fd'.metaData) (hd : fd.datasets = fd'.datasets) :
    SameResult (Material.new (fun _ => .ok fd) kw) (Material.new (fun _ => .ok fd') kw) := by
  obtain ⟨md, -, e⟩ := new_path hnd hp hk h
  obtain ⟨md', -, e'⟩ := new_path hnd hp hk h'
  have a1 := processDatasets_withMeta (some md) fd.datasets (blankMaterial (parsedOf kw))
  have a2 := processDatasets_withMeta (some md') fd'.datasets (blankMaterial (parsedOf kw))
  simp only [Material.withMeta] at a1 a2
  rw [e, e', a1, a2, hd]
  cases fd'.datasets.foldlM processDataset (blankMaterial (parsedOf kw)) with
  | error e => exact .error
  | ok m => exact .ok ⟨rfl, rfl, rfl, rfl, rfl, rfl⟩

/-! ## C151 -/

variable [YamlIO F]

/-- Loading a YAML file. -/
def loadYaml (o : KeyOrder) (text : List Char) (kw : Kwargs F) : Res (Material F) :=
  Material.new (fun _ => ((Reader.fresh o : Reader F).readFile o ".yml" text).1) kw

/-- C151 in truth: entries with unknown names are passed over. Two files whose datasets differ in
such entries only give the same exception or materials with the same data. -/
theorem C151_ignored {o : KeyOrder} (ho : o.Valid) {text text' : List Char}
    {ds ds' : List (Dataset F)} (hf : YamlFile text ds) (hf' : YamlFile text' ds')
    (h : List.Forall₂ Trimmed ds ds') {kw : Kwargs F} (hnd : (kw.map Prod.fst).Nodup)
    (hp : PlainOptions kw) {p : String} (hk : Only kw "file_path" .text (.str p)) :
    SameResult (loadYaml o text kw) (loadYaml o text' kw) := by
  have e := trimmed_all ho h
  unfold loadYaml
  cases hm : ds'.mapM (processMatData1 o) with
  | error x =>
    rw [hm] at e
    rw [hf.read_error e, hf'.read_error hm, new_unread hnd hp hk]
    exact .error
  | ok out =>
    rw [hm] at e
    obtain ⟨fd, r, a1, a2, a3⟩ := hf.read ho e
    obtain ⟨fd', r', b1, b2, b3⟩ := hf'.read ho hm
    rw [a1, b1]
    exact same_datasets hnd hp hk a2 b2 (a3.trans b3.symm)

/-- The dataset lacks an entry that it needs: its kind, or the numbers of its kind. -/
inductive Spec.Lacks : Dataset F → Prop
  | kind {d : Dataset F} : (∀ p ∈ d, p.1 ≠ "type" ∧ p.1 ≠ "DataType") → Lacks d
  | parameters {d : Dataset F} {kind : String} {w : List Char} {ws : List (List Char)} :
      Keys d → Under d "type" "DataType" kind → LineOf (w :: ws) kind.toList →
      (w = "formula".toList ∨ w = "model".toList) →
      (∀ p ∈ d, p.1 ≠ "coefficients" ∧ p.1 ≠ "Parameters") → Lacks d
  | table {d : Dataset F} {kind : String} {ws : List (List Char)} :
      Keys d → Under d "type" "DataType" kind → LineOf ("tabulated".toList :: ws) kind.toList →
      (∀ p ∈ d, p.1 ≠ "data" ∧ p.1 ≠ "Data") → Lacks d

omit [PyFloat F] [SciPy F] [NumText F] [YamlIO F] in
theorem getEither_missing {d : Dataset F} {a b : String} (h : ∀ p ∈ d, p.1 ≠ a ∧ p.1 ≠ b) :
    getEither d a b = .error .key := by
  rw [getEither]
  cases ha : dictGet d a with
  | ok v => exact absurd rfl (h _ (dictGet_mem ha)).1
  | error e =>
    simp only
    cases hb : dictGet d b with
    | ok v => exact absurd rfl (h _ (dictGet_mem hb)).2
    | error e' => rw [(dictGet_error hb).1]

omit [PyFloat F] [SciPy F] [NumText F] [YamlIO F] in
theorem Spec.Lacks.process {o : KeyOrder} {d : Dataset F} (h : Lacks d) :
    processMatData1 o d = .error .key := by
  cases h with
  | kind h =>
    rw [processMatData1, entryType, getEither_missing h]
    rfl
  | parameters hk hu hl hw hn =>
    rename_i kind w ws
    have h1 : entryType d = .ok (lstrip kind.toList) := by rw [entryType, hu.gets hk]
    obtain ⟨-, l2⟩ := lstrip_line hl
    have hpre : ("formula".toList.isPrefixOf (lstrip kind.toList) ||
        "model".toList.isPrefixOf (lstrip kind.toList)) = true := by
      rcases hw with rfl | rfl <;> simp only [l2, Bool.true_or, Bool.or_true]
    rw [processMatData1, h1]
    simp only [bind, Except.bind]
    rw [entryData, if_pos hpre, getEither_missing hn]
  | table hk hu hl hn =>
    rename_i kind ws
    have h1 : entryType d = .ok (lstrip kind.toList) := by rw [entryType, hu.gets hk]
    obtain ⟨-, l2⟩ := lstrip_line hl
    have hno : ("formula".toList.isPrefixOf (lstrip kind.toList) ||
        "model".toList.isPrefixOf (lstrip kind.toList)) = false := by
      obtain ⟨r, hr⟩ := List.isPrefixOf_iff_prefix.1 l2
      rw [← hr]
      rfl
    rw [processMatData1, h1]
    simp only [bind, Except.bind]
    rw [entryData, if_neg (by rw [hno]; decide), if_pos l2, getEither_missing hn]

/-- C151, as far as it holds: a file whose first dataset lacks its kind or its numbers, for example
because the name is misspelt, raises `KeyError`. Missing for the full claim: optional entries, for
which it is false. -/
theorem C151_required_partial {o : KeyOrder} {text : List Char} {d : Dataset F}
    {ds : List (Dataset F)} (hf : YamlFile text (d :: ds)) (h : Lacks d) {kw : Kwargs F}
    (hnd : (kw.map Prod.fst).Nodup) (hp : PlainOptions kw) {p : String}
    (hk : Only kw "file_path" .text (.str p)) : loadYaml o text kw = .error .key := by
  unfold loadYaml
  rw [hf.read_error (e := .key) (by rw [List.mapM_cons, h.process]; rfl), new_unread hnd hp hk]

/-- C151 for the range of a model: if it is missing or misspelt, `UnboundLocalError`. -/
theorem C151_range {o : KeyOrder} (ho : o.Valid) {text : List Char} {d : Dataset F}
    (hf : YamlFile text [d]) {kind x t u : String}
    (hd : HandEntry d "coefficients" "Parameters" kind x "" t u) {k : String}
    (hn : NamesModel kind k) {kw : Kwargs F} (hnd : (kw.map Prod.fst).Nodup) (hp : PlainOptions kw)
    {p : String} (hk : Only kw "file_path" .text (.str p)) :
    loadYaml o text kw = .error .unboundLocal := by
  obtain ⟨dt, id, s1, s2, s3, -, hpre⟩ := hn.split
  obtain ⟨out, o1, o2, o3, o4, -, -⟩ := hd.process ho (by rw [entryData, if_pos hpre])
  obtain ⟨fd, r', f1, f2, f3⟩ := hf.read ho (ds' := [out]) (by
    simp only [List.mapM_cons, List.mapM_nil, o1]; rfl)
  obtain ⟨md, -, e⟩ := new_path hnd hp hk f2
  have s5 : dt ≠ "tabulated" := by rcases s2 with rfl | rfl <;> decide
  have s6 : ¬ (dt = "formula" ∧ id.toInt? = Option.none) := fun h => s3 h.1 h.2
  have h1 : ∀ m : Material F, processDataset m out = .error .unboundLocal := by
    intro m
    unfold processDataset
    simp only [Dataset.getStr, o2, bind, Except.bind, s1, if_neg s5, if_pos s2]
    unfold processFormulaData
    simp only [Dataset.getStr, o2, bind, Except.bind, s1, not_true, s2, if_false, if_neg s6,
      parseRange, o4, if_true]
  unfold loadYaml
  rw [f1, e, f3, List.foldlM_cons, h1]
  rfl

/-! ## The full claim is false -/

/-- C151 (full statement, refuted below): a file with a name that is not known raises an
exception. -/
def C151_statement [SciPy XR] [NumText XR] : Prop :=
  ∀ (_ : YamlIO XR) (o : KeyOrder) (text : List Char) (ds : List (Dataset XR)) (kw : Kwargs XR)
    (p : String), o.Valid → YamlFile text ds → (∃ d ∈ ds, ∃ q ∈ d, ¬ KnownName q.1) →
    (kw.map Prod.fst).Nodup → PlainOptions kw → Only kw "file_path" .text (.str p) →
    ∃ e, loadYaml o text kw = .error e

theorem units_unknown : ¬ KnownName "Units" := by
  rintro (h | ⟨n, h1, h2⟩)
  · revert h; decide
  · revert n; decide +kernel

/-- The glass with an entry of an unknown name. -/
def glassUnits : Dataset XR := ("Units", .str "nm") :: glass

noncomputable def glassTwo : YamlIO XR :=
  ⟨fun t => .ok [("DATA", .data [if t = [] then glass else glassUnits])], fun _ => []⟩

theorem glass_two (text : List Char) : letI := glassTwo
    YamlFile text [if universal text = [] then glass else glassUnits] := by
  letI := glassTwo
  exact ⟨⟨_, rfl, by simp [Keys], by unfold UpperKeys; simp; decide +kernel, rfl, by
    intro p hp hne
    simp only [List.mem_cons, List.not_mem_nil, or_false] at hp
    exact absurd (by rw [hp]) hne⟩⟩

/-- C151 is false: the misspelt unit of the glass is passed over. -/
theorem C151_refuted [SciPy XR] : letI := glassNumbers; ¬ C151_statement := by
  letI := glassNumbers
  letI := glassTwo
  intro h
  let o : KeyOrder := ⟨fileMetaKeys, datasetMetaKeys⟩
  have ho : o.Valid := ⟨.refl _, .refl _⟩
  obtain ⟨g1, g2, g3⟩ := rowKw_good (F := XR) "glass.yml" "wavelength" "um"
  have f0 : YamlFile [] [glass] := glass_two []
  have f1 : YamlFile ['x'] [glassUnits] := glass_two ['x']
  obtain ⟨fd, r', m, -, -, h1, h2, -⟩ := C108_file ho f0 glass_content "glass.yml" "wavelength" "um"
    (by decide +kernel) (by simp)
  have hl : loadYaml o [] (rowKw (F := XR) "glass.yml" (.str "wavelength") (.str "um")) = .ok m := by
    unfold loadYaml
    rw [h1]
    exact h2
  have ht : ∀ d : Dataset XR, Trimmed d d := by
    intro d
    induction d with
    | nil => exact .nil
    | cons p d ih => exact .keep ih
  have := C151_ignored ho f1 f0 (.cons (.drop units_unknown (ht glass)) .nil) g1 g2 g3
  rw [hl] at this
  obtain ⟨e, he⟩ := h glassTwo o ['x'] [glassUnits] _ _ ho f1 ⟨_, List.mem_singleton.2 rfl,
    ("Units", .str "nm"), by simp [glassUnits], units_unknown⟩ g1 g2 g3
  rw [he] at this
  cases this

/-- Concrete case for `C151_required_partial`: the kind of the dataset is misspelt. -/
example [SciPy XR] [NumText XR] (o : KeyOrder) (text : List Char) :
    letI : YamlIO XR := ⟨fun _ => .ok [("DATA", .data [[("Type", .str "tabulated n"),
      ("data", .str "1 2")]])], fun _ => []⟩
    loadYaml o text (rowKw (F := XR) "a.yml" (.str "wavelength") (.str "um")) = .error .key := by
  letI : YamlIO XR := ⟨fun _ => .ok [("DATA", .data [[("Type", .str "tabulated n"),
      ("data", .str "1 2")]])], fun _ => []⟩
  obtain ⟨g1, g2, g3⟩ := rowKw_good (F := XR) "a.yml" "wavelength" "um"
  have hf : YamlFile text [([("Type", .str "tabulated n"), ("data", .str "1 2")] : Dataset XR)] :=
    ⟨⟨_, rfl, by simp [Keys], by unfold UpperKeys; simp; decide +kernel, rfl, by
      intro p hp hne
      simp only [List.mem_cons, List.not_mem_nil, or_false] at hp
      exact absurd (by rw [hp]) hne⟩⟩
  exact C151_required_partial hf (.kind (by simp)) g1 g2 g3

/-- A table whose unit is misspelt. -/
def unitsTable : Dataset XR := [("type", .str "tabulated n"), ("Units", .str "um"),
  ("data", .str "0.5 1.5\n2 2")]

/-- Concrete case for `C150_table` and `C151_ignored`: the table is taken for one in nanometres. -/
example [SciPy XR] (text : List Char) {o : KeyOrder} (ho : o.Valid) : letI := glassNumbers
    letI : YamlIO XR := ⟨fun _ => .ok [("DATA", .data [unitsTable])], fun _ => []⟩
    ∃ fd r' m, (Reader.fresh o : Reader XR).readFile o ".yml" text = (.ok fd, r') ∧
      Material.new (fun _ => .ok fd) [("file_path", .str "a.yml")] = .ok m ∧
      m.defUnit = "nanometer" ∧
      tableData .float [(XR.fin 0.5, XR.fin 1.5), (XR.fin 2, XR.fin 2)] "wavelength" "nanometer" =
        m.real.elim (.error .value) .ok := by
  letI := glassNumbers
  letI : YamlIO XR := ⟨fun _ => .ok [("DATA", .data [unitsTable])], fun _ => []⟩
  have hf : YamlFile text [unitsTable] :=
    ⟨⟨_, rfl, by simp [Keys], by unfold UpperKeys; simp; decide +kernel, rfl, by
      intro p hp hne
      simp only [List.mem_cons, List.not_mem_nil, or_false] at hp
      exact absurd (by rw [hp]) hne⟩⟩
  have hno : ∀ ns ∈ [rangeNames, ["SpectrumType"], ["Unit"], ["t", "y", "p", "e"]],
      ∀ p ∈ unitsTable, ¬ Spelled p.1 ns := by
    have : ∀ ns ∈ [rangeNames, ["SpectrumType"], ["Unit"], ["t", "y", "p", "e"]],
        ∀ k ∈ unitsTable.map Prod.fst, ¬ (∃ n ∈ ns,
        k.toList.map Char.toUpper = n.toList.map Char.toUpper) := by decide +kernel
    exact fun ns hns p hp => this ns hns p.1 (List.mem_map_of_mem hp)
  have hd : HandEntry unitsTable "data" "Data" "tabulated n" "0.5 1.5\n2 2" "" "" "" :=
    ⟨by unfold Keys; decide +kernel, .inl (by simp [unitsTable]), .inl (by simp [unitsTable]),
      .inr ⟨rfl, hno _ (by simp)⟩, .inr ⟨rfl, hno _ (by simp)⟩, .inr ⟨rfl, hno _ (by simp)⟩,
      hno _ (by simp)⟩
  have word : ∀ {s t rest : List Char} {ts : List (List Char)}, (∀ c ∈ s, pySpace c = true) →
      Word t → (∀ c ∈ rest.head?, pySpace c = true) → LineOf ts rest →
      LineOf (t :: ts) (s ++ t ++ rest) := fun h1 h2 h3 h4 => .word h1 h2 h3 h4
  have two : ∀ a ∈ ["tabulated".toList, "n".toList, "0.5".toList, "1.5".toList, "2".toList],
      ∀ b ∈ ["tabulated".toList, "n".toList, "0.5".toList, "1.5".toList, "2".toList],
      LineOf [a, b] (a ++ (' ' :: b)) := by
    intro a ha b hb
    have w : ∀ t ∈ ["tabulated".toList, "n".toList, "0.5".toList, "1.5".toList, "2".toList],
        Word t := by unfold Word; decide +kernel
    have := word (s := []) (t := a) (by simp) (w _ ha) (by simp; decide)
      (word (s := [' ']) (t := b) (by decide +kernel) (w _ hb) (by simp)
        (.blank (s := []) (by simp)))
    simpa using this
  have hx : TextOf [["0.5".toList, "1.5".toList], ["2".toList, "2".toList]]
      "0.5 1.5\n2 2".toList :=
    ⟨["0.5 1.5".toList, "2 2".toList], [], by decide +kernel, by simp,
      .cons (two _ (by simp) _ (by simp)) (.cons (two _ (by simp) _ (by simp)) .nil), by simp,
      by decide +kernel, by simp⟩
  let rows : List (List XR) := [[XR.fin 0.5, XR.fin 1.5], [XR.fin 2, XR.fin 2]]
  have hv : List.Forall₂ (List.Forall₂ Reads)
      [["0.5".toList, "1.5".toList], ["2".toList, "2".toList]] rows := by
    refine .cons (.cons ?_ (.cons ?_ .nil)) (.cons (.cons ?_ (.cons ?_ .nil)) .nil) <;>
      (show glassNumbers.parseFloat _ = _; unfold glassNumbers; simp)
  obtain ⟨k1, k2⟩ := only_single (F := XR) (n := "file_path") (t := .text) (v := .str "a.yml")
    (by decide) (by simp)
  obtain ⟨k3, k4⟩ := only_single (F := XR) (n := "tabulated_n") (t := .table 2)
    (v := .arr (.d2 2 .float rows)) (by decide) (by simp)
  have p1 := plain_single (F := XR) (n := "file_path") (v := .str "a.yml") (by decide) (by decide)
  have p2 := plain_single (F := XR) (n := "tabulated_n") (v := .arr (.d2 2 .float rows)) (by decide)
    (by decide)
  have d1 := defaults_single (F := XR) (n := "file_path") (v := .str "a.yml") (by decide)
  have d2 := defaults_single (F := XR) (n := "tabulated_n") (v := .arr (.d2 2 .float rows)) (by decide)
  obtain ⟨fd, r', e1, e2⟩ := C150_table ho hf hd .n (two _ (by simp) _ (by simp)) hx hv (by simp [rows])
    (by simp [rows]) k1 p1 k2 k3 p2 k4 (by rw [d1, d2]; rfl) (by rw [d1, d2]; rfl)
    (fun _ => .error .os)
  have hg : GoodTable 2 rows := by
    refine ⟨by simp [rows], by simp [rows], ?_, ?_⟩
    · intro r hr
      simp only [rows, List.mem_cons, List.not_mem_nil, or_false] at hr
      rcases hr with rfl | rfl <;> rfl
    · simp only [rows, List.pairwise_cons, List.mem_singleton, forall_eq, List.not_mem_nil,
        IsEmpty.forall_iff, implies_true, List.Pairwise.nil, and_true, and_self, rowX]
      rw [LawfulCmp.eq_iff]
      simp
      norm_num
  obtain ⟨r, t1, t2⟩ := (C24_table_partial (fun _ => .error .os) _ k3 p2 (c := "nm")
    (by rw [d2]; decide +kernel) rows).1 k4 hg
  rw [t2] at e2
  rw [d2] at t1
  cases hm : Material.new (fun _ => .ok fd) [("file_path", .str "a.yml")] with
  | error e => rw [hm] at e2; cases e2
  | ok m =>
    rw [hm] at e2
    cases e2 with
    | ok h =>
      refine ⟨fd, r', m, e1, hm, h.unit.trans (congrArg Prod.snd d2), ?_⟩
      rw [h.real]
      exact t1

end Disp
