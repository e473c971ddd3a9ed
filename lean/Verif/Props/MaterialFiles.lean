import Verif.Props.MaterialParts
import Verif.Lemmas.Metres
/-!
# C36, C22: materials from files with several datasets, and their extrapolation
-/

namespace Disp

open Spec

section generic
variable {F : Type} [PyFloat F] [SciPy F] [NumText F]

/-- `Material(file_path=p)`. -/
def fileKw (F : Type) (p : String) : Kwargs F := [("file_path", .str p)]

/-- The metadata keys that a file dictionary carries (io.py `Reader`). -/
def fileKeys : List String :=
  ["Reference", "Comment", "Name", "FullName", "Author", "MetaComment", "Specification"]

/-- A file dictionary has all metadata keys. -/
def HasMeta (md : List (String × MetaVal)) : Prop := ∀ k ∈ fileKeys, ∃ v, (dictGet md k) = .ok v

omit [NumText F] in
/-- The missing parts are filled by the constant 0. -/
def finish (m : Material F) : Material F :=
  { m with real := some (m.real.getD (cdata (lit 0))), imag := some (m.imag.getD (cdata (lit 0))) }

/-- The material before the datasets of a file are processed. -/
def fileBlank (F : Type) [PyFloat F] [SciPy F] (p : String) (md : List (String × MetaVal)) :
    Material F :=
  { blankMaterial (parsedOf (fileKw F p)) with metaData := some md }

/-- Loading a file: the datasets one after the other, then completion. -/
theorem new_file (p : String) {md : List (String × MetaVal)} (hmd : HasMeta md) :
    ∃ md', ∀ ds : List (Dataset F),
      Material.new (fun _ => .ok { metaData := md, datasets := ds }) (fileKw F p) =
        (ds.foldlM processDataset (fileBlank F p md')).map finish := by
  obtain ⟨md', hmd'⟩ : ∃ md', fileKeys.mapM (fun k => (do
      let v ← dictGet md k
      .ok (k, v) : Res (String × MetaVal))) = .ok md' := by
    have : ∀ ks : List String, (∀ k ∈ ks, ∃ v, dictGet md k = .ok v) →
        ∃ md', ks.mapM (fun k => (do
          let v ← dictGet md k
          .ok (k, v) : Res (String × MetaVal))) = .ok md' := by
      intro ks
      induction ks with
      | nil => intro _; exact ⟨[], rfl⟩
      | cons k ks ih =>
        intro h
        obtain ⟨v, hv⟩ := h k (by simp)
        obtain ⟨l, hl⟩ := ih (fun k' hk' => h k' (by simp [hk']))
        refine ⟨(k, v) :: l, ?_⟩
        rw [List.mapM_cons, hl, hv]
        rfl
    exact this fileKeys hmd
  refine ⟨md', fun ds => ?_⟩
  have hs : ("file_path", DocType.text) ∈ sources := by decide
  obtain ⟨h1, h2⟩ := only_single (F := F) hs (v := .str p) (by simp)
  unfold fileKw
  rw [new_eq_dispatch _ h1 (plain_single (by decide) (by decide)) h2 ⟨_, rfl⟩ trivial (by decide),
    dispatch_eq _ _ h1 h2 ⟨_, rfl⟩]
  simp only [fileKeys, bind, Except.bind] at hmd'
  simp only [dispatchOn, bind, Except.bind, processFileData, hmd']
  unfold fileBlank fileKw
  split
  · rename_i e h
    rw [h]
    rfl
  · rename_i m h
    rw [h]
    exact complete_eq m

/-- A dataset states its own spectrum type and unit. -/
def OwnUnits (d : Dataset F) : Prop :=
  ∃ t u, ("SpectrumType", DVal.str t) ∈ d ∧ t ≠ "" ∧ ("Unit", DVal.str u) ∈ d ∧ u ≠ ""

/-- The keys of a dictionary are distinct. -/
def Keys {α : Type} (d : List (String × α)) : Prop := (d.map Prod.fst).Nodup

/-- A dataset of the refractive index: a table `tabulated n`, a numbered formula, or a named
index model. -/
def IndexData (d : Dataset F) : Prop :=
  ∃ s, ("DataType", DVal.str s) ∈ d ∧ (splitTwo s = .ok ("tabulated", "n") ∨
    (∃ i, splitTwo s = .ok ("formula", i)) ∨ ∃ k ∈ indexModels, splitTwo s = .ok ("model", k))

/-- A dataset of the extinction coefficient. -/
def ExtinctionData (d : Dataset F) : Prop :=
  ∃ s, ("DataType", DVal.str s) ∈ d ∧ splitTwo s = .ok ("tabulated", "k")

/-- The dataset is a table of something that the package does not know. -/
def UnknownData (d : Dataset F) : Prop :=
  ∃ s i, ("DataType", DVal.str s) ∈ d ∧ splitTwo s = .ok ("tabulated", i) ∧
    i ∉ ["nk", "n_alpha", "n", "k", "eps"]

theorem dictGet_of_mem {α : Type} : ∀ {d : List (String × α)}, Keys d → ∀ {k : String} {v : α},
    (k, v) ∈ d → dictGet d k = .ok v := by
  intro d
  induction d with
  | nil => intro _ k v h; cases h
  | cons p d ih =>
    intro hd k v h
    simp only [Keys, List.map_cons, List.nodup_cons] at hd
    rcases List.mem_cons.1 h with h | h
    · subst h
      simp [dictGet]
    · have hne : p.1 ≠ k := by
        rintro rfl
        exact hd.1 (List.mem_map.2 ⟨_, h, rfl⟩)
      have := ih hd.2 h
      simp only [dictGet]
      rw [if_neg hne]
      exact this

/-- The effect of a dataset that determines the real part. -/
def SetsReal (d : Dataset F) : Prop :=
  ∃ (t u : String) (r : Res (RealData F)), ∀ m : Material F, processDataset m d =
    r.map (fun x => { m with defType := t, defUnit := u, name := "nk", real := some x })

/-- The effect of a dataset that determines the imaginary part. -/
def SetsImag (d : Dataset F) : Prop :=
  ∃ (t u : String) (r : Res (RealData F)), ∀ m : Material F, processDataset m d =
    r.map (fun x => { m with defType := t, defUnit := u, name := "nk", imag := some x })

theorem getStr_of_mem {d : Dataset F} (hk : Keys d) {k s : String} (h : (k, DVal.str s) ∈ d) :
    Dataset.getStr d k = .ok s := by
  unfold Dataset.getStr
  rw [dictGet_of_mem hk h]

omit [PyFloat F] [SciPy F] [NumText F] in
theorem get_of_mem {d : Dataset F} (hk : Keys d) {k : String} {v : DVal F} (h : (k, v) ∈ d) :
    Dataset.get d k = v := by
  unfold Dataset.get
  rw [dictGet_of_mem hk h]

theorem setsImag_of {d : Dataset F} (hk : Keys d) (ho : OwnUnits d) (h : ExtinctionData d) :
    SetsImag d := by
  obtain ⟨t, u, ht, ht', hu, hu'⟩ := ho
  obtain ⟨s, hs, hs'⟩ := h
  have e1 : (Dataset.get d "SpectrumType").nonEmptyStr = some t := by
    rw [get_of_mem hk ht]; simp [DVal.nonEmptyStr, ht']
  have e2 : (Dataset.get d "Unit").nonEmptyStr = some u := by
    rw [get_of_mem hk hu]; simp [DVal.nonEmptyStr, hu']
  refine ⟨t, u, (do
    let v ← dictGet d "Data"
    let a ← strTableToNumeric v.asTable
    specDataFromTable t u a 0 1), fun m => ?_⟩
  unfold processDataset
  rw [getStr_of_mem hk hs]
  simp only [bind, Except.bind, hs', if_true]
  cases dictGet d "Data" with
  | error e => rfl
  | ok v =>
    simp only
    cases strTableToNumeric v.asTable with
    | error e => rfl
    | ok a =>
      simp only [processTable, e1, e2, Option.getD_some, bind, Except.bind]
      rw [if_neg (by decide), if_neg (by decide), if_neg (by decide), if_pos trivial]
      cases specDataFromTable t u a 0 1 <;> rfl

omit [PyFloat F] [SciPy F] [NumText F] in
/-- A complete model dictionary. -/
def fullModel (k t u : String) (ps : List F) (vr : Raw F) : ModelKw F :=
  { name := some k, stype := some t, unit := some u, params := some ps, validRange := some vr }

theorem processModel_index {k : String} (hk : k ∈ indexModels) (params : List F) (vr : Raw F)
    (t u : String) : ∃ r : Res (RealData F), ∀ m : Material F,
      processModelDict m (fullModel k t u params vr) =
      r.map (fun x => { m with defType := t, defUnit := u, name := "nk", real := some x }) := by
  obtain ⟨f, h1, -, h3⟩ := indexModel_class k hk
  refine ⟨RealData.newModel f params vr t u, fun m => ?_⟩
  unfold processModelDict fullModel
  simp only [bind, Except.bind, h1, Option.getD_some]
  cases RealData.newModel f params vr t u with
  | error e => rfl
  | ok md =>
    simp only [h3, storeReal]
    rfl

theorem formulaName_index {i k : String} (h : formulaName "formula" i = .ok k) :
    k ∈ indexModels := by
  unfold formulaName at h
  rw [if_pos rfl] at h
  cases hi : i.toInt? with
  | none => rw [hi] at h; cases h
  | some n =>
    rw [hi] at h
    simp only at h
    cases hl : methodIds.lookup n with
    | none => rw [hl] at h; cases h
    | some s =>
      rw [hl] at h
      have : s = k := by cases h; rfl
      subst this
      have hm : (n, s) ∈ methodIds := by
        have := List.lookup_eq_some_iff.1 hl
        obtain ⟨l1, l2, h1, -⟩ := this
        rw [h1]; simp
      simp only [methodIds, List.mem_cons, List.not_mem_nil, or_false, Prod.mk.injEq] at hm
      rcases hm with h | h | h | h | h | h | h | h | h <;> (rw [h.2]; decide)

theorem setsReal_of {d : Dataset F} (hk : Keys d) (ho : OwnUnits d) (h : IndexData d) :
    SetsReal d := by
  obtain ⟨t, u, ht, ht', hu, hu'⟩ := ho
  obtain ⟨s, hs, hs'⟩ := h
  have e1 : (Dataset.get d "SpectrumType").nonEmptyStr = some t := by
    rw [get_of_mem hk ht]; simp [DVal.nonEmptyStr, ht']
  have e2 : (Dataset.get d "Unit").nonEmptyStr = some u := by
    rw [get_of_mem hk hu]; simp [DVal.nonEmptyStr, hu']
  rcases hs' with hs' | hs'
  · refine ⟨t, u, (do
      let v ← dictGet d "Data"
      let a ← strTableToNumeric v.asTable
      specDataFromTable t u a 0 1), fun m => ?_⟩
    unfold processDataset
    rw [getStr_of_mem hk hs]
    simp only [bind, Except.bind, hs', if_true]
    cases dictGet d "Data" with
    | error e => rfl
    | ok v =>
      simp only
      cases strTableToNumeric v.asTable with
      | error e => rfl
      | ok a =>
        simp only [processTable, e1, e2, Option.getD_some, bind, Except.bind]
        rw [if_neg (by decide), if_neg (by decide), if_pos trivial]
        cases specDataFromTable t u a 0 1 <;> rfl
  · -- formulas and models
    obtain ⟨dt, i, hsp, hdt, hname⟩ : ∃ dt i, splitTwo s = .ok (dt, i) ∧
        (dt = "formula" ∨ dt = "model") ∧
        ∀ k, formulaName dt i = .ok k → k ∈ indexModels := by
      rcases hs' with ⟨i, hi⟩ | ⟨k, hkm, hi⟩
      · exact ⟨_, i, hi, .inl rfl, fun k hk => formulaName_index hk⟩
      · refine ⟨_, k, hi, .inr rfl, fun k' hk' => ?_⟩
        unfold formulaName at hk'
        rw [if_neg (by decide)] at hk'
        cases hk'
        exact hkm
    have hnt : ¬ dt = "tabulated" := by rcases hdt with rfl | rfl <;> decide
    have est : dictGet d "SpectrumType" = .ok (.str t) := dictGet_of_mem hk ht
    have eun : dictGet d "Unit" = .ok (.str u) := dictGet_of_mem hk hu
    have ne1 : (DVal.str (F := F) t).nonEmptyStr = some t := by simp [DVal.nonEmptyStr, ht']
    have ne2 : (DVal.str (F := F) u).nonEmptyStr = some u := by simp [DVal.nonEmptyStr, hu']
    have hpd : ∀ m : Material F, processDataset m d = processFormulaData m d := by
      intro m
      unfold processDataset
      rw [getStr_of_mem hk hs]
      simp only [bind, Except.bind, hsp]
      rw [if_neg hnt, if_pos hdt]
    have hpf : ∀ m : Material F, processFormulaData m d =
        ((if dt = "formula" ∧ i.toInt? = none then .error .value else .ok () : Res Unit).bind
          fun _ => (parseRange d).bind fun vr => (d.getStr "Data").bind fun text =>
          ((splitSpaces text.toList).mapM NumText.parseFloat).bind fun coeffs =>
          (formulaName dt i).bind fun name =>
          processModelDict m (fullModel name t u coeffs (.list .float vr))) := by
      intro m
      unfold processFormulaData
      rw [getStr_of_mem hk hs]
      simp only [bind, Except.bind, hsp, est, eun, ne1, ne2, Option.getD_some]
      rw [if_neg (not_not.2 hdt)]
      by_cases hc : dt = "formula" ∧ i.toInt? = none
      · rw [if_pos hc, if_pos hc]
      · rw [if_neg hc, if_neg hc]
        rfl
    simp only [hpd, hpf, SetsReal]
    cases (if dt = "formula" ∧ i.toInt? = none then .error .value else .ok () : Res Unit) with
    | error e => exact ⟨t, u, .error e, fun m => rfl⟩
    | ok _ =>
    cases parseRange d with
    | error e => exact ⟨t, u, .error e, fun m => rfl⟩
    | ok vr =>
    cases d.getStr "Data" with
    | error e => exact ⟨t, u, .error e, fun m => rfl⟩
    | ok text =>
    simp only [Except.bind]
    cases (splitSpaces text.toList).mapM (NumText.parseFloat (F := F)) with
    | error e => exact ⟨t, u, .error e, fun m => rfl⟩
    | ok coeffs =>
    simp only
    cases hn : formulaName dt i with
    | error e => exact ⟨t, u, .error e, fun m => rfl⟩
    | ok name =>
    simp only
    obtain ⟨r, hr⟩ := processModel_index (F := F) (hname name hn) coeffs (.list .float vr) t u
    exact ⟨t, u, r, hr⟩

/-- The file with these metadata and datasets. -/
def loadFile (md : List (String × MetaVal)) (ds : List (Dataset F)) : Res (Material F) :=
  Material.new (fun _ => .ok { metaData := md, datasets := ds }) (fileKw F "file")

/-- C36 (full statement, refuted below): an index and an extinction dataset combine in either
order, and unknown tables are rejected. -/
def C36_statement (F : Type) [PyFloat F] [SciPy F] [NumText F] : Prop :=
  (∀ (md : List (String × MetaVal)), HasMeta md → ∀ dn dk : Dataset F, Keys dn → Keys dk →
    IndexData dn → ExtinctionData dk → ∀ mn mk,
    loadFile md [dn] = .ok mn → loadFile md [dk] = .ok mk →
    ∀ ds ∈ [[dn, dk], [dk, dn]], ∃ m, loadFile md ds = .ok m ∧ m.name = "nk" ∧
      m.real = mn.real ∧ m.imag = mk.imag ∧ m.cplx = none) ∧
  (∀ (md : List (String × MetaVal)) (d : Dataset F), UnknownData d → ∃ e, loadFile md [d] = .error e)

/-- C36 for datasets that state their spectrum type and unit: the combination exists exactly if
both can be loaded on their own; then its real part is that of the first and its imaginary part
that of the second, in either order. Missing for the full claim: datasets that rely on defaults
(false, see `C36_order_refuted`) and the rejection of unknown tables (false, see
`C36_ignored`). -/
theorem C36_combine_partial (md : List (String × MetaVal)) (hmd : HasMeta md) (dn dk : Dataset F)
    (hkn : Keys dn) (hkk : Keys dk) (hn : IndexData dn) (hk : ExtinctionData dk)
    (hon : OwnUnits dn) (hok : OwnUnits dk) :
    ∀ ds ∈ [[dn, dk], [dk, dn]],
      ((∃ m, loadFile md ds = .ok m) ↔
        (∃ mn, loadFile md [dn] = .ok mn) ∧ ∃ mk, loadFile md [dk] = .ok mk) ∧
      ∀ mn mk, loadFile md [dn] = .ok mn → loadFile md [dk] = .ok mk →
        ∃ m, loadFile md ds = .ok m ∧ m.name = "nk" ∧ m.real = mn.real ∧ m.imag = mk.imag ∧
          m.cplx = none := by
  obtain ⟨md', hl⟩ := new_file (F := F) "file" hmd
  obtain ⟨t1, u1, r1, h1⟩ := setsReal_of hkn hon hn
  obtain ⟨t2, u2, r2, h2⟩ := setsImag_of hkk hok hk
  have e1 : loadFile md [dn] = r1.map (fun x => finish { fileBlank F "file" md' with
      defType := t1, defUnit := u1, name := "nk", real := some x }) := by
    unfold loadFile
    rw [hl]
    simp only [List.foldlM_cons, List.foldlM_nil, h1, bind, pure]
    cases r1 <;> rfl
  have e2 : loadFile md [dk] = r2.map (fun x => finish { fileBlank F "file" md' with
      defType := t2, defUnit := u2, name := "nk", imag := some x }) := by
    unfold loadFile
    rw [hl]
    simp only [List.foldlM_cons, List.foldlM_nil, h2, bind, pure]
    cases r2 <;> rfl
  have e3 : loadFile md [dn, dk] = r1.bind (fun x => r2.map (fun y => finish
      { fileBlank F "file" md' with
        defType := t2, defUnit := u2, name := "nk", real := some x, imag := some y })) := by
    unfold loadFile
    rw [hl]
    simp only [List.foldlM_cons, List.foldlM_nil, h1, h2, bind, pure]
    cases r1 with
    | error e => rfl
    | ok x =>
      simp only [Except.map, Except.bind, h2]
      cases r2 <;> rfl
  have e4 : loadFile md [dk, dn] = r2.bind (fun y => r1.map (fun x => finish
      { fileBlank F "file" md' with
        defType := t1, defUnit := u1, name := "nk", real := some x, imag := some y })) := by
    unfold loadFile
    rw [hl]
    simp only [List.foldlM_cons, List.foldlM_nil, h1, h2, bind, pure]
    cases r2 with
    | error e => rfl
    | ok x =>
      simp only [Except.map, Except.bind, h1]
      cases r1 <;> rfl
  intro ds hds
  simp only [List.mem_cons, List.not_mem_nil, or_false] at hds
  rcases hds with rfl | rfl
  · rw [e1, e2, e3]
    cases r1 <;> cases r2 <;> simp [Except.map, Except.bind, finish, fileBlank, blankMaterial]
  · rw [e1, e2, e4]
    cases r1 <;> cases r2 <;> simp [Except.map, Except.bind, finish, fileBlank, blankMaterial]

/-- C36: an unknown table is not rejected. Every file gives the same material with it as
without it, up to the default type and unit. -/
theorem C36_ignored (m : Material F) (d : Dataset F) (hk : Keys d) (hd : UnknownData d)
    (v : DVal F) (hv : ("Data", v) ∈ d) (a : NDArr F) (ha : strTableToNumeric v.asTable = .ok a) :
    ∃ t u, processDataset m d = .ok { m with defType := t, defUnit := u } := by
  obtain ⟨s, i, hs, hs', hi⟩ := hd
  unfold processDataset
  rw [getStr_of_mem hk hs]
  simp only [bind, Except.bind, hs', if_true, dictGet_of_mem hk hv, ha, processTable]
  simp only [List.mem_cons, List.not_mem_nil, or_false, not_or] at hi
  rw [if_neg hi.1, if_neg hi.2.1, if_neg hi.2.2.1, if_neg hi.2.2.2.1, if_neg hi.2.2.2.2]
  exact ⟨_, _, rfl⟩

/-- C36 is false in every arithmetic: a file with the single dataset `tabulated eps_r` loads. -/
theorem C36_refuted (x y : F) : ¬ C36_statement F := by
  rintro ⟨-, h⟩
  let d : Dataset F := [("DataType", .str "tabulated eps_r"), ("Data", .arr (.d2 2 .float [[x, y]]))]
  let md := (fileOf (F := F) []).metaData
  have hmd : HasMeta md := by
    intro k hk
    simp only [fileKeys, List.mem_cons, List.not_mem_nil, or_false] at hk
    rcases hk with rfl | rfl | rfl | rfl | rfl | rfl | rfl <;> exact ⟨_, rfl⟩
  have hud : UnknownData d := ⟨"tabulated eps_r", "eps_r", by simp [d], by decide +kernel, by decide⟩
  obtain ⟨e, he⟩ := h md d hud
  obtain ⟨md', hl⟩ := new_file (F := F) "file" hmd
  obtain ⟨t, u, ht⟩ := C36_ignored (fileBlank F "file" md') d (by simp [Keys, d]) hud
    (.arr (.d2 2 .float [[x, y]])) (by simp [d]) (.d2 2 .float [[x, y]]) rfl
  unfold loadFile at he
  rw [hl] at he
  simp only [List.foldlM_cons, List.foldlM_nil, ht, bind, Except.bind, pure, Except.pure] at he
  cases he

end generic

/-! ## Witnesses: two tables in metres -/

/-- A dataset in metres with two rows. -/
noncomputable def lineDs (kind : String) (a b ya yb : ℝ) : Dataset XR :=
  [("DataType", .str kind),
   ("Data", .arr (.d2 2 .float [[XR.fin a, XR.fin ya], [XR.fin b, XR.fin yb]])),
   ("SpectrumType", .str "wavelength"), ("Unit", .str "m")]

/-- The same table without spectrum type and unit. -/
noncomputable def bareDs (kind : String) (a b ya yb : ℝ) : Dataset XR :=
  [("DataType", .str kind),
   ("Data", .arr (.d2 2 .float [[XR.fin a, XR.fin ya], [XR.fin b, XR.fin yb]]))]

/-- The metadata of a file without any text. -/
def blankFileMeta : List (String × MetaVal) :=
  [("Reference", .str ""), ("Comment", .str ""), ("Name", .str ""),
      ("FullName", .str ""), ("Author", .str ""), ("MetaComment", .str ""),
      ("Specification", .dict [])]

theorem blankFileMeta_ok : HasMeta blankFileMeta := by
  intro k hk
  simp only [fileKeys, List.mem_cons, List.not_mem_nil, or_false] at hk
  rcases hk with rfl | rfl | rfl | rfl | rfl | rfl | rfl <;> exact ⟨_, rfl⟩

section ideal
variable [SciPy XR] [NumText XR]

omit [NumText XR] in
theorem line_spec {a b ya yb : ℝ} (hab : a < b) : specDataFromTable "wavelength" "m"
    (.d2 2 .float [[XR.fin a, XR.fin ya], [XR.fin b, XR.fin yb]]) 0 1 =
      .ok (lineData a b ya yb) := by
  rw [specData_eq (by simp) (by norm_num)]
  exact lineData_new hab

theorem lineDs_n {a b ya yb : ℝ} (hab : a < b) (m : Material XR) :
    processDataset m (lineDs "tabulated n" a b ya yb) = .ok { m with
      defType := "wavelength", defUnit := "m", name := "nk", real := some (lineData a b ya yb) } := by
  unfold processDataset
  rw [getStr_of_mem (by simp [Keys, lineDs]) (s := "tabulated n") (by simp [lineDs]),
    dictGet_of_mem (v := .arr (.d2 2 .float [[XR.fin a, XR.fin ya], [XR.fin b, XR.fin yb]]))
      (by simp [Keys, lineDs]) (by simp [lineDs])]
  have hsp : splitTwo "tabulated n" = .ok ("tabulated", "n") := by decide +kernel
  have hstr : strTableToNumeric (DVal.arr
      (.d2 2 .float [[XR.fin a, XR.fin ya], [XR.fin b, XR.fin yb]])).asTable =
      .ok (.d2 2 .float [[XR.fin a, XR.fin ya], [XR.fin b, XR.fin yb]]) := rfl
  have e1 : ((lineDs "tabulated n" a b ya yb).get "SpectrumType").nonEmptyStr =
    some "wavelength" := rfl
  have e2 : ((lineDs "tabulated n" a b ya yb).get "Unit").nonEmptyStr = some "m" := rfl
  simp only [bind, Except.bind, hsp, if_true, hstr, processTable, e1, e2, Option.getD_some,
    line_spec hab]
  rw [if_neg (by decide), if_neg (by decide)]

theorem lineDs_k {a b ya yb : ℝ} (hab : a < b) (m : Material XR) :
    processDataset m (lineDs "tabulated k" a b ya yb) = .ok { m with
      defType := "wavelength", defUnit := "m", name := "nk", imag := some (lineData a b ya yb) } := by
  unfold processDataset
  rw [getStr_of_mem (by simp [Keys, lineDs]) (s := "tabulated k") (by simp [lineDs]),
    dictGet_of_mem (v := .arr (.d2 2 .float [[XR.fin a, XR.fin ya], [XR.fin b, XR.fin yb]]))
      (by simp [Keys, lineDs]) (by simp [lineDs])]
  have hsp : splitTwo "tabulated k" = .ok ("tabulated", "k") := by decide +kernel
  have hstr : strTableToNumeric (DVal.arr
      (.d2 2 .float [[XR.fin a, XR.fin ya], [XR.fin b, XR.fin yb]])).asTable =
      .ok (.d2 2 .float [[XR.fin a, XR.fin ya], [XR.fin b, XR.fin yb]]) := rfl
  have e1 : ((lineDs "tabulated k" a b ya yb).get "SpectrumType").nonEmptyStr =
    some "wavelength" := rfl
  have e2 : ((lineDs "tabulated k" a b ya yb).get "Unit").nonEmptyStr = some "m" := rfl
  simp only [bind, Except.bind, hsp, if_true, hstr, processTable, e1, e2, Option.getD_some,
    line_spec hab]
  rw [if_neg (by decide), if_neg (by decide), if_neg (by decide)]

theorem bareDs_k (a b ya yb : ℝ) (m : Material XR) (d : RealData XR)
    (hd : specDataFromTable m.defType m.defUnit
      (.d2 2 .float [[XR.fin a, XR.fin ya], [XR.fin b, XR.fin yb]]) 0 1 = .ok d) :
    processDataset m (bareDs "tabulated k" a b ya yb) = .ok { m with
      name := "nk", imag := some d } := by
  unfold processDataset
  rw [getStr_of_mem (by simp [Keys, bareDs]) (s := "tabulated k") (by simp [bareDs]),
    dictGet_of_mem (v := .arr (.d2 2 .float [[XR.fin a, XR.fin ya], [XR.fin b, XR.fin yb]]))
      (by simp [Keys, bareDs]) (by simp [bareDs])]
  have hsp : splitTwo "tabulated k" = .ok ("tabulated", "k") := by decide +kernel
  have hstr : strTableToNumeric (DVal.arr
      (.d2 2 .float [[XR.fin a, XR.fin ya], [XR.fin b, XR.fin yb]])).asTable =
      .ok (.d2 2 .float [[XR.fin a, XR.fin ya], [XR.fin b, XR.fin yb]]) := rfl
  have e1 : ((bareDs "tabulated k" a b ya yb).get "SpectrumType").nonEmptyStr = none := rfl
  have e2 : ((bareDs "tabulated k" a b ya yb).get "Unit").nonEmptyStr = none := rfl
  simp only [bind, Except.bind, hsp, if_true, hstr, processTable, e1, e2, Option.getD_none, hd]
  rw [if_neg (by decide), if_neg (by decide), if_neg (by decide)]

/-- A file with an index table and an extinction table in metres. -/
theorem two_tables {a b ya yb a' b' ya' yb' : ℝ} (h : a < b) (h' : a' < b') : ∃ m,
    loadFile blankFileMeta [lineDs "tabulated n" a b ya yb, lineDs "tabulated k" a' b' ya' yb'] =
      .ok m ∧ m.name = "nk" ∧ m.cplx = none ∧ m.real = some (lineData a b ya yb) ∧
      m.imag = some (lineData a' b' ya' yb') ∧ m.defType = "wavelength" ∧ m.defUnit = "m" := by
  obtain ⟨md', hl⟩ := new_file (F := XR) "file" blankFileMeta_ok
  unfold loadFile
  rw [hl]
  simp only [List.foldlM_cons, List.foldlM_nil, lineDs_n h, lineDs_k h', bind, Except.bind, pure,
    Except.pure]
  exact ⟨_, rfl, rfl, rfl, rfl, rfl, rfl, rfl⟩

/-- Concrete case for `C36_combine_partial`. -/
example : IndexData (lineDs "tabulated n" 1 2 1.5 1.6) ∧
    ExtinctionData (lineDs "tabulated k" 1 3 0 1) ∧
    OwnUnits (lineDs "tabulated n" 1 2 1.5 1.6) ∧ OwnUnits (lineDs "tabulated k" 1 3 0 1) ∧
    Keys (lineDs "tabulated n" 1 2 1.5 1.6) ∧ Keys (lineDs "tabulated k" 1 3 0 1) ∧
    ∃ m, loadFile blankFileMeta [lineDs "tabulated n" 1 2 1.5 1.6,
      lineDs "tabulated k" 1 3 0 1] = .ok m := by
  refine ⟨⟨"tabulated n", by simp [lineDs], .inl (by decide +kernel)⟩,
    ⟨"tabulated k", by simp [lineDs], by decide +kernel⟩,
    ⟨"wavelength", "m", by simp [lineDs], by decide, by simp [lineDs], by decide⟩,
    ⟨"wavelength", "m", by simp [lineDs], by decide, by simp [lineDs], by decide⟩,
    by simp [Keys, lineDs], by simp [Keys, lineDs], ?_⟩
  obtain ⟨m, hm, -⟩ := two_tables (a := 1) (b := 2) (ya := 1.5) (yb := 1.6) (a' := 1) (b' := 3)
    (ya' := 0) (yb' := 1) (by norm_num) (by norm_num)
  exact ⟨m, hm⟩

/-- The same table in nanometres. -/
theorem nm_spec : ∃ d, specDataFromTable "wavelength" "nanometer"
    (.d2 2 .float [[XR.fin 1, XR.fin 0], [XR.fin 2, XR.fin 1]]) 0 1 = .ok d ∧
    d.evaluate (metreSpectrum (([1.5] : List ℝ).map XR.fin)) =
      (.error .value, metreSpectrum (([1.5] : List ℝ).map XR.fin)) := by
  have h12 : (1 : ℝ) < 2 := by norm_num
  have h1 : npMin (Vals.array DType.float [XR.fin 1, XR.fin 2]) = .ok (XR.fin 1) := by
    simp [npMin, Vals.toList, npMinList]
  have h2 : npMax (Vals.array DType.float [XR.fin 1, XR.fin 2]) = .ok (XR.fin 2) := by
    simp [npMax, Vals.toList, npMaxList]
  have h3 : interpInit 1 (xrows [(1, 0), (2, 1)]) = .ok () := by
    simp only [interpInit, sort_two h12, noDuplicates]
    simp [xrows]
  let R : Spectrum XR :=
    { values := .array .float [XR.fin 1, XR.fin 2]
      stype := "wavelength"
      unit := "nm"
      std := .array .float ([XR.fin 1, XR.fin 2].map (fun x => x * lit 1e-9)) }
  have hR : Spectrum.new (.list .float [XR.fin 1, XR.fin 2]) "wavelength" "nanometer" = .ok R := by
    rw [Spectrum.new_eq, specLookup_ok_iff.2 (show (lower "wavelength", lower "nanometer", "nm") ∈
      names by decide +kernel)]
    have hl : lower "wavelength" = "wavelength" := by decide +kernel
    simp only [hl]
    rfl
  refine ⟨.interp 1 (xrows [(1, 0), (2, 1)]) R "wavelength" "nanometer", ?_, ?_⟩
  · rw [specData_eq (by simp) (by norm_num)]
    show RealData.newInterp .float (xrows [(1, 0), (2, 1)]) "wavelength" "nanometer" 1 = _
    unfold RealData.newInterp
    rw [h3]
    simp only [xrows, List.map_cons, List.map_nil, h1, h2, hR, bind, Except.bind]
  · have hc : R.contains (metreSpectrum (([1.5] : List ℝ).map XR.fin)) = .error .value := by
      unfold Spectrum.contains
      have hcv : (metreSpectrum (([1.5] : List ℝ).map XR.fin)).convertTo "wavelength" "nm" =
          .ok (.array .float [XR.fin 1.5e9]) := by
        rw [Spectrum.convertTo_eq, specLookup_ok_iff.2
          (show (lower "wavelength", "nm", "nm") ∈ names by decide +kernel)]
        have hl : lower "wavelength" = "wavelength" := by decide +kernel
        have hr : XR.roundDec 12 (1.5 * 1e9) = 1.5e9 := by
          rw [XR.roundDec_eq_of_int 12 1500000000000000000000 (by norm_num)]
          norm_num
        simp only [hl, metreSpectrum, convertVals, toWavelength]
        simp only [Vals.map, List.map_cons, List.map_nil, XR.lit_eq, XR.mul_fin, XR.round_fin]
        norm_num at hr ⊢
        simp [hr]
      rw [show R.stype = "wavelength" from rfl, show R.unit = "nm" from rfl, hcv]
      simp only [bind, Except.bind]
      rw [show npMin (Vals.array DType.float [XR.fin 1.5e9]) = .ok (XR.fin 1.5e9) from rfl,
        show npMax (Vals.array DType.float [XR.fin 1.5e9]) = .ok (XR.fin 1.5e9) from rfl,
        show R.values = .array .float [XR.fin 1, XR.fin 2] from rfl, h1, h2]
      simp only
      rw [if_pos (by simp only [XR.lt_fin]; norm_num)]
      rfl
    simp only [RealData.evaluate, hc, bind, Except.bind]

/-- The material after the index dataset of the witness. -/
noncomputable def setReal (m : Material XR) : Material XR :=
  { m with
    defType := "wavelength"
    defUnit := "m"
    name := "nk"
    real := some (lineData 1 2 1.5 1.6) }

/-- C36 fails for datasets without own units, too: the unit of the first dataset becomes the
default of the second, so that the order matters. The extinction coefficient at 1.5 m is 0.5
after the index dataset; before it, the table ends at 2 nm. -/
theorem C36_order_refuted : ∃ (dn dk : Dataset XR) (m1 m2 : Material XR) (s : Spectrum XR),
    Keys dn ∧ Keys dk ∧ IndexData dn ∧ ExtinctionData dk ∧
    loadFile blankFileMeta [dn, dk] = .ok m1 ∧ loadFile blankFileMeta [dk, dn] = .ok m2 ∧
    (evalPart m1.imag s).1 = .ok (.array .float [XR.fin 0.5]) ∧
    (evalPart m2.imag s).1 = .error .value := by
  have h12 : (1 : ℝ) < 2 := by norm_num
  obtain ⟨md', hl⟩ := new_file (F := XR) "file" blankFileMeta_ok
  obtain ⟨d, hd, hdev⟩ := nm_spec
  have hb : (fileBlank XR "file" md').defType = "wavelength" ∧
      (fileBlank XR "file" md').defUnit = "nanometer" := by
    constructor <;> rfl
  refine ⟨lineDs "tabulated n" 1 2 1.5 1.6, bareDs "tabulated k" 1 2 0 1,
    finish { setReal (fileBlank XR "file" md') with imag := some (lineData 1 2 0 1) },
    finish { setReal (fileBlank XR "file" md') with imag := some d },
    metreSpectrum (([1.5] : List ℝ).map XR.fin), by simp [Keys, lineDs], by simp [Keys, bareDs],
    ⟨"tabulated n", by simp [lineDs], .inl (by decide +kernel)⟩,
    ⟨"tabulated k", by simp [bareDs], by decide +kernel⟩, ?_, ?_, ?_, ?_⟩
  · unfold loadFile
    rw [hl]
    rw [List.foldlM_cons, show processDataset (fileBlank XR "file" md')
      (lineDs "tabulated n" 1 2 1.5 1.6) = .ok (setReal (fileBlank XR "file" md')) from
        lineDs_n h12 _]
    simp only [List.foldlM_cons, List.foldlM_nil, bind, Except.bind, pure, Except.pure]
    rw [bareDs_k 1 2 0 1 (setReal (fileBlank XR "file" md')) (lineData 1 2 0 1) (line_spec h12)]
    rfl
  · unfold loadFile
    rw [hl]
    simp only [List.foldlM_cons, List.foldlM_nil, bind, Except.bind, pure, Except.pure]
    rw [bareDs_k 1 2 0 1 _ d (by rw [hb.1, hb.2]; exact hd)]
    simp only [lineDs_n h12]
    rfl
  · show ((lineData 1 2 0 1).evaluate _).1 = _
    rw [lineData_evaluate h12 [1.5] (by simp) (by norm_num)]
    simp [lineAt]
    norm_num
  · show (d.evaluate _).1 = _
    rw [hdev]

end ideal

/-! ## C22 -/

section extrap
variable {F : Type} [PyFloat F] [SciPy F]

/-- C22 (full statement, refuted below): a failing `extrapolate` leaves a constructed material
as it was. -/
def C22_statement (F : Type) [PyFloat F] [SciPy F] [NumText F] : Prop :=
  ∀ (rd : String → Res (FileDict F)) (kw : Kwargs F) (m : Material F),
    Material.new rd kw = .ok m → ∀ (s : Spectrum F) (order : Nat) (e : PyErr),
    (m.extrapolate s order).1 = .error e → (m.extrapolate s order).2.1 = m

/-- The data object is a `Constant`. -/
def IsConstant (d : Option (RealData F)) : Prop := ∃ c r t u, d = some (.constant c r t u)

/-- C22: what a failing call can change is at most the real part, which is then the
extrapolation of the old one. -/
theorem C22_only_real_partial (m : Material F) (s : Spectrum F) (order : Nat) (e : PyErr)
    (h : (m.extrapolate s order).1 = .error e) :
    (m.extrapolate s order).2.1 = m ∨ ∃ r r', m.real = some r ∧
      (r.newExtrap s order).1 = .ok r' ∧
      (m.extrapolate s order).2.1 = { m with real := some r' } := by
  unfold Material.extrapolate at h ⊢
  cases hc : m.cplx with
  | some c => left; rfl
  | none =>
    rw [hc] at h
    simp only at h ⊢
    cases h1 : extrapolatePart m.real s order with
    | mk r1 s1 =>
      cases r1 with
      | error e1 => left; rfl
      | ok re =>
        rw [h1] at h
        simp only at h ⊢
        cases h2 : extrapolatePart m.imag s1 order with
        | mk r2 s2 =>
          cases r2 with
          | ok im => rw [h2] at h; cases h
          | error e2 =>
            simp only
            unfold extrapolatePart at h1
            cases hr : m.real with
            | none => rw [hr] at h1; cases h1
            | some r =>
              rw [hr] at h1
              cases r with
              | constant c rr t u =>
                left
                have : re = m.real := by rw [hr]; cases h1; rfl
                rw [this, ← hc]
              | _ =>
                simp only at h1
                split at h1
                · rename_i d' s' hd'
                  have hre : re = some d' := by cases h1; rfl
                  right
                  exact ⟨_, d', rfl, by rw [hd'], by rw [hre]⟩
                · cases h1

/-- C22 holds if the material is stored as complex data or one of its parts is constant. Missing
for the full claim: two tables, for which it is false. -/
theorem C22_partial (m : Material F) (s : Spectrum F) (order : Nat) (e : PyErr)
    (hm : m.cplx.isSome ∨ IsConstant m.real ∨ IsConstant m.imag)
    (h : (m.extrapolate s order).1 = .error e) : (m.extrapolate s order).2.1 = m := by
  unfold Material.extrapolate at h ⊢
  cases hc : m.cplx with
  | some c => rfl
  | none =>
    rw [hc] at h hm
    simp only at h ⊢
    rcases hm with hm | ⟨c, r, t, u, hm⟩ | ⟨c, r, t, u, hm⟩
    · cases hm
    · have h1 : extrapolatePart m.real s order = (.ok m.real, s) := by rw [hm]; rfl
      rw [h1] at h ⊢
      simp only at h ⊢
      cases h2 : extrapolatePart m.imag s order with
      | mk r2 s2 =>
        cases r2 with
        | ok im => rw [h2] at h; cases h
        | error e2 =>
          show { m with real := m.real, cplx := none } = m
          rw [← hc]
    · cases h1 : extrapolatePart m.real s order with
      | mk r1 s1 =>
        cases r1 with
        | error e1 => rfl
        | ok re =>
          rw [h1] at h
          have h2 : extrapolatePart m.imag s1 order = (.ok m.imag, s1) := by rw [hm]; rfl
          simp only [h2] at h
          cases h

end extrap

theorem part_line_ok [SciPy XR] {a b ya yb : ℝ} {s s' : Spectrum XR} {k : ℕ} {d : RealData XR}
    (h : (lineData a b ya yb).newExtrap s k = (.ok d, s')) :
    extrapolatePart (some (lineData a b ya yb)) s k = (.ok (some d), s') := by
  unfold lineData at h ⊢
  unfold extrapolatePart
  simp only [h]

theorem part_line_error [SciPy XR] {a b ya yb : ℝ} {s s' : Spectrum XR} {k : ℕ} {e : PyErr}
    (h : (lineData a b ya yb).newExtrap s k = (.error e, s')) :
    extrapolatePart (some (lineData a b ya yb)) s k = (.error e, s') := by
  unfold lineData at h ⊢
  unfold extrapolatePart
  simp only [h]

/-- Concrete case for `C22_partial`: an index table from 1 m to 5 m and a constant extinction;
extrapolating to 3 m raises. -/
example [SciPy XR] [NumText XR] (m : Material XR) (hc : m.cplx = none)
    (hr : m.real = some (lineData 1 5 1.5 1.6)) (hi : m.imag = some (cdata (lit 0))) :
    IsConstant m.imag ∧
    (m.extrapolate (metreSpectrum ([3].map XR.fin)) 1).1 = .error .value := by
  refine ⟨⟨_, _, _, _, hi⟩, ?_⟩
  unfold Material.extrapolate
  rw [hc, hr, part_line_error (lineData_extrap_inside (by norm_num) (by norm_num) 1)]

/-- C22 is false on the ideal arithmetic with the documented SciPy behaviour: the index table
ends at 2 m, the extinction table at 5 m; extrapolating to 3 m replaces the real part and then
raises. -/
theorem C22_refuted [SciPy XR] [NumText XR] [SciPyLaws] : ¬ C22_statement XR := by
  intro hst
  obtain ⟨m, hm, hn, hc, hr, hi, -⟩ := two_tables (a := 1) (b := 2) (ya := 1.5) (yb := 1.6)
    (a' := 1) (b' := 5) (ya' := 0) (yb' := 1) (by norm_num) (by norm_num)
  obtain ⟨spl, h1, -⟩ := lineData_extrap (a := 1) (b := 2) (ya := 1.5) (yb := 1.6) (e := 3)
    (by norm_num) (by norm_num) (by norm_num) 1 (by norm_num) (by norm_num)
  have h2 := lineData_extrap_inside (a := 1) (b := 5) (ya := 0) (yb := 1) (e := 3)
    (by norm_num) (by norm_num) 1
  have hx : m.extrapolate (metreSpectrum ([3].map XR.fin)) 1 = (.error .value, { m with
      real := some (.extrap (lineData 1 2 1.5 1.6) 1 spl (metreSpectrum ([1, 3].map XR.fin))
        "wavelength" "m") }, metreSpectrum ([3].map XR.fin)) := by
    unfold Material.extrapolate
    rw [hc, hr, hi]
    rw [part_line_ok h1]
    simp only
    rw [part_line_error h2]
  have := hst _ _ m hm (metreSpectrum ([3].map XR.fin)) 1 .value (by rw [hx])
  rw [hx] at this
  have h3 := congrArg Material.real this
  rw [hr] at h3
  cases h3

end Disp
