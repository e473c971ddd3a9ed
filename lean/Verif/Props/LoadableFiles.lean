import Verif.Props.BuildFailures
import Verif.Props.MaterialEquality
import Verif.Props.OneValue
import Verif.Props.ParameterCounts
/-!
# C156: files that can be loaded, but stop the building of a catalogue

At the reference point only ValueErrors are caught (catalogue.py 365-371 and 418-421).
-/

namespace Disp

open Spec

variable {F : Type} [PyFloat F] [SciPy F] [NumText F]

/-! ## Specification -/

/-- The file is loaded as the material, as the catalogue does it. -/
def Spec.FileLoads (fs : FileSys F) (path unit : String) (mat : Material F) : Prop :=
  Material.new fs.read (rowKw path (.str "wavelength") (.str unit)) = .ok mat

/-- What the catalogue needs of a material: a range with two ends, and a refractive index at the
reference point, or a ValueError there. -/
def Spec.Describable (mat : Material F) (ref : Spectrum F) : Prop :=
  (∃ v lo hi rest, mat.maxRange = .ok v ∧ v.toList = lo :: hi :: rest) ∧
    ((∃ v, (mat.getNk ref).1 = .ok v) ∨ (mat.getNk ref).1 = .error .value)

/-! ## Rows -/

theorem isA_value {e : PyErr} : e.isA .value = true ↔ e = .value := by
  cases e <;> decide

/-- The metadata of a file are there. -/
theorem loaded_cell {fs : FileSys F} {path unit : String} {mat : Material F}
    (h : FileLoads fs path unit mat) {k : String} (hk : k ∈ fileKeys) : ∃ c, metaCell mat k = .ok c := by
  rcases new_meta _ h with ⟨hn, -⟩ | ⟨p, fd, md, -, -, h1, h2, -⟩
  · exact absurd ⟨path, rfl⟩ hn
  · have key : ∀ (md : List (String × MetaVal)), k ∈ md.map Prod.fst → ∃ v, dictGet md k = .ok v := by
      intro md
      induction md with
      | nil => intro h; cases h
      | cons q md ih =>
        obtain ⟨a, v⟩ := q
        intro h
        rw [dictGet]
        by_cases e : a = k
        · rw [if_pos e]; exact ⟨v, rfl⟩
        · rw [if_neg e]
          rw [List.map_cons, List.mem_cons] at h
          exact ih (h.resolve_left (fun h => e h.symm))
    obtain ⟨v, hv⟩ := key md (by rw [h2]; exact hk)
    unfold metaCell
    rw [h1]
    simp only [hv, bind, Except.bind]
    exact ⟨_, rfl⟩

theorem refIndex_ok {mat : Material F} {ref : Spectrum F} :
    (∃ v, refIndex mat ref = .ok v) ↔
      ((∃ v, (mat.getNk ref).1 = .ok v) ∨ (mat.getNk ref).1 = .error .value) := by
  unfold refIndex
  cases h : (mat.getNk ref).1 with
  | ok v => simp
  | error e =>
    by_cases he : e = .value
    · subst he; simp [PyErr.isA]
    · have : e.isA .value = false := by
        cases hb : e.isA .value with
        | false => rfl
        | true => exact absurd (isA_value.1 hb) he
      simp [this, he]

/-- A file has a row exactly if it is loaded as a material that has what the catalogue needs. -/
theorem textRow_ok {fs : FileSys F} {ref : Spectrum F} {dir modl file : String} :
    (∃ r, textRow fs ref dir modl file = .ok r) ↔
      ∃ mat, FileLoads fs (joinPath dir file) "nanometer" mat ∧ Describable mat ref := by
  constructor
  · rintro ⟨r, h⟩
    unfold textRow at h
    obtain ⟨m, hm, h⟩ := except_bind_ok h
    obtain ⟨c1, h1, h⟩ := except_bind_ok h
    obtain ⟨c2, h2, h⟩ := except_bind_ok h
    obtain ⟨c3, h3, h⟩ := except_bind_ok h
    obtain ⟨c4, h4, h⟩ := except_bind_ok h
    obtain ⟨rg, h5, h⟩ := except_bind_ok h
    obtain ⟨lo, h6, h⟩ := except_bind_ok h
    obtain ⟨hi, h7, h⟩ := except_bind_ok h
    obtain ⟨v, h8, h⟩ := except_bind_ok h
    obtain ⟨rest, hb⟩ := bounds_spec h6 h7
    exact ⟨m, hm, ⟨rg, lo, hi, rest, h5, hb⟩, refIndex_ok.1 ⟨v, h8⟩⟩
  · rintro ⟨mat, h, ⟨v, lo, hi, rest, h1, h2⟩, h3⟩
    obtain ⟨c1, e1⟩ := loaded_cell h (k := "FullName") (by decide)
    obtain ⟨c2, e2⟩ := loaded_cell h (k := "Author") (by decide)
    obtain ⟨c3, e3⟩ := loaded_cell h (k := "Comment") (by decide)
    obtain ⟨c4, e4⟩ := loaded_cell h (k := "Reference") (by decide)
    obtain ⟨w, hw⟩ := refIndex_ok.2 h3
    have i0 : pyIdx v.toList 0 = .ok lo := by rw [h2]; rfl
    have i1 : pyIdx v.toList 1 = .ok hi := by rw [h2]; rfl
    unfold textRow
    rw [show Material.new fs.read (rowKw (joinPath dir file) (.str "wavelength") (.str "nanometer")) =
      .ok mat from h]
    simp only [bind, Except.bind, e1, e2, e3, e4, h1, i0, i1, hw]
    exact ⟨_, rfl⟩

omit [PyFloat F] [SciPy F] [NumText F] in
theorem mapM_ok_iff {α β : Type} {f : α → Res β} {l : List α} :
    (∃ ys, l.mapM f = .ok ys) ↔ ∀ x ∈ l, ∃ y, f x = .ok y := by
  induction l with
  | nil => exact ⟨fun _ _ h => (List.not_mem_nil h).elim, fun _ => ⟨[], rfl⟩⟩
  | cons a l ih =>
    rw [List.mapM_cons, List.forall_mem_cons, ← ih]
    constructor
    · rintro ⟨ys, h⟩
      obtain ⟨y, h1, h⟩ := except_bind_ok h
      obtain ⟨zs, h2, -⟩ := except_bind_ok h
      exact ⟨⟨y, h1⟩, zs, h2⟩
    · rintro ⟨⟨y, h1⟩, zs, h2⟩
      rw [h1, h2]
      exact ⟨_, rfl⟩

theorem textDb_ok {fs : FileSys F} {ref : Spectrum F} {dir modl : String} :
    (∃ rows, readTextDb fs ref dir modl = .ok rows) ↔ (∃ names, fs.listdir dir = .ok names) ∧
      ∀ f, DatumFile fs dir f →
        ∃ mat, FileLoads fs (joinPath dir f) "nanometer" mat ∧ Describable mat ref := by
  unfold readTextDb
  cases hl : fs.listdir dir with
  | error e => simp [bind, Except.bind]
  | ok names =>
    simp only [bind, Except.bind]
    rw [mapM_ok_iff]
    constructor
    · intro h
      refine ⟨⟨_, rfl⟩, ?_⟩
      rintro f ⟨names', g1, g2, g3, stem, ext, g4, g5⟩
      rw [hl] at g1
      cases g1
      refine textRow_ok.1 (h f ?_)
      simp only [List.mem_filter, g2, g3, g4, allowedExt, true_and]
      simpa using g5
    · rintro ⟨-, h⟩ f hf
      simp only [List.mem_filter, allowedExt] at hf
      exact textRow_ok.2 (h f ⟨names, hl, hf.1.1, hf.1.2, (splitExt f).1, (splitExt f).2, rfl,
        by simpa using hf.2⟩)

/-- C156, what holds: a catalogue of a folder of files can be built exactly if the folder can be
listed and every data file is loaded as a material that has a range and, at the reference point, an
index or a ValueError. -/
theorem C156_iff_partial {fs : FileSys F} {ref : Spectrum F} {base m : String}
    (hm : m = "UserData" ∨ m = "Filmetrics") (old : Frame F) :
    (∃ g, buildCatalogue fs ref base [(m, true)] old (.text "All") = .ok g) ↔
      (∃ names, fs.listdir (joinPath base m) = .ok names) ∧
      ∀ f, DatumFile fs (joinPath base m) f →
        ∃ mat, FileLoads fs (joinPath (joinPath base m) f) "nanometer" mat ∧ Describable mat ref := by
  rw [← textDb_ok (modl := m), ← readModule_user hm]
  unfold buildCatalogue
  simp only [List.mapM_cons, List.mapM_nil, buildModule, Rebuild.asks, if_true, bind, Except.bind,
    pure, Except.pure, decide_true, Bool.or_true]
  cases readModule fs ref base m with
  | error e => simp
  | ok rows => simp

/-! ## Files that stop the building -/

/-- C156: a file stops the building of every catalogue that has its module, although it can be
loaded, if its material raises at the reference point anything but a ValueError. -/
theorem C156_file {fs : FileSys F} {ref : Spectrum F} {base : String}
    {ms : List (String × Bool)} (hm : GoodModules ms) {old : Frame F} {rb : Rebuild}
    (hr : Proper rb) {m : String} (hmod : m = "UserData" ∨ m = "Filmetrics")
    (hen : (m, true) ∈ ms) (hw : Wanted rb m) {f : String} (hf : DatumFile fs (joinPath base m) f)
    {mat : Material F} (h : FileLoads fs (joinPath (joinPath base m) f) "nanometer" mat) {e : PyErr}
    (he : (mat.getNk ref).1 = .error e) (hne : e ≠ .value) :
    ∃ e', buildCatalogue fs ref base ms old rb = .error e' := by
  cases hb : readModule fs ref base m with
  | error e' => exact build_fails hm hr hen hw hb
  | ok rows =>
    exfalso
    rw [readModule_user hmod] at hb
    obtain ⟨mat', g1, -, g2⟩ := (textDb_ok.1 ⟨rows, hb⟩).2 f hf
    unfold FileLoads at h g1
    rw [h] at g1
    cases g1
    rw [he] at g2
    rcases g2 with ⟨v, hv⟩ | hv
    · cases hv
    · cases hv
      exact hne rfl

/-- C156: so does the file of a page of the library. -/
theorem C156_page {fs : FileSys F} {ref : Spectrum F} {base : String}
    {ms : List (String × Bool)} (hm : GoodModules ms) {old : Frame F} {rb : Rebuild}
    (hr : Proper rb) (hen : ("RefractiveIndexInfo", true) ∈ ms)
    (hw : Wanted rb "RefractiveIndexInfo") {shelves : List Shelf}
    (hs : readLibrary fs (joinPath base "RefractiveIndexInfo") = .ok shelves) {p : LibPage}
    (hp : p ∈ pagesOf shelves) {mat : Material F}
    (h : ∀ folder, FileLoads fs (joinPath (joinPath base "RefractiveIndexInfo")
      (joinPath folder p.data)) "micrometer" mat) {e : PyErr}
    (he : (mat.getNk ref).1 = .error e) (hne : e ≠ .value) :
    ∃ e', buildCatalogue fs ref base ms old rb = .error e' := by
  cases hb : buildCatalogue fs ref base ms old rb with
  | error e' => exact ⟨e', rfl⟩
  | ok g =>
    obtain ⟨sh, h1, parts, h2, -⟩ := C60_built_pages hm hr hb hen hw
    rw [hs] at h1
    cases h1
    exfalso
    obtain ⟨part, -, hpart⟩ := forall₂_mem_left h2 hp
    rcases hpart with ⟨⟨folder, e', -, h3, -⟩, -⟩ | ⟨r, hrow, -⟩
    · have := h folder
      unfold FileLoads at this
      rw [h3] at this
      cases this
    · obtain ⟨folder, mat', -, h3, -, -, -, -, -, -, -, -, -, -, -, h4⟩ := hrow
      have := h folder
      unfold FileLoads at this
      rw [h3] at this
      cases this
      rcases h4 with ⟨v, hv, -⟩ | ⟨e', hv, h5, -⟩
      · rw [he] at hv; cases hv
      · rw [he] at hv
        cases hv
        exact hne (isA_value.1 h5)

/-- C156, Tauc-Lorentz models: their files stop the building if the reference point, which is a
number, is in the range of the model. -/
theorem C156_tauc {fs : FileSys F} {ref : Spectrum F} {t u : String} {x : F}
    (href : Spectrum.new (.float x) t u = .ok ref) {base : String}
    {ms : List (String × Bool)} (hm : GoodModules ms) {old : Frame F} {rb : Rebuild}
    (hr : Proper rb) {m : String} (hmod : m = "UserData" ∨ m = "Filmetrics")
    (hen : (m, true) ∈ ms) (hw : Wanted rb m) {f : String} (hf : DatumFile fs (joinPath base m) f)
    {mat : Material F} (h : FileLoads fs (joinPath (joinPath base m) f) "nanometer" mat)
    (hn : mat.name = "eps") {d : CplxData F} (hd : mat.cplx = some d) (hk : d.kind = .taucLorentz)
    (hin : d.range.contains ref = .ok true) {v : Vals F} (hv : ref.convertTo d.stype d.unit = .ok v) :
    ∃ e', buildCatalogue fs ref base ms old rb = .error e' := by
  have hev : ∃ e, d.evaluate ref = .error e ∧ e ≠ .value := by
    obtain ⟨y, hy⟩ : ∃ y, ref.std = .scalar y := by
      obtain ⟨c, hc⟩ := (C01_accepts_iff (.float x) trivial t u).1 ⟨ref, href⟩
      rw [new_scalar hc] at href
      cases href
      exact ⟨_, rfl⟩
    obtain ⟨e, rfl⟩ := convertTo_number hy hv
    have hat : d.kind.at d.params e ≠ .error .value := by
      rw [hk]
      rcases d.params with _ | ⟨a, _ | ⟨b, _ | ⟨c, _ | ⟨g, _ | ⟨l, _⟩⟩⟩⟩⟩ <;> intro h <;> cases h
    unfold CplxData.evaluate
    simp only [hin, hv, bind, Except.bind]
    cases ha : d.kind.at d.params e with
    | error e' => exact ⟨e', rfl, fun h => hat (by rw [ha, h])⟩
    | ok z => simp only [if_pos hk]; exact ⟨_, rfl, by decide⟩
  obtain ⟨e, he, hne⟩ := hev
  refine C156_file hm hr hmod hen hw hf h (e := e) ?_ hne
  rw [getNk_fresh mat ⟨_, t, u, href⟩ (.inr hn)]
  have : (mat.evalStored ref).1 = .error e := by
    unfold Material.evalStored
    rw [hd]
    exact he
  rw [this]
  rfl

/-- C156, too few parameters: a file with a formula that has too few parameters, or an incomplete
pair of them, stops the building if the reference point is in the range of the formula. -/
theorem C156_few {fs : FileSys F} {ref : Spectrum F} (href : Question ref) {base : String}
    {ms : List (String × Bool)} (hm : GoodModules ms) {old : Frame F} {rb : Rebuild}
    (hr : Proper rb) {m : String} (hmod : m = "UserData" ∨ m = "Filmetrics")
    (hen : (m, true) ∈ ms) (hw : Wanted rb m) {f : String} (hf : DatumFile fs (joinPath base m) f)
    {mat : Material F} (h : FileLoads fs (joinPath (joinPath base m) f) "nanometer" mat)
    (hn : mat.name = "nk") (hc : mat.cplx = none) {k : String} {g : Formula} {p : List F}
    {r : Spectrum F} {t u : String} (hreal : mat.real = some (.model g p r t u))
    (hk : k ∈ indexModels) (hg : classRef k = .real g) (hp : tooFew k p.length)
    (hin : r.contains ref = .ok true) {v : Vals F} (hv : ref.convertTo t u = .ok v) :
    ∃ e', buildCatalogue fs ref base ms old rb = .error e' := by
  have hat := formula_not_total (F := F) hk hg (not_takes hk hp)
  have hev : ((RealData.model g p r t u).evaluate ref).1 = .error .index := by
    simp only [RealData.evaluate, hin, hv, bind, Except.bind]
    have hne := href.convert hv
    cases v with
    | scalar x => simp [Vals.mapRes, hat, bind, Except.bind]
    | array dt xs =>
      simp only [Vals.mapRes, bind, Except.bind]
      rw [mapM_first (xs := xs) hat hne]
  refine C156_file hm hr hmod hen hw hf h (e := .index) ?_ (by decide)
  obtain ⟨raw, t', u', -, h2, -⟩ := href
  rw [getNk_fresh mat ⟨raw, t', u', h2⟩ (.inl hn)]
  have : (mat.evalStored ref).1 = .error .index := by
    unfold Material.evalStored evalPart
    rw [hc, hreal]
    simp only
    cases hx : (RealData.model g p r t u).evaluate ref with
    | mk a b =>
      rw [hx] at hev
      cases hev
      rfl
  rw [this]
  rfl

/-! ## The full claim is false -/

/-- C156 (full statement, refuted below): if every data file of a folder can be loaded as a material
that reports its range, a catalogue of the folder can be built. -/
def C156_statement (F : Type) [PyFloat F] [SciPy F] [NumText F] : Prop :=
  ∀ (fs : FileSys F) (x : F) (ref : Spectrum F) (base : String) (names : List String),
    Spectrum.new (.float x) "wavelength" "nm" = .ok ref →
    fs.listdir (joinPath base "UserData") = .ok names →
    (∀ f, DatumFile fs (joinPath base "UserData") f →
      ∃ mat, FileLoads fs (joinPath (joinPath base "UserData") f) "nanometer" mat ∧
        ∃ v lo hi rest, mat.maxRange = .ok v ∧ v.toList = lo :: hi :: rest) →
    ∃ g, buildCatalogue fs ref base [("UserData", true)] [] (.text "All") = .ok g

/-- A dataset with an incomplete pair of coefficients. -/
def incompleteData : Dataset Dbl :=
  [("DataType", .str "model Sellmeier"), ("ValidRange", .str "0 inf"), ("Data", .str "0 1"),
   ("SpectrumType", .str "wavelength"), ("Unit", .str "um")]

/-- A disk whose files all have these data. -/
def incompleteFs : FileSys Dbl where
  listdir _ := .ok ["glass.yml"]
  isfile _ := true
  isdir _ := false
  read _ := .ok ⟨fileKeys.map (fun k => (k, .str "")), [incompleteData]⟩
  library _ := .error .fileNotFound

theorem word_zero : NumText.parseFloat "0".toList = .ok (lit 0 : Dbl) := by
  show readDouble "0".toList = _
  have h1 : splitSign "0".toList = (false, "0".toList) := by decide +kernel
  have h2 : readUnsigned "0".toList = some 0 := by decide +kernel
  unfold readDouble
  rw [h1]
  simp only
  rw [if_neg (by decide +kernel), if_neg (by decide +kernel), h2, Dbl.val_lit]
  norm_num

theorem word_one : NumText.parseFloat "1".toList = .ok (lit 1 : Dbl) := by
  show readDouble "1".toList = _
  have h1 : splitSign "1".toList = (false, "1".toList) := by decide +kernel
  have h2 : readUnsigned "1".toList = some 1 := by decide +kernel
  unfold readDouble
  rw [h1]
  simp only
  rw [if_neg (by decide +kernel), if_neg (by decide +kernel), h2, Dbl.val_lit]
  norm_num

theorem word_inf : NumText.parseFloat "inf".toList = .ok (PyFloat.inf : Dbl) := by
  show readDouble "inf".toList = _
  have h1 : splitSign "inf".toList = (false, "inf".toList) := by decide +kernel
  unfold readDouble
  rw [h1]
  simp only
  rw [if_neg (by decide +kernel), if_pos (by decide +kernel)]
  rfl

theorem incomplete_loads [SciPy Dbl] (path : String) :
    ∃ mat r, FileLoads incompleteFs path "nanometer" mat ∧ mat.name = "nk" ∧ mat.cplx = none ∧
      mat.real = some (.model .sellmeier [lit 0, lit 1] r "wavelength" "um") ∧
      mat.imag = some (cdata (lit 0)) ∧ mat.defType = "wavelength" ∧ mat.defUnit = "um" ∧
      r = ⟨.array .float [lit 0, PyFloat.inf], "wavelength", "um",
        .array .float ([lit 0, PyFloat.inf].map (fromElem safeInverseElem "wavelength" "um"))⟩ := by
  have hl : lower "wavelength" = "wavelength" := by decide +kernel
  have hc : (lower "wavelength", lower "um", "um") ∈ names := by decide +kernel
  have hr := new_list (F := Dbl) hc [lit 0, PyFloat.inf]
  rw [hl] at hr
  have w1 : splitSpaces "0 inf".toList = ["0".toList, "inf".toList] := by decide +kernel
  have w2 : splitSpaces "0 1".toList = ["0".toList, "1".toList] := by decide +kernel
  have w3 : splitTwo "model Sellmeier" = .ok ("model", "Sellmeier") := by decide +kernel
  have w4 : classRef "Sellmeier" = .real .sellmeier := by decide +kernel
  have hm : ∀ m : Material Dbl, processDataset m incompleteData = .ok { m with
      name := "nk", defType := "wavelength", defUnit := "um",
      real := some (.model .sellmeier [lit 0, lit 1] ⟨.array .float [lit 0, PyFloat.inf],
        "wavelength", "um", .array .float ([lit 0, PyFloat.inf].map
          (fromElem safeInverseElem "wavelength" "um"))⟩ "wavelength" "um") } := by
    intro m
    have hnew : RealData.newModel .sellmeier [lit 0, lit 1] (.list .float [lit 0, PyFloat.inf])
        "wavelength" "um" = .ok (.model .sellmeier [lit 0, lit 1] ⟨.array .float [lit 0, PyFloat.inf],
        "wavelength", "um", .array .float ([lit 0, PyFloat.inf].map
          (fromElem safeInverseElem "wavelength" "um"))⟩ "wavelength" "um" : RealData Dbl) := by
      unfold RealData.newModel
      rw [hr]
      rfl
    have d1 : dictGet incompleteData "DataType" = .ok (.str "model Sellmeier") := rfl
    have d2 : dictGet incompleteData "ValidRange" = .ok (.str "0 inf") := rfl
    have d3 : dictGet incompleteData "Data" = .ok (.str "0 1") := rfl
    have d4 : dictGet incompleteData "SpectrumType" = .ok (.str "wavelength") := rfl
    have d5 : dictGet incompleteData "Unit" = .ok (.str "um") := rfl
    have n1 : ((DVal.str "wavelength" : DVal Dbl).nonEmptyStr).getD m.defType = "wavelength" := rfl
    have n2 : ((DVal.str "um" : DVal Dbl).nonEmptyStr).getD m.defUnit = "um" := rfl
    unfold processDataset processFormulaData
    simp only [Dataset.getStr, d1, d2, d3, d4, d5, bind, Except.bind, w1, w2, w3, parseRange,
      List.mapM_cons, List.mapM_nil, word_zero, word_one, word_inf, pure, Except.pure, n1, n2,
      show ¬ ("model" = "tabulated") by decide, show ¬ ("model" = "formula") by decide,
      show ¬ ("0 inf" = "") by decide, if_false, or_true, not_true, if_true, false_and, formulaName]
    unfold processModelDict
    simp only [w4, Option.getD_some, bind, Except.bind, hnew]
    rfl
  unfold FileLoads
  rw [new_row]
  have hp : ∀ m : Material Dbl, processFileData m
      ⟨fileKeys.map (fun k => (k, MetaVal.str "")), [incompleteData]⟩ =
      processDataset { m with metaData := some (fileKeys.map (fun k => (k, MetaVal.str ""))) }
        incompleteData := by
    intro m
    unfold processFileData
    have : ["Reference", "Comment", "Name", "FullName", "Author", "MetaComment",
        "Specification"].mapM (fun k => do
          .ok (k, ← dictGet (fileKeys.map (fun k => (k, MetaVal.str ""))) k)) =
        (.ok (fileKeys.map (fun k => (k, MetaVal.str ""))) : Res _) := by rfl
    rw [this]
    simp only [List.foldlM_cons, List.foldlM_nil, bind, Except.bind]
    cases processDataset _ incompleteData <;> rfl
  simp only [incompleteFs, bind, Except.bind, hp, hm]
  exact ⟨_, _, rfl, rfl, rfl, rfl, rfl, rfl, rfl, rfl⟩

theorem incomplete_range [SciPy Dbl] {mat : Material Dbl} {r : Spectrum Dbl} (h1 : mat.name = "nk")
    (h2 : mat.cplx = none) (h3 : mat.real = some (.model .sellmeier [lit 0, lit 1] r "wavelength" "um"))
    (h4 : mat.imag = some (cdata (lit 0))) (h5 : mat.defType = "wavelength") (h6 : mat.defUnit = "um")
    (hr : r = ⟨.array .float [lit 0, PyFloat.inf], "wavelength", "um",
        .array .float ([lit 0, PyFloat.inf].map (fromElem safeInverseElem "wavelength" "um"))⟩) :
    ∃ v lo hi rest, mat.maxRange = .ok v ∧ v.toList = lo :: hi :: rest := by
  obtain ⟨lo, hi, hra⟩ : ∃ lo hi, mat.rangeArray = .ok (.float, lo, hi) := by
    unfold Material.rangeArray
    rw [h2, h3, h4, hr]
    exact ⟨_, _, rfl⟩
  have hl : lower "wavelength" = "wavelength" := by decide +kernel
  have hc : (lower "wavelength", lower "m", "m") ∈ names := by decide +kernel
  have hn : Spectrum.new (.ndarray .float [lo, hi]) "wavelength" "m" = .ok
      ⟨.array .float [lo, hi], "wavelength", "m",
        .array .float ([lo, hi].map (fromElem safeInverseElem "wavelength" "m"))⟩ := by
    have := new_list hc [lo, hi]
    rw [hl] at this
    exact this
  obtain ⟨ys, e1, e2⟩ := array_converts (s := ⟨.array .float [lo, hi], "wavelength", "m",
    .array .float ([lo, hi].map (fromElem safeInverseElem "wavelength" "m"))⟩) ⟨_, _, _, hn⟩ rfl
    (t := "wavelength") (u := "um") (c := "um") (by decide +kernel)
  obtain ⟨a, b, rfl⟩ := List.length_eq_two.1 (e2.trans rfl)
  refine ⟨.array .float [a, b], a, b, [], ?_, rfl⟩
  unfold Material.maxRange
  rw [if_neg (not_not.2 (.inl h1)), hra, h5, h6]
  simp only [bind, Except.bind, hn, e1]

/-- C156 is false, in doubles: the file can be loaded and reports its range, but the catalogue with
the reference point of 620 nm cannot be built. -/
theorem C156_refuted [SciPy Dbl] : ¬ C156_statement Dbl := by
  intro h
  have hl : lower "wavelength" = "wavelength" := by decide +kernel
  rcases paired_new (F := Dbl) (t := "wavelength") (u := "nm") (x := intDbl 620)
    (fun h => absurd hl h) with ⟨s, s', y, hs, hs', -, hpair⟩ | ⟨e, he, -⟩
  swap
  · have hc : (lower "wavelength", lower "nm", "nm") ∈ names := by decide +kernel
    rw [new_scalar hc] at he
    cases he
  have hx' : s'.values = .array .float [intDbl 620] := by
    have hc : (lower "wavelength", lower "nm", "nm") ∈ names := by decide +kernel
    rw [new_list hc] at hs'
    cases hs'
    rfl
  have hsv : s.values = .scalar (intDbl 620) := by
    have hc : (lower "wavelength", lower "nm", "nm") ∈ names := by decide +kernel
    rw [new_scalar hc] at hs
    cases hs
    rfl
  have hq : Question s := ⟨.float (intDbl 620), _, _, trivial, hs, by rw [hsv]; simp [Vals.toList]⟩
  obtain ⟨g, hg⟩ := h incompleteFs (intDbl 620) s "/cat" ["glass.yml"] hs rfl (by
    intro f _
    obtain ⟨mat, r, a1, a2, a3, a4, a5, a6, a7, a8⟩ := incomplete_loads
      (joinPath (joinPath "/cat" "UserData") f)
    exact ⟨mat, a1, incomplete_range a2 a3 a4 a5 a6 a7 a8⟩)
  obtain ⟨mat, r, a1, a2, a3, a4, a5, a6, a7, a8⟩ := incomplete_loads
    (joinPath (joinPath "/cat" "UserData") "glass.yml")
  have hfresh : Fresh s' := ⟨_, _, _, hs'⟩
  have hnn : AllNN s'.values := by
    rw [hx']
    exact fun x hx => by
      rw [List.mem_singleton.1 hx]
      exact Dbl.rnd_nn (show (0 : ℝ) ≤ (620 : ℤ) by norm_num)
  have hclear : Clear y "wavelength" :=
    ⟨fun h => absurd hl h, fun h => absurd (hl.symm.trans h) (by decide)⟩
  obtain ⟨ys, c1, c2⟩ := array_converts hfresh hx' (t := "wavelength") (u := "um") (c := "um")
    (by decide +kernel)
  have hin : r.contains s = .ok true := by
    rw [← hpair.contains (r := r) (by rw [a8]; exact hclear)]
    subst a8
    refine all_inside rfl c1 ?_ (asked_nn hfresh hnn c1)
    rintro rfl
    cases c2
  have hconv : ∃ v, s.convertTo "wavelength" "um" = .ok v := by
    have := hpair.convertTo (u := "um") hclear
    rw [c1] at this
    cases hv : s.convertTo "wavelength" "um" with
    | error e => rw [hv] at this; cases this
    | ok v => exact ⟨v, rfl⟩
  obtain ⟨v, hv⟩ := hconv
  obtain ⟨e, he⟩ := C156_few (ref := s) hq (base := "/cat") (ms := [("UserData", true)])
    ⟨by decide, by decide⟩ (old := []) (rb := .text "All") (.inl rfl) (m := "UserData") (.inl rfl)
    (by simp) (.inl rfl) (f := "glass.yml")
    ⟨["glass.yml"], rfl, by simp, rfl, "glass", ".yml", by decide +kernel, by simp⟩ a1 a2 a3 (k := "Sellmeier") a4
    (by decide) (by decide +kernel) ⟨by simp [fits], by decide⟩ hin hv
  rw [hg] at he
  cases he

/-! ## Case of a Tauc-Lorentz model -/

/-- A dataset of a Tauc-Lorentz model. -/
def glassyData : Dataset Dbl :=
  [("DataType", .str "model TaucLorentz"), ("ValidRange", .str "0 inf"), ("Data", .str "1 1 1 1 1"),
   ("SpectrumType", .str "energy"), ("Unit", .str "ev")]

/-- A disk whose files all have these data. -/
def glassyFs : FileSys Dbl :=
  { incompleteFs with read := fun _ => .ok ⟨fileKeys.map (fun k => (k, .str "")), [glassyData]⟩ }

theorem glassy_loads [SciPy Dbl] (path : String) :
    ∃ mat d, FileLoads glassyFs path "nanometer" mat ∧ mat.name = "eps" ∧ mat.cplx = some d ∧
      d.kind = .taucLorentz ∧ d.stype = "energy" ∧ d.unit = "ev" ∧
      d.range.values = .array .float [lit 0, PyFloat.inf] ∧ d.range.stype = "energy" ∧
      d.range.unit = "ev" := by
  have hl : lower "energy" = "energy" := by decide +kernel
  have hc : (lower "energy", lower "ev", "ev") ∈ names := by decide +kernel
  have hr := new_list (F := Dbl) hc [lit 0, PyFloat.inf]
  rw [hl] at hr
  have w1 : splitSpaces "0 inf".toList = ["0".toList, "inf".toList] := by decide +kernel
  have w2 : splitSpaces "1 1 1 1 1".toList =
    ["1".toList, "1".toList, "1".toList, "1".toList, "1".toList] := by decide +kernel
  have w3 : splitTwo "model TaucLorentz" = .ok ("model", "TaucLorentz") := by decide +kernel
  have w4 : classRef "TaucLorentz" = .cplx .taucLorentz := by decide +kernel
  obtain ⟨d, hnew, p1, p2, p3, p4, p5, p6⟩ : ∃ d : CplxData Dbl,
      CplxData.new .taucLorentz [lit 1, lit 1, lit 1, lit 1, lit 1]
        (.list .float [lit 0, PyFloat.inf]) "energy" "ev" = .ok d ∧ d.kind = .taucLorentz ∧
      d.stype = "energy" ∧ d.unit = "ev" ∧ d.range.values = .array .float [lit 0, PyFloat.inf] ∧
      d.range.stype = "energy" ∧ d.range.unit = "ev" := by
    unfold CplxData.new
    rw [hr]
    exact ⟨_, rfl, rfl, rfl, rfl, rfl, rfl, rfl⟩
  have hm : ∀ m : Material Dbl, processDataset m glassyData = .ok { m with
      name := "eps", defType := "energy", defUnit := "ev", cplx := some d } := by
    intro m
    have d1 : dictGet glassyData "DataType" = .ok (.str "model TaucLorentz") := rfl
    have d2 : dictGet glassyData "ValidRange" = .ok (.str "0 inf") := rfl
    have d3 : dictGet glassyData "Data" = .ok (.str "1 1 1 1 1") := rfl
    have d4 : dictGet glassyData "SpectrumType" = .ok (.str "energy") := rfl
    have d5 : dictGet glassyData "Unit" = .ok (.str "ev") := rfl
    have n1 : ((DVal.str "energy" : DVal Dbl).nonEmptyStr).getD m.defType = "energy" := rfl
    have n2 : ((DVal.str "ev" : DVal Dbl).nonEmptyStr).getD m.defUnit = "ev" := rfl
    unfold processDataset processFormulaData
    simp only [Dataset.getStr, d1, d2, d3, d4, d5, bind, Except.bind, w1, w2, w3, parseRange,
      List.mapM_cons, List.mapM_nil, word_zero, word_one, word_inf, pure, Except.pure, n1, n2,
      show ¬ ("model" = "tabulated") by decide, show ¬ ("model" = "formula") by decide,
      show ¬ ("0 inf" = "") by decide, if_false, or_true, not_true, if_true, false_and, formulaName]
    unfold processModelDict
    simp only [w4, Option.getD_some, bind, Except.bind, hnew]
  unfold FileLoads
  rw [new_row]
  have hp : ∀ m : Material Dbl, processFileData m
      ⟨fileKeys.map (fun k => (k, MetaVal.str "")), [glassyData]⟩ =
      processDataset { m with metaData := some (fileKeys.map (fun k => (k, MetaVal.str ""))) }
        glassyData := by
    intro m
    unfold processFileData
    have : ["Reference", "Comment", "Name", "FullName", "Author", "MetaComment",
        "Specification"].mapM (fun k => do
          .ok (k, ← dictGet (fileKeys.map (fun k => (k, MetaVal.str ""))) k)) =
        (.ok (fileKeys.map (fun k => (k, MetaVal.str ""))) : Res _) := by rfl
    rw [this]
    simp only [List.foldlM_cons, List.foldlM_nil, bind, Except.bind]
    cases processDataset _ glassyData <;> rfl
  simp only [glassyFs, bind, Except.bind, hp, hm]
  exact ⟨_, d, rfl, rfl, rfl, p1, p2, p3, p4, p5, p6⟩

/-- A number that is not negative is inside the range from zero to infinity. -/
theorem one_inside {r s : Spectrum Dbl} (hr : r.values = .array .float [lit 0, PyFloat.inf])
    {y : Dbl} (hc : s.convertTo r.stype r.unit = .ok (.scalar y)) (hnn : AllNN (.scalar y)) :
    r.contains s = .ok true := by
  unfold Spectrum.contains
  simp only [hc, hr, bind, Except.bind]
  have h0 : (lit 0 : Dbl).val = .fin 0 := by
    have := Dbl.rnd_double (Dbl.double_int (n := 0) (by norm_num))
    rw [Dbl.val_lit]
    push_cast at this ⊢
    exact this
  have n0 : PyFloat.isNaN (lit 0 : Dbl) = false := by
    show PyFloat.isNaN (lit 0 : Dbl).val = false
    rw [h0]; rfl
  have e1 : npMin (F := Dbl) (.array .float [lit 0, PyFloat.inf]) = .ok (lit 0) := by
    have : PyFloat.lt (PyFloat.inf : Dbl) (lit 0) = false := by
      show PyFloat.lt XR.pinf (lit 0 : Dbl).val = false
      rw [h0]; rfl
    simp only [npMin, Vals.toList, npMinList, List.foldl, n0, this]
    rfl
  have e2 : npMax (F := Dbl) (.array .float [lit 0, PyFloat.inf]) = .ok PyFloat.inf := by
    have : PyFloat.lt (lit 0 : Dbl) PyFloat.inf = true := by
      show PyFloat.lt (lit 0 : Dbl).val XR.pinf = true
      rw [h0]; rfl
    simp only [npMax, Vals.toList, npMaxList, List.foldl, n0, this]
    rfl
  rw [e1, e2]
  have h1 : npMin (F := Dbl) (.scalar y) = .ok y := rfl
  have h2 : npMax (F := Dbl) (.scalar y) = .ok y := rfl
  have h3 := notNegative_iff.2 (hnn y (by simp [Vals.toList]))
  have h4 : PyFloat.lt (PyFloat.inf : Dbl) y = false := rfl
  rw [h1, h2]
  simp only
  rw [show PyFloat.lt y (lit 0) = false from h3, h4]
  rfl

/-- Beside `C156_tauc`: the file of the Tauc-Lorentz model stops the building at the reference point
of 620 nm. -/
theorem glassy_stops [SciPy Dbl] :
    ∃ ref, Spectrum.new (.float (intDbl 620)) "wavelength" "nm" = .ok ref ∧
      ∃ e, buildCatalogue glassyFs ref "/cat" [("UserData", true)] [] (.text "All") = .error e := by
  have hc : (lower "wavelength", lower "nm", "nm") ∈ names := by decide +kernel
  have hs := new_scalar hc (intDbl 620)
  obtain ⟨mat, d, a1, a2, a3, a4, a5, a6, a7, a8, a9⟩ := glassy_loads
    (joinPath (joinPath "/cat" "UserData") "glass.yml")
  obtain ⟨s, hs'⟩ : ∃ s, Spectrum.new (.float (intDbl 620)) "wavelength" "nm" = .ok s := ⟨_, hs⟩
  have hval : s.values = .scalar (intDbl 620) ∧ ∃ y, s.std = .scalar y := by
    rw [hs] at hs'
    cases hs'
    exact ⟨rfl, _, rfl⟩
  obtain ⟨hval, y, hstd⟩ := hval
  obtain ⟨v, hv⟩ : ∃ v, s.convertTo "energy" "ev" = .ok v := by
    have hc' : (lower "energy", "ev", "ev") ∈ names := by decide +kernel
    rw [Spectrum.convertTo_eq, specLookup_ok_iff.2 hc', hstd]
    exact ⟨_, convertVals_scalar (names_pairs _ hc') _⟩
  obtain ⟨e, rfl⟩ := convertTo_number hstd hv
  have hnn : AllNN (.scalar e) := asked_nn ⟨_, _, _, hs'⟩ (by
    rw [hval]
    exact fun x hx => by
      rw [List.mem_singleton.1 hx]
      exact Dbl.rnd_nn (show (0 : ℝ) ≤ (620 : ℤ) by norm_num)) hv
  refine ⟨s, hs', C156_tauc (ref := s) hs' (base := "/cat") (ms := [("UserData", true)])
    ⟨by decide, by decide⟩ (old := []) (rb := .text "All") (.inl rfl) (m := "UserData") (.inl rfl)
    (by simp) (.inl rfl) (f := "glass.yml")
    ⟨["glass.yml"], rfl, by simp, rfl, "glass", ".yml", by decide +kernel, by simp⟩ a1 a2 a3 a4
    (one_inside a7 (by rw [a8, a9]; exact hv) hnn) (by rw [a5, a6]; exact hv)⟩

end Disp
