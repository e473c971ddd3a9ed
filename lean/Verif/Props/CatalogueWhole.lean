import Verif.Props.CatalogueBounds
import Verif.Props.CommentCycle
/-!
# C60, C61: the rows of a whole catalogue

The theorems on folders and libraries (`CatalogueRows`, `CatalogueBuilt`, `CatalogueBounds`) for
the catalogue that `build_catalogue` returns.
-/

namespace Disp

/-! ## Specification -/

namespace Spec

/-- A dataset names no value for a key: the key is missing or its value is no text or empty. -/
def NoText {F : Type} (d : Dataset F) (key : String) : Prop :=
  ∀ s, (key, DVal.str s) ∈ d → s = ""

/-- No dataset of a file names a spectrum type or a unit. -/
def StatesNoUnit {F : Type} (fd : FileDict F) : Prop :=
  ∀ d ∈ fd.datasets, NoText d "SpectrumType" ∧ NoText d "Unit"

/-- The unit that the rows of a module carry. -/
def unitOfModule (modl : String) : String :=
  if modl = "RefractiveIndexInfo" then "micrometer" else "nanometer"

end Spec

open Spec

section defaults

variable {F : Type} [PyFloat F] [SciPy F]

omit [PyFloat F] [SciPy F] in
theorem noText_get {d : Dataset F} {key : String} (h : NoText d key) :
    (d.get key).nonEmptyStr = none := by
  have key' : ∀ {d : Dataset F} {v}, dictGet d key = .ok v → (key, v) ∈ d := by
    intro d
    induction d with
    | nil => intro v hv; cases hv
    | cons p d ih =>
      intro v hv
      obtain ⟨k, w⟩ := p
      rw [dictGet] at hv
      split at hv
      · rename_i hk
        cases hv
        rw [hk]
        exact List.mem_cons_self ..
      · exact List.mem_cons_of_mem _ (ih hv)
  unfold Dataset.get
  cases hf : dictGet d key with
  | error e => rfl
  | ok v =>
    cases v with
    | str s => rw [h s (key' hf)]; simp [DVal.nonEmptyStr]
    | _ => rfl

theorem processTable_defaults {m m' : Material F} {a : NDArr F} {id : String} {d : Dataset F}
    (h : processTable m a id d = .ok m') :
    m'.defType = ownType m d ∧ m'.defUnit = ownUnit m d := by
  unfold processTable at h
  simp only at h
  repeat' split at h
  all_goals
    repeat obtain ⟨_, _, h⟩ := except_bind_ok h
    cases h
    exact ⟨rfl, rfl⟩

theorem storeReal_defaults {m m' : Material F} {o : Option String} {d : RealData F}
    (h : storeReal m o d = .ok m') : m'.defType = m.defType ∧ m'.defUnit = m.defUnit := by
  unfold storeReal at h
  split at h
  all_goals first
    | (cases h; exact ⟨rfl, rfl⟩)
    | cases h

variable [NumText F]

theorem processDataset_defaults {m m' : Material F} {d : Dataset F}
    (h : processDataset m d = .ok m') :
    m'.defType = ownType m d ∧ m'.defUnit = ownUnit m d := by
  unfold processDataset at h
  obtain ⟨dt, _, h⟩ := except_bind_ok h
  obtain ⟨q, _, h⟩ := except_bind_ok h
  simp only at h
  split at h
  · obtain ⟨v, _, h⟩ := except_bind_ok h
    obtain ⟨a, _, h⟩ := except_bind_ok h
    exact processTable_defaults h
  split at h
  · unfold processFormulaData at h
    obtain ⟨dt', _, h⟩ := except_bind_ok h
    obtain ⟨q', _, h⟩ := except_bind_ok h
    simp only at h
    split at h
    · cases h
    · split at h
      · cases h
      obtain ⟨_, _, h⟩ := except_bind_ok h
      obtain ⟨vr, _, h⟩ := except_bind_ok h
      obtain ⟨tx, _, h⟩ := except_bind_ok h
      obtain ⟨co, _, h⟩ := except_bind_ok h
      obtain ⟨st, hst, h⟩ := except_bind_ok h
      obtain ⟨un, hun, h⟩ := except_bind_ok h
      obtain ⟨nm, _, h⟩ := except_bind_ok h
      have e1 : st.nonEmptyStr.getD m.defType = ownType m d := by
        rw [ownType, Dataset.get, hst]
      have e2 : un.nonEmptyStr.getD m.defUnit = ownUnit m d := by
        rw [ownUnit, Dataset.get, hun]
      simp only [e1, e2] at h
      unfold processModelDict at h
      simp only [Option.getD_some] at h
      obtain ⟨nm', _, h⟩ := except_bind_ok h
      split at h
      · cases h
      · cases h
      · obtain ⟨ps, _, h⟩ := except_bind_ok h
        obtain ⟨vr', _, h⟩ := except_bind_ok h
        split at h
        · obtain ⟨r, hr, h⟩ := except_bind_ok h
          exact storeReal_defaults h
        · obtain ⟨r, hr, h⟩ := except_bind_ok h
          cases h
          exact ⟨rfl, rfl⟩
        · obtain ⟨r, hr, h⟩ := except_bind_ok h
          cases h
        · cases h
  · cases h

theorem foldl_defaults {ds : List (Dataset F)} : ∀ {m m' : Material F},
    ds.foldlM processDataset m = .ok m' →
    (∀ d ∈ ds, NoText d "SpectrumType" ∧ NoText d "Unit") →
    m'.defType = m.defType ∧ m'.defUnit = m.defUnit := by
  induction ds with
  | nil => intro m m' h _; cases h; exact ⟨rfl, rfl⟩
  | cons d ds ih =>
    intro m m' h hd
    rw [List.foldlM_cons] at h
    obtain ⟨m1, h1, h⟩ := except_bind_ok h
    obtain ⟨a, b⟩ := processDataset_defaults h1
    obtain ⟨a', b'⟩ := ih h (fun d hd' => hd d (List.mem_cons_of_mem _ hd'))
    obtain ⟨n1, n2⟩ := hd d (List.mem_cons_self ..)
    rw [a', a, b', b, ownType, ownUnit, noText_get n1, noText_get n2]
    exact ⟨rfl, rfl⟩

/-- A file that names no type or unit leaves the defaults at those of the arguments. -/
theorem new_defaults {rd : String → Res (FileDict F)} {p t u : String} {m : Material F}
    {fd : FileDict F} (h : Material.new rd (rowKw p (.str t) (.str u)) = .ok m)
    (hf : rd p = .ok fd) (hn : StatesNoUnit fd) : m.defType = t ∧ m.defUnit = u := by
  rw [new_row, hf] at h
  simp only [bind, Except.bind] at h
  split at h
  · cases h
  rename_i m0 hm0
  cases h
  unfold processFileData at hm0
  obtain ⟨md, -, hm0⟩ := except_bind_ok hm0
  obtain ⟨a, b⟩ := foldl_defaults hm0 hn
  show m0.defType = t ∧ m0.defUnit = u
  rw [a, b]
  exact ⟨rfl, rfl⟩

theorem new_row_read {rd : String → Res (FileDict F)} {p t u : String} {m : Material F}
    (h : Material.new rd (rowKw p (.str t) (.str u)) = .ok m) : ∃ fd, rd p = .ok fd := by
  rw [new_row] at h
  obtain ⟨fd, h1, -⟩ := except_bind_ok h
  exact ⟨fd, h1⟩

end defaults

/-! ## Whole catalogues -/

section built

variable {F : Type} [PyFloat F] [SciPy F] [NumText F]

theorem readModule_user {fs : FileSys F} {ref : Spectrum F} {base modl : String}
    (h : modl = "UserData" ∨ modl = "Filmetrics") :
    readModule fs ref base modl = readTextDb fs ref (joinPath base modl) modl := by
  rcases h with rfl | rfl <;> rfl

open Classical in
/-- C60 for the catalogue that is built: the rows of the module UserData (or Filmetrics), in the
order in which the catalogue has them, are those of the data files of its folder in the order of
the listing. Missing: as in `C60_files_partial`. -/
theorem C60_built_files_partial {fs : FileSys F} {ref : Spectrum F} {base : String}
    {ms : List (String × Bool)} (hm : GoodModules ms) {old g : Frame F} {rb : Rebuild}
    (hr : Proper rb) (h : buildCatalogue fs ref base ms old rb = .ok g) {modl : String}
    (hmod : modl = "UserData" ∨ modl = "Filmetrics") (hen : (modl, true) ∈ ms)
    (hw : Wanted rb modl) :
    ∃ names, fs.listdir (joinPath base modl) = .ok names ∧ List.Forall₂ (fun file r => ∃ stem m,
      DataName file stem ∧
      Material.new fs.read (rowKw (joinPath (joinPath base modl) file) (.str "wavelength")
        (.str "nanometer")) = .ok m ∧
      r.al = .str "" ∧ r.name = .str stem ∧ (EntryName file → r.path = .str file) ∧
      r.modl = .str modl ∧ r.stype = .str "wavelength" ∧ r.unit = .str "nanometer" ∧
      MetaOf m "FullName" r.fullName ∧ MetaOf m "Author" r.author ∧ MetaOf m "Comment" r.comment ∧
      MetaOf m "Reference" r.reference ∧ BoundsOf m r ∧ RefOf m ref r)
      (names.filter (fun f => decide (fs.isfile (joinPath (joinPath base modl) f) = true ∧
        DataFile f))) (rowsOfModule g modl) := by
  have := (C58_rows_partial hm hr h).1 modl hen hw
  rw [readModule_user hmod] at this
  exact C60_files_partial this

/-- C60 for the catalogue that is built: the rows of the library, in the order in which the
catalogue has them, are those of its pages. -/
theorem C60_built_pages {fs : FileSys F} {ref : Spectrum F} {base : String}
    {ms : List (String × Bool)} (hm : GoodModules ms) {old g : Frame F} {rb : Rebuild}
    (hr : Proper rb) (h : buildCatalogue fs ref base ms old rb = .ok g)
    (hen : ("RefractiveIndexInfo", true) ∈ ms) (hw : Wanted rb "RefractiveIndexInfo") :
    ∃ shelves, readLibrary fs (joinPath base "RefractiveIndexInfo") = .ok shelves ∧
      RowsOfPages fs ref (joinPath base "RefractiveIndexInfo") (pagesOf shelves)
        (rowsOfModule g "RefractiveIndexInfo") := by
  have := (C58_rows_partial hm hr h).1 _ hen hw
  exact C60_pages this

theorem forall₂_mem_right {α β : Type*} {R : α → β → Prop} {l : List α} {l' : List β}
    (h : List.Forall₂ R l l') {b : β} (hb : b ∈ l') : ∃ a ∈ l, R a b := by
  induction h with
  | nil => cases hb
  | cons h1 _ ih =>
    rcases List.mem_cons.1 hb with rfl | hb
    · exact ⟨_, List.mem_cons_self .., h1⟩
    · obtain ⟨a, ha, hr⟩ := ih hb
      exact ⟨a, List.mem_cons_of_mem _ ha, hr⟩

theorem rowsOfPages_mem {fs : FileSys F} {ref : Spectrum F} {dir : String} {ps : List LibPage}
    {rows : List (Row F)} (h : RowsOfPages fs ref dir ps rows) {r : Row F} (hr : r ∈ rows) :
    ∃ p ∈ ps, PageRow fs ref dir p r := by
  obtain ⟨parts, hp, rfl⟩ := h
  obtain ⟨part, h1, h2⟩ := List.mem_flatten.1 hr
  obtain ⟨p, hp', h3⟩ := forall₂_mem_right hp h1
  rcases h3 with ⟨-, rfl⟩ | ⟨r', h3, rfl⟩
  · cases h2
  · rw [List.mem_singleton.1 h2]
    exact ⟨p, hp', h3⟩

/-- Every row of a module that was read carries the unit of its module and the bounds of a material
that was loaded with that unit as default. -/
theorem built_row {fs : FileSys F} {ref : Spectrum F} {base : String}
    {ms : List (String × Bool)} (hm : GoodModules ms) {old g : Frame F} {rb : Rebuild}
    (hr : Proper rb) (h : buildCatalogue fs ref base ms old rb = .ok g) {modl : String}
    (hen : (modl, true) ∈ ms) (hw : Wanted rb modl) {r : Row F} (hrow : r ∈ rowsOfModule g modl) :
    ∃ p m, Material.new fs.read (rowKw p (.str "wavelength") (.str (unitOfModule modl))) = .ok m ∧
      r.stype = .str "wavelength" ∧ r.unit = .str (unitOfModule modl) ∧ BoundsOf m r := by
  have hmod := hm.2 _ hen
  simp only [moduleNames, List.mem_cons, List.not_mem_nil, or_false] at hmod
  by_cases hrii : modl = "RefractiveIndexInfo"
  · subst hrii
    obtain ⟨sh, -, hp⟩ := C60_built_pages hm hr h hen hw
    obtain ⟨p, -, folder, m, -, h1, -, -, -, -, -, -, h2, h3, -, -, h4, -⟩ :=
      rowsOfPages_mem hp hrow
    exact ⟨_, m, h1, h2, h3, h4⟩
  · have hmod' : modl = "UserData" ∨ modl = "Filmetrics" := by tauto
    obtain ⟨names, -, hf⟩ := C60_built_files_partial hm hr h hmod' hen hw
    obtain ⟨f, -, stem, m, -, h1, -, -, -, -, h2, h3, -, -, -, -, h4, -⟩ := forall₂_mem_right hf hrow
    have hu : unitOfModule modl = "nanometer" := if_neg hrii
    rw [hu]
    exact ⟨_, m, h1, h2, h3, h4⟩

end built

section bounds

variable [SciPy XR] [NumText XR]

/-- C61 for the catalogue that is built: in a row of a file that names no type or unit, lower and
upper bound are the ends of the common range of the two parts of the material, in the unit that the
row names, the lower bound first. Missing: files that name their own type or unit, for which it is
false (`C61_refuted`), and materials with a complex model. -/
theorem C61_built_partial {fs : FileSys XR} {ref : Spectrum XR} {base : String}
    {ms : List (String × Bool)} (hm : GoodModules ms) {old g : Frame XR} {rb : Rebuild}
    (hr : Proper rb) (h : buildCatalogue fs ref base ms old rb = .ok g) {modl : String}
    (hen : (modl, true) ∈ ms) (hw : Wanted rb modl) {row : Row XR} (hrow : row ∈ rowsOfModule g modl) :
    ∃ p fd m, fs.read p = .ok fd ∧ Material.new fs.read (rowKw p (.str "wavelength")
        (.str (unitOfModule modl))) = .ok m ∧
      (StatesNoUnit fd → ∀ (r i : RealData XR) (vs ws : List XR), m.cplx = none →
        m.real = some r → m.imag = some i → r.range.std = .array .float vs →
        i.range.std = .array .float ws → vs ≠ [] → ws ≠ [] → (∀ v ∈ vs, NonNeg v) →
        (∀ w ∈ ws, NonNeg w) →
        ∃ u c lo hi, row.unit = .str u ∧ ("wavelength", u, c) ∈ names ∧ Ends vs ws lo hi ∧
          Shows c lo row.lower ∧ Shows c hi row.upper ∧
          (PyFloat.le lo hi = true → PyFloat.le row.lower row.upper = true)) := by
  obtain ⟨p, m, h1, h2, h3, h4⟩ := built_row hm hr h hen hw hrow
  obtain ⟨fd, h5⟩ := new_row_read h1
  refine ⟨p, fd, m, h5, h1, ?_⟩
  intro hn r i vs ws hc hre him hvs hws nv nw pv pw
  obtain ⟨d1, d2⟩ := new_defaults h1 h5 hn
  exact C61_bounds_partial h4 hc hre him hvs hws nv nw pv pw d1 (by rw [h3, d2])

end bounds

end Disp
