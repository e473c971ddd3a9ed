import Verif.Props.CatalogueRows
/-!
# C60, C71: library pages, reference values, and loading the rows of a catalogue
-/

namespace Disp

variable {F : Type} [PyFloat F] [SciPy F] [NumText F]

/-! ## Specification -/

namespace Spec

/-- A page with data of a library: its book, the name of the book, its own name and its file. -/
structure LibPage where
  book : String
  fullName : String
  page : String
  data : String

/-- The page with data that an entry of a book stands for, if any. -/
def pageOf (book fullName : String) : Page → List LibPage
  | .page pid data => [⟨book, fullName, pid, data⟩]
  | _ => []

/-- The pages of a book, in order. -/
def pagesOfBook : Book → List LibPage
  | .book id name pages => pages.flatMap (pageOf id name)
  | _ => []

/-- The pages of a library, in order. -/
def pagesOf (shelves : List Shelf) : List LibPage :=
  shelves.flatMap (fun s => s.books.flatMap pagesOfBook)

/-- The row of a page: labelled by its book, with the texts, the range and the reference index of
the material in its file. -/
def PageRow (fs : FileSys F) (ref : Spectrum F) (dir : String) (p : LibPage) (r : Row F) : Prop :=
  ∃ folder m, (folder = "database/data" ∨ folder = "database/data-nk") ∧
    Material.new fs.read (rowKw (joinPath dir (joinPath folder p.data)) (.str "wavelength")
      (.str "micrometer")) = .ok m ∧
    r.al = .str "" ∧ r.name = .str p.book ∧ r.fullName = .str p.fullName ∧ r.author = .str p.page ∧
    r.path = .str (normPath (joinPath folder p.data)) ∧ r.modl = .str "RefractiveIndexInfo" ∧
    r.stype = .str "wavelength" ∧ r.unit = .str "micrometer" ∧ MetaOf m "Reference" r.reference ∧
    MetaOf m "Comment" r.comment ∧ BoundsOf m r ∧ RefOf m ref r

/-- Loading the file of a page fails with an OSError, as when the file cannot be opened. -/
def CannotOpen (fs : FileSys F) (dir : String) (p : LibPage) : Prop :=
  ∃ folder e, (folder = "database/data" ∨ folder = "database/data-nk") ∧
    Material.new fs.read (rowKw (joinPath dir (joinPath folder p.data)) (.str "wavelength")
      (.str "micrometer")) = .error e ∧ (e = .os ∨ e = .fileNotFound)

/-- One row for each page, none for those whose file cannot be opened. -/
def RowsOfPages (fs : FileSys F) (ref : Spectrum F) (dir : String) (ps : List LibPage)
    (rows : List (Row F)) : Prop :=
  ∃ parts, List.Forall₂ (fun p part => CannotOpen fs dir p ∧ part = [] ∨
    ∃ r, PageRow fs ref dir p r ∧ part = [r]) ps parts ∧ rows = parts.flatten

/-- A row leads to the material it was made from: the file it names can be loaded, and its
bounds and reference values are those of the material. -/
def Leads (rd : String → Res (FileDict F)) (ref : Spectrum F) (base : String) (r : Row F) : Prop :=
  ∃ m, loadRow rd base r = .ok m ∧ BoundsOf m r ∧ RefOf m ref r

end Spec

open Spec

/-! ## Pages -/

omit [NumText F] in
theorem isA_os {e : PyErr} (h : e.isA .os = true) : e = .os ∨ e = .fileNotFound := by
  cases e <;> simp [PyErr.isA] at h ⊢

theorem Spec.RowsOfPages.nil (fs : FileSys F) (ref : Spectrum F) (dir : String) :
    RowsOfPages fs ref dir [] [] := ⟨[], .nil, rfl⟩

theorem Spec.RowsOfPages.append {fs : FileSys F} {ref : Spectrum F} {dir : String}
    {ps qs : List LibPage} {rs ts : List (Row F)} (h1 : RowsOfPages fs ref dir ps rs)
    (h2 : RowsOfPages fs ref dir qs ts) : RowsOfPages fs ref dir (ps ++ qs) (rs ++ ts) := by
  obtain ⟨a, ha, rfl⟩ := h1
  obtain ⟨b, hb, rfl⟩ := h2
  exact ⟨a ++ b, List.rel_append ha hb, by simp⟩

theorem Spec.RowsOfPages.flat {α : Type} {fs : FileSys F} {ref : Spectrum F} {dir : String}
    {g : α → List LibPage} {f : α → Res (List (Row F))}
    (hf : ∀ x rows, f x = .ok rows → RowsOfPages fs ref dir (g x) rows) {xs : List α}
    {parts : List (List (Row F))} (h : xs.mapM f = .ok parts) :
    RowsOfPages fs ref dir (xs.flatMap g) parts.flatten := by
  have h2 := mapM_forall₂ h
  clear h
  induction h2 with
  | nil => exact .nil ..
  | cons h1 _ ih =>
    rw [List.flatMap_cons, List.flatten_cons]
    exact (hf _ _ h1).append ih

theorem dataFolder_cases {fs : FileSys F} {dir folder : String}
    (h : dataFolder fs dir = .ok folder) :
    folder = "database/data" ∨ folder = "database/data-nk" := by
  unfold dataFolder at h
  split at h
  · exact .inl (by cases h; rfl)
  · split at h
    · exact .inr (by cases h; rfl)
    · cases h

/-- Everything in the row of a page. -/
theorem pageRow_spec {ref : Spectrum F} {book fullName page rel : String} {m : Material F}
    {r : Row F} (h : pageRow ref book fullName page rel m = .ok r) :
    r.al = .str "" ∧ r.name = .str book ∧ r.fullName = .str fullName ∧ r.author = .str page ∧
    r.path = .str (normPath rel) ∧ r.modl = .str "RefractiveIndexInfo" ∧
    r.stype = .str "wavelength" ∧ r.unit = .str "micrometer" ∧ MetaOf m "Reference" r.reference ∧
    MetaOf m "Comment" r.comment ∧ BoundsOf m r ∧ RefOf m ref r := by
  unfold pageRow at h
  obtain ⟨rg, h5, h⟩ := except_bind_ok h
  obtain ⟨lo, h6, h⟩ := except_bind_ok h
  obtain ⟨hi, h7, h⟩ := except_bind_ok h
  obtain ⟨c1, h1, h⟩ := except_bind_ok h
  obtain ⟨c2, h2, h⟩ := except_bind_ok h
  obtain ⟨v, h8, h⟩ := except_bind_ok h
  obtain ⟨rest, hb⟩ := bounds_spec h6 h7
  cases h
  exact ⟨rfl, rfl, rfl, rfl, rfl, rfl, rfl, rfl, metaCell_spec h1, metaCell_spec h2,
    ⟨rg, rest, h5, hb⟩, refIndex_spec h8 rfl rfl⟩

theorem readPage_spec {fs : FileSys F} {ref : Spectrum F} {dir book fullName : String}
    (p : Page) (rows : List (Row F)) (h : readPage fs ref dir book fullName p = .ok rows) :
    RowsOfPages fs ref dir (pageOf book fullName p) rows := by
  cases p with
  | divider => have : rows = [] := by cases h; rfl
               subst this; exact .nil ..
  | other => have : rows = [] := by cases h; rfl
             subst this; exact .nil ..
  | page pid data =>
    simp only [readPage] at h
    obtain ⟨folder, hf, h⟩ := except_bind_ok h
    have hc := dataFolder_cases hf
    split at h
    · rename_i e he
      split at h
      · rename_i hos
        have : rows = [] := by cases h; rfl
        subst this
        exact ⟨[[]], .cons (.inl ⟨⟨folder, e, hc, he, isA_os hos⟩, rfl⟩) .nil, rfl⟩
      · cases h
    · rename_i m hm
      obtain ⟨r, hr, h⟩ := except_bind_ok h
      have : rows = [r] := by cases h; rfl
      subst this
      exact ⟨[[r]], .cons (.inr ⟨r, ⟨folder, m, hc, hm, pageRow_spec hr⟩, rfl⟩) .nil, rfl⟩

theorem readBook_spec {fs : FileSys F} {ref : Spectrum F} {dir : String} (b : Book)
    (rows : List (Row F)) (h : readBook fs ref dir b = .ok rows) :
    RowsOfPages fs ref dir (pagesOfBook b) rows := by
  cases b with
  | divider => have : rows = [] := by cases h; rfl
               subst this; exact .nil ..
  | other => have : rows = [] := by cases h; rfl
             subst this; exact .nil ..
  | book id name pages =>
    simp only [readBook] at h
    obtain ⟨parts, hp, h⟩ := except_bind_ok h
    have : rows = parts.flatten := by cases h; rfl
    subst this
    exact RowsOfPages.flat (fun p rows => readPage_spec p rows) hp

/-- C60 for libraries: if the library can be catalogued, there is one row for every page of its
books, in order, and none for the pages whose file cannot be opened. -/
theorem C60_pages {fs : FileSys F} {ref : Spectrum F} {dir : String} {rows : List (Row F)}
    (h : readRii fs ref dir = .ok rows) :
    ∃ shelves, readLibrary fs dir = .ok shelves ∧ RowsOfPages fs ref dir (pagesOf shelves) rows := by
  unfold readRii at h
  obtain ⟨shelves, hs, h⟩ := except_bind_ok h
  obtain ⟨parts, hp, h⟩ := except_bind_ok h
  have : rows = parts.flatten := by cases h; rfl
  subst this
  refine ⟨shelves, hs, ?_⟩
  have := RowsOfPages.flat (fun b rows => readBook_spec b rows) hp
  rwa [List.flatMap_assoc] at this

/-! ## The refutation -/

open Classical in
/-- C60 (full statement, refuted below), for folders of files: there is one row for every data
file that can be loaded. -/
def C60_statement (F : Type) [PyFloat F] [SciPy F] [NumText F] : Prop :=
  ∀ (fs : FileSys F) (ref : Spectrum F) (dir modl : String) (names : List String),
    fs.listdir dir = .ok names → ∃ rows, readTextDb fs ref dir modl = .ok rows ∧
      List.Forall₂ (fun file r => ∃ stem, DataName file stem ∧ r.name = .str stem)
        (names.filter (fun f => decide (fs.isfile (joinPath dir f) = true ∧ DataFile f ∧
          ∃ fd, fs.read (joinPath dir f) = .ok fd))) rows

/-- C60 is false: a single file that cannot be read, and nothing is catalogued. -/
theorem C60_refuted : ¬ C60_statement F := by
  intro h
  let fs : FileSys F := ⟨fun _ => .ok ["notes.txt"], fun _ => true, fun _ => false,
    fun _ => .error .value, fun _ => .error .os⟩
  obtain ⟨rows, h1, -⟩ := h fs defaultSpec "/cat/UserData" "UserData" ["notes.txt"] rfl
  obtain ⟨e, he⟩ := C60_aborts (fs := fs) (ref := defaultSpec) (dir := "/cat/UserData")
    (modl := "UserData") rfl (f := "notes.txt") (by simp) rfl
    ⟨"notes", ".txt", by decide, by decide +kernel, 'n', by decide +kernel, by decide⟩ rfl
  rw [he] at h1
  cases h1

/-! ## Reference values -/

omit [NumText F] in
/-- The reference values for parts that are Constants or tables on wavelengths in metres, and a
reference point in any type and unit: the complex index if the point lies in the ranges of both
parts, and NaN otherwise. -/
theorem C60_reference_partial [SciPy XR] {m : Material XR} {r i : RealData XR} {vs ws : List XR}
    (hc : m.cplx = none) (hn : m.name = "nk" ∨ m.name = "eps") (hr : m.real = some r)
    (hi : m.imag = some i) (pr : MetrePart r vs) (pi : MetrePart i ws) {raw : Raw XR}
    {t u : String} {ref : Spectrum XR} (hraw : FloatInput raw) (hnew : Spectrum.new raw t u = .ok ref)
    {ys : List ℝ} (hs : StandsFor ref ys) {row : Row XR} (h : RefOf m ref row) :
    (Within vs (ys.map XR.fin) ∧ Within ws (ys.map XR.fin) →
      ∃ v, (m.getNk ref).1 = .ok v ∧ TwoColumns v row.nRef row.kRef) ∧
    (¬ (Within vs (ys.map XR.fin) ∧ Within ws (ys.map XR.fin)) →
      row.nRef = .scalar PyFloat.nan ∧ row.kRef = .scalar PyFloat.nan) := by
  have key := stored_within hc hr hi pr pi (aligned_new hraw hnew) hs
  have hnk := getNk_fresh m ⟨raw, t, u, hnew⟩ hn
  constructor
  · intro hw
    obtain ⟨v, hv⟩ := key.2 hw
    rcases h with h | ⟨e, he, -⟩
    · exact h
    · rw [hnk, hv] at he
      cases he
  · intro hw
    rcases h with ⟨v, hv, -⟩ | ⟨e, -, -, h⟩
    · refine absurd (key.1 ?_) hw
      rw [hnk] at hv
      cases hx : (m.evalStored ref).1 with
      | error e => rw [hx] at hv; cases hv
      | ok v => exact ⟨v, rfl⟩
    · exact h

/-! ## C71 -/

/-- Making a Material from a file depends on what is read, not on the name of the file. -/
theorem new_row_congr {rd : String → Res (FileDict F)} {p q t u : String} (h : rd p = rd q) :
    Material.new rd (rowKw p (.str t) (.str u)) = Material.new rd (rowKw q (.str t) (.str u)) := by
  rw [new_row, new_row, h]
  rfl

/-- C71 for files: the row of a file leads to that file. -/
theorem C71_file {fs : FileSys F} {ref : Spectrum F} {base modl file : String} {r : Row F}
    (hfs : ∀ p, fs.read (normPath p) = fs.read p) (h : textRow fs ref (joinPath base modl) modl file =
      .ok r) (h1 : file.toList.head? ≠ some '/') (h2 : '\\' ∉ file.toList) :
    Leads fs.read ref base r := by
  obtain ⟨m, hm, -, -, hp, hmod, ht, hu, -, -, -, -, hb, hr⟩ := textRow_spec h
  refine ⟨m, ?_, hb, hr⟩
  unfold loadRow
  rw [hp, hmod, ht, hu]
  simp only [Cell.toPy]
  rw [row_path h1 h2, new_row_congr (hfs _)]
  exact hm

/-- C71 for pages: the row of a page leads to its file. -/
theorem C71_page {fs : FileSys F} {ref : Spectrum F} {base : String} {p : LibPage} {r : Row F}
    (hfs : ∀ p, fs.read (normPath p) = fs.read p)
    (h : PageRow fs ref (joinPath base "RefractiveIndexInfo") p r)
    (h1 : p.data.toList.head? ≠ some '/') (h2 : '\\' ∉ p.data.toList) :
    Leads fs.read ref base r := by
  obtain ⟨folder, m, hf, hm, -, -, -, -, hp, hmod, ht, hu, -, -, hb, hr⟩ := h
  refine ⟨m, ?_, hb, hr⟩
  unfold loadRow
  rw [hp, hmod, ht, hu]
  simp only [Cell.toPy]
  have hj : (joinPath folder p.data).toList = folder.toList ++ '/' :: p.data.toList := by
    unfold joinPath joinChars
    rw [String.toList_ofList, if_neg h1]
    rcases hf with rfl | rfl
    · rw [if_neg (by decide +kernel)]
    · rw [if_neg (by decide +kernel)]
  rw [row_path, new_row_congr (hfs _)]
  · exact hm
  · rw [hj]; rcases hf with rfl | rfl <;> exact (by simp : some 'd' ≠ some '/')
  · rw [hj, List.mem_append, List.mem_cons]
    rintro (h | h | h)
    · rcases hf with rfl | rfl <;> revert h <;> decide +kernel
    · exact absurd h (by decide)
    · exact h2 h

/-- The names that a file system and its libraries give to data files: file names of folders have
no slash or backslash, paths in libraries are relative and have no backslash. -/
def PlainNames (fs : FileSys F) : Prop :=
  (∀ dir names, fs.listdir dir = .ok names → ∀ f ∈ names, '/' ∉ f.toList ∧ '\\' ∉ f.toList) ∧
  (∀ p shelves, fs.library p = .ok shelves → ∀ q ∈ pagesOf shelves,
    q.data.toList.head? ≠ some '/' ∧ '\\' ∉ q.data.toList)

theorem readTextDb_leads {fs : FileSys F} {ref : Spectrum F} {base modl : String}
    (hfs : ∀ p, fs.read (normPath p) = fs.read p) (hp : PlainNames fs) {rows : List (Row F)}
    (h : readTextDb fs ref (joinPath base modl) modl = .ok rows) :
    ∀ r ∈ rows, Leads fs.read ref base r := by
  intro r hr
  unfold readTextDb at h
  obtain ⟨names, hn, h⟩ := except_bind_ok h
  obtain ⟨f, hf, hrow⟩ := mapM_ok_mem h hr
  obtain ⟨p1, p2⟩ := hp.1 _ _ hn f (List.mem_of_mem_filter (List.mem_of_mem_filter hf))
  exact C71_file hfs hrow (fun e => p1 (List.mem_of_mem_head? e)) p2

theorem readRii_leads {fs : FileSys F} {ref : Spectrum F} {base : String}
    (hfs : ∀ p, fs.read (normPath p) = fs.read p) (hp : PlainNames fs) {rows : List (Row F)}
    (h : readRii fs ref (joinPath base "RefractiveIndexInfo") = .ok rows) :
    ∀ r ∈ rows, Leads fs.read ref base r := by
  obtain ⟨shelves, hs, parts, hparts, rfl⟩ := C60_pages h
  have hlib : ∃ p, fs.library p = .ok shelves := by
    unfold readLibrary at hs
    split at hs
    · exact ⟨_, hs⟩
    · exact ⟨_, hs⟩
  obtain ⟨p, hlib⟩ := hlib
  have hq := hp.2 p shelves hlib
  clear hs h hlib
  generalize pagesOf shelves = ps at hparts hq
  induction hparts with
  | nil => simp
  | @cons q part ps parts h1 _ ih =>
    intro r hr
    rw [List.flatten_cons, List.mem_append] at hr
    rcases hr with hr | hr
    · rcases h1 with ⟨-, rfl⟩ | ⟨r', h1, rfl⟩
      · cases hr
      · rw [List.mem_singleton] at hr
        subst hr
        obtain ⟨q1, q2⟩ := hq q (List.mem_cons_self ..)
        exact C71_page hfs h1 q1 q2
    · exact ih (fun q h => hq q (List.mem_cons_of_mem _ h)) r hr

/-- C71: every row of a catalogue that was built can be loaded by its number, and its bounds and
reference values are those of the loaded material; rows that were kept from the stored catalogue
have this property if they had it before. -/
theorem C71_loads {fs : FileSys F} {ref : Spectrum F} {base : String}
    (hfs : ∀ p, fs.read (normPath p) = fs.read p) (hp : PlainNames fs)
    {ms : List (String × Bool)} {old g : Frame F} {rb : Rebuild}
    (hold : ∀ p ∈ old, Leads fs.read ref base p.2)
    (h : buildCatalogue fs ref base ms old rb = .ok g) (n : Nat) {l : Int} {r : Row F}
    (hn : g[n]? = some (l, r)) :
    ∃ m, getMaterial fs.read base g (.int n) = .ok m ∧ BoundsOf m r ∧ RefOf m ref r := by
  have key : Leads fs.read ref base r := by
    unfold buildCatalogue at h
    obtain ⟨parts, hparts, h⟩ := except_bind_ok h
    have hg : g = numbered parts.flatten := by cases h; rfl
    have hr : r ∈ parts.flatten := by
      have := List.mem_map_of_mem (f := Prod.snd) (List.mem_of_getElem? hn)
      rw [hg, numbered_rows] at this
      exact this
    obtain ⟨part, hpart, hr⟩ := List.mem_flatten.1 hr
    obtain ⟨⟨modl, en⟩, -, hb⟩ := mapM_ok_mem hparts hpart
    simp only [buildModule] at hb
    cases en with
    | false =>
      simp only [Bool.false_eq_true, if_false] at hb
      split at hb
      · cases hb
      · have : part = [] := by cases hb; rfl
        subst this; cases hr
    | true =>
      simp only [if_true] at hb
      obtain ⟨b, -, hb⟩ := except_bind_ok hb
      cases b with
      | false =>
        have : part = (old.filter (fun p => p.2.modl = .str modl)).map Prod.snd := by
          cases hb; rfl
        subst this
        obtain ⟨p, hp', rfl⟩ := List.mem_map.1 hr
        exact hold p (List.mem_of_mem_filter hp')
      | true =>
        simp only [if_true] at hb
        unfold readModule at hb
        split at hb
        · rename_i e; subst e; exact readRii_leads hfs hp hb r hr
        · split at hb
          · rename_i e; subst e; exact readTextDb_leads hfs hp hb r hr
          · split at hb
            · rename_i e; subst e; exact readTextDb_leads hfs hp hb r hr
            · cases hb
  obtain ⟨m, hm, h1, h2⟩ := key
  refine ⟨m, ?_, h1, h2⟩
  unfold getMaterial findRow
  simp only [iloc]
  rw [if_pos (by omega), Int.toNat_natCast, hn]
  exact hm

end Disp
