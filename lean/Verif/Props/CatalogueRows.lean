import Verif.Props.Building
import Verif.Lemmas.Paths
import Verif.Props.MaterialRange
/-!
# C60, C71: the rows of the modules
-/

namespace Disp

/-! ## Specification -/

namespace Spec

/-- The extensions of data files. -/
def dataExt : List String := [".txt", ".csv", ".yml"]

/-- A file name that ends in one of the extensions, with something other than dots before it. -/
def DataName (f stem : String) : Prop :=
  ∃ e ∈ dataExt, f = stem ++ e ∧ ∃ c ∈ stem.toList, c ≠ '.'

/-- Is this the name of a data file? -/
def DataFile (f : String) : Prop := ∃ stem, DataName f stem

/-- A name of a directory entry. -/
def EntryName (f : String) : Prop :=
  f ≠ "" ∧ f ≠ "." ∧ f ≠ ".." ∧ '/' ∉ f.toList

variable {F : Type} [PyFloat F] [SciPy F]

/-- The two columns of a complex index: its real and its imaginary part. -/
inductive TwoColumns : CVals F → Vals F → Vals F → Prop
  | number {z : Cx F} : TwoColumns (.scalar z) (.scalar z.re) (.scalar z.im)
  | list {zs : List (Cx F)} : TwoColumns (.array zs) (.array .float (zs.map Cx.re))
      (.array .float (zs.map Cx.im))

/-- The reference columns: the complex index at the reference point, or NaN if the material
refuses the point with a ValueError. -/
def RefOf (m : Material F) (ref : Spectrum F) (r : Row F) : Prop :=
  (∃ v, (m.getNk ref).1 = .ok v ∧ TwoColumns v r.nRef r.kRef) ∨
  (∃ e, (m.getNk ref).1 = .error e ∧ e.isA .value ∧ r.nRef = .scalar PyFloat.nan ∧
    r.kRef = .scalar PyFloat.nan)

/-- The bounds of a row are the first two numbers of the range that the material reports. -/
def BoundsOf (m : Material F) (r : Row F) : Prop :=
  ∃ v rest, m.maxRange = .ok v ∧ v.toList = r.lower :: r.upper :: rest

/-- A column with the metadata as they are. -/
inductive InColumn : MetaVal → Cell → Prop
  | text {s : String} : InColumn (.str s) (.str s)
  | dict {d : List (String × String)} : InColumn (.dict d) (.dict d)

/-- The text in a column is that in the metadata of the material. -/
def MetaOf (m : Material F) (key : String) (c : Cell) : Prop :=
  ∃ md v, m.metaData = some md ∧ dictGet md key = .ok v ∧ InColumn v c

end Spec

open Spec

/-! ## Extensions -/

theorem splitExt_dot {stem ext : List Char} (h : '.' ∉ ext) :
    splitExt (String.ofList (stem ++ '.' :: ext)) =
      if ∃ c ∈ stem, c ≠ '.' then (String.ofList stem, String.ofList ('.' :: ext))
      else (String.ofList (stem ++ '.' :: ext), "") := by
  have hx : ∀ c ∈ ext.reverse, decide (c ≠ '.') = true := by
    intro c hc
    simp only [decide_eq_true_eq]
    rintro rfl
    exact h (List.mem_reverse.1 hc)
  have hr : (stem ++ '.' :: ext).reverse = ext.reverse ++ '.' :: stem.reverse := by simp
  have e1 : (stem ++ '.' :: ext).reverse.takeWhile (fun c => decide (c ≠ '.')) = ext.reverse := by
    rw [hr, List.takeWhile_append_of_pos hx, List.takeWhile_cons_of_neg (by simp), List.append_nil]
  have e2 : (stem ++ '.' :: ext).reverse.dropWhile (fun c => decide (c ≠ '.')) =
      '.' :: stem.reverse := by
    rw [hr, List.dropWhile_append_of_pos hx, List.dropWhile_cons_of_neg (by simp)]
  unfold splitExt
  simp only [String.toList_ofList, e1, e2, List.tail_cons, List.reverse_reverse]
  simp

theorem splitExt_none {s : String} (h : '.' ∉ s.toList) : splitExt s = (s, "") := by
  unfold splitExt
  simp [h]

theorem last_dot (l : List Char) (h : '.' ∈ l) : ∃ a b, l = a ++ '.' :: b ∧ '.' ∉ b := by
  induction l with
  | nil => cases h
  | cons c cs ih =>
    by_cases hc : '.' ∈ cs
    · obtain ⟨a, b, rfl, hb⟩ := ih hc
      exact ⟨c :: a, b, rfl, hb⟩
    · rcases List.mem_cons.1 h with rfl | h
      · exact ⟨[], cs, rfl, hc⟩
      · exact absurd h hc

theorem ext_form {e : String} (he : e ∈ dataExt) : ∃ x, e.toList = '.' :: x ∧ '.' ∉ x := by
  simp only [dataExt, List.mem_cons, List.not_mem_nil, or_false] at he
  rcases he with rfl | rfl | rfl
  · exact ⟨['t', 'x', 't'], rfl, by decide⟩
  · exact ⟨['c', 's', 'v'], rfl, by decide⟩
  · exact ⟨['y', 'm', 'l'], rfl, by decide⟩

theorem dataName_iff (f stem : String) :
    DataName f stem ↔ (splitExt f).1 = stem ∧ (splitExt f).2 ∈ dataExt := by
  constructor
  · rintro ⟨e, he, rfl, hc⟩
    obtain ⟨x, hx, hd⟩ := ext_form he
    have : stem ++ e = String.ofList (stem.toList ++ '.' :: x) := by
      rw [← hx, ← String.toList_append, String.ofList_toList]
    rw [this, splitExt_dot hd, if_pos hc]
    refine ⟨String.ofList_toList, ?_⟩
    show String.ofList ('.' :: x) ∈ dataExt
    rw [← hx, String.ofList_toList]
    exact he
  · rintro ⟨h1, h2⟩
    by_cases hdot : '.' ∈ f.toList
    · obtain ⟨a, b, hab, hb⟩ := last_dot _ hdot
      have hf : f = String.ofList (a ++ '.' :: b) := by rw [← hab, String.ofList_toList]
      rw [hf, splitExt_dot hb] at h1 h2
      split at h1
      · rename_i hc
        rw [if_pos hc] at h2
        refine ⟨_, h2, ?_, ?_⟩
        · rw [hf, ← h1, ← String.ofList_append]
        · rw [← h1, String.toList_ofList]
          exact hc
      · rename_i hc
        rw [if_neg hc] at h2
        exact absurd h2 (show "" ∉ dataExt by decide)
    · rw [splitExt_none hdot] at h2
      exact absurd h2 (show "" ∉ dataExt by decide)

theorem dataFile_iff (f : String) : allowedExt.contains (splitExt f).2 = true ↔ DataFile f := by
  rw [List.contains_iff_mem]
  constructor
  · intro h; exact ⟨_, (dataName_iff f _).2 ⟨rfl, h⟩⟩
  · rintro ⟨stem, h⟩; exact ((dataName_iff f stem).1 h).2

/-- The name of a directory entry is normalised. -/
theorem normPath_entry {f : String} (h : EntryName f) : normPath f = f := by
  obtain ⟨h1, h2, h3, h4⟩ := h
  have hh : f.toList.head? ≠ some '/' := by
    intro e
    exact h4 (List.mem_of_mem_head? e)
  have ne : ∀ s : String, f ≠ s → f.toList ≠ s.toList := fun s hs e => hs (String.toList_inj.1 e)
  unfold normPath
  rw [(normChars_rel hh).1, normComps, splitOnChar_none h4, List.foldl_cons, List.foldl_nil,
    normStep_push (by
      rintro (e | e)
      · exact ne "" h1 e
      · exact ne "." h2 e) (ne ".." h3)]
  exact String.ofList_toList

/-! ## Rows of data files -/

theorem mapM_ok_of_mem {α β : Type} {f : α → Res β} {xs : List α} {ys : List β}
    (h : xs.mapM f = .ok ys) {x : α} (hx : x ∈ xs) : ∃ y ∈ ys, f x = .ok y := by
  have h2 := mapM_forall₂ h
  clear h
  induction h2 with
  | nil => cases hx
  | cons h1 _ ih =>
    rcases List.mem_cons.1 hx with rfl | hx
    · exact ⟨_, List.mem_cons_self .., h1⟩
    · obtain ⟨r, hr, h⟩ := ih hx
      exact ⟨r, List.mem_cons_of_mem _ hr, h⟩

variable {F : Type} [PyFloat F] [SciPy F] [NumText F]

omit [PyFloat F] [SciPy F] [NumText F] in
theorem Spec.TwoColumns.of (v : CVals F) : TwoColumns v v.reals v.imags := by
  cases v
  · exact .number
  · exact .list

theorem refIndex_spec {m : Material F} {ref : Spectrum F} {v : CVals F}
    (h : refIndex m ref = .ok v) {r : Row F} (h1 : r.nRef = v.reals) (h2 : r.kRef = v.imags) :
    RefOf m ref r := by
  unfold refIndex at h
  split at h
  · rename_i w hw
    have : w = v := by cases h; rfl
    subst this
    refine .inl ⟨w, hw, ?_⟩
    rw [h1, h2]
    exact .of w
  · rename_i e he
    by_cases hv : e.isA .value = true
    · rw [if_pos hv] at h
      have : v = .scalar ⟨PyFloat.nan, PyFloat.nan⟩ := by cases h; rfl
      subst this
      exact .inr ⟨e, he, hv, h1, h2⟩
    · rw [if_neg hv] at h; cases h

theorem metaCell_spec {m : Material F} {k : String} {c : Cell} (h : metaCell m k = .ok c) :
    MetaOf m k c := by
  unfold metaCell at h
  split at h
  · rename_i md hmd
    obtain ⟨v, hv, h⟩ := except_bind_ok h
    refine ⟨md, v, hmd, hv, ?_⟩
    cases h
    cases v
    · exact .text
    · exact .dict
  · cases h

theorem bounds_spec {v : Vals F} {lo hi : F} (h1 : pyIdx v.toList 0 = .ok lo)
    (h2 : pyIdx v.toList 1 = .ok hi) : ∃ rest, v.toList = lo :: hi :: rest := by
  cases hl : v.toList with
  | nil => rw [hl] at h1; simp [pyIdx] at h1
  | cons a as =>
    cases as with
    | nil => rw [hl] at h2; simp [pyIdx] at h2
    | cons b bs =>
      rw [hl] at h1 h2
      simp [pyIdx] at h1 h2
      subst h1; subst h2
      exact ⟨bs, rfl⟩

/-- Everything in the row of a data file. -/
theorem textRow_spec {fs : FileSys F} {ref : Spectrum F} {dir modl file : String} {r : Row F}
    (h : textRow fs ref dir modl file = .ok r) :
    ∃ m, Material.new fs.read (rowKw (joinPath dir file) (.str "wavelength") (.str "nanometer")) =
        .ok m ∧
      r.al = .str "" ∧ r.name = .str (splitExt file).1 ∧ r.path = .str (normPath file) ∧
      r.modl = .str modl ∧ r.stype = .str "wavelength" ∧ r.unit = .str "nanometer" ∧
      MetaOf m "FullName" r.fullName ∧ MetaOf m "Author" r.author ∧ MetaOf m "Comment" r.comment ∧
      MetaOf m "Reference" r.reference ∧ BoundsOf m r ∧ RefOf m ref r := by
  unfold textRow at h
  obtain ⟨m, hm, h⟩ := except_bind_ok h
  obtain ⟨c1, h1, h⟩ := except_bind_ok h
  obtain ⟨c2, h2, h⟩ := except_bind_ok h
  obtain ⟨c3, h3, h⟩ := except_bind_ok h
  obtain ⟨c4, h4, h⟩ := except_bind_ok h
  obtain ⟨rg, h5, h⟩ := except_bind_ok h
  obtain ⟨lo, h6, h⟩ := except_bind_ok h
  obtain ⟨hi, h7, h⟩ := except_bind_ok h
  obtain ⟨v, h8, h⟩ := except_bind_ok h
  obtain ⟨rest, hb⟩ := bounds_spec h6 h7
  cases h
  exact ⟨m, hm, rfl, rfl, rfl, rfl, rfl, rfl, metaCell_spec h1, metaCell_spec h2, metaCell_spec h3,
    metaCell_spec h4, ⟨rg, rest, h5, hb⟩, refIndex_spec h8 rfl rfl⟩

open Classical in
/-- C60 for folders of files: if the folder can be catalogued, there is one row, in the order of
the listing, for every file whose name ends in `.txt`, `.csv` or `.yml`; it has the name of the
file without the extension and the texts of the file, the range of the material and its index at
the reference point, NaN if that is refused. Missing: one file that cannot be loaded prevents
the rows of all others (`C60_aborts`, `C60_refuted`). -/
theorem C60_files_partial {fs : FileSys F} {ref : Spectrum F} {dir modl : String}
    {rows : List (Row F)} (h : readTextDb fs ref dir modl = .ok rows) :
    ∃ names, fs.listdir dir = .ok names ∧ List.Forall₂ (fun file r => ∃ stem m,
      DataName file stem ∧
      Material.new fs.read (rowKw (joinPath dir file) (.str "wavelength") (.str "nanometer")) =
        .ok m ∧
      r.al = .str "" ∧ r.name = .str stem ∧ (EntryName file → r.path = .str file) ∧
      r.modl = .str modl ∧ r.stype = .str "wavelength" ∧ r.unit = .str "nanometer" ∧
      MetaOf m "FullName" r.fullName ∧ MetaOf m "Author" r.author ∧ MetaOf m "Comment" r.comment ∧
      MetaOf m "Reference" r.reference ∧ BoundsOf m r ∧ RefOf m ref r)
      (names.filter (fun f => decide (fs.isfile (joinPath dir f) = true ∧ DataFile f))) rows := by
  unfold readTextDb at h
  obtain ⟨names, hn, h⟩ := except_bind_ok h
  refine ⟨names, hn, ?_⟩
  have hf : (names.filter (fun f => fs.isfile (joinPath dir f))).filter
      (fun f => allowedExt.contains (splitExt f).2) =
      names.filter (fun f => decide (fs.isfile (joinPath dir f) = true ∧ DataFile f)) := by
    rw [List.filter_filter]
    apply List.filter_congr
    intro f _
    rw [Bool.eq_iff_iff, Bool.and_eq_true, dataFile_iff, decide_eq_true_eq, and_comm]
  have h2 := mapM_forall₂ h
  rw [hf] at h2
  have hmem : ∀ f ∈ names.filter (fun f => decide (fs.isfile (joinPath dir f) = true ∧ DataFile f)),
      DataFile f := by
    intro f hf
    have := (List.mem_filter.1 hf).2
    exact (of_decide_eq_true this).2
  clear * - h2 hmem
  generalize names.filter (fun f => decide (fs.isfile (joinPath dir f) = true ∧ DataFile f)) = l
    at h2 hmem
  induction h2 with
  | nil => exact .nil
  | @cons f r l rs hr _ ih =>
    refine .cons ?_ (ih (fun f hf => hmem f (List.mem_cons_of_mem _ hf)))
    obtain ⟨m, hm, a1, a2, a3, a4⟩ := textRow_spec hr
    obtain ⟨stem, hs⟩ := hmem f (List.mem_cons_self ..)
    refine ⟨stem, m, hs, hm, a1, ?_, ?_, a4⟩
    · rw [a2, ((dataName_iff f stem).1 hs).1]
    · intro he; rw [a3, normPath_entry he]

/-- C60: a data file that cannot be loaded prevents the catalogue of the whole folder. -/
theorem C60_aborts {fs : FileSys F} {ref : Spectrum F} {dir modl : String} {names : List String}
    (hn : fs.listdir dir = .ok names) {f : String} (hf : f ∈ names)
    (hfile : fs.isfile (joinPath dir f) = true) (hd : DataFile f) {e : PyErr}
    (he : fs.read (joinPath dir f) = .error e) :
    ∃ e', readTextDb fs ref dir modl = .error e' := by
  cases h : readTextDb fs ref dir modl with
  | error e' => exact ⟨e', rfl⟩
  | ok rows =>
    unfold readTextDb at h
    rw [hn] at h
    obtain ⟨r, -, hr⟩ := mapM_ok_of_mem h (List.mem_filter.2 ⟨List.mem_filter.2 ⟨hf, hfile⟩,
      (dataFile_iff f).2 hd⟩)
    obtain ⟨m, hm, -⟩ := textRow_spec hr
    rw [new_row, he] at hm
    cases hm

end Disp
