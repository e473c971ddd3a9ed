import Verif.Lemmas.Csv
import Verif.Py.Ideal
/-!
# The catalogue file: saving and loading (C62)
-/

namespace Disp

variable {F : Type} [PyFloat F] [CsvIO F]

/-- The text of a number is not empty and has no special character. -/
class CsvPlain (F : Type) [PyFloat F] [CsvIO F] : Prop where
  num_ne : ∀ x : F, PyFloat.isNaN x = false → CsvIO.num x ≠ []
  num_plain : ∀ x : F, PyFloat.isNaN x = false →
    ∀ c ∈ CsvIO.num x, c ≠ ',' ∧ c ≠ '"' ∧ c ≠ '\n' ∧ c ≠ '\r' ∧ c ≠ '\x00'

/-- What is assumed of the text of numbers: it is not empty, has no special character and is read
as a number. The number need not be the same: the parser of pandas may be off in the last digit. -/
class CsvLaws (F : Type) [PyFloat F] [CsvIO F] : Prop extends CsvPlain F where
  parse_num : ∀ x : F, PyFloat.isNaN x = false →
    ∃ y : F, CsvIO.parse (CsvIO.num x) = .ok y

namespace Spec

/-- A text cell with a text that survives in a file. -/
def TextCell (cr : Bool) (c : Cell) : Prop := ∃ s : String, c = .str s ∧ CsvSafe cr s.toList

/-- A cell with a number or a missing number. -/
def NumCell (v : Vals F) : Prop := ∃ x, v = .scalar x

/-- The rows that can be stored. -/
structure Storable (r : Row F) : Prop where
  al : TextCell (CsvIO.quotesCr F) r.al
  name : TextCell (CsvIO.quotesCr F) r.name
  fullName : TextCell (CsvIO.quotesCr F) r.fullName
  author : TextCell (CsvIO.quotesCr F) r.author
  comment : TextCell (CsvIO.quotesCr F) r.comment
  reference : TextCell (CsvIO.quotesCr F) r.reference
  stype : TextCell (CsvIO.quotesCr F) r.stype
  unit : TextCell (CsvIO.quotesCr F) r.unit
  lower : PyFloat.isNaN r.lower = false
  upper : PyFloat.isNaN r.upper = false
  nRef : NumCell r.nRef
  kRef : NumCell r.kRef
  path : TextCell (CsvIO.quotesCr F) r.path
  modl : TextCell (CsvIO.quotesCr F) r.modl

/-- `y` is the number whose text is the text of `x`. -/
def Reread (x y : F) : Prop := CsvIO.parse (CsvIO.num x) = .ok y

/-- The same for numbers that may be missing. -/
def RereadCell (v w : Vals F) : Prop :=
  ∀ x, v = .scalar x → ∃ y, w = .scalar y ∧
    (PyFloat.isNaN x = true → y = PyFloat.nan) ∧ (PyFloat.isNaN x = false → Reread x y)

/-- The same row: all texts are the same, all numbers have the same text. -/
structure SameRow (r r' : Row F) : Prop where
  al : r'.al = r.al
  name : r'.name = r.name
  fullName : r'.fullName = r.fullName
  author : r'.author = r.author
  comment : r'.comment = r.comment
  reference : r'.reference = r.reference
  stype : r'.stype = r.stype
  unit : r'.unit = r.unit
  lower : Reread r.lower r'.lower
  upper : Reread r.upper r'.upper
  nRef : RereadCell r.nRef r'.nRef
  kRef : RereadCell r.kRef r'.kRef
  path : r'.path = r.path
  modl : r'.modl = r.modl

/-- Loading the text of the table `f` gives the same rows, labelled by their positions. -/
def RoundTrip (f : Frame F) : Prop :=
  ∃ g : Frame F, loadCsv (csvText f) = some (.ok g) ∧
    g.map Prod.fst = (List.range f.length).map (fun i : Nat => (i : Int)) ∧
    List.Forall₂ SameRow (f.map Prod.snd) (g.map Prod.snd)

end Spec

open Spec

theorem numText_safe [CsvPlain F] (cr : Bool) (x : F) : CsvSafe cr (numText F x) := by
  unfold numText
  split
  · simp [CsvSafe, CrSafe]
  · rename_i h
    have hp := CsvPlain.num_plain x (by simpa using h)
    exact ⟨fun hm => (hp _ hm).2.2.2.2 rfl, fun hm => absurd rfl (hp _ hm).2.2.2.1⟩

theorem Spec.TextCell.text {cr : Bool} {c : Cell} (h : TextCell cr c) :
    CsvSafe cr (c.text F) ∧ textCell (c.text F) = c := by
  obtain ⟨s, rfl, hs⟩ := h
  exact ⟨hs, by simp [textCell, Cell.text]⟩

theorem Spec.NumCell.text [CsvPlain F] {v : Vals F} (h : NumCell v) (cr : Bool) :
    CsvSafe cr v.text := by
  obtain ⟨x, rfl⟩ := h
  exact numText_safe cr x

theorem parseNum_numText [CsvPlain F] {x : F} (h : PyFloat.isNaN x = false)
    (hr : ∃ y, Reread x y) : ∃ y, parseNum (numText F x) = .ok y ∧ Reread x y := by
  obtain ⟨y, hy⟩ := hr
  refine ⟨y, ?_, hy⟩
  have hy' : CsvIO.parse (CsvIO.num x) = .ok y := hy
  simp [parseNum, numText, h, CsvPlain.num_ne x h, hy']

theorem parseRef_text [CsvPlain F] {v : Vals F} (h : NumCell v)
    (hr : ∀ x, v = .scalar x → PyFloat.isNaN x = false → ∃ y, Reread x y) :
    ∃ w, parseRef v.text = .ok w ∧ RereadCell v w := by
  obtain ⟨x, rfl⟩ := h
  by_cases hx : PyFloat.isNaN x = true
  · refine ⟨.scalar PyFloat.nan, by simp [parseRef, Vals.text, numText, hx], ?_⟩
    intro x' e
    have e' : x = x' := by cases e; rfl
    subst e'
    exact ⟨_, rfl, fun _ => rfl, fun h => by simp [hx] at h⟩
  · have hx' : PyFloat.isNaN x = false := by simpa using hx
    obtain ⟨y, hy⟩ := hr x rfl hx'
    have hy' : CsvIO.parse (CsvIO.num x) = .ok y := hy
    refine ⟨.scalar y, ?_, ?_⟩
    · simp [parseRef, Vals.text, numText, hx', CsvPlain.num_ne x hx', hy', bind, Except.bind]
    · intro x' e
      have e' : x = x' := by cases e; rfl
      subst e'
      exact ⟨_, rfl, fun h => absurd h hx, fun _ => hy⟩

theorem Spec.Storable.safe [CsvPlain F] {r : Row F} (h : Storable r) :
    ∀ s ∈ r.fields, CsvSafe (CsvIO.quotesCr F) s := by
  intro s hs
  simp only [Row.fields, List.mem_cons, List.not_mem_nil, or_false] at hs
  rcases hs with rfl | rfl | rfl | rfl | rfl | rfl | rfl | rfl | rfl | rfl | rfl | rfl | rfl | rfl
  · exact h.al.text.1
  · exact h.name.text.1
  · exact h.fullName.text.1
  · exact h.author.text.1
  · exact h.comment.text.1
  · exact h.reference.text.1
  · exact h.stype.text.1
  · exact h.unit.text.1
  · exact numText_safe _ _
  · exact numText_safe _ _
  · exact h.nRef.text _
  · exact h.kRef.text _
  · exact h.path.text.1
  · exact h.modl.text.1

/-- Every number of the row is read as a number. -/
structure Spec.Readable (r : Row F) : Prop where
  lower : ∃ y, Reread r.lower y
  upper : ∃ y, Reread r.upper y
  nRef : ∀ x, r.nRef = .scalar x → PyFloat.isNaN x = false → ∃ y, Reread x y
  kRef : ∀ x, r.kRef = .scalar x → PyFloat.isNaN x = false → ∃ y, Reread x y

theorem Spec.Storable.readable [CsvLaws F] {r : Row F} (h : Storable r) : Readable r where
  lower := CsvLaws.parse_num _ h.lower
  upper := CsvLaws.parse_num _ h.upper
  nRef _ _ hx := CsvLaws.parse_num _ hx
  kRef _ _ hx := CsvLaws.parse_num _ hx

theorem Spec.Storable.reads [CsvPlain F] {r : Row F} (h : Storable r) (hr : Readable r) :
    ∃ r', Row.ofFields r.fields = .ok r' ∧ SameRow r r' := by
  obtain ⟨lo, hlo, hlo'⟩ := parseNum_numText h.lower hr.lower
  obtain ⟨up, hup, hup'⟩ := parseNum_numText h.upper hr.upper
  obtain ⟨n, hn, hn'⟩ := parseRef_text h.nRef hr.nRef
  obtain ⟨k, hk, hk'⟩ := parseRef_text h.kRef hr.kRef
  refine ⟨{ r with lower := lo, upper := up, nRef := n, kRef := k }, ?_,
    ⟨rfl, rfl, rfl, rfl, rfl, rfl, rfl, rfl, hlo', hup', hn', hk', rfl, rfl⟩⟩
  have hlen : ¬ csvColumns.length < r.fields.length := by
    show ¬ (14 < 14)
    decide
  simp only [Row.ofFields, hlen, if_false]
  simp [Row.fields, hlo, hup, hn, hk, bind, Except.bind, (h.al.text (F := F)).2,
    (h.name.text (F := F)).2, (h.fullName.text (F := F)).2, (h.author.text (F := F)).2,
    (h.comment.text (F := F)).2, (h.reference.text (F := F)).2, (h.stype.text (F := F)).2,
    (h.unit.text (F := F)).2, (h.path.text (F := F)).2, (h.modl.text (F := F)).2]

theorem Spec.Storable.read [CsvLaws F] {r : Row F} (h : Storable r) :
    ∃ r', Row.ofFields r.fields = .ok r' ∧ SameRow r r' := h.reads h.readable

theorem csvColumns_safe (cr : Bool) : ∀ s ∈ csvColumns, CsvSafe cr s := by
  intro s hs
  have : '\x00' ∉ s ∧ '\r' ∉ s := by
    revert s
    decide
  exact ⟨this.1, fun h => absurd h this.2⟩

/-- What is read from the text of a table whose fields survive. -/
theorem loadCsv_text {f : Frame F}
    (h : ∀ p ∈ f, ∀ s ∈ p.2.fields, CsvSafe (CsvIO.quotesCr F) s) :
    loadCsv (csvText f) = some (do
      let rows : List (Row F) ← (f.map (fun p => p.2.fields)).mapM Row.ofFields
      .ok (numbered rows)) := by
  have hl : csvLines (csvText f) = .ok (csvColumns :: f.map (fun p => p.2.fields)) := by
    refine csvLines_flatMap (cr := CsvIO.quotesCr F) _ ?_
    intro l hl
    rcases List.mem_cons.1 hl with rfl | hl
    · exact ⟨by decide, csvColumns_safe _⟩
    · obtain ⟨p, hp, rfl⟩ := List.mem_map.1 hl
      exact ⟨by simp [Row.fields], h p hp⟩
  have hf : csvForeign (csvColumns :: f.map (fun p => p.2.fields)) = false := by
    cases f with
    | nil => simp [csvForeign]
    | cons p f => simp [csvForeign, csvColumns, Row.fields]
  simp [loadCsv, hl, hf]

theorem mapM_reads_rows [CsvPlain F] (rows : List (Row F)) (h : ∀ r ∈ rows, Storable r)
    (hr : ∀ r ∈ rows, Readable r) :
    ∃ rows', (rows.map Row.fields).mapM Row.ofFields = .ok rows' ∧
      List.Forall₂ SameRow rows rows' := by
  induction rows with
  | nil => exact ⟨[], rfl, .nil⟩
  | cons r rows ih =>
    obtain ⟨r', hr', hs⟩ := (h r (by simp)).reads (hr r (by simp))
    obtain ⟨rows', hrows, hss⟩ := ih (fun r hr => h r (by simp [hr])) (fun q hq => hr q (by simp [hq]))
    exact ⟨r' :: rows', by simp [hr', hrows, bind, Except.bind, pure, Except.pure], .cons hs hss⟩

theorem mapM_sameRow [CsvLaws F] (rows : List (Row F)) (h : ∀ r ∈ rows, Storable r) :
    ∃ rows', (rows.map Row.fields).mapM Row.ofFields = .ok rows' ∧
      List.Forall₂ SameRow rows rows' :=
  mapM_reads_rows rows h (fun r hr => (h r hr).readable)

omit [PyFloat F] [CsvIO F] in
theorem numbered_fst (rows : List (Row F)) :
    (numbered rows).map Prod.fst = (List.range rows.length).map (fun i : Nat => (i : Int)) := by
  refine List.ext_getElem? (fun i => ?_)
  by_cases h : i < rows.length
  · simp [numbered, List.getElem?_range h, h]
  · simp [numbered, h]

omit [PyFloat F] [CsvIO F] in
theorem numbered_snd (rows : List (Row F)) : (numbered rows).map Prod.snd = rows := by
  refine List.ext_getElem? (fun i => ?_)
  by_cases h : i < rows.length
  · simp [numbered, h]
  · simp [numbered, h]

/-- Loading the saved file of a table whose numbers are read as numbers. -/
theorem roundTrip_readable [CsvPlain F] (f : Frame F) (h : ∀ p ∈ f, Storable p.2)
    (hr : ∀ p ∈ f, Readable p.2) : RoundTrip f := by
  have hl := loadCsv_text (f := f) (fun p hp => (h p hp).safe)
  obtain ⟨rows, hrows, hs⟩ := mapM_reads_rows (f.map Prod.snd) (by
    intro r hr
    obtain ⟨p, hp, rfl⟩ := List.mem_map.1 hr
    exact h p hp) (by
    intro r hr'
    obtain ⟨p, hp, rfl⟩ := List.mem_map.1 hr'
    exact hr p hp)
  rw [List.map_map] at hrows
  have hrows' : (f.map (fun p => p.2.fields)).mapM Row.ofFields = .ok rows := hrows
  refine ⟨numbered rows, ?_, ?_, ?_⟩
  · rw [hl, hrows']; rfl
  · have hlen := hs.length_eq
    rw [List.length_map] at hlen
    rw [hlen, numbered_fst]
  · rw [numbered_snd]; exact hs

/-- **C62**, for tables whose texts have no NUL and no carriage return outside of quotes, whose
bounds are numbers and whose reference values are numbers or missing: loading the saved file
gives the same rows in the same order. -/
theorem C62_roundtrip_partial [CsvLaws F] (f : Frame F) (h : ∀ p ∈ f, Storable p.2) :
    RoundTrip f :=
  roundTrip_readable f h (fun p hp => (h p hp).readable)

/-- If numbers are read exactly as they were written, and missing numbers are all alike, nothing
at all changes. -/
theorem C62_exact_partial [CsvLaws F] (f : Frame F) (h : ∀ p ∈ f, Storable p.2)
    (hx : ∀ x : F, PyFloat.isNaN x = false → CsvIO.parse (CsvIO.num x) = .ok x)
    (hn : ∀ x : F, PyFloat.isNaN x = true → x = PyFloat.nan) :
    loadCsv (csvText f) = some (.ok (numbered (f.map Prod.snd))) := by
  obtain ⟨g, hg, h1, h2⟩ := C62_roundtrip_partial f h
  rw [hg]
  have key : g.map Prod.snd = f.map Prod.snd := by
    have hs : ∀ r ∈ f.map Prod.snd, Storable r := by
      intro r hr
      obtain ⟨p, hp, rfl⟩ := List.mem_map.1 hr
      exact h p hp
    generalize f.map Prod.snd = rows at h2 hs
    generalize g.map Prod.snd = rows' at h2
    clear hg h1 h
    induction h2 with
    | nil => rfl
    | @cons r r' rows rows' hr _ ih =>
      rw [ih (fun r hr => hs r (by simp [hr]))]
      congr 1
      have hst := hs r (by simp)
      have num : ∀ {x y : F}, PyFloat.isNaN x = false → Reread x y → y = x := by
        intro x y hx' hy
        have : (Except.ok x : Res F) = .ok y := (hx x hx').symm.trans hy
        cases this; rfl
      have ref : ∀ {v w : Vals F}, NumCell v → RereadCell v w → w = v := by
        rintro v w ⟨x, rfl⟩ hw
        obtain ⟨y, rfl, ha, hb⟩ := hw x rfl
        by_cases hnan : PyFloat.isNaN x = true
        · rw [ha hnan, hn x hnan]
        · rw [num (by simpa using hnan) (hb (by simpa using hnan))]
      have e1 := num hst.lower hr.lower
      have e2 := num hst.upper hr.upper
      have e3 := ref hst.nRef hr.nRef
      have e4 := ref hst.kRef hr.kRef
      obtain ⟨a1, a2, a3, a4, a5, a6, a7, a8, -, -, -, -, a9, a10⟩ := hr
      cases r; cases r'
      simp only at *
      simp [a1, a2, a3, a4, a5, a6, a7, a8, a9, a10, e1, e2, e3, e4]
  have hlen : g.length = f.length := by simpa using congrArg List.length key
  congr 2
  refine List.ext_getElem? (fun i => ?_)
  have k1 := congrArg (fun l => l[i]?) h1
  have k2 := congrArg (fun l => l[i]?) key
  by_cases hi : i < f.length
  · have hi' : i < g.length := hlen ▸ hi
    simp [numbered, hi, hi'] at k1 k2 ⊢
    exact Prod.ext k1 k2
  · have hi' : ¬ i < g.length := hlen ▸ hi
    simp [numbered, hi, hi']

/-- A row with a missing bound makes the file unreadable. -/
theorem ofFields_added (a : String) (hn : PyFloat.isNaN (PyFloat.nan : F) = true) :
    Row.ofFields (F := F) (Row.added (F := F) a).fields = .error .value := by
  have hlen : ¬ csvColumns.length < (Row.added (F := F) a).fields.length := by
    show ¬ (14 < 14)
    decide
  simp only [Row.ofFields, hlen, if_false]
  simp [Row.fields, Row.added, numText, hn, parseNum, bind, Except.bind]

/-- After an alias was registered for a number that is not in the table, the table can be saved,
but the file cannot be loaded: a ValueError is raised. -/
theorem C62_added [CsvLaws F] (hn : PyFloat.isNaN (PyFloat.nan : F) = true) (f : Frame F)
    (h : ∀ p ∈ f, Storable p.2) (n : Int) (hnew : ∀ p ∈ f, p.1 ≠ n) (a : String)
    (hfree : ∀ p ∈ f, p.2.al ≠ .str a) (ha : CsvSafe (CsvIO.quotesCr F) a.toList) :
    ∃ g : Frame F, registerAlias f (.int n) a = .ok g ∧
      loadCsv (F := F) (csvText g) = some (.error .value) := by
  have huse : inUse f a = false := by
    simp only [inUse, List.any_eq_false, decide_eq_true_eq]
    exact hfree
  have hno : f.any (fun p => p.1 = n) = false := by
    simp only [List.any_eq_false, decide_eq_true_eq]
    exact hnew
  refine ⟨f ++ [(n, Row.added a)], by simp [registerAlias, huse, setAt, hno], ?_⟩
  rw [loadCsv_text]
  · obtain ⟨rows, hrows, -⟩ := mapM_sameRow (f.map Prod.snd) (by
      intro r hr
      obtain ⟨p, hp, rfl⟩ := List.mem_map.1 hr
      exact h p hp)
    rw [List.map_map] at hrows
    have hrows' : (f.map (fun p => p.2.fields)).mapM Row.ofFields = .ok rows := hrows
    simp [hrows', ofFields_added a hn, bind, Except.bind]
  · intro p hp s hs
    rcases List.mem_append.1 hp with hp | hp
    · exact (h p hp).safe s hs
    · have e : p = (n, Row.added a) := by simpa using hp
      subst e
      simp only [Row.fields, Row.added, List.mem_cons, List.not_mem_nil, or_false, Cell.text,
        Vals.text, numText, hn, if_true] at hs
      have hs' : s = a.toList ∨ s = [] := by tauto
      rcases hs' with rfl | rfl
      · exact ha
      · simp [CsvSafe, CrSafe]

end Disp
