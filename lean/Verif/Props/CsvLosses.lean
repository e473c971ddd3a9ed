import Verif.Props.CsvRoundTrip
import Verif.Lemmas.PrintingIdeal
/-!
# The catalogue file: what is lost (C62)
-/

namespace Disp

open Spec CsvParser

section
variable {F : Type} [PyFloat F] [CsvIO F] [CsvLaws F]

/-- Python versions before 3.13 do not put a carriage return in quotes. There a name with a carriage return in the first row makes the file unreadable: its line is broken in two, and the
first part has no bounds. -/
theorem C62_cr (hcr : CsvIO.quotesCr F = false) (l : Int) (r : Row F) (hr : Storable r)
    (f : Frame F) (h : ∀ p ∈ f, Storable p.2) :
    loadCsv (F := F) (csvText ((l, { r with name := .str "a\rb" }) :: f)) =
      some (.error .value) := by
  have hlines : csvLines (csvText ((l, { r with name := .str "a\rb" }) :: f)) =
      .ok (csvColumns :: [r.al.text F, ['a']] :: (['b'] :: r.fields.drop 2) ::
        f.map (fun p => p.2.fields)) := by
    have hrest : ∀ s ∈ r.fields.drop 2, CrSafe false s := by
      intro s hs
      have := hr.safe s (List.mem_of_mem_drop hs)
      rw [hcr] at this
      exact this.2
    have hal : CsvSafe false (r.al.text F) := by
      have := (hr.al.text (F := F)).1
      rwa [hcr] at this
    have e : csvText ((l, { r with name := .str "a\rb" }) :: f) =
        csvLine false csvColumns ++ ((csvField false (r.al.text F) ++ ',' :: 'a' :: '\r' :: 'b' ::
          ',' :: csvLine false (r.fields.drop 2)) ++
          (f.map (fun p => p.2.fields)).flatMap (csvLine false)) := by
      simp only [csvText, List.map_cons, List.flatMap_cons, hcr]
      simp [Row.fields, csvLine, Cell.text, csvField, needsQuotes]
    have hstart : CsvParser.start = ⟨.record, [], [], []⟩ := rfl
    rw [csvLines, e, List.foldl_append, hstart,
      fold_line (by decide) (fun s hs => (csvColumns_safe false s hs).2), List.foldl_append,
      List.foldl_append, List.foldl_cons, (ready_record hal.2 _).comma]
    have hstep : List.foldl step ⟨.field, [], [r.al.text F], [csvColumns]⟩
        ('a' :: '\r' :: 'b' :: ',' :: csvLine false (r.fields.drop 2)) =
        List.foldl step ⟨.field, [], [['b']], [csvColumns, [r.al.text F, ['a']]]⟩
          (csvLine false (r.fields.drop 2)) := by
      simp [step, stepField, stepInField, push, endField, endLine, stepRecord]
    simp only [List.nil_append]
    rw [hstep, fold_rest (by simp [Row.fields]) hrest, fold_lines]
    · simp only [finish, bind, Except.bind, Except.ok.injEq]
      have cut : ∀ t : List (List (List Char)), (∀ l ∈ t, ∀ s ∈ l, '\x00' ∉ s) →
          t.map (fun l => l.map (fun w => w.takeWhile (· ≠ '\x00'))) = t := by
        intro t ht
        rw [List.map_congr_left (g := id), List.map_id]
        intro l hl
        rw [List.map_congr_left (g := id), List.map_id]
        · rfl
        · intro s hs
          exact takeWhile_safe (cr := true) ⟨ht l hl s hs, fun _ => .inl rfl⟩
      rw [cut]
      · simp
      · intro l hl s hs
        simp only [List.mem_append, List.mem_cons, List.not_mem_nil, or_false, List.mem_map,
          List.cons_append, List.nil_append] at hl
        rcases hl with hl | hl | hl | ⟨p, hp, rfl⟩
        · exact (csvColumns_safe false s (hl ▸ hs)).1
        · rw [hl] at hs
          rcases List.mem_cons.1 hs with rfl | hs
          · exact hal.1
          · have : s = ['a'] := by simpa using hs
            subst this; decide
        · rw [hl] at hs
          rcases List.mem_cons.1 hs with rfl | hs
          · decide
          · exact (hr.safe s (List.mem_of_mem_drop hs)).1
        · exact ((h p hp).safe s hs).1
    · intro l hl
      obtain ⟨p, hp, rfl⟩ := List.mem_map.1 hl
      refine ⟨by simp [Row.fields], fun s hs => ?_⟩
      have := (h p hp).safe s hs
      rw [hcr] at this
      exact this.2
  have hbad : Row.ofFields (F := F) [r.al.text F, ['a']] = .error .value := by
    simp [Row.ofFields, csvColumns, parseNum, bind, Except.bind]
  simp only [loadCsv, hlines]
  simp [csvForeign, csvColumns, hbad, bind, Except.bind]

/-- A text with a NUL is cut off there. -/
theorem C62_nul (l : Int) (r : Row F) (hr : Storable r) :
    ∃ g : Frame F, loadCsv (F := F) (csvText [(l, { r with name := .str "a\x00b" })]) =
      some (.ok g) ∧ g.map (fun p => p.2.name) = [.str "a"] := by
  have hlines : csvLines (csvText [(l, { r with name := .str "a\x00b" })]) =
      .ok [csvColumns, { r with name := .str "a" }.fields] := by
    rw [csvText, csvLines_cut]
    · simp only [List.map_cons, List.map_nil, Except.ok.injEq, List.cons.injEq, and_true]
      refine ⟨by decide, ?_⟩
      have hs := hr.safe
      simp only [Row.fields, List.mem_cons, List.not_mem_nil, or_false, forall_eq_or_imp,
        forall_eq] at hs
      obtain ⟨h1, -, h3, h4, h5, h6, h7, h8, h9, h10, h11, h12, h13, h14⟩ := hs
      simp only [Row.fields, List.map_cons, List.map_nil, takeWhile_safe h1, takeWhile_safe h3,
        takeWhile_safe h4, takeWhile_safe h5, takeWhile_safe h6, takeWhile_safe h7,
        takeWhile_safe h8, takeWhile_safe h9, takeWhile_safe h10, takeWhile_safe h11,
        takeWhile_safe h12, takeWhile_safe h13, takeWhile_safe h14]
      rfl
    · intro t ht
      simp only [List.map_cons, List.map_nil, List.mem_cons, List.not_mem_nil, or_false] at ht
      rcases ht with rfl | rfl
      · exact ⟨by decide, fun s hs => (csvColumns_safe _ s hs).2⟩
      · refine ⟨by simp [Row.fields], fun s hs => ?_⟩
        have hs' : s = "a\x00b".toList ∨ s ∈ r.fields := by
          simp only [Row.fields, List.mem_cons, List.not_mem_nil, or_false, Cell.text] at hs ⊢
          tauto
        rcases hs' with rfl | hs'
        · intro hm
          exact absurd hm (by decide)
        · exact (hr.safe s hs').2
  have hst : Storable ({ r with name := .str "a" } : Row F) :=
    { hr with name := ⟨"a", rfl, by decide, fun hm => absurd hm (by decide)⟩ }
  obtain ⟨r', hr', hs'⟩ := hst.read
  refine ⟨numbered [r'], ?_, ?_⟩
  · simp only [loadCsv, hlines]
    have hf : csvForeign [csvColumns, { r with name := .str "a" }.fields] = false := by
      simp [csvForeign, csvColumns, Row.fields]
    simp [hf, hr', bind, Except.bind, pure, Except.pure]
  · simpa [numbered] using hs'.name

end

/-- Writing and reading of cells for the demonstration. -/
noncomputable def demoCsv (cr : Bool) : CsvIO XR where
  num := demoText
  parse := demoParse
  dictText _ := []
  arrayText _ := []
  quotesCr := cr

/-- The contract holds for the demonstration. -/
theorem demoCsvLaws (cr : Bool) : @CsvLaws XR _ (demoCsv cr) := by
  letI := demoCsv cr
  refine { num_ne := ?_, num_plain := ?_, parse_num := ?_ }
  · intro x _
    exact (demoText_word x).1
  · intro x _ c hc
    have key : ∀ d : Char, ¬ (d.isDigit = true ∨ d ∈ ['-', 'e', 'i', 'n', 'f', 'a']) → c ≠ d :=
      fun d hd e => demoText_not_mem hd x (e ▸ hc)
    exact ⟨key _ (by decide), key _ (by decide), key _ (by decide), key _ (by decide),
      key _ (by decide)⟩
  · intro x _
    exact ⟨_, demoParse_text x⟩

namespace Spec

/-- A table as users make them: every text cell is a string, every bound is a number and every
reference value is a number or missing. -/
def FullRow (r : Row XR) : Prop :=
  (∀ c ∈ [r.al, r.name, r.fullName, r.author, r.comment, r.reference, r.stype, r.unit, r.path,
    r.modl], ∃ s, c = .str s) ∧ PyFloat.isNaN r.lower = false ∧ PyFloat.isNaN r.upper = false ∧
    NumCell r.nRef ∧ NumCell r.kRef

end Spec

/-- **C62** as stated, for one way to write and read numbers. -/
def C62_statement (io : CsvIO XR) : Prop :=
  ∀ f : Frame XR, (∀ p ∈ f, FullRow p.2) → @RoundTrip XR _ io f

/-- A row. -/
noncomputable def demoCsvRow : Row XR :=
  { al := .str "glass", name := .str "BK7", fullName := .str "Glass, \"BK7\"\nfrom a table",
    author := .str " A. Author", comment := .str "", reference := .str "line 1\nline 2",
    stype := .str "wavelength", unit := .str "nanometer", lower := .fin 300, upper := .fin 2500,
    nRef := .scalar (.fin 2), kRef := .scalar .nan, path := .str "glass/BK7.yml",
    modl := .str "UserData" }

theorem demoCsvRow_storable (io : CsvIO XR) : @Storable XR _ io demoCsvRow := by
  letI := io
  have key : ∀ s : String, '\x00' ∉ s.toList → '\r' ∉ s.toList →
      TextCell (CsvIO.quotesCr XR) (.str s) :=
    fun s h1 h2 => ⟨s, rfl, h1, fun h => absurd h h2⟩
  exact ⟨key _ (by decide) (by decide), key _ (by decide) (by decide), key _ (by decide) (by decide),
    key _ (by decide) (by decide), key _ (by decide) (by decide), key _ (by decide) (by decide),
    key _ (by decide) (by decide), key _ (by decide) (by decide), rfl, rfl, ⟨_, rfl⟩, ⟨_, rfl⟩,
    key _ (by decide) (by decide), key _ (by decide) (by decide)⟩

/-- Two rows with separators, quotes, line breaks and a missing number are stored and loaded. -/
example (cr : Bool) : @RoundTrip XR _ (demoCsv cr) [(0, demoCsvRow), (7, demoCsvRow)] := by
  letI := demoCsv cr
  haveI := demoCsvLaws cr
  refine C62_roundtrip_partial _ ?_
  intro p hp
  have : p.2 = demoCsvRow := by
    rcases List.mem_cons.1 hp with rfl | hp
    · rfl
    · have : p = (7, demoCsvRow) := by simpa using hp
      rw [this]
  rw [this]
  exact demoCsvRow_storable _

/-- The same table after an alias was registered for row 5, which does not exist. -/
example (cr : Bool) : ∃ g, registerAlias [(0, demoCsvRow)] (.int 5) "metal" = .ok g ∧
    @loadCsv XR _ (demoCsv cr) (@csvText XR _ (demoCsv cr) g) = some (.error .value) := by
  letI := demoCsv cr
  haveI := demoCsvLaws cr
  refine C62_added rfl _ ?_ 5 ?_ "metal" ?_ ⟨by decide, fun h => absurd h (by decide)⟩
  · intro p hp
    have : p = (0, demoCsvRow) := by simpa using hp
    subst this
    exact demoCsvRow_storable _
  · intro p hp
    have : p = (0, demoCsvRow) := by simpa using hp
    subst this; decide
  · intro p hp
    have : p = (0, demoCsvRow) := by simpa using hp
    subst this
    simp [demoCsvRow]

/-- C62 is false for every way to write and read numbers, since a NUL ends a text. -/
theorem C62_refuted (io : CsvIO XR) (laws : @CsvLaws XR _ io) : ¬ C62_statement io := by
  letI := io
  haveI := laws
  intro h
  obtain ⟨g, hg, hname⟩ := C62_nul 0 demoCsvRow (demoCsvRow_storable io)
  obtain ⟨g', hg', -, hs⟩ := h [(0, { demoCsvRow with name := .str "a\x00b" })] (by
    intro p hp
    have : p = (0, { demoCsvRow with name := .str "a\x00b" }) := by simpa using hp
    subst this
    refine ⟨?_, rfl, rfl, ⟨_, rfl⟩, ⟨_, rfl⟩⟩
    intro c hc
    simp only [demoCsvRow, List.mem_cons, List.not_mem_nil, or_false] at hc
    rcases hc with rfl | rfl | rfl | rfl | rfl | rfl | rfl | rfl | rfl | rfl <;> exact ⟨_, rfl⟩)
  rw [hg] at hg'
  have e : g = g' := by cases hg'; rfl
  subst e
  have hs' : List.Forall₂ SameRow [{ demoCsvRow with name := .str "a\x00b" }] (g.map Prod.snd) := hs
  generalize hrows : g.map Prod.snd = rows at hs'
  have hn : rows.map Row.name = [.str "a"] := by
    rw [← hrows, List.map_map]; exact hname
  clear hrows hs hg hname h
  cases hs' with
  | cons hr ht =>
    cases ht
    have h1 := hr.name
    have h2 : _ = Cell.str "a" := List.singleton_injective hn
    rw [h1] at h2
    exact absurd h2 (by decide)

end Disp
