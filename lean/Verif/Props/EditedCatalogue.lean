import Verif.Lemmas.Csv
import Verif.Props.CsvRoundTrip
import Verif.Props.TextFiles
import Verif.Model.PandasNumbers
/-!
# C148: catalogue files that were edited with other programs
-/

namespace Disp

open Spec CsvParser

namespace Spec

/-- The names of the columns of a catalogue file. -/
def columnNames : List String :=
  ["Alias", "Name", "FullName", "Author", "Comment", "Reference", "SpectrumType", "Unit",
    "SpectrumLowerBound", "SpectrumUpperBound", "N_Reference", "K_Reference", "Path", "Module"]

/-- A text in quotes, in which quotes are doubled. -/
inductive Quoted : List Char → List Char → Prop
  | nil : Quoted [] []
  | quote {w t : List Char} (h : Quoted w t) : Quoted ('"' :: w) ('"' :: '"' :: t)
  | char {c : Char} {w t : List Char} (hc : c ≠ '"') (h : Quoted w t) : Quoted (c :: w) (c :: t)

/-- The ways to write a field: in quotes, or as it is, if it has neither separators nor line ends
and does not begin with a quote. -/
inductive WritesField : List Char → List Char → Prop
  | quoted {w t : List Char} (h : Quoted w t) : WritesField w ('"' :: (t ++ ['"']))
  | bare {w : List Char} (h : ∀ c ∈ w, c ≠ ',' ∧ c ≠ '\n' ∧ c ≠ '\r') (hq : w.head? ≠ some '"') :
      WritesField w w

/-- The ways to write a line. -/
inductive WritesLine : List (List Char) → List Char → Prop
  | last {w t : List Char} (h : WritesField w t) : WritesLine [w] t
  | more {w t : List Char} {ws : List (List Char)} {l : List Char} (h : WritesField w t)
      (hl : WritesLine ws l) : WritesLine (w :: ws) (t ++ ',' :: l)

/-- A line of blanks. -/
def BlankLine (l : List Char) : Prop := ∀ c ∈ l, c = ' ' ∨ c = '\t'

/-- The ends of lines on Unix and on Windows. -/
def EndsLine (e : List Char) : Prop := e = ['\n'] ∨ e = ['\r', '\n']

/-- The ways to write complete lines, with blank lines between them. -/
inductive WritesLines : List (List (List Char)) → List Char → Prop
  | nil : WritesLines [] []
  | blank {ls : List (List (List Char))} {b e t : List Char} (h : WritesLines ls t)
      (hb : BlankLine b) (he : EndsLine e) : WritesLines ls (t ++ (b ++ e))
  | line {ws : List (List Char)} {ls : List (List (List Char))} {l e t : List Char}
      (h : WritesLines ls t) (hl : WritesLine ws l) (hb : ¬ BlankLine l) (he : EndsLine e) :
      WritesLines (ls ++ [ws]) (t ++ (l ++ e))

/-- The ways to write a file: the last line may lack its end. -/
inductive WritesFile : List (List (List Char)) → List Char → Prop
  | lines {ls : List (List (List Char))} {b t : List Char} (h : WritesLines ls t)
      (hb : BlankLine b) : WritesFile ls (t ++ b)
  | cut {ws : List (List Char)} {ls : List (List (List Char))} {l t : List Char}
      (h : WritesLines ls t) (hl : WritesLine ws l) (hb : ¬ BlankLine l) :
      WritesFile (ls ++ [ws]) (t ++ l)

/-- A file in which a quote is missing: the beginning of a field in quotes, after complete lines
and, possibly, the beginning of a line. -/
def LacksQuote (text : List Char) : Prop :=
  ∃ ls a s w q, WritesLines ls a ∧ (s = [] ∨ ∃ ws l, WritesLine ws l ∧ s = l ++ [',']) ∧
    Quoted w q ∧ text = a ++ (s ++ '"' :: q)

/-- The line of a row: texts are kept, missing fields are empty, bounds are numbers, and the
references of the indices are numbers or missing. -/
structure RowOf {F : Type} [PyFloat F] [CsvIO F] (ws : List (List Char)) (r : Row F) : Prop where
  length : ws.length ≤ 14
  al : r.al = .str (String.ofList (ws.getD 0 []))
  name : r.name = .str (String.ofList (ws.getD 1 []))
  fullName : r.fullName = .str (String.ofList (ws.getD 2 []))
  author : r.author = .str (String.ofList (ws.getD 3 []))
  comment : r.comment = .str (String.ofList (ws.getD 4 []))
  reference : r.reference = .str (String.ofList (ws.getD 5 []))
  stype : r.stype = .str (String.ofList (ws.getD 6 []))
  unit : r.unit = .str (String.ofList (ws.getD 7 []))
  lower : ws.getD 8 [] ≠ [] ∧ CsvIO.parse (ws.getD 8 []) = .ok r.lower
  upper : ws.getD 9 [] ≠ [] ∧ CsvIO.parse (ws.getD 9 []) = .ok r.upper
  nRef : (ws.getD 10 [] = [] ∧ r.nRef = .scalar PyFloat.nan) ∨
    (ws.getD 10 [] ≠ [] ∧ ∃ x, CsvIO.parse (ws.getD 10 []) = .ok x ∧ r.nRef = .scalar x)
  kRef : (ws.getD 11 [] = [] ∧ r.kRef = .scalar PyFloat.nan) ∨
    (ws.getD 11 [] ≠ [] ∧ ∃ x, CsvIO.parse (ws.getD 11 []) = .ok x ∧ r.kRef = .scalar x)
  path : r.path = .str (String.ofList (ws.getD 12 []))
  modl : r.modl = .str (String.ofList (ws.getD 13 []))

end Spec

/-! ## The parser -/

theorem fold_quotedText {w t : List Char} (h : Quoted w t) (u : List Char) (fs : List (List Char))
    (ls : List (List (List Char))) :
    t.foldl step ⟨.quoted, u, fs, ls⟩ = ⟨.quoted, u ++ w, fs, ls⟩ := by
  induction h generalizing u with
  | nil => simp
  | quote h ih =>
    rw [List.foldl_cons, List.foldl_cons]
    have : step (step ⟨.quoted, u, fs, ls⟩ '"') '"' = ⟨.quoted, u ++ ['"'], fs, ls⟩ := by
      simp [step, stepQuote, push]
    rw [this, ih, List.append_assoc]; rfl
  | @char c w t hc h ih =>
    rw [List.foldl_cons]
    have : step ⟨.quoted, u, fs, ls⟩ c = ⟨.quoted, u ++ [c], fs, ls⟩ := by
      simp [step, hc, push]
    rw [this, ih, List.append_assoc]; rfl

theorem fold_bare {s : List Char} (h : ∀ c ∈ s, c ≠ ',' ∧ c ≠ '\n' ∧ c ≠ '\r')
    (w : List Char) (fs : List (List Char)) (ls : List (List (List Char))) :
    s.foldl step ⟨.inField, w, fs, ls⟩ = ⟨.inField, w ++ s, fs, ls⟩ := by
  induction s generalizing w with
  | nil => simp
  | cons c s ih =>
    obtain ⟨h1, h3, h4⟩ := h c (by simp)
    rw [List.foldl_cons]
    have : step ⟨.inField, w, fs, ls⟩ c = ⟨.inField, w ++ [c], fs, ls⟩ := by
      simp [step, stepInField, h1, h3, h4, push]
    rw [this, ih (fun d hd => h d (by simp [hd])), List.append_assoc]; rfl

/-- The states in which a line can end. -/
def CsvParser.Final (p : CsvParser) : Prop :=
  p.state = .field ∨ p.state = .inField ∨ p.state = .quoteInQuoted

theorem writes_field {w t : List Char} (h : WritesField w t) (fs : List (List Char))
    (ls : List (List (List Char))) :
    (t.foldl step ⟨.field, [], fs, ls⟩).Ready w fs ls ∧
      (t.foldl step ⟨.field, [], fs, ls⟩).Final := by
  cases h with
  | quoted h =>
    rw [List.foldl_cons, List.foldl_append]
    have : step ⟨.field, [], fs, ls⟩ '"' = ⟨.quoted, [], fs, ls⟩ := by simp [step, stepField]
    rw [this, fold_quotedText h]
    simp [step, Ready, Final]
  | bare h hq =>
    cases w with
    | nil => simp [Ready, Final]
    | cons c s =>
      obtain ⟨h1, h3, h4⟩ := h c (by simp)
      have h2 : c ≠ '"' := by simpa using hq
      have : step ⟨.field, [], fs, ls⟩ c = ⟨.inField, [c], fs, ls⟩ := by
        simp [step, stepField, h1, h2, h3, h4, push]
      rw [List.foldl_cons, this, fold_bare (fun d hd => h d (by simp [hd]))]
      simp [Ready, Final]

theorem fold_blankBare {s : List Char} (h : ∀ c ∈ s, c ≠ ',' ∧ c ≠ '\n' ∧ c ≠ '\r')
    (w : List Char) (fs : List (List Char)) (ls : List (List (List Char))) :
    (s.foldl step ⟨.blank, w, fs, ls⟩).Ready (w ++ s) fs ls ∧
      (BlankLine s ∨ (s.foldl step ⟨.blank, w, fs, ls⟩).Final) := by
  induction s generalizing w with
  | nil => exact ⟨by simp [Ready], .inl (by simp [BlankLine])⟩
  | cons c s ih =>
    obtain ⟨h1, h3, h4⟩ := h c (by simp)
    rw [List.foldl_cons]
    by_cases hb : c = ' ' ∨ c = '\t'
    · have : step ⟨.blank, w, fs, ls⟩ c = ⟨.blank, w ++ [c], fs, ls⟩ := by
        simp [step, stepBlank, h3, h4, hb, push]
      rw [this]
      obtain ⟨i1, i2⟩ := ih (fun d hd => h d (by simp [hd])) (w ++ [c])
      refine ⟨by rwa [List.append_assoc] at i1, i2.imp_left (fun i => ?_)⟩
      intro d hd
      rcases List.mem_cons.1 hd with rfl | hd
      · exact hb
      · exact i d hd
    · have : step ⟨.blank, w, fs, ls⟩ c = ⟨.inField, w ++ [c], fs, ls⟩ := by
        simp [step, stepBlank, stepInField, h1, h3, h4, hb, push]
      rw [this, fold_bare (fun d hd => h d (by simp [hd]))]
      exact ⟨by simp [Ready], .inr (by simp [Final])⟩

theorem writes_record {w t : List Char} (h : WritesField w t) (ls : List (List (List Char))) :
    (t.foldl step ⟨.record, [], [], ls⟩).Ready w [] ls ∧
      (BlankLine t ∨ (t.foldl step ⟨.record, [], [], ls⟩).Final) := by
  cases h with
  | quoted h =>
    rw [List.foldl_cons, List.foldl_append]
    have : step ⟨.record, [], [], ls⟩ '"' = ⟨.quoted, [], [], ls⟩ := by
      simp [step, stepRecord, stepField]
    rw [this, fold_quotedText h]
    exact ⟨by simp [step, Ready], .inr (by simp [step, Final])⟩
  | bare h hq =>
    cases w with
    | nil => exact ⟨by simp [Ready], .inl (by simp [BlankLine])⟩
    | cons c s =>
      obtain ⟨h1, h3, h4⟩ := h c (by simp)
      have h2 : c ≠ '"' := by simpa using hq
      rw [List.foldl_cons]
      by_cases hb : c = ' ' ∨ c = '\t'
      · have : step ⟨.record, [], [], ls⟩ c = ⟨.blank, [c], [], ls⟩ := by
          simp [step, stepRecord, h3, h4, hb, push]
        rw [this]
        obtain ⟨i1, i2⟩ := fold_blankBare (s := s) (fun d hd => h d (by simp [hd])) [c] [] ls
        refine ⟨i1, i2.imp_left (fun i => ?_)⟩
        intro d hd
        rcases List.mem_cons.1 hd with rfl | hd
        · exact hb
        · exact i d hd
      · have : step ⟨.record, [], [], ls⟩ c = ⟨.inField, [c], [], ls⟩ := by
          simp [step, stepRecord, stepField, h1, h2, h3, h4, hb, push]
        rw [this, fold_bare (fun d hd => h d (by simp [hd]))]
        exact ⟨by simp [Ready], .inr (by simp [Final])⟩

/-- The parser has read a line up to its end. -/
def CsvParser.Read (p : CsvParser) (ws : List (List Char)) (ls : List (List (List Char))) : Prop :=
  ∃ fs w, ws = fs ++ [w] ∧ p.Ready w fs ls ∧ p.Final

theorem writes_rest {ws : List (List Char)} {l : List Char} (h : WritesLine ws l)
    (fs : List (List Char)) (ls : List (List (List Char))) :
    (l.foldl step ⟨.field, [], fs, ls⟩).Read (fs ++ ws) ls := by
  induction h generalizing fs with
  | last h =>
    obtain ⟨h1, h2⟩ := writes_field h fs ls
    exact ⟨fs, _, rfl, h1, h2⟩
  | @more w t ws l h hl ih =>
    rw [List.foldl_append, List.foldl_cons, (writes_field h fs ls).1.comma]
    have := ih (fs ++ [w])
    rwa [List.append_assoc] at this

theorem writes_line {ws : List (List Char)} {l : List Char} (h : WritesLine ws l)
    (hb : ¬ BlankLine l) (ls : List (List (List Char))) :
    (l.foldl step ⟨.record, [], [], ls⟩).Read ws ls := by
  cases h with
  | last h =>
    obtain ⟨h1, h2⟩ := writes_record h ls
    exact ⟨[], _, rfl, h1, h2.resolve_left hb⟩
  | more h hl =>
    rw [List.foldl_append, List.foldl_cons, (writes_record h ls).1.comma]
    exact writes_rest hl [_] ls

theorem CsvParser.Read.ends {p : CsvParser} {ws : List (List Char)} {ls : List (List (List Char))}
    (h : p.Read ws ls) {e : List Char} (he : EndsLine e) :
    e.foldl step p = ⟨.record, [], [], ls ++ [ws]⟩ := by
  obtain ⟨fs, w, rfl, hr, hf⟩ := h
  rcases he with rfl | rfl
  · exact hr.newline hf
  · obtain ⟨st, w', f, l⟩ := p
    obtain ⟨rfl, rfl, rfl, -⟩ := hr
    rcases hf with h | h | h <;>
      · simp only at h
        subst h
        simp [step, stepField, stepInField, stepQuote, endField, endLine]

theorem CsvParser.Read.finish {p : CsvParser} {ws : List (List Char)}
    {ls : List (List (List Char))} (h : p.Read ws ls) : p.finish = .ok (ls ++ [ws]) := by
  obtain ⟨fs, w, rfl, hr, hf⟩ := h
  obtain ⟨st, w', f, l⟩ := p
  obtain ⟨rfl, rfl, rfl, -⟩ := hr
  rcases hf with h | h | h <;>
    · simp only at h
      subst h
      simp [CsvParser.finish, endField, endLine]

theorem fold_blanks {b : List Char} (hb : BlankLine b) (ls : List (List (List Char))) :
    ∃ w, b.foldl step ⟨.record, [], [], ls⟩ = ⟨.record, [], [], ls⟩ ∧ b = [] ∨
      b.foldl step ⟨.record, [], [], ls⟩ = ⟨.blank, w, [], ls⟩ := by
  have key : ∀ (b w : List Char), BlankLine b →
      b.foldl step ⟨.blank, w, [], ls⟩ = ⟨.blank, w ++ b, [], ls⟩ := by
    intro b
    induction b with
    | nil => simp
    | cons c b ih =>
      intro w h
      rw [List.foldl_cons]
      have hc := h c (by simp)
      have : step ⟨.blank, w, [], ls⟩ c = ⟨.blank, w ++ [c], [], ls⟩ := by
        rcases hc with rfl | rfl <;> simp [step, stepBlank, push]
      rw [this, ih _ (fun d hd => h d (by simp [hd])), List.append_assoc]; rfl
  cases b with
  | nil => exact ⟨[], .inl ⟨rfl, rfl⟩⟩
  | cons c b =>
    refine ⟨[c] ++ b, .inr ?_⟩
    rw [List.foldl_cons]
    have hc := hb c (by simp)
    have : step ⟨.record, [], [], ls⟩ c = ⟨.blank, [c], [], ls⟩ := by
      rcases hc with rfl | rfl <;> simp [step, stepRecord, push]
    rw [this, key _ _ (fun d hd => hb d (by simp [hd]))]

theorem writes_lines {t : List (List (List Char))} {text : List Char} (h : WritesLines t text) :
    text.foldl step ⟨.record, [], [], []⟩ = ⟨.record, [], [], t⟩ := by
  induction h with
  | nil => rfl
  | @blank ls b e t h hb he ih =>
    rw [List.foldl_append, List.foldl_append, ih]
    obtain ⟨w, ⟨h1, -⟩ | h1⟩ := fold_blanks hb ls
    · rw [h1]
      rcases he with rfl | rfl <;> simp [step, stepRecord]
    · rw [h1]
      rcases he with rfl | rfl <;> simp [step, stepBlank]
  | line h hl hb he ih =>
    rw [List.foldl_append, List.foldl_append, ih, (writes_line hl hb _).ends he]

/-- The parser reads the lines that were written. -/
theorem writes_file {t : List (List (List Char))} {text : List Char} (h : WritesFile t text) :
    (text.foldl step ⟨.record, [], [], []⟩).finish = .ok t := by
  cases h with
  | lines h hb =>
    rw [List.foldl_append, writes_lines h]
    obtain ⟨w, ⟨h1, -⟩ | h1⟩ := fold_blanks hb t <;> simp [h1, CsvParser.finish]
  | cut h hl hb =>
    rw [List.foldl_append, writes_lines h]
    exact (writes_line hl hb _).finish

/-- After a comma the next field begins. -/
theorem writes_comma {ws : List (List Char)} {l : List Char} (h : WritesLine ws l)
    (ls : List (List (List Char))) :
    (l ++ [',']).foldl step ⟨.record, [], [], ls⟩ = ⟨.field, [], ws, ls⟩ := by
  rw [List.foldl_append, List.foldl_cons, List.foldl_nil]
  cases h with
  | last h => exact (writes_record h ls).1.comma
  | @more w t ws l h hl =>
    rw [List.foldl_append, List.foldl_cons, (writes_record h ls).1.comma]
    obtain ⟨fs, v, e, hr, -⟩ := writes_rest hl [w] ls
    rw [List.nil_append, hr.comma, ← e]
    rfl

theorem csvLines_file {t : List (List (List Char))} {text : List Char} (h : WritesFile t text)
    (hn : ∀ l ∈ t, ∀ w ∈ l, '\x00' ∉ w) : csvLines text = .ok t := by
  rw [csvLines, show CsvParser.start = ⟨.record, [], [], []⟩ from rfl, writes_file h]
  simp only [bind, Except.bind, Except.ok.injEq]
  rw [List.map_congr_left (g := id), List.map_id]
  intro l hl
  rw [List.map_congr_left (g := id), List.map_id]
  · rfl
  · intro s hs
    exact takeWhile_safe (cr := true) ⟨hn l hl s hs, fun _ => .inl rfl⟩

variable {F : Type} [PyFloat F] [CsvIO F]

/-- The rows of a frame, with a header. -/
theorem loadCsv_file {t : List (List (List Char))} {text : List Char}
    (h : WritesFile (columnNames.map String.toList :: t) text)
    (hn : ∀ l ∈ t, ∀ w ∈ l, '\x00' ∉ w) (h14 : ∀ l ∈ t.head?, l.length ≤ 14) :
    loadCsv (F := F) text = some (do
      let rows : List (Row F) ← t.mapM Row.ofFields
      .ok (numbered rows)) := by
  have hl : csvLines text = .ok (csvColumns :: t) := by
    refine csvLines_file h ?_
    intro l hl
    rcases List.mem_cons.1 hl with rfl | hl
    · decide
    · exact hn l hl
  have hf : csvForeign (csvColumns :: t) = false := by
    cases t with
    | nil => simp [csvForeign]
    | cons l t =>
      have := h14 l (by simp)
      have hc : ¬ csvColumns.length < l.length := not_lt.2 this
      simp [csvForeign, hc]
  simp [loadCsv, hl, hf]

theorem parseRef_iff {s : List Char} {v : Vals F} : parseRef s = .ok v ↔
    (s = [] ∧ v = .scalar PyFloat.nan) ∨
    (s ≠ [] ∧ ∃ x, CsvIO.parse s = .ok x ∧ v = .scalar x) := by
  unfold parseRef
  by_cases hs : s = []
  · simp [hs, eq_comm]
  · simp only [hs, if_false, false_and, false_or, not_false_eq_true, true_and, ne_eq]
    cases CsvIO.parse (F := F) s with
    | error e => simp [bind, Except.bind]
    | ok x => simp [bind, Except.bind, eq_comm]

theorem parseNum_iff {s : List Char} {x : F} : parseNum s = .ok x ↔
    s ≠ [] ∧ CsvIO.parse s = .ok x := by
  unfold parseNum
  by_cases hs : s = [] <;> simp [hs]

theorem rowOf_ofFields {ws : List (List Char)} {r : Row F} :
    Row.ofFields ws = .ok r ↔ RowOf ws r := by
  constructor
  · intro h
    unfold Row.ofFields at h
    split at h
    · cases h
    · rename_i hw
      obtain ⟨lo, h1, h⟩ := except_bind_ok h
      obtain ⟨up, h2, h⟩ := except_bind_ok h
      obtain ⟨n, h3, h⟩ := except_bind_ok h
      obtain ⟨k, h4, h⟩ := except_bind_ok h
      simp only [Except.ok.injEq] at h
      subst h
      exact ⟨not_lt.1 hw, rfl, rfl, rfl, rfl, rfl, rfl, rfl, rfl, parseNum_iff.1 h1,
        parseNum_iff.1 h2, parseRef_iff.1 h3, parseRef_iff.1 h4, rfl, rfl⟩
  · rintro ⟨h0, e0, e1, e2, e3, e4, e5, e6, e7, h8, h9, h10, h11, e12, e13⟩
    obtain ⟨al, name, fullName, author, comment, reference, stype, unit, lower, upper, nRef, kRef,
      path, modl⟩ := r
    simp only at e0 e1 e2 e3 e4 e5 e6 e7 h8 h9 h10 h11 e12 e13
    have hw : ¬ csvColumns.length < ws.length := not_lt.2 h0
    subst e0 e1 e2 e3 e4 e5 e6 e7 e12 e13
    unfold Row.ofFields
    simp only [hw, if_false, parseNum_iff.2 h8, parseNum_iff.2 h9, parseRef_iff.2 h10,
      parseRef_iff.2 h11, bind, Except.bind, textCell]

theorem mapM_ofFields {t : List (List (List Char))} {rows : List (Row F)} :
    t.mapM Row.ofFields = .ok rows ↔ List.Forall₂ RowOf t rows := by
  induction t generalizing rows with
  | nil => simp [List.mapM_nil, pure, Except.pure, eq_comm]
  | cons l t ih =>
    rw [List.mapM_cons]
    constructor
    · intro h
      obtain ⟨r, h1, h⟩ := except_bind_ok h
      obtain ⟨rs, h2, h⟩ := except_bind_ok h
      cases h
      exact .cons (rowOf_ofFields.1 h1) (ih.1 h2)
    · intro h
      cases h with
      | cons h1 h2 =>
        simp only [rowOf_ofFields.2 h1, ih.2 h2, bind, Except.bind, pure, Except.pure]

/-- C148: however the file is written, the catalogue has the rows of the lines, numbered from
zero; and no other file of this kind can be loaded. -/
theorem C148_edited {t : List (List (List Char))} {text : List Char}
    (h : WritesFile (columnNames.map String.toList :: t) text)
    (hn : ∀ l ∈ t, ∀ w ∈ l, '\x00' ∉ w) (h14 : ∀ l ∈ t.head?, l.length ≤ 14) (g : Frame F) :
    loadCsv text = some (.ok g) ↔
      g.map Prod.fst = (List.range t.length).map (fun i : Nat => (i : Int)) ∧
      List.Forall₂ RowOf t (g.map Prod.snd) := by
  rw [loadCsv_file h hn h14]
  constructor
  · intro e
    simp only [Option.some.injEq] at e
    obtain ⟨rows, h1, h2⟩ := except_bind_ok e
    cases h2
    rw [mapM_ofFields] at h1
    rw [numbered_fst, numbered_snd, h1.length_eq]
    exact ⟨rfl, h1⟩
  · rintro ⟨h1, h2⟩
    have hg : numbered (g.map Prod.snd) = g := by
      have hz : ∀ f : Frame F, f = (f.map Prod.fst).zip (f.map Prod.snd) := fun f => by
        simp [List.zip_map']
      rw [hz (numbered _), numbered_fst, numbered_snd, ← h2.length_eq, ← h1, ← hz]
    simp only [mapM_ofFields.2 h2, bind, Except.bind, hg]

/-- C148: an empty file, or one of blank lines, raises `ValueError`. -/
theorem C148_empty {text : List Char} (h : WritesFile [] text) :
    loadCsv (F := F) text = some (.error .value) := by
  have := csvLines_file h (by simp)
  simp [loadCsv, this, csvForeign]

/-- C148: so does a file in which a quote is missing. -/
theorem C148_quote {text : List Char} (h : LacksQuote text) :
    loadCsv (F := F) text = some (.error .value) := by
  obtain ⟨ls, a, s, w, q, ha, hs, hq, rfl⟩ := h
  have : ∃ fs, (a ++ (s ++ '"' :: q)).foldl step ⟨.record, [], [], []⟩ = ⟨.quoted, w, fs, ls⟩ := by
    rw [List.foldl_append, writes_lines ha, List.foldl_append, List.foldl_cons]
    rcases hs with rfl | ⟨ws, l, hl, rfl⟩
    · refine ⟨[], ?_⟩
      have : step ⟨.record, [], [], ls⟩ '"' = ⟨.quoted, [], [], ls⟩ := by
        simp [step, stepRecord, stepField]
      rw [List.foldl_nil, this, fold_quotedText hq]
      rfl
    · refine ⟨ws, ?_⟩
      have : step ⟨.field, [], ws, ls⟩ '"' = ⟨.quoted, [], ws, ls⟩ := by simp [step, stepField]
      rw [writes_comma hl, this, fold_quotedText hq]
      rfl
  obtain ⟨fs, e⟩ := this
  have hc : csvLines (a ++ (s ++ '"' :: q)) = .error .value := by
    rw [csvLines, show CsvParser.start = ⟨.record, [], [], []⟩ from rfl, e]
    rfl
  simp [loadCsv, hc]

/-- C148: all other failures are `ValueError`s as well, as far as those of the conversion of numbers
are. -/
theorem C148_errors (hp : ∀ s e, CsvIO.parse (F := F) s = .error e → e = .value)
    {t : List (List (List Char))} {text : List Char}
    (h : WritesFile (columnNames.map String.toList :: t) text)
    (hn : ∀ l ∈ t, ∀ w ∈ l, '\x00' ∉ w) (h14 : ∀ l ∈ t.head?, l.length ≤ 14) :
    (∃ g : Frame F, loadCsv text = some (.ok g)) ∨ loadCsv (F := F) text = some (.error .value) := by
  have hrow : ∀ (l : List (List Char)) (e : PyErr), Row.ofFields (F := F) l = .error e → e = .value := by
    intro l e he
    unfold Row.ofFields at he
    have h1 : ∀ s e, parseNum (F := F) s = .error e → e = .value := by
      intro s e he
      unfold parseNum at he
      split at he
      · cases he; rfl
      · exact hp _ _ he
    have h2 : ∀ s e, parseRef (F := F) s = .error e → e = .value := by
      intro s e he
      unfold parseRef at he
      split at he
      · cases he
      · cases hq : CsvIO.parse (F := F) s with
        | error e' => rw [hq] at he; cases he; exact hp _ _ hq
        | ok x => rw [hq] at he; cases he
    split at he
    · cases he; rfl
    · cases q1 : parseNum (F := F) (l.getD 8 []) with
      | error e' => rw [q1] at he; cases he; exact h1 _ _ q1
      | ok x1 =>
        cases q2 : parseNum (F := F) (l.getD 9 []) with
        | error e' => rw [q1, q2] at he; cases he; exact h1 _ _ q2
        | ok x2 =>
          cases q3 : parseRef (F := F) (l.getD 10 []) with
          | error e' => rw [q1, q2, q3] at he; cases he; exact h2 _ _ q3
          | ok x3 =>
            cases q4 : parseRef (F := F) (l.getD 11 []) with
            | error e' => rw [q1, q2, q3, q4] at he; cases he; exact h2 _ _ q4
            | ok x4 => rw [q1, q2, q3, q4] at he; cases he
  have hrows : ∀ e, t.mapM (Row.ofFields (F := F)) = .error e → e = .value := by
    clear h hn h14
    induction t with
    | nil => intro e he; cases he
    | cons l t ih =>
      intro e he
      rw [List.mapM_cons] at he
      cases q : Row.ofFields (F := F) l with
      | error e' => rw [q] at he; cases he; exact hrow _ _ q
      | ok r =>
        cases q' : t.mapM (Row.ofFields (F := F)) with
        | error e' => rw [q, q'] at he; cases he; exact ih _ q'
        | ok rs => rw [q, q'] at he; cases he
  rw [loadCsv_file h hn h14]
  cases q : t.mapM (Row.ofFields (F := F)) with
  | error e => right; rw [hrows e q]; rfl
  | ok rows => left; exact ⟨_, rfl⟩

/-! ## A case -/

theorem writesLine_bare {ws : List (List Char)} (h0 : ws ≠ [])
    (h : ∀ w ∈ ws, (∀ c ∈ w, c ≠ ',' ∧ c ≠ '\n' ∧ c ≠ '\r') ∧ w.head? ≠ some '"') :
    WritesLine ws ([','].intercalate ws) := by
  induction ws with
  | nil => exact absurd rfl h0
  | cons w ws ih =>
    have hw := h w (by simp)
    cases ws with
    | nil => simpa [List.intercalate] using WritesLine.last (.bare hw.1 hw.2)
    | cons v ws =>
      have := WritesLine.more (.bare hw.1 hw.2) (ih (by simp) (fun x hx => h x (by simp [List.mem_cons.1 hx])))
      simpa [List.intercalate] using this

/-- A file from a spreadsheet: the ends of lines are those of Windows, the alias is in quotes, a line
is empty, and the last line has neither module nor end. -/
def sheetFile : List Char :=
  ("Alias,Name,FullName,Author,Comment,Reference,SpectrumType,Unit,SpectrumLowerBound," ++
    "SpectrumUpperBound,N_Reference,K_Reference,Path,Module\r\n \r\n" ++
    "\"the \"\"best\"\"\",BK7,,,,,wavelength,m,-inf,inf,,,a.yml").toList

/-- The fields of its line. -/
def sheetLine : List (List Char) :=
  "the \"best\"".toList :: ["BK7", "", "", "", "", "wavelength", "m", "-inf", "inf", "", "", "a.yml"].map
    String.toList

theorem sheet_writes : WritesFile [columnNames.map String.toList, sheetLine] sheetFile := by
  have h1 : WritesLine (columnNames.map String.toList)
      ([','].intercalate (columnNames.map String.toList)) :=
    writesLine_bare (by decide) (by decide +kernel)
  have hq : Quoted "the \"best\"".toList "the \"\"best\"\"".toList := by
    show Quoted ['t', 'h', 'e', ' ', '"', 'b', 'e', 's', 't', '"']
      ['t', 'h', 'e', ' ', '"', '"', 'b', 'e', 's', 't', '"', '"']
    repeat first | exact .nil | apply Quoted.quote | refine Quoted.char (by decide) ?_
  have h2 : WritesLine sheetLine _ := .more (.quoted hq)
    (writesLine_bare (ws := ["BK7", "", "", "", "", "wavelength", "m", "-inf", "inf", "", "",
      "a.yml"].map String.toList) (by decide) (by decide +kernel))
  have := WritesFile.cut (.blank (.line .nil h1 (by unfold BlankLine; decide +kernel) (.inr rfl))
    (b := [' ']) (by unfold BlankLine; decide) (.inr rfl)) h2 (by unfold BlankLine; decide +kernel)
  refine Eq.mp (congrArg _ ?_) this
  decide +kernel

/-- A case, with doubles: the file can be loaded, and the path of its row is `a.yml`. -/
example [PandasTexts] : ∃ g : Frame Dbl, loadCsv sheetFile = some (.ok g) ∧
    g.map (fun p => (p.1, p.2.al, p.2.path, p.2.modl)) =
      [(0, .str "the \"best\"", .str "a.yml", .str "")] := by
  have p1 : CsvIO.parse (F := Dbl) "-inf".toList = .ok (-PyFloat.inf) := by
    show csvParse _ = _
    have : xstrtod "-inf".toList = Option.none := by
      unfold xstrtod
      exact if_pos (by decide +kernel)
    rw [csvParse, this]
    simp
  have p2 : CsvIO.parse (F := Dbl) "inf".toList = .ok PyFloat.inf := by
    show csvParse _ = _
    have : xstrtod "inf".toList = Option.none := by
      unfold xstrtod
      exact if_pos (by decide +kernel)
    rw [csvParse, this]
    simp
  let r : Row Dbl := ⟨.str "the \"best\"", .str "BK7", .str "", .str "", .str "", .str "",
    .str "wavelength", .str "m", -PyFloat.inf, PyFloat.inf, .scalar PyFloat.nan, .scalar PyFloat.nan,
    .str "a.yml", .str ""⟩
  refine ⟨[(0, r)], (C148_edited sheet_writes (by decide +kernel) (by decide +kernel) _).2
    ⟨rfl, .cons ?_ .nil⟩, rfl⟩
  exact ⟨by decide, rfl, rfl, rfl, rfl, rfl, rfl, rfl, rfl, ⟨by decide, p1⟩, ⟨by decide, p2⟩,
    .inl ⟨rfl, rfl⟩, .inl ⟨rfl, rfl⟩, rfl, rfl⟩

end Disp
