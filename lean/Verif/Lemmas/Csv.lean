import Verif.Model.Csv
/-!
# What the parser makes of a written line
-/

namespace Disp

namespace Spec

/-- Texts whose carriage returns, if any, get into quotes. -/
def CrSafe (cr : Bool) (s : List Char) : Prop :=
  '\r' ∈ s → cr = true ∨ ',' ∈ s ∨ '"' ∈ s ∨ '\n' ∈ s

/-- Texts that survive in a file: no NUL, and a carriage return only if it gets into quotes. -/
def CsvSafe (cr : Bool) (s : List Char) : Prop := '\x00' ∉ s ∧ CrSafe cr s

end Spec

open Spec CsvParser

theorem needsQuotes_false {cr : Bool} {s : List Char} (h : needsQuotes cr s = false)
    (hs : CrSafe cr s) : ∀ c ∈ s, c ≠ ',' ∧ c ≠ '"' ∧ c ≠ '\n' ∧ c ≠ '\r' := by
  simp only [needsQuotes, List.any_eq_false, Bool.or_eq_true, Bool.and_eq_true, decide_eq_true_eq,
    not_or, not_and] at h
  intro c hc
  obtain ⟨⟨⟨h1, h2⟩, h3⟩, h4⟩ := h c hc
  refine ⟨h1, h2, h3, ?_⟩
  rintro rfl
  rcases hs hc with hcr | hm | hm | hm
  · exact h4 hcr rfl
  · exact (h _ hm).1.1.1 rfl
  · exact (h _ hm).1.1.2 rfl
  · exact (h _ hm).1.2 rfl

theorem fold_quoted (s w : List Char) (fs : List (List Char)) (ls : List (List (List Char))) :
    (doubled s).foldl step ⟨.quoted, w, fs, ls⟩ = ⟨.quoted, w ++ s, fs, ls⟩ := by
  induction s generalizing w with
  | nil => simp [doubled]
  | cons c s ih =>
    have hd : doubled (c :: s) = (if c = '"' then ['"', '"'] else [c]) ++ doubled s := by
      simp [doubled]
    rw [hd, List.foldl_append]
    by_cases hc : c = '"'
    · subst hc
      have : List.foldl step ⟨.quoted, w, fs, ls⟩ (if '"' = '"' then ['"', '"'] else ['"']) =
          ⟨.quoted, w ++ ['"'], fs, ls⟩ := by
        simp [step, stepQuote, push]
      rw [this, ih, List.append_assoc]; rfl
    · have : List.foldl step ⟨.quoted, w, fs, ls⟩ (if c = '"' then ['"', '"'] else [c]) =
          ⟨.quoted, w ++ [c], fs, ls⟩ := by
        simp [step, hc, push]
      rw [this, ih, List.append_assoc]; rfl

theorem fold_inField {s : List Char} (h : ∀ c ∈ s, c ≠ ',' ∧ c ≠ '"' ∧ c ≠ '\n' ∧ c ≠ '\r')
    (w : List Char) (fs : List (List Char)) (ls : List (List (List Char))) :
    s.foldl step ⟨.inField, w, fs, ls⟩ = ⟨.inField, w ++ s, fs, ls⟩ := by
  induction s generalizing w with
  | nil => simp
  | cons c s ih =>
    obtain ⟨h1, h2, h3, h4⟩ := h c (by simp)
    rw [List.foldl_cons]
    have : step ⟨.inField, w, fs, ls⟩ c = ⟨.inField, w ++ [c], fs, ls⟩ := by
      simp [step, stepInField, h1, h3, h4, push]
    rw [this, ih (fun d hd => h d (by simp [hd])), List.append_assoc]; rfl

/-- The states in which a field can be followed by a delimiter. -/
def CsvParser.Ready (p : CsvParser) (s : List Char) (fs : List (List Char))
    (ls : List (List (List Char))) : Prop :=
  p.word = s ∧ p.fields = fs ∧ p.lines = ls ∧
    (p.state = .field ∨ p.state = .inField ∨ p.state = .quoteInQuoted ∨ p.state = .blank ∨
      (p.state = .record ∧ s = []))

theorem CsvParser.Ready.comma {p : CsvParser} {s : List Char} {fs : List (List Char)}
    {ls : List (List (List Char))} (h : p.Ready s fs ls) :
    p.step ',' = ⟨.field, [], fs ++ [s], ls⟩ := by
  obtain ⟨st, w, f, l⟩ := p
  obtain ⟨rfl, rfl, rfl, hst⟩ := h
  rcases hst with h | h | h | h | ⟨h, -⟩ <;>
    · simp only at h
      subst h
      simp [step, stepField, stepInField, stepQuote, stepBlank, stepRecord, endField]

theorem CsvParser.Ready.newline {p : CsvParser} {s : List Char} {fs : List (List Char)}
    {ls : List (List (List Char))} (h : p.Ready s fs ls)
    (hst : p.state = .field ∨ p.state = .inField ∨ p.state = .quoteInQuoted) :
    p.step '\n' = ⟨.record, [], [], ls ++ [fs ++ [s]]⟩ := by
  obtain ⟨st, w, f, l⟩ := p
  obtain ⟨rfl, rfl, rfl, -⟩ := h
  rcases hst with h | h | h <;>
    · simp only at h
      subst h
      simp [step, stepField, stepInField, stepQuote, endField, endLine]

/-- After a field, from the beginning of a field. -/
theorem ready_field {cr : Bool} {s : List Char} (hs : CrSafe cr s) (fs : List (List Char))
    (ls : List (List (List Char))) :
    ((csvField cr s).foldl step ⟨.field, [], fs, ls⟩).Ready s fs ls ∧
      (((csvField cr s).foldl step ⟨.field, [], fs, ls⟩).state = .field ∨
        ((csvField cr s).foldl step ⟨.field, [], fs, ls⟩).state = .inField ∨
        ((csvField cr s).foldl step ⟨.field, [], fs, ls⟩).state = .quoteInQuoted) := by
  unfold csvField
  by_cases hq : needsQuotes cr s = true
  · have e : List.foldl step ⟨.field, [], fs, ls⟩ ('"' :: (doubled s ++ ['"'])) =
        ⟨.quoteInQuoted, s, fs, ls⟩ := by
      rw [List.foldl_cons, List.foldl_append]
      have : step ⟨.field, [], fs, ls⟩ '"' = ⟨.quoted, [], fs, ls⟩ := by simp [step, stepField]
      rw [this, fold_quoted]
      simp [step]
    rw [if_pos hq, e]
    simp [Ready]
  · rw [if_neg hq]
    have hp := needsQuotes_false (by simpa using hq) hs
    cases s with
    | nil => simp [Ready]
    | cons c s =>
      obtain ⟨h1, h2, h3, h4⟩ := hp c (by simp)
      have : step ⟨.field, [], fs, ls⟩ c = ⟨.inField, [c], fs, ls⟩ := by
        simp [step, stepField, h1, h2, h3, h4, push]
      rw [List.foldl_cons, this, fold_inField (fun d hd => hp d (by simp [hd]))]
      simp [Ready]

theorem fold_blank {s : List Char} (h : ∀ c ∈ s, c ≠ ',' ∧ c ≠ '"' ∧ c ≠ '\n' ∧ c ≠ '\r')
    (w : List Char) (fs : List (List Char)) (ls : List (List (List Char))) :
    (s.foldl step ⟨.blank, w, fs, ls⟩).Ready (w ++ s) fs ls := by
  induction s generalizing w with
  | nil => simp [Ready]
  | cons c s ih =>
    obtain ⟨h1, h2, h3, h4⟩ := h c (by simp)
    rw [List.foldl_cons]
    by_cases hb : c = ' ' ∨ c = '\t'
    · have : step ⟨.blank, w, fs, ls⟩ c = ⟨.blank, w ++ [c], fs, ls⟩ := by
        simp [step, stepBlank, h3, h4, hb, push]
      rw [this]
      have := ih (fun d hd => h d (by simp [hd])) (w ++ [c])
      rwa [List.append_assoc] at this
    · have : step ⟨.blank, w, fs, ls⟩ c = ⟨.inField, w ++ [c], fs, ls⟩ := by
        simp [step, stepBlank, stepInField, h1, h3, h4, hb, push]
      rw [this, fold_inField (fun d hd => h d (by simp [hd]))]
      simp [Ready]

/-- After a field, from the beginning of a line. -/
theorem ready_record {cr : Bool} {s : List Char} (hs : CrSafe cr s)
    (ls : List (List (List Char))) :
    ((csvField cr s).foldl step ⟨.record, [], [], ls⟩).Ready s [] ls := by
  unfold csvField
  by_cases hq : needsQuotes cr s = true
  · have e : List.foldl step ⟨.record, [], [], ls⟩ ('"' :: (doubled s ++ ['"'])) =
        ⟨.quoteInQuoted, s, [], ls⟩ := by
      rw [List.foldl_cons, List.foldl_append]
      have : step ⟨.record, [], [], ls⟩ '"' = ⟨.quoted, [], [], ls⟩ := by
        simp [step, stepRecord, stepField]
      rw [this, fold_quoted]
      simp [step]
    rw [if_pos hq, e]
    simp [Ready]
  · rw [if_neg hq]
    have hp := needsQuotes_false (by simpa using hq) hs
    cases s with
    | nil => simp [Ready]
    | cons c s =>
      obtain ⟨h1, h2, h3, h4⟩ := hp c (by simp)
      rw [List.foldl_cons]
      by_cases hb : c = ' ' ∨ c = '\t'
      · have : step ⟨.record, [], [], ls⟩ c = ⟨.blank, [c], [], ls⟩ := by
          simp [step, stepRecord, h3, h4, hb, push]
        rw [this]
        exact fold_blank (fun d hd => hp d (by simp [hd])) [c] [] ls
      · have : step ⟨.record, [], [], ls⟩ c = ⟨.inField, [c], [], ls⟩ := by
          simp [step, stepRecord, stepField, h1, h2, h3, h4, hb, push]
        rw [this, fold_inField (fun d hd => hp d (by simp [hd]))]
        simp [Ready]

/-- The rest of a line. -/
theorem fold_rest {cr : Bool} {l : List (List Char)} (hl : l ≠ []) (hs : ∀ s ∈ l, CrSafe cr s)
    (fs : List (List Char)) (ls : List (List (List Char))) :
    (csvLine cr l).foldl step ⟨.field, [], fs, ls⟩ = ⟨.record, [], [], ls ++ [fs ++ l]⟩ := by
  induction l generalizing fs with
  | nil => exact absurd rfl hl
  | cons s t ih =>
    obtain ⟨hr, hst⟩ := ready_field (hs s (by simp)) fs ls
    cases t with
    | nil =>
      simp only [csvLine, List.foldl_append, List.foldl_cons, List.foldl_nil]
      exact hr.newline hst
    | cons s' t =>
      rw [csvLine, List.foldl_append, List.foldl_cons, hr.comma,
        ih (by simp) (fun x hx => hs x (by simp [List.mem_cons.1 hx])), List.append_assoc]
      · rfl
      · simp

/-- A line with two or more fields. -/
theorem fold_line {cr : Bool} {l : List (List Char)} (hl : 2 ≤ l.length)
    (hs : ∀ s ∈ l, CrSafe cr s) (ls : List (List (List Char))) :
    (csvLine cr l).foldl step ⟨.record, [], [], ls⟩ = ⟨.record, [], [], ls ++ [l]⟩ := by
  match l, hl with
  | s :: s' :: t, _ =>
    rw [csvLine, List.foldl_append, List.foldl_cons, (ready_record (hs s (by simp)) ls).comma,
      fold_rest (by simp) (fun x hx => hs x (by simp [List.mem_cons.1 hx]))]
    · simp
    · simp

theorem fold_lines {cr : Bool} (t : List (List (List Char)))
    (ht : ∀ l ∈ t, 2 ≤ l.length ∧ ∀ s ∈ l, CrSafe cr s) (ls : List (List (List Char))) :
    (t.flatMap (csvLine cr)).foldl step ⟨.record, [], [], ls⟩ = ⟨.record, [], [], ls ++ t⟩ := by
  induction t generalizing ls with
  | nil => simp
  | cons l t ih =>
    obtain ⟨h2, hs⟩ := ht l (by simp)
    rw [List.flatMap_cons, List.foldl_append, fold_line h2 hs,
      ih (fun l hl => ht l (by simp [hl])), List.append_assoc]
    rfl

theorem takeWhile_safe {cr : Bool} {s : List Char} (hs : CsvSafe cr s) :
    s.takeWhile (· ≠ '\x00') = s := by
  obtain ⟨h, -⟩ := hs
  induction s with
  | nil => rfl
  | cons c s ih =>
    rw [List.mem_cons, not_or] at h
    rw [List.takeWhile_cons, if_pos (by simpa using Ne.symm h.1), ih h.2]

/-- Written lines are read back, except that fields end at a NUL. -/
theorem csvLines_cut {cr : Bool} (t : List (List (List Char)))
    (ht : ∀ l ∈ t, 2 ≤ l.length ∧ ∀ s ∈ l, CrSafe cr s) :
    csvLines (t.flatMap (csvLine cr)) =
      .ok (t.map (fun l => l.map (fun w => w.takeWhile (· ≠ '\x00')))) := by
  rw [csvLines, show CsvParser.start = ⟨.record, [], [], []⟩ from rfl, fold_lines t ht]
  simp only [finish, bind, Except.bind, List.nil_append]

/-- Written lines are read back. -/
theorem csvLines_flatMap {cr : Bool} (t : List (List (List Char)))
    (ht : ∀ l ∈ t, 2 ≤ l.length ∧ ∀ s ∈ l, CsvSafe cr s) :
    csvLines (t.flatMap (csvLine cr)) = .ok t := by
  rw [csvLines_cut t (fun l hl => ⟨(ht l hl).1, fun s hs => ((ht l hl).2 s hs).2⟩)]
  simp only [Except.ok.injEq]
  rw [List.map_congr_left (g := id), List.map_id]
  intro l hl
  rw [List.map_congr_left (g := id), List.map_id]
  · rfl
  · intro s hs
    exact takeWhile_safe ((ht l hl).2 s hs)

end Disp
