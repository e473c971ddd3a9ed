import Verif.Props.TablePrint
/-!
# Lists of numbers in text form

The valid range and the parameters of a model are written as arrays with one axis, whose lines
are wrapped at 75 characters.
-/

namespace Disp

theorem splitSpaces_space {c : Char} (hc : pySpace c = true) (b : List Char) :
    splitSpaces (c :: b) = splitSpaces b := by
  rw [splitSpaces.eq_2, if_pos hc]

theorem startsWord_ne {a : List Char} (h : startsWord a = true) : splitSpaces a ≠ [] := by
  cases a with
  | nil => cases h
  | cons c a =>
    have hc : pySpace c = false := by simpa [startsWord] using h
    rw [splitSpaces, if_neg (by simp [hc])]
    cases startsWord a <;> cases splitSpaces a <;> simp [glue]

theorem glue_append (c : Char) (j : Bool) {a : List (List Char)} (h : j = true → a ≠ [])
    (b : List (List Char)) : glue c j (a ++ b) = glue c j a ++ b := by
  cases j with
  | false => rfl
  | true =>
    cases a with
    | nil => exact absurd rfl (h rfl)
    | cons w a => rfl

/-- Words are separated by white space. -/
theorem splitSpaces_sep {c : Char} (hc : pySpace c = true) (b : List Char) : ∀ a : List Char,
    splitSpaces (a ++ c :: b) = splitSpaces a ++ splitSpaces b
  | [] => by
    rw [List.nil_append, splitSpaces_space hc]; rfl
  | d :: a => by
    have ih := splitSpaces_sep hc b a
    have hs : startsWord (a ++ c :: b) = startsWord a := by
      cases a with
      | nil => simp [startsWord, hc]
      | cons e a => rfl
    rw [List.cons_append, splitSpaces, splitSpaces, ih, hs]
    split
    · rfl
    · exact glue_append d _ startsWord_ne _

/-- Empty, or ending with white space. -/
def EndsBlank (a : List Char) : Prop := a = [] ∨ ∃ a' c, pySpace c = true ∧ a = a' ++ [c]

theorem splitSpaces_nil : splitSpaces [] = [] := rfl

theorem splitSpaces_ends {a : List Char} (h : EndsBlank a) (b : List Char) :
    splitSpaces (a ++ b) = splitSpaces a ++ splitSpaces b := by
  rcases h with rfl | ⟨a', c, hc, rfl⟩
  · rfl
  · rw [List.append_assoc, List.singleton_append, splitSpaces_sep hc, splitSpaces_sep hc,
      splitSpaces_nil, List.append_nil]

theorem splitSpaces_tail {a s : List Char} (h : ∀ c ∈ s, pySpace c = true) :
    splitSpaces (a ++ s) = splitSpaces a := by
  cases s with
  | nil => simp
  | cons c s =>
    rw [splitSpaces_sep (h c (List.mem_cons_self ..)),
      splitSpaces_all_blank (fun d hd => h d (List.mem_cons_of_mem _ hd)), List.append_nil]

theorem splitSpaces_rstrip (l : List Char) : splitSpaces (rstrip l) = splitSpaces l := by
  obtain ⟨s, h1, h2⟩ := rstrip_prefix l
  conv_rhs => rw [h1, splitSpaces_tail h2]

theorem splitSpaces_lstrip : ∀ l : List Char, splitSpaces (lstrip l) = splitSpaces l
  | [] => rfl
  | c :: l => by
    by_cases hc : pySpace c = true
    · rw [lstrip, List.dropWhile_cons_of_pos hc, splitSpaces, if_pos hc]
      exact splitSpaces_lstrip l
    · rw [lstrip, List.dropWhile_cons_of_neg hc]

theorem noIndent_start (c d : Char) (cs : List Char) :
    startsWord (noIndent (c :: cs)) = startsWord (c :: cs) := by
  cases cs with
  | nil => rfl
  | cons d cs =>
    rw [noIndent]
    split <;> rfl

theorem splitSpaces_noIndent : ∀ l : List Char, splitSpaces (noIndent l) = splitSpaces l
  | [] => rfl
  | [c] => rfl
  | c :: d :: cs => by
    rw [noIndent]
    split
    · rename_i h
      obtain ⟨rfl, rfl⟩ := h
      have h1 : pySpace '\n' = true := by decide
      have h2 : pySpace ' ' = true := by decide
      rw [splitSpaces, if_pos h1, splitSpaces_noIndent cs, splitSpaces, if_pos h1, splitSpaces,
        if_pos h2]
    · rw [splitSpaces, splitSpaces_noIndent (d :: cs), noIndent_start d d cs]
      conv_rhs => rw [splitSpaces]

theorem splitSpaces_padded {t w : List Char} (h : Padded t w) : splitSpaces w = [t] := by
  obtain ⟨pre, post, rfl, h1, h2, h3⟩ := h
  have hs : pySpace ' ' = true := by decide
  rw [splitSpaces_tail (fun c hc => by rw [h2 c hc]; exact hs),
    splitSpaces_blank (fun c hc => by rw [h1 c hc]; exact hs)]
  have := splitSpaces_word h3 (r := []) (by simp)
  simpa [splitSpaces_nil] using this

/-- The words of a wrapped list of words. -/
theorem layWords_words {width : ℕ} {indent : List Char} (hi : EndsBlank indent)
    (hi2 : ∀ c ∈ indent, pySpace c = true) :
    ∀ {ts ws : List (List Char)}, List.Forall₂ Padded ts ws → ∀ s line : List Char,
      EndsBlank s → EndsBlank line →
      splitSpaces (layWords width indent ws s line) = splitSpaces s ++ splitSpaces line ++ ts := by
  have hb : pySpace ' ' = true := by decide
  have hn : pySpace '\n' = true := by decide
  have hx : ∀ {t w s line : List Char}, Padded t w → EndsBlank s → EndsBlank line →
      EndsBlank (extendLine width indent s line w).1 ∧
      splitSpaces (extendLine width indent s line w).1 ++
        splitSpaces (extendLine width indent s line w).2 = splitSpaces s ++ splitSpaces line ++ [t] := by
    intro t w s line hp h1 h2
    unfold extendLine
    split
    · refine ⟨.inr ⟨_, '\n', hn, rfl⟩, ?_⟩
      show splitSpaces (s ++ rstrip line ++ ['\n']) ++ splitSpaces (indent ++ w) = _
      rw [splitSpaces_tail (s := ['\n']) (by simpa using hn), splitSpaces_ends h1,
        splitSpaces_rstrip, splitSpaces_blank hi2, splitSpaces_padded hp]
    · refine ⟨h1, ?_⟩
      show splitSpaces s ++ splitSpaces (line ++ w) = _
      rw [splitSpaces_ends h2, splitSpaces_padded hp, List.append_assoc]
  intro ts ws h
  induction h with
  | nil =>
    intro s line h1 h2
    rw [layWords, splitSpaces_ends h1, List.append_nil]
  | cons hp hr ih =>
    rename_i t w ts ws
    intro s line h1 h2
    obtain ⟨a1, a2⟩ := hx hp h1 h2
    cases hr with
    | nil => rw [layWords, splitSpaces_ends a1, a2]
    | cons hq hr =>
      rw [layWords, ih _ _ a1 (.inr ⟨_, ' ', hb, rfl⟩),
        splitSpaces_tail (s := [' ']) (by simpa using hb), a2]
      simp

/-- The first character is white space. -/
def StartsBlank (a : List Char) : Prop := ∃ c r, pySpace c = true ∧ a = c :: r

theorem StartsBlank.append {a : List Char} (h : StartsBlank a) (b : List Char) :
    StartsBlank (a ++ b) := by
  obtain ⟨c, r, hc, rfl⟩ := h
  exact ⟨c, r ++ b, hc, rfl⟩

theorem layWords_start {width : ℕ} {indent : List Char} : ∀ (ws : List (List Char))
    (s line : List Char), StartsBlank (s ++ line) → StartsBlank (layWords width indent ws s line) := by
  have hx : ∀ (w s line : List Char), StartsBlank (s ++ line) →
      StartsBlank ((extendLine width indent s line w).1 ++ (extendLine width indent s line w).2) := by
    intro w s line h
    unfold extendLine
    split
    · show StartsBlank (s ++ rstrip line ++ ['\n'] ++ (indent ++ w))
      refine StartsBlank.append ?_ _
      obtain ⟨c, r, hc, he⟩ := h
      cases s with
      | cons d s =>
        have : d = c := by injection he
        subst this
        exact ⟨d, _, hc, rfl⟩
      | nil =>
        have he : line = c :: r := he
        obtain ⟨e, h1, h2⟩ := rstrip_prefix line
        cases hl : rstrip line with
        | nil => exact ⟨'\n', [], by decide, rfl⟩
        | cons d q =>
          rw [hl, he] at h1
          have : c = d := by injection h1
          subst this
          exact ⟨c, _, hc, rfl⟩
    · show StartsBlank (s ++ (line ++ w))
      rw [← List.append_assoc]
      exact h.append _
  intro ws
  induction ws with
  | nil => exact fun s line h => h
  | cons w ws ih =>
    intro s line h
    cases ws with
    | nil => exact hx w s line h
    | cons v ws =>
      rw [layWords]
      apply ih
      rw [← List.append_assoc]
      exact (hx w s line h).append _

theorem layWords_mem {width : ℕ} {indent : List Char} {c : Char} : ∀ (ws : List (List Char))
    (s line : List Char), c ∈ layWords width indent ws s line →
    c ∈ s ∨ c ∈ line ∨ c ∈ indent ∨ c = ' ' ∨ c = '\n' ∨ ∃ w ∈ ws, c ∈ w := by
  have hx : ∀ (w s line : List Char), c ∈ (extendLine width indent s line w).1 ∨
      c ∈ (extendLine width indent s line w).2 →
      c ∈ s ∨ c ∈ line ∨ c ∈ indent ∨ c = '\n' ∨ c ∈ w := by
    intro w s line
    unfold extendLine
    split
    · rintro (h | h)
      · rcases List.mem_append.1 h with h | h
        · rcases List.mem_append.1 h with h | h
          · exact .inl h
          · exact .inr (.inl (rstrip_mem h))
        · exact .inr (.inr (.inr (.inl (by simpa using h))))
      · rcases List.mem_append.1 h with h | h
        · exact .inr (.inr (.inl h))
        · exact .inr (.inr (.inr (.inr h)))
    · rintro (h | h)
      · exact .inl h
      · rcases List.mem_append.1 h with h | h
        · exact .inr (.inl h)
        · exact .inr (.inr (.inr (.inr h)))
  intro ws
  induction ws with
  | nil =>
    intro s line h
    rcases List.mem_append.1 h with h | h
    · exact .inl h
    · exact .inr (.inl h)
  | cons w ws ih =>
    intro s line h
    have key : c ∈ (extendLine width indent s line w).1 ∨ c ∈ (extendLine width indent s line w).2 ∨
        c ∈ indent ∨ c = ' ' ∨ c = '\n' ∨ ∃ v ∈ ws, c ∈ v := by
      cases ws with
      | nil =>
        rcases List.mem_append.1 h with h | h
        · exact .inl h
        · exact .inr (.inl h)
      | cons v ws =>
        rw [layWords] at h
        rcases ih _ _ h with h | h | h
        · exact .inl h
        · rcases List.mem_append.1 h with h | h
          · exact .inr (.inl h)
          · exact .inr (.inr (.inr (.inl (by simpa using h))))
        · exact .inr (.inr h)
    have fin : c ∈ s ∨ c ∈ line ∨ c ∈ indent ∨ c = '\n' ∨ c ∈ w →
        c ∈ s ∨ c ∈ line ∨ c ∈ indent ∨ c = ' ' ∨ c = '\n' ∨ ∃ v ∈ w :: ws, c ∈ v := by
      rintro (h | h | h | h | h)
      · exact .inl h
      · exact .inr (.inl h)
      · exact .inr (.inr (.inl h))
      · exact .inr (.inr (.inr (.inr (.inl h))))
      · exact .inr (.inr (.inr (.inr (.inr ⟨w, by simp, h⟩))))
    rcases key with h | h | h | h | h | ⟨v, hv, h⟩
    · exact fin (hx w s line (.inl h))
    · exact fin (hx w s line (.inr h))
    · exact .inr (.inr (.inl h))
    · exact .inr (.inr (.inr (.inl h)))
    · exact .inr (.inr (.inr (.inr (.inl h))))
    · exact .inr (.inr (.inr (.inr (.inr ⟨v, by simp [hv], h⟩))))

variable {F : Type} [NumText F] [Printing F] [PrintingLaws F]

/-- A list of at most 1000 numbers in text form: its words are the numbers as shown. -/
theorem vectorText_words (dt : DType) {xs : List F} (h : xs.length ≤ 1000) :
    ∃ ts, splitSpaces (numericToString (.d1 dt xs)) = ts ∧ ts.length = xs.length ∧
      List.Forall₂ Reads ts (xs.map (Printing.shown xs)) := by
  by_cases h0 : xs = []
  · subst h0
    exact ⟨[], by rw [numericToString, array2string, if_pos rfl]; decide, rfl, .nil⟩
  obtain ⟨ts, h1, h2, h3⟩ := cells_padded xs xs
  refine ⟨ts, ?_, h3, h2⟩
  have hab : abbreviate (1000 < xs.length) (xs.map (Printing.cell xs)) =
      xs.map (Printing.cell xs) := by
    rw [abbreviate, if_neg]
    simp [not_lt.2 h]
  rw [numericToString, splitSpaces_lstrip, splitSpaces_rstrip, splitSpaces_noIndent, array2string,
    if_neg h0, hab, formatWords]
  have hl := layWords_words (width := 74) (indent := [' ']) (.inr ⟨[], ' ', by decide, rfl⟩)
    (by decide) h1 [] [' '] (.inl rfl) (.inr ⟨[], ' ', by decide, rfl⟩)
  have hs := layWords_start (width := 74) (indent := [' ']) (xs.map (Printing.cell xs)) [] [' ']
    ⟨' ', [], by decide, rfl⟩
  have hm : ∀ c, c ∈ layWords 74 [' '] (xs.map (Printing.cell xs)) [] [' '] → c ≠ '[' ∧ c ≠ ']' := by
    intro c hc
    rcases layWords_mem _ _ _ hc with h | h | h | h | h | ⟨w, hw, h⟩
    · cases h
    · have : c = ' ' := by simpa using h
      subst this; decide
    · have : c = ' ' := by simpa using h
      subst this; decide
    · subst h; decide
    · subst h; decide
    · obtain ⟨x, _, rfl⟩ := List.mem_map.1 hw
      obtain ⟨k1, k2, _⟩ := cell_clean xs x
      exact ⟨fun e => k1 (e ▸ h), fun e => k2 (e ▸ h)⟩
  revert hl hs hm
  generalize layWords 74 [' '] (xs.map (Printing.cell xs)) [] [' '] = L
  rintro hl ⟨c, r, hc, rfl⟩ hm
  have hr1 : '[' ∉ r := fun h => (hm _ (List.mem_cons_of_mem _ h)).1 rfl
  have hr2 : ']' ∉ r := fun h => (hm _ (List.mem_cons_of_mem _ h)).2 rfl
  have hnb : noBrackets ('[' :: (c :: r).drop [' '].length ++ [']']) = r := by
    show noBrackets (['['] ++ r ++ [']']) = r
    rw [noBrackets_append, noBrackets_append, noBrackets_of hr1 hr2,
      show noBrackets ['['] = [] by decide, show noBrackets [']'] = [] by decide]
    simp
  rw [hnb]
  rw [splitSpaces_space hc] at hl
  rw [hl]
  have : splitSpaces [' '] = [] := by decide
  rw [this]; rfl

theorem vectorText_read (dt : DType) {xs : List F} (h : xs.length ≤ 1000) :
    (splitSpaces (numericToString (.d1 dt xs))).mapM NumText.parseFloat =
      .ok (xs.map (Printing.shown xs)) := by
  obtain ⟨ts, h1, _, h2⟩ := vectorText_words dt h
  rw [h1]; exact mapM_reads h2

/-! ## Characters -/

/-- Printable ASCII characters and line feeds. -/
def PlainChar (c : Char) : Prop :=
  c = '\n' ∨ (32 ≤ c.toNat ∧ c.toNat ≤ 126 ∧ ¬ (65 ≤ c.toNat ∧ c.toNat ≤ 90))

theorem formatWords_plain {width : ℕ} {indent : List Char} {ws : List (List Char)}
    (hi : ∀ c ∈ indent, PlainChar c) (h : ∀ w ∈ ws, ∀ c ∈ w, PlainChar c) :
    ∀ c ∈ formatWords width indent ws, PlainChar c := by
  intro c hc
  rw [formatWords] at hc
  rcases List.mem_append.1 hc with hc | hc
  · rcases List.mem_cons.1 hc with rfl | hc
    · exact .inr (by decide)
    · rcases layWords_mem _ _ _ (List.mem_of_mem_drop hc) with h' | h' | h' | h' | h' | ⟨w, hw, h'⟩
      · cases h'
      · exact hi c h'
      · exact hi c h'
      · subst h'; exact .inr (by decide)
      · exact .inl h'
      · exact h w hw c h'
  · have : c = ']' := by simpa using hc
    subst this; exact .inr (by decide)

theorem formatRows_plain {rs : List (List Char)} (h : ∀ w ∈ rs, ∀ c ∈ w, PlainChar c) :
    ∀ c ∈ formatRows rs, PlainChar c := by
  intro c hc
  cases rs with
  | nil =>
    have : c = '[' ∨ c = ']' := by simpa [formatRows] using hc
    rcases this with rfl | rfl <;> exact .inr (by decide)
  | cons r rs =>
    rw [formatRows] at hc
    rcases List.mem_append.1 hc with hc | hc
    · rcases List.mem_append.1 hc with hc | hc
      · rcases List.mem_cons.1 hc with rfl | hc
        · exact .inr (by decide)
        · exact h r (by simp) c hc
      · obtain ⟨q, hq, hc⟩ := List.mem_flatMap.1 hc
        rcases List.mem_cons.1 hc with rfl | hc
        · exact .inl rfl
        · rcases List.mem_cons.1 hc with rfl | hc
          · exact .inr (by decide)
          · exact h q (by simp [hq]) c hc
    · have : c = ']' := by simpa using hc
      subst this; exact .inr (by decide)

theorem abbreviate_plain {b : Bool} {ws : List (List Char)} (h : ∀ w ∈ ws, ∀ c ∈ w, PlainChar c) :
    ∀ w ∈ abbreviate b ws, ∀ c ∈ w, PlainChar c := by
  intro w hw c hc
  rcases abbreviate_mem hw with rfl | hw
  · have : ∀ c ∈ dots, 32 ≤ c.toNat ∧ c.toNat ≤ 126 ∧ ¬ (65 ≤ c.toNat ∧ c.toNat ≤ 90) := by decide
    exact .inr (this c hc)
  · exact h w hw c hc

theorem noIndent_mem {c : Char} : ∀ {l : List Char}, c ∈ noIndent l → c ∈ l
  | [], h => h
  | [_], h => h
  | a :: b :: cs, h => by
    rw [noIndent] at h
    split at h
    · rcases List.mem_cons.1 h with rfl | h
      · simp
      · simp [noIndent_mem h]
    · rcases List.mem_cons.1 h with rfl | h
      · simp
      · exact List.mem_cons_of_mem _ (noIndent_mem h)

/-- Arrays are written with printable characters. -/
theorem arrayText_plain (a : NDArr F) : ∀ c ∈ numericToString a, PlainChar c := by
  intro c hc
  have h1 := List.mem_of_mem_filter (noIndent_mem (rstrip_mem (lstrip_mem hc)))
  have hcell : ∀ xs ys : List F, ∀ w ∈ ys.map (Printing.cell xs), ∀ c ∈ w, PlainChar c := by
    intro xs ys w hw c hc
    obtain ⟨x, _, rfl⟩ := List.mem_map.1 hw
    exact .inr (PrintingLaws.ascii xs x c hc)
  have hb : ∀ c ∈ ['[', ']'], PlainChar c := by
    intro c hc
    have : c = '[' ∨ c = ']' := by simpa using hc
    rcases this with rfl | rfl <;> exact .inr (by decide)
  have hs : ∀ c ∈ [' '], PlainChar c := by
    intro c hc
    have : c = ' ' := by simpa using hc
    subst this; exact .inr (by decide)
  have hs2 : ∀ c ∈ [' ', ' '], PlainChar c := by
    intro c hc
    have : c = ' ' := by simpa using hc
    subst this; exact .inr (by decide)
  cases a with
  | d1 dt xs =>
    rw [array2string] at h1
    split at h1
    · exact hb c h1
    · exact formatWords_plain hs (abbreviate_plain (hcell xs xs)) c h1
  | d2 m dt rows =>
    rw [array2string] at h1
    split at h1
    · exact hb c h1
    · refine formatRows_plain (abbreviate_plain ?_) c h1
      intro w hw
      obtain ⟨r, _, rfl⟩ := List.mem_map.1 hw
      exact formatWords_plain hs2 (abbreviate_plain (hcell rows.flatten r))
  | other => exact hb c h1

end Disp
