import Verif.Lemmas.PrintingIdeal
/-!
# C43: reading back a printed table
-/

namespace Disp

/-- Words separated by single blanks. -/
def joinWords : List (List Char) → List Char
  | [] => []
  | [w] => w
  | w :: v :: ws => w ++ ' ' :: joinWords (v :: ws)

theorem joinWords_length : ∀ ws : List (List Char),
    (joinWords ws).length + 1 ≤ (ws.map (fun w => w.length + 1)).sum + 1
  | [] => by simp [joinWords]
  | [w] => by simp [joinWords]
  | w :: v :: ws => by
    have := joinWords_length (v :: ws)
    simp only [joinWords, List.length_append, List.length_cons, List.map_cons, List.sum_cons] at *
    omega

theorem layWords_fit {width : ℕ} {indent : List Char} : ∀ (ws : List (List Char)) (s line : List Char),
    line.length + (joinWords ws).length ≤ width →
    layWords width indent ws s line = s ++ line ++ joinWords ws
  | [], s, line, _ => by simp [layWords, joinWords]
  | [w], s, line, h => by
    have : ¬ (width < line.length + w.length ∧ indent.length < line.length) := by
      simp only [joinWords] at h; omega
    simp only [layWords, extendLine, if_neg this, joinWords]
    simp
  | w :: v :: ws, s, line, h => by
    simp only [joinWords, List.length_append, List.length_cons] at h
    have : ¬ (width < line.length + w.length ∧ indent.length < line.length) := by omega
    simp only [layWords, extendLine, if_neg this, joinWords]
    rw [layWords_fit (v :: ws)]
    · simp
    · simp only [List.length_append, List.length_cons, List.length_nil]; omega

theorem formatWords_fit {width : ℕ} {indent : List Char} {ws : List (List Char)}
    (h : indent.length + (joinWords ws).length ≤ width) :
    formatWords width indent ws = '[' :: joinWords ws ++ [']'] := by
  rw [formatWords, layWords_fit ws [] indent h]
  simp

/-! ## Removing the brackets and the indentation -/

theorem noBrackets_append (a b : List Char) : noBrackets (a ++ b) = noBrackets a ++ noBrackets b :=
  List.filter_append ..

theorem noBrackets_of {a : List Char} (h1 : '[' ∉ a) (h2 : ']' ∉ a) : noBrackets a = a := by
  rw [noBrackets, List.filter_eq_self]
  intro c hc
  simp only [ne_eq, decide_not, Bool.and_eq_true, Bool.not_eq_eq_eq_not, Bool.not_true,
    decide_eq_false_iff_not]
  exact ⟨fun h => h1 (h ▸ hc), fun h => h2 (h ▸ hc)⟩

theorem noIndent_line {a b : List Char} (h : '\n' ∉ a) : noIndent (a ++ b) = a ++ noIndent b := by
  induction a with
  | nil => rfl
  | cons c a ih =>
    have hc : ¬ c = '\n' := by rintro rfl; exact h (List.mem_cons_self ..)
    have ih := ih (fun hm => h (List.mem_cons_of_mem _ hm))
    cases hab : a ++ b with
    | nil =>
      have : a = [] ∧ b = [] := by simpa using hab
      obtain ⟨rfl, rfl⟩ := this
      simp [noIndent]
    | cons d r =>
      rw [List.cons_append, hab, noIndent, if_neg (by tauto), ← hab, ih, List.cons_append]

theorem noIndent_break (b : List Char) : noIndent ('\n' :: ' ' :: b) = '\n' :: noIndent b := by
  rw [noIndent, if_pos ⟨rfl, rfl⟩]

/-- A table printed row by row, without brackets and indentation. -/
theorem noIndent_rows : ∀ (r : List Char) (rs : List (List Char)), (∀ q ∈ r :: rs, '\n' ∉ q) →
    noIndent (r ++ rs.flatMap (fun q => '\n' :: ' ' :: q)) = unlines (r :: rs)
  | r, [], h => by
    have := noIndent_line (b := []) (h r (List.mem_cons_self ..))
    simpa [unlines, noIndent] using this
  | r, q :: rs, h => by
    rw [noIndent_line (h r (List.mem_cons_self ..)), List.flatMap_cons, List.cons_append,
      List.cons_append, noIndent_break,
      noIndent_rows q rs (fun p hp => h p (List.mem_cons_of_mem _ hp)), unlines]

theorem noBrackets_rows (r : List Char) (rs : List (List Char))
    (h : ∀ q ∈ r :: rs, '[' ∉ q ∧ ']' ∉ q) :
    noBrackets (formatRows ((r :: rs).map (fun q => '[' :: q ++ [']']))) =
      r ++ rs.flatMap (fun q => '\n' :: ' ' :: q) := by
  have key : ∀ rs : List (List Char), (∀ q ∈ rs, '[' ∉ q ∧ ']' ∉ q) →
      noBrackets ((rs.map (fun q => '[' :: q ++ [']'])).flatMap (fun q => '\n' :: ' ' :: q)) =
        rs.flatMap (fun q => '\n' :: ' ' :: q) := by
    intro rs
    induction rs with
    | nil => intro _; rfl
    | cons q rs ih =>
      intro h
      have hq := h q (List.mem_cons_self ..)
      rw [List.map_cons, List.flatMap_cons, noBrackets_append,
        ih (fun p hp => h p (List.mem_cons_of_mem _ hp)), List.flatMap_cons]
      congr 1
      have : '\n' :: ' ' :: ('[' :: q ++ [']']) = ['\n', ' ', '['] ++ q ++ [']'] := by simp
      rw [this, noBrackets_append, noBrackets_append, noBrackets_of hq.1 hq.2]
      have h1 : noBrackets ['\n', ' ', '['] = ['\n', ' '] := by decide
      have h2 : noBrackets [']'] = [] := by decide
      rw [h1, h2]
      simp
  have hr := h r (List.mem_cons_self ..)
  have : formatRows ((r :: rs).map (fun q => '[' :: q ++ [']'])) = ['[', '['] ++ r ++ [']'] ++
      ((rs.map (fun q => '[' :: q ++ [']'])).flatMap (fun q => '\n' :: ' ' :: q)) ++ [']'] := by
    simp [formatRows]
  rw [this]
  simp only [noBrackets_append]
  rw [key rs (fun q hq => h q (List.mem_cons_of_mem _ hq)), noBrackets_of hr.1 hr.2]
  have h1 : noBrackets ['[', '['] = [] := by decide
  have h2 : noBrackets [']'] = [] := by decide
  rw [h1, h2]
  simp

/-! ## Stripping -/

theorem lstrip_blank {a b : List Char} (h : ∀ c ∈ a, pySpace c = true) :
    lstrip (a ++ b) = lstrip b := by
  induction a with
  | nil => rfl
  | cons c a ih =>
    rw [List.cons_append, lstrip, List.dropWhile_cons_of_pos (h c (List.mem_cons_self ..))]
    exact ih (fun d hd => h d (List.mem_cons_of_mem _ hd))

theorem lstrip_word {t b : List Char} (h : Word t) : lstrip (t ++ b) = t ++ b := by
  obtain ⟨hne, hall⟩ := h
  cases t with
  | nil => exact absurd rfl hne
  | cons c t =>
    rw [List.cons_append, lstrip, List.dropWhile_cons_of_neg]
    rw [hall c (List.mem_cons_self ..)]; simp

theorem lstrip_append {a b : List Char} (h : ¬ isBlank a = true) :
    lstrip (a ++ b) = lstrip a ++ b := by
  induction a with
  | nil => exact absurd rfl h
  | cons c a ih =>
    cases hc : pySpace c with
    | true =>
      rw [List.cons_append, lstrip, lstrip, List.dropWhile_cons_of_pos hc,
        List.dropWhile_cons_of_pos hc]
      refine ih ?_
      intro hb
      apply h
      simp [isBlank, hc] at hb ⊢
      exact hb
    | false =>
      rw [List.cons_append, lstrip, lstrip, List.dropWhile_cons_of_neg (by simp [hc]),
        List.dropWhile_cons_of_neg (by simp [hc])]
      rfl

theorem rstrip_append {a b : List Char} (h : ¬ isBlank b = true) :
    rstrip (a ++ b) = a ++ rstrip b := by
  have hb : ¬ isBlank b.reverse = true := by
    intro hb; apply h; simpa [isBlank] using hb
  have := lstrip_append (b := a.reverse) hb
  rw [rstrip, List.reverse_append]
  rw [lstrip, lstrip] at this
  rw [this, List.reverse_append, List.reverse_reverse]
  rfl

theorem rstrip_blank {a b : List Char} (h : ∀ c ∈ b, pySpace c = true) :
    rstrip (a ++ b) = rstrip a := by
  have := lstrip_blank (a := b.reverse) (b := a.reverse)
    (fun c hc => h c (by simpa using hc))
  rw [rstrip, List.reverse_append]
  rw [lstrip, lstrip] at this
  rw [this]
  rfl

theorem rstrip_all_blank {b : List Char} (h : ∀ c ∈ b, pySpace c = true) : rstrip b = [] := by
  have := rstrip_blank (a := []) h
  simpa [rstrip] using this

theorem isBlank_append {a b : List Char} :
    isBlank (a ++ b) = true ↔ isBlank a = true ∧ isBlank b = true := by
  simp [isBlank, or_imp, forall_and]

theorem isBlank_word {t : List Char} (h : Word t) : ¬ isBlank t = true := by
  obtain ⟨hne, hall⟩ := h
  cases t with
  | nil => exact absurd rfl hne
  | cons c t => simp [isBlank, hall c (List.mem_cons_self ..)]

theorem mem_takeWhile_imp' {p : Char → Bool} {l : List Char} {c : Char}
    (h : c ∈ l.takeWhile p) : p c = true := by
  induction l with
  | nil => cases h
  | cons d l ih =>
    by_cases hd : p d = true
    · rw [List.takeWhile_cons_of_pos hd] at h
      rcases List.mem_cons.1 h with rfl | h
      · exact hd
      · exact ih h
    · rw [List.takeWhile_cons_of_neg hd] at h; cases h

theorem rstrip_prefix (l : List Char) : ∃ s, l = rstrip l ++ s ∧ ∀ c ∈ s, pySpace c = true := by
  refine ⟨(l.reverse.takeWhile pySpace).reverse, ?_, ?_⟩
  · rw [rstrip, ← List.reverse_append, List.takeWhile_append_dropWhile, List.reverse_reverse]
  · intro c hc
    rw [List.mem_reverse] at hc
    exact mem_takeWhile_imp' hc

theorem LineOf.rstrip {ts : List (List Char)} {l : List Char} (h : LineOf ts l) :
    LineOf ts (rstrip l) := by
  induction h with
  | blank h => rw [rstrip_all_blank h]; exact .blank (by simp)
  | word hs ht hsep hrest ih =>
    rename_i s t rest ts
    cases hb : Disp.isBlank rest with
    | true =>
      have ht' : ts = [] := (hrest.isBlank).1 hb
      subst ht'
      rw [rstrip_blank (isBlank_iff.1 hb)]
      have h1 : Disp.rstrip (s ++ t) = s ++ t ++ [] := by
        rw [rstrip_append (isBlank_word ht)]
        obtain ⟨hne, hall⟩ := ht
        have : Disp.rstrip t = t := by
          rw [Disp.rstrip]
          have h2 : t.reverse ≠ [] := by simpa using hne
          cases htr : t.reverse with
          | nil => exact absurd htr h2
          | cons c r =>
            rw [List.dropWhile_cons_of_neg, ← htr, List.reverse_reverse]
            have : c ∈ t := by
              have : c ∈ t.reverse := by rw [htr]; simp
              simpa using this
            simp [hall c this]
        rw [this, List.append_nil]
      rw [h1]
      exact .word hs ht (by simp) (.blank (by simp))
    | false =>
      rw [rstrip_append (by simp [hb])]
      refine .word hs ht ?_ ih
      intro c hc
      obtain ⟨q, hq, _⟩ := rstrip_prefix rest
      apply hsep c
      cases hr : Disp.rstrip rest with
      | nil => rw [hr] at hc; cases hc
      | cons d r =>
        rw [hr] at hc
        rw [hq, hr]
        exact hc

theorem LineOf.lstrip {ts : List (List Char)} {l : List Char} (h : LineOf ts l) :
    LineOf ts (lstrip l) := by
  cases h with
  | blank h =>
    have := lstrip_blank (b := []) h
    rw [List.append_nil] at this
    rw [this]
    exact .blank (by simp [Disp.lstrip])
  | word hs ht hsep hrest =>
    rename_i s t rest ts
    rw [List.append_assoc, lstrip_blank hs, lstrip_word ht]
    have := LineOf.word (s := []) (by simp) ht hsep hrest
    simpa using this

theorem lstrip_mem {l : List Char} {c : Char} (h : c ∈ lstrip l) : c ∈ l :=
  (List.dropWhile_sublist _).mem h

theorem rstrip_mem {l : List Char} {c : Char} (h : c ∈ rstrip l) : c ∈ l := by
  rw [rstrip, List.mem_reverse] at h
  simpa using (List.dropWhile_sublist _).mem h

theorem lstrip_unlines {l : List Char} {ls : List (List Char)} (h : ¬ isBlank l = true) :
    lstrip (unlines (l :: ls)) = unlines (lstrip l :: ls) := by
  cases ls with
  | nil => rfl
  | cons m ls => rw [unlines, lstrip_append h, unlines]

theorem rstrip_unlines {ls : List (List Char)} {l : List Char} (h : ¬ isBlank l = true) :
    rstrip (unlines (ls ++ [l])) = unlines (ls ++ [rstrip l]) := by
  induction ls with
  | nil => rfl
  | cons m ls ih =>
    have hne : ∃ a as, ls ++ [l] = a :: as ∧ ∃ b bs, ls ++ [rstrip l] = b :: bs := by
      cases ls <;> simp
    obtain ⟨a, as, ha, b, bs, hb⟩ := hne
    rw [List.cons_append, List.cons_append, ha, hb, unlines, unlines, ← ha, ← hb, ← ih]
    have : m ++ '\n' :: unlines (ls ++ [l]) = (m ++ ['\n']) ++ unlines (ls ++ [l]) := by simp
    rw [this, rstrip_append]
    · simp
    · -- the last line is not blank
      have key : ∀ ls : List (List Char), ¬ isBlank (unlines (ls ++ [l])) = true := by
        intro ls
        induction ls with
        | nil => exact h
        | cons p ps ihp =>
          obtain ⟨a, as, ha⟩ : ∃ a as, ps ++ [l] = a :: as := by cases ps <;> simp
          rw [List.cons_append, ha, unlines, ← ha]
          intro hbl
          rw [isBlank_append] at hbl
          apply ihp
          have := hbl.2
          simp only [isBlank, List.all_cons, Bool.and_eq_true] at this ⊢
          exact this.2
      exact key ls

/-- Stripping a text leaves the words of its lines. -/
theorem TextOf.strip {toks : List (List (List Char))} {lines : List (List Char)}
    (hl : List.Forall₂ LineOf toks lines) (hne : lines ≠ []) (hw : ∀ ts ∈ toks, ts ≠ [])
    (hn : ∀ l ∈ lines, '\n' ∉ l) : TextOf toks (lstrip (rstrip (unlines lines))) := by
  have step1 : ∃ lines', List.Forall₂ LineOf toks lines' ∧ lines' ≠ [] ∧ (∀ l ∈ lines', '\n' ∉ l) ∧
      rstrip (unlines lines) = unlines lines' := by
    obtain ⟨init, l, rfl⟩ : ∃ init l, lines = init ++ [l] :=
      ⟨lines.dropLast, lines.getLast hne, (List.dropLast_append_getLast hne).symm⟩
    obtain ⟨t1, t2, h1, h2, rfl⟩ : ∃ t1 t2, List.Forall₂ LineOf t1 init ∧
        List.Forall₂ LineOf t2 [l] ∧ toks = t1 ++ t2 := by
      have key : ∀ (init : List (List Char)) (toks : List (List (List Char))),
          List.Forall₂ LineOf toks (init ++ [l]) → ∃ t1 t2, List.Forall₂ LineOf t1 init ∧
            List.Forall₂ LineOf t2 [l] ∧ toks = t1 ++ t2 := by
        intro init
        induction init with
        | nil => intro toks h; exact ⟨[], toks, .nil, h, rfl⟩
        | cons a init ih =>
          intro toks h
          cases h with
          | cons h1 h2 =>
            rename_i ts toks
            obtain ⟨t1, t2, b1, b2, rfl⟩ := ih toks h2
            exact ⟨ts :: t1, t2, .cons h1 b1, b2, rfl⟩
      exact key init toks hl
    cases h2 with
    | cons h2 h3 =>
      cases h3
      rename_i ts
      have hb : ¬ isBlank l = true := by rw [h2.isBlank]; exact hw ts (by simp)
      refine ⟨init ++ [rstrip l], ?_, by simp, ?_, rstrip_unlines hb⟩
      · exact List.rel_append h1 (.cons h2.rstrip .nil)
      · intro q hq
        rcases List.mem_append.1 hq with hq | hq
        · exact hn q (by simp [hq])
        · have : q = rstrip l := by simpa using hq
          subst this
          intro hc
          exact hn l (by simp) (rstrip_mem hc)
  obtain ⟨lines', hl', hne', hn', he⟩ := step1
  rw [he]
  cases hl' with
  | nil => exact absurd rfl hne'
  | cons h hl' =>
    rename_i ts l toks ls
    have hb : ¬ isBlank l = true := by rw [h.isBlank]; exact hw ts (by simp)
    refine ⟨⟨lstrip l :: ls, [], ?_, by simp, .cons h.lstrip hl', hw, ?_, by simp⟩⟩
    · rw [lstrip_unlines hb, List.append_nil]
    · intro q hq
      rw [List.append_nil] at hq
      rcases List.mem_cons.1 hq with rfl | hq
      · intro hc; exact hn' l (by simp) (lstrip_mem hc)
      · exact hn' q (by simp [hq])

/-! ## Cells -/

/-- A word with blanks around it. -/
def Padded (t w : List Char) : Prop := ∃ pre post, w = pre ++ t ++ post ∧
  (∀ c ∈ pre, c = ' ') ∧ (∀ c ∈ post, c = ' ') ∧ Word t

theorem LineOf.join {ts ws : List (List Char)} (h : List.Forall₂ Padded ts ws) :
    LineOf ts (joinWords ws) := by
  induction h with
  | nil => exact .blank (by simp [joinWords])
  | cons h1 hr ih =>
    rename_i t w ts ws
    obtain ⟨pre, post, rfl, hpre, hpost, ht⟩ := h1
    have sp : pySpace ' ' = true := by decide
    have hpost' : ∀ c ∈ post, pySpace c = true := fun c hc => by rw [hpost c hc]; exact sp
    have hpre' : ∀ c ∈ pre, pySpace c = true := fun c hc => by rw [hpre c hc]; exact sp
    have ext : ∀ (s : List Char) (us : List (List Char)) (l : List Char),
        (∀ c ∈ s, pySpace c = true) → LineOf us l → LineOf us (s ++ l) := by
      intro s us l hs hl
      cases hl with
      | blank hb =>
        refine .blank ?_
        intro c hc
        rcases List.mem_append.1 hc with hc | hc
        · exact hs c hc
        · exact hb c hc
      | word h1 h2 h3 h4 =>
        rw [← List.append_assoc, ← List.append_assoc]
        refine .word ?_ h2 h3 h4
        intro c hc
        rcases List.mem_append.1 hc with hc | hc
        · exact hs c hc
        · exact h1 c hc
    cases ws with
    | nil =>
      cases hr
      exact .word hpre' ht (by
        intro c hc
        cases post with
        | nil => cases hc
        | cons d p => cases hc; exact hpost' _ (List.mem_cons_self ..)) (.blank hpost')
    | cons v ws =>
      rw [joinWords]
      have : pre ++ t ++ post ++ ' ' :: joinWords (v :: ws) =
          pre ++ t ++ (post ++ [' '] ++ joinWords (v :: ws)) := by simp
      rw [this]
      refine .word hpre' ht ?_ (ext _ _ _ ?_ ih)
      · intro c hc
        cases post with
        | nil => cases hc; exact sp
        | cons d p => cases hc; exact hpost' _ (List.mem_cons_self ..)
      · intro c hc
        rcases List.mem_append.1 hc with hc | hc
        · exact hpost' c hc
        · have : c = ' ' := by simpa using hc
          rw [this]; exact sp

theorem joinWords_mem {c : Char} : ∀ {ws : List (List Char)}, c ∈ joinWords ws →
    c = ' ' ∨ ∃ w ∈ ws, c ∈ w
  | [], h => by cases h
  | [w], h => Or.inr ⟨w, by simp, h⟩
  | w :: v :: ws, h => by
    rw [joinWords] at h
    rcases List.mem_append.1 h with h | h
    · exact Or.inr ⟨w, by simp, h⟩
    · rcases List.mem_cons.1 h with h | h
      · exact Or.inl h
      · rcases joinWords_mem h with h | ⟨u, hu, hc⟩
        · exact Or.inl h
        · exact Or.inr ⟨u, List.mem_cons_of_mem _ hu, hc⟩

section cells
variable {F : Type} [NumText F] [Printing F] [PrintingLaws F]

/-- The words of a row of cells. -/
theorem cells_padded (xs : List F) : ∀ r : List F, ∃ ts : List (List Char),
    List.Forall₂ Padded ts (r.map (Printing.cell xs)) ∧
    List.Forall₂ Reads ts (r.map (Printing.shown xs)) ∧ ts.length = r.length
  | [] => ⟨[], .nil, .nil, rfl⟩
  | x :: r => by
    obtain ⟨ts, h1, h2, h3⟩ := cells_padded xs r
    obtain ⟨pre, tok, post, he, hp, hq, hw, _, _, _, hv⟩ := PrintingLaws.cell xs x
    exact ⟨tok :: ts, .cons ⟨pre, post, he, hp, hq, hw⟩ h1, .cons hv h2, by simp [h3]⟩

theorem cell_clean (xs : List F) (x : F) : '[' ∉ Printing.cell xs x ∧ ']' ∉ Printing.cell xs x ∧
    '\n' ∉ Printing.cell xs x ∧ (Printing.cell xs x).length ≤ 20 := by
  obtain ⟨pre, tok, post, he, hp, hq, hw, h1, h2, h3, _⟩ := PrintingLaws.cell xs x
  have key : ∀ c : Char, c ≠ ' ' → c ∉ tok → c ∉ Printing.cell xs x := by
    intro c hc ht hm
    rw [he] at hm
    rcases List.mem_append.1 hm with hm | hm
    · rcases List.mem_append.1 hm with hm | hm
      · exact hc (hp c hm)
      · exact ht hm
    · exact hc (hq c hm)
  refine ⟨key _ (by decide) h1, key _ (by decide) h2, key _ (by decide) ?_, h3⟩
  intro hm
  have := hw.2 _ hm
  exact absurd this (by decide)

/-- A row of cells in a line. -/
def rowLine (xs r : List F) : List Char := joinWords (r.map (Printing.cell xs))

theorem rowLine_clean (xs r : List F) :
    '[' ∉ rowLine xs r ∧ ']' ∉ rowLine xs r ∧ '\n' ∉ rowLine xs r := by
  have key : ∀ c : Char, c ≠ ' ' → (∀ x, c ∉ Printing.cell xs x) → c ∉ rowLine xs r := by
    intro c hc h hm
    rcases joinWords_mem hm with h' | ⟨w, hw, hcw⟩
    · exact hc h'
    · obtain ⟨x, _, rfl⟩ := List.mem_map.1 hw
      exact h x hcw
  exact ⟨key _ (by decide) fun x => (cell_clean xs x).1,
    key _ (by decide) fun x => (cell_clean xs x).2.1,
    key _ (by decide) fun x => (cell_clean xs x).2.2.1⟩

theorem rowLine_length (xs r : List F) : (rowLine xs r).length ≤ 21 * r.length := by
  have h1 := joinWords_length (r.map (Printing.cell xs))
  have h2 : ∀ r : List F, ((r.map (Printing.cell xs)).map (fun w => w.length + 1)).sum ≤
      21 * r.length := by
    intro r
    induction r with
    | nil => simp
    | cons x r ih =>
      have := (cell_clean xs x).2.2.2
      simp only [List.map_cons, List.sum_cons, List.length_cons]
      omega
  have := h2 r
  rw [rowLine]
  omega

theorem noBrackets_items (i : List Char) (is : List (List Char)) :
    noBrackets (formatRows (i :: is)) =
      noBrackets i ++ (is.map noBrackets).flatMap (fun q => '\n' :: ' ' :: q) := by
  have key : ∀ is : List (List Char), noBrackets (is.flatMap (fun q => '\n' :: ' ' :: q)) =
      (is.map noBrackets).flatMap (fun q => '\n' :: ' ' :: q) := by
    intro is
    induction is with
    | nil => rfl
    | cons q is ih =>
      rw [List.flatMap_cons, noBrackets_append, ih, List.map_cons, List.flatMap_cons]
      rfl
  have : formatRows (i :: is) = ['['] ++ i ++ (is.flatMap (fun q => '\n' :: ' ' :: q)) ++ [']'] := by
    simp [formatRows]
  rw [this]
  simp only [noBrackets_append, key]
  have h1 : noBrackets ['['] = [] := by decide
  have h2 : noBrackets [']'] = [] := by decide
  rw [h1, h2]
  simp

theorem abbreviate_map (f : List Char → List Char) (hf : f dots = dots) (b : Bool)
    (items : List (List Char)) : (abbreviate b items).map f = abbreviate b (items.map f) := by
  unfold abbreviate
  rw [List.length_map]
  split
  · simp [hf, List.map_take, List.map_drop]
  · rfl

theorem abbreviate_mem {b : Bool} {items : List (List Char)} {x : List Char}
    (h : x ∈ abbreviate b items) : x = dots ∨ x ∈ items := by
  unfold abbreviate at h
  split at h
  · rcases List.mem_append.1 h with h | h
    · rcases List.mem_append.1 h with h | h
      · exact Or.inr (List.mem_of_mem_take h)
      · exact Or.inl (by simpa using h)
    · exact Or.inr (List.mem_of_mem_drop h)
  · exact Or.inr h

theorem abbreviate_ne_nil {b : Bool} {items : List (List Char)} (h : items ≠ []) :
    abbreviate b items ≠ [] := by
  unfold abbreviate
  split
  · simp
  · exact h

/-- The text of a table of at most three columns: one line per row, with dots in the middle if
the table has more than 1000 entries. -/
theorem numericToString_items {m : ℕ} {dt : DType} {rows : List (List F)}
    (h0 : 0 < m) (h3 : m ≤ 3) (hne : rows ≠ []) (hm : ∀ q ∈ rows, q.length = m) :
    numericToString (.d2 m dt rows) = lstrip (rstrip (unlines
      (abbreviate (1000 < rows.flatten.length) (rows.map (rowLine rows.flatten))))) := by
  generalize hxs : rows.flatten = xs
  generalize hb : decide (1000 < xs.length) = b
  have hfmt : ∀ q ∈ rows, formatWords 73 [' ', ' '] (abbreviate b
      (q.map (Printing.cell xs))) = '[' :: rowLine xs q ++ [']'] := by
    intro q hq
    have h6 : ¬ (6 < q.length) := by rw [hm q hq]; omega
    have : abbreviate b (q.map (Printing.cell xs)) = q.map (Printing.cell xs) := by
      rw [abbreviate, if_neg]
      simp [h6]
    rw [this, formatWords_fit, rowLine]
    have h1 := rowLine_length xs q
    rw [hm q hq] at h1
    rw [rowLine] at h1
    simp only [List.length_cons, List.length_nil]
    omega
  have harr : array2string (.d2 m dt rows) =
      formatRows (abbreviate b (rows.map (fun q => '[' :: rowLine xs q ++ [']']))) := by
    rw [array2string, if_neg (by simp [hne]; omega), hxs, hb]
    rw [List.map_congr_left hfmt]
  have hnb : (abbreviate b (rows.map (fun q => '[' :: rowLine xs q ++ [']']))).map noBrackets =
      abbreviate b (rows.map (rowLine xs)) := by
    rw [abbreviate_map noBrackets (by decide), List.map_map]
    congr 1
    apply List.map_congr_left
    intro q _
    obtain ⟨h1, h2, _⟩ := rowLine_clean xs q
    show noBrackets (['['] ++ rowLine xs q ++ [']']) = _
    simp only [noBrackets_append]
    rw [noBrackets_of h1 h2]
    have h1 : noBrackets ['['] = [] := by decide
    have h2 : noBrackets [']'] = [] := by decide
    rw [h1, h2]
    simp
  have hne2 : abbreviate b (rows.map (fun q => '[' :: rowLine xs q ++ [']'])) ≠ [] :=
    abbreviate_ne_nil (by simpa using hne)
  rw [numericToString, harr]
  cases ha : abbreviate b (rows.map (fun q => '[' :: rowLine xs q ++ [']'])) with
  | nil => exact absurd ha hne2
  | cons i is =>
    rw [noBrackets_items, noIndent_rows, ← List.map_cons, ← ha, hnb]
    intro q hq
    rw [← List.map_cons, ← ha, hnb] at hq
    rcases abbreviate_mem hq with rfl | hq
    · decide
    · obtain ⟨p, _, rfl⟩ := List.mem_map.1 hq
      exact (rowLine_clean xs p).2.2

/-- The words of the rows of a table. -/
theorem rows_words {m : ℕ} (h0 : 0 < m) (xs : List F) (rows : List (List F))
    (hm : ∀ q ∈ rows, q.length = m) : ∃ toks : List (List (List Char)),
      List.Forall₂ LineOf toks (rows.map (rowLine xs)) ∧ (∀ ts ∈ toks, ts ≠ []) ∧
      List.Forall₂ (List.Forall₂ Reads) toks (rows.map (fun r => r.map (Printing.shown xs))) := by
  induction rows with
  | nil => exact ⟨[], .nil, by simp, .nil⟩
  | cons q qs ih =>
    obtain ⟨toks, a1, a2, a3⟩ := ih (fun p hp => hm p (List.mem_cons_of_mem _ hp))
    obtain ⟨ts, b1, b2, b3⟩ := cells_padded xs q
    have hq := hm q (List.mem_cons_self ..)
    refine ⟨ts :: toks, .cons (LineOf.join b1) a1, ?_, .cons b2 a3⟩
    intro us hus
    rcases List.mem_cons.1 hus with rfl | hus
    · intro h; rw [h] at b3; simp at b3; omega
    · exact a2 us hus

variable [PyFloat F]

/-- C43 in full: printing a table and parsing the text gives the numbers as printed. -/
def C43_statement (F : Type) [NumText F] [Printing F] [PyFloat F] : Prop :=
  ∀ (m : ℕ) (dt : DType) (rows : List (List F)), 0 < m → rows ≠ [] →
    (∀ r ∈ rows, r.length = m) →
    strTableToNumeric (.text (numericToString (.d2 m dt rows))) =
      .ok (.d2 m .float (rows.map (fun r => r.map (Printing.shown rows.flatten))))

/-- C43 for tables of at most three columns and at most 1000 entries. Missing: wider tables
(their rows are wrapped at 75 characters) and larger tables (they are abbreviated,
`C43_refuted`). -/
theorem C43_round_trip_partial {m : ℕ} {dt : DType} {rows : List (List F)}
    (h0 : 0 < m) (h3 : m ≤ 3) (hne : rows ≠ []) (hm : ∀ q ∈ rows, q.length = m)
    (hsize : rows.flatten.length ≤ 1000) :
    strTableToNumeric (.text (numericToString (.d2 m dt rows))) =
      .ok (.d2 m .float (rows.map (fun r => r.map (Printing.shown rows.flatten)))) := by
  rw [numericToString_items h0 h3 hne hm]
  generalize rows.flatten = xs at hsize ⊢
  have hs : abbreviate (1000 < xs.length) (rows.map (rowLine xs)) = rows.map (rowLine xs) := by
    rw [abbreviate, if_neg]
    simp [not_lt.2 hsize]
  rw [hs]
  obtain ⟨toks, a1, a2, a3⟩ := rows_words h0 xs rows hm
  refine C43_parse (TextOf.strip a1 (by simpa using hne) a2 ?_) a3 (by simpa using hne) ?_
  · intro l hl
    obtain ⟨p, _, rfl⟩ := List.mem_map.1 hl
    exact (rowLine_clean xs p).2.2
  · intro q hq
    obtain ⟨p, hp, rfl⟩ := List.mem_map.1 hq
    rw [List.length_map]; exact hm p hp

/-- A table of at most three columns with more than 1000 entries cannot be read back: NumPy
abbreviates it, and the dots are not a number. -/
theorem C43_abbreviated {m : ℕ} {dt : DType} {rows : List (List F)} (h0 : 0 < m) (h3 : m ≤ 3)
    (hm : ∀ q ∈ rows, q.length = m) (hsize : 1000 < rows.flatten.length) :
    (strTableToNumeric (.text (numericToString (.d2 m dt rows))) : Res (NDArr F)) =
      .error .value := by
  have hne : rows ≠ [] := by rintro rfl; simp at hsize
  have hlen : rows.flatten.length = m * rows.length := by
    have : ∀ rows : List (List F), (∀ q ∈ rows, q.length = m) →
        rows.flatten.length = m * rows.length := by
      intro rows
      induction rows with
      | nil => intro _; simp
      | cons q qs ih =>
        intro h
        rw [List.flatten_cons, List.length_append, h q (by simp),
          ih (fun p hp => h p (by simp [hp])), List.length_cons]
        ring
    exact this rows hm
  have h6 : 6 < rows.length := by
    by_contra hc
    have : m * rows.length ≤ 3 * 6 := Nat.mul_le_mul h3 (by omega)
    omega
  rw [numericToString_items h0 h3 hne hm]
  generalize rows.flatten = xs at hsize
  have hs : abbreviate (1000 < xs.length) (rows.map (rowLine xs)) =
      (rows.take 3).map (rowLine xs) ++ [dots] ++ (rows.drop (rows.length - 3)).map (rowLine xs) := by
    rw [abbreviate, if_pos (by simp [hsize, h6])]
    simp [List.map_take, List.map_drop]
  rw [hs]
  obtain ⟨t1, a1, a2, _⟩ := rows_words h0 xs (rows.take 3)
    (fun q hq => hm q (List.mem_of_mem_take hq))
  obtain ⟨t2, b1, b2, _⟩ := rows_words h0 xs (rows.drop (rows.length - 3))
    (fun q hq => hm q (List.mem_of_mem_drop hq))
  have hd : LineOf [dots] dots := by
    have := LineOf.word (s := []) (t := dots) (rest := []) (by simp)
      ⟨by decide, by decide⟩ (by simp) (.blank (by simp))
    simpa using this
  have hall : List.Forall₂ LineOf (t1 ++ [[dots]] ++ t2)
      ((rows.take 3).map (rowLine xs) ++ [dots] ++ (rows.drop (rows.length - 3)).map (rowLine xs)) :=
    List.rel_append (List.rel_append a1 (.cons hd .nil)) b1
  refine C43_malformed (ts := [dots]) (t := dots) (TextOf.strip hall (by simp) ?_ ?_)
    (by simp) (by simp) PrintingLaws.only_value PrintingLaws.dots
  · intro ts hts
    rcases List.mem_append.1 hts with hts | hts
    · rcases List.mem_append.1 hts with hts | hts
      · exact a2 ts hts
      · have : ts = [dots] := by simpa using hts
        rw [this]; simp
    · exact b2 ts hts
  · intro l hl
    rcases List.mem_append.1 hl with hl | hl
    · rcases List.mem_append.1 hl with hl | hl
      · obtain ⟨p, _, rfl⟩ := List.mem_map.1 hl
        exact (rowLine_clean xs p).2.2
      · have : l = dots := by simpa using hl
        rw [this]; decide
    · obtain ⟨p, _, rfl⟩ := List.mem_map.1 hl
      exact (rowLine_clean xs p).2.2

/-- C43 in full is false: a table of 501 rows and two columns. -/
theorem C43_refuted : ¬ C43_statement F := by
  intro h
  obtain ⟨n, hn⟩ : ∃ n : ℕ, 500 < n := ⟨501, by norm_num⟩
  have hm : ∀ r ∈ List.replicate n ([lit 0, lit 1] : List F), r.length = 2 := by
    intro r hr; rw [List.eq_of_mem_replicate hr]; rfl
  have hne : List.replicate n ([lit 0, lit 1] : List F) ≠ [] := by
    intro h0
    have := congrArg List.length h0
    rw [List.length_replicate] at this
    simp at this; omega
  have hs : 1000 < (List.replicate n ([lit 0, lit 1] : List F)).flatten.length := by
    rw [List.length_flatten, List.map_replicate, List.sum_replicate]
    simp; omega
  have h1 := h 2 .float _ (by norm_num) hne hm
  rw [C43_abbreviated (by norm_num) (by norm_num) hm hs] at h1
  cases h1

end cells

/-- A text with two lines of two numbers in an irregular layout, a blank line and a remark. -/
example : ∃ rows : List (List XR), rows.length = 2 ∧
    @strTableToNumeric XR _ demoNumText
      (.text [' ', '1', 'e', '-', '8', '\t', ' ', '2', 'e', '-', '8', '\n', '3', 'e', '-', '8', ' ',
        '4', 'e', '-', '8', ' ', '\n', ' ', '\n', 'x']) = .ok (.d2 2 .float rows) := by
  letI := demoNumText
  have rd : ∀ (c : Char) (n : ℕ), c.isDigit = true → natVal [c] = n → c ≠ '-' →
      Reads [c, 'e', '-', '8'] (XR.fin ((n : ℝ) / 10 ^ 8)) := by
    intro c n hc hn h1
    show demoParse [c, 'e', '-', '8'] = _
    have h2 : ∀ cs : List Char, cs.reverse.head? ≠ some '8' → [c, 'e', '-', '8'] ≠ cs := by
      intro cs hcs he
      apply hcs; rw [← he]; rfl
    rw [demoParse, if_neg (h2 _ (by decide)), if_neg (h2 _ (by decide)), if_neg (h2 _ (by decide))]
    simp only [List.reverse_cons, List.reverse_nil, List.nil_append, List.cons_append]
    simp [intVal, h1, hc, hn]
  have hd : ∀ c : Char, c.isDigit = true → Word [c, 'e', '-', '8'] := by
    intro c hc
    refine ⟨by simp, ?_⟩
    intro d hd
    by_contra h
    refine space_not_digit (by simpa using h) ?_
    have : d = c ∨ d = 'e' ∨ d = '-' ∨ d = '8' := by simpa using hd
    rcases this with rfl | rfl | rfl | rfl
    · exact Or.inl hc
    all_goals decide
  refine ⟨[[.fin (((1 : ℕ) : ℝ) / 10 ^ 8), .fin (((2 : ℕ) : ℝ) / 10 ^ 8)],
    [.fin (((3 : ℕ) : ℝ) / 10 ^ 8), .fin (((4 : ℕ) : ℝ) / 10 ^ 8)]], rfl, ?_⟩
  refine C43_parse (toks := [[['1', 'e', '-', '8'], ['2', 'e', '-', '8']],
    [['3', 'e', '-', '8'], ['4', 'e', '-', '8']]]) ⟨⟨[[' ', '1', 'e', '-', '8', '\t', ' ', '2', 'e',
      '-', '8'], ['3', 'e', '-', '8', ' ', '4', 'e', '-', '8', ' ']], [[' '], ['x']], rfl, by simp,
      ?_, by simp, by decide, by intro l hl; cases hl; decide⟩⟩ ?_ (by simp) (by simp)
  · refine .cons ?_ (.cons ?_ .nil)
    · exact .word (s := [' ']) (rest := ['\t', ' ', '2', 'e', '-', '8']) (by decide)
        (hd '1' (by decide)) (by intro c hc; cases hc; decide)
        (.word (s := ['\t', ' ']) (rest := []) (by decide) (hd '2' (by decide)) (by simp)
          (.blank (by simp)))
    · exact .word (s := []) (rest := [' ', '4', 'e', '-', '8', ' ']) (by decide)
        (hd '3' (by decide)) (by intro c hc; cases hc; decide)
        (.word (s := [' ']) (rest := [' ']) (by decide) (hd '4' (by decide))
          (by intro c hc; cases hc; decide) (.blank (by decide)))
  · exact .cons (.cons (rd '1' 1 (by decide) (by decide) (by decide))
      (.cons (rd '2' 2 (by decide) (by decide) (by decide)) .nil))
      (.cons (.cons (rd '3' 3 (by decide) (by decide) (by decide))
      (.cons (rd '4' 4 (by decide) (by decide) (by decide)) .nil)) .nil)

/-- The round trip on a table with two rows. -/
example : @strTableToNumeric XR _ demoNumText (.text (@numericToString XR demoPrinting
    (.d2 2 .float [[.fin 1, .fin 2], [.fin 3, .fin 4]]))) =
    .ok (.d2 2 .float [[demoShown (.fin 1), demoShown (.fin 2)],
      [demoShown (.fin 3), demoShown (.fin 4)]]) := by
  letI := demoNumText
  letI := demoPrinting
  haveI := demoPrintingLaws
  exact C43_round_trip_partial (by norm_num) (by norm_num) (by simp)
    (by intro q hq; simp at hq; rcases hq with rfl | rfl <;> rfl) (by simp)

end Disp
