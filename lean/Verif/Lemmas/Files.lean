import Verif.Model.Files
import Verif.Props.TablePrint
/-!
# Facts about text files
-/

namespace Disp

/-- Lines marked as comment. -/
def hashLines (bs : List (List Char)) : List Char := bs.flatMap (fun b => '#' :: b ++ ['\n'])

/-- No character ends a line. -/
def OneLine (b : List Char) : Prop := ∀ c ∈ b, isLineEnd c = false

theorem hashLines_cons (b : List Char) (bs : List (List Char)) :
    hashLines (b :: bs) = '#' :: b ++ '\n' :: hashLines bs := by
  simp [hashLines]

theorem hashLines_append (as bs : List (List Char)) :
    hashLines (as ++ bs) = hashLines as ++ hashLines bs := by
  simp [hashLines]

theorem isLineEnd_nl : isLineEnd '\n' = true := by decide

theorem OneLine.nl {b : List Char} (h : OneLine b) : '\n' ∉ b := by
  intro hm
  have := h _ hm
  rw [isLineEnd_nl] at this
  cases this

theorem OneLine.cr {b : List Char} (h : OneLine b) : '\r' ∉ b := by
  intro hm
  have := h _ hm
  rw [show isLineEnd '\r' = true by decide] at this
  cases this

theorem splitLines_line {b rest : List Char} (h : OneLine b) :
    splitLines (b ++ '\n' :: rest) = (b ++ ['\n']) :: splitLines rest := by
  induction b with
  | nil =>
    rw [List.nil_append, splitLines, if_pos]
    · rfl
    · simp [isLineEnd_nl]
  | cons c b ih =>
    have hc := h c (List.mem_cons_self ..)
    rw [List.cons_append, splitLines, if_neg (by simp [hc]),
      ih (fun d hd => h d (List.mem_cons_of_mem _ hd))]
    rfl

theorem splitLines_cons (c : Char) (cs : List Char) :
    ∃ l ls, splitLines (c :: cs) = (c :: l) :: ls := by
  rw [splitLines]
  split
  · exact ⟨_, _, rfl⟩
  · cases splitLines cs with
    | nil => exact ⟨_, _, rfl⟩
    | cons l ls => exact ⟨_, _, rfl⟩

theorem rstripNl_nl (b : List Char) : rstripNl (b ++ ['\n']) = rstripNl b := by
  simp [rstripNl]

theorem rstripNl_of {b : List Char} (h : ∀ c ∈ b.getLast?, c ≠ '\n' ∧ c ≠ '\r') :
    rstripNl b = b := by
  rw [rstripNl]
  have : (b.reverse.dropWhile (fun c => c = '\n' || c = '\r')) = b.reverse := by
    cases hb : b.reverse with
    | nil => rfl
    | cons c cs =>
      have hl : b.getLast? = some c := by
        rw [← List.head?_reverse, hb]; rfl
      have := h c hl
      rw [List.dropWhile_cons_of_neg]
      simp [this]
  rw [this, List.reverse_reverse]

theorem OneLine.rstripNl {b : List Char} (h : OneLine b) : rstripNl b = b := by
  refine rstripNl_of (fun c hc => ?_)
  have hm := List.mem_of_getLast? hc
  exact ⟨by rintro rfl; exact h.nl hm, by rintro rfl; exact h.cr hm⟩

/-- The comment of a file that begins with marked lines. -/
theorem readComment_hash {bs : List (List Char)} {rest : List Char} (h : ∀ b ∈ bs, OneLine b)
    (hr : ∀ c ∈ rest.head?, c ≠ '#' ∧ c ≠ ';') : readComment (hashLines bs ++ rest) = bs := by
  induction bs with
  | nil =>
    rw [readComment]
    cases rest with
    | nil => rfl
    | cons c cs =>
      obtain ⟨l, ls, he⟩ := splitLines_cons c cs
      have := hr c rfl
      show commentLines (splitLines (c :: cs)) = []
      rw [he, commentLines, if_neg (by simp [this])]
  | cons b bs ih =>
    have hb := h b (List.mem_cons_self ..)
    have h1 : OneLine ('#' :: b) := by
      intro c hc
      rcases List.mem_cons.1 hc with rfl | hc
      · decide
      · exact hb c hc
    have h2 : hashLines (b :: bs) ++ rest = ('#' :: b) ++ '\n' :: (hashLines bs ++ rest) := by
      rw [hashLines_cons]; simp
    rw [h2, readComment, splitLines_line h1, List.cons_append, commentLines, if_pos (Or.inl rfl),
      rstripNl_nl, hb.rstripNl]
    congr 1
    exact ih (fun c hc => h c (List.mem_cons_of_mem _ hc))

theorem universal_id {cs : List Char} (h : '\r' ∉ cs) : universal cs = cs := by
  induction cs with
  | nil => rfl
  | cons c cs ih =>
    rw [universal, if_neg (by rintro rfl; exact h (List.mem_cons_self ..)),
      ih (fun hm => h (List.mem_cons_of_mem _ hm))]

theorem splitOnChar_hash {bs : List (List Char)} {rest : List Char} (h : ∀ b ∈ bs, OneLine b) :
    splitOnChar '\n' (hashLines bs ++ rest) = bs.map ('#' :: ·) ++ splitOnChar '\n' rest := by
  induction bs with
  | nil => rfl
  | cons b bs ih =>
    have hb := (h b (List.mem_cons_self ..)).nl
    have h2 : hashLines (b :: bs) ++ rest = ('#' :: b) ++ '\n' :: (hashLines bs ++ rest) := by
      rw [hashLines_cons]; simp
    rw [h2, splitOnChar_append (by
      intro hm
      rcases List.mem_cons.1 hm with h | h
      · exact absurd h (by decide)
      · exact hb h), ih (fun c hc => h c (List.mem_cons_of_mem _ hc))]
    rfl

theorem hashLines_cr {bs : List (List Char)} (h : ∀ b ∈ bs, OneLine b) : '\r' ∉ hashLines bs := by
  intro hm
  obtain ⟨b, hb, hc⟩ := List.mem_flatMap.1 hm
  simp only [List.cons_append, List.mem_cons, List.mem_append, List.not_mem_nil, or_false] at hc
  rcases hc with hc | hc | hc
  · exact absurd hc (by decide)
  · exact (h b hb).cr hc
  · exact absurd hc (by decide)

theorem fieldsOf_hash (delim : Option Char) (b : List Char) : fieldsOf '#' delim ('#' :: b) = [] := by
  cases delim <;> simp [fieldsOf, splitSpaces]

variable {F : Type}

theorem loadRows_hash [NumText F] (delim : Option Char) (bs ls : List (List Char)) :
    (loadRows '#' delim (bs.map ('#' :: ·) ++ ls) : Res (List (List F))) = loadRows '#' delim ls := by
  induction bs with
  | nil => rfl
  | cons b bs ih => rw [List.map_cons, List.cons_append, loadRows, fieldsOf_hash]; exact ih

/-! ## Rows written with `np.savetxt` -/

/-- The extensions of text files that can be written, with the separators. -/
def Sep (delim : Char) (rd : Option Char) : Prop :=
  (delim = '\t' ∧ rd = none) ∨ (delim = ',' ∧ rd = some ',')

theorem joinWith_mem {delim c : Char} : ∀ {ws : List (List Char)},
    c ∈ savetxtRows.joinWith delim ws → c = delim ∨ ∃ w ∈ ws, c ∈ w
  | [], h => by simp [savetxtRows.joinWith] at h
  | [w], h => Or.inr ⟨w, by simp, h⟩
  | w :: v :: ws, h => by
    rw [savetxtRows.joinWith] at h
    rcases List.mem_append.1 h with h | h
    · exact Or.inr ⟨w, by simp, h⟩
    · rcases List.mem_cons.1 h with h | h
      · exact Or.inl h
      · rcases joinWith_mem h with h | ⟨u, hu, h⟩
        · exact Or.inl h
        · exact Or.inr ⟨u, List.mem_cons_of_mem _ hu, h⟩

theorem LineOf.space {ts : List (List Char)} {l : List Char} {c : Char} (h : LineOf ts l)
    (hc : pySpace c = true) : LineOf ts (c :: l) := by
  cases h with
  | blank h =>
    refine .blank (fun d hd => ?_)
    rcases List.mem_cons.1 hd with rfl | hd
    · exact hc
    · exact h d hd
  | word hs ht hsep hrest =>
    rename_i s t rest ts
    have := LineOf.word (s := c :: s) (t := t) (rest := rest) (by
      intro d hd
      rcases List.mem_cons.1 hd with rfl | hd
      · exact hc
      · exact hs d hd) ht hsep hrest
    simpa using this

theorem LineOf.joinTab : ∀ {ws : List (List Char)}, (∀ w ∈ ws, Word w) →
    LineOf ws (savetxtRows.joinWith '\t' ws)
  | [], _ => .blank (by simp [savetxtRows.joinWith])
  | [w], h => by
    have := LineOf.word (s := []) (t := w) (rest := []) (by simp) (h w (by simp)) (by simp)
      (.blank (by simp))
    simpa [savetxtRows.joinWith] using this
  | w :: v :: ws, h => by
    have ih := LineOf.joinTab (ws := v :: ws) (fun u hu => h u (List.mem_cons_of_mem _ hu))
    have h1 := ih.space (c := '\t') (by decide)
    have := LineOf.word (s := []) (t := w) (rest := '\t' :: savetxtRows.joinWith '\t' (v :: ws))
      (by simp) (h w (by simp)) (by intro c hc; cases hc; decide) h1
    simpa [savetxtRows.joinWith] using this

theorem splitOnChar_joinWith {d : Char} : ∀ {ws : List (List Char)}, ws ≠ [] →
    (∀ w ∈ ws, d ∉ w) → splitOnChar d (savetxtRows.joinWith d ws) = ws
  | [], h, _ => absurd rfl h
  | [w], _, h => splitOnChar_none (h w (by simp))
  | w :: v :: ws, _, h => by
    rw [savetxtRows.joinWith, splitOnChar_append (h w (by simp)),
      splitOnChar_joinWith (by simp) (fun u hu => h u (List.mem_cons_of_mem _ hu))]

theorem joinWith_ne_nil {d : Char} : ∀ {ws : List (List Char)}, ws ≠ [] → (∀ w ∈ ws, w ≠ []) →
    savetxtRows.joinWith d ws ≠ []
  | [], h, _ => absurd rfl h
  | [w], _, h => h w (by simp)
  | w :: v :: ws, _, _ => by rw [savetxtRows.joinWith]; simp

theorem takeWhile_all {p : Char → Bool} {l : List Char} (h : ∀ c ∈ l, p c = true) :
    l.takeWhile p = l := by
  induction l with
  | nil => rfl
  | cons c l ih =>
    rw [List.takeWhile_cons_of_pos (h c (List.mem_cons_self ..)),
      ih (fun d hd => h d (List.mem_cons_of_mem _ hd))]

theorem strip_word {w : List Char} (h : Word w) : lstrip (rstrip w) = w := by
  have h1 : rstrip w = w := by
    have := rstrip_append (a := []) (isBlank_word h)
    rw [rstrip]
    have : w.reverse.dropWhile pySpace = w.reverse := by
      cases hb : w.reverse with
      | nil => rfl
      | cons c cs =>
        have hm : c ∈ w := by rw [← List.mem_reverse, hb]; exact List.mem_cons_self ..
        rw [List.dropWhile_cons_of_neg]; simp [h.2 c hm]
    rw [this, List.reverse_reverse]
  rw [h1]
  simpa using lstrip_word (b := []) h

section rows
variable [NumText F] [Printing F] [PrintingLaws F]

/-- The numbers of a row, as fields of a line. -/
theorem fieldsOf_row {delim : Char} {rd : Option Char} (hd : Sep delim rd) (r : List F) :
    fieldsOf '#' rd (savetxtRows.joinWith delim (r.map Printing.fmt8)) = r.map Printing.fmt8 := by
  have hw : ∀ w ∈ r.map Printing.fmt8, Word w ∧ ',' ∉ w ∧ '#' ∉ w := by
    intro w hw
    obtain ⟨x, _, rfl⟩ := List.mem_map.1 hw
    have := PrintingLaws.fmt8 x
    exact ⟨this.1, this.2.1, this.2.2.1⟩
  have hdel : delim ≠ '#' := by rcases hd with ⟨rfl, _⟩ | ⟨rfl, _⟩ <;> decide
  have hcut : (savetxtRows.joinWith delim (r.map Printing.fmt8)).takeWhile (· ≠ '#') =
      savetxtRows.joinWith delim (r.map Printing.fmt8) := by
    refine takeWhile_all (fun c hc => ?_)
    simp only [decide_eq_true_eq, ne_eq]
    rintro rfl
    rcases joinWith_mem hc with h | ⟨w, hm, h⟩
    · exact hdel h.symm
    · exact (hw w hm).2.2 h
  simp only [fieldsOf, hcut]
  generalize r.map Printing.fmt8 = ws at hw
  rcases hd with ⟨rfl, rfl⟩ | ⟨rfl, rfl⟩
  · exact splitSpaces_line (LineOf.joinTab (fun w h => (hw w h).1))
  · by_cases hn : ws = []
    · subst hn; rfl
    · have := joinWith_ne_nil (d := ',') hn (fun w h => (hw w h).1.1)
      simp only [if_neg this, splitOnChar_joinWith hn (fun w h => (hw w h).2.1)]
      conv_rhs => rw [← List.map_id ws]
      exact List.map_congr_left (fun w h => strip_word (hw w h).1)

theorem row_clean {delim : Char} {rd : Option Char} (hd : Sep delim rd) (r : List F) :
    '\n' ∉ savetxtRows.joinWith delim (r.map Printing.fmt8) ∧
    '\r' ∉ savetxtRows.joinWith delim (r.map Printing.fmt8) := by
  have key : ∀ c : Char, pySpace c = true → c ≠ '\t' →
      c ∉ savetxtRows.joinWith delim (r.map Printing.fmt8) := by
    intro c hs ht hc
    rcases joinWith_mem hc with h | ⟨w, hm, h⟩
    · rcases hd with ⟨rfl, _⟩ | ⟨rfl, _⟩
      · exact ht h
      · rw [h] at hs; revert hs; decide
    · obtain ⟨x, _, rfl⟩ := List.mem_map.1 hm
      have := (PrintingLaws.fmt8 x).1.2 c h
      rw [hs] at this; cases this
  exact ⟨key _ (by decide) (by decide), key _ (by decide) (by decide)⟩

theorem savetxtRows_cr {delim : Char} {rd : Option Char} (hd : Sep delim rd) (rows : List (List F)) :
    '\r' ∉ savetxtRows delim rows := by
  intro hm
  obtain ⟨r, _, h⟩ := List.mem_flatMap.1 hm
  rcases List.mem_append.1 h with h | h
  · exact (row_clean hd r).2 h
  · exact absurd h (by decide)

theorem fmt8_reads (r : List F) : (r.map Printing.fmt8).mapM NumText.parseFloat =
    .ok (r.map Printing.shown8) := by
  refine mapM_reads ?_
  induction r with
  | nil => exact .nil
  | cons x r ih => exact .cons (PrintingLaws.fmt8 x).2.2.2.2 ih

/-- The rows are read back as the numbers shown. -/
theorem loadRows_savetxt {delim : Char} {rd : Option Char} (hd : Sep delim rd) :
    ∀ rows : List (List F), (∀ r ∈ rows, r ≠ []) →
    loadRows '#' rd (splitOnChar '\n' (savetxtRows delim rows)) =
      .ok (rows.map (fun r => r.map Printing.shown8))
  | [], _ => by
    have : fieldsOf '#' rd [] = [] := by
      rcases hd with ⟨_, rfl⟩ | ⟨_, rfl⟩ <;> simp [fieldsOf, splitSpaces]
    simp [savetxtRows, splitOnChar, loadRows, this]
  | r :: rows, h => by
    have ih := loadRows_savetxt hd rows (fun q hq => h q (List.mem_cons_of_mem _ hq))
    have h1 : savetxtRows delim (r :: rows) =
        savetxtRows.joinWith delim (r.map Printing.fmt8) ++ '\n' :: savetxtRows delim rows := by
      simp [savetxtRows]
    rw [h1, splitOnChar_append (row_clean hd r).1, loadRows, fieldsOf_row hd]
    have hr := h r (List.mem_cons_self ..)
    have h2 := fmt8_reads r
    cases r with
    | nil => exact absurd rfl hr
    | cons x r =>
      rw [List.map_cons] at h2 ⊢
      simp only [h2, ih, bind, Except.bind, List.map_cons]

theorem savetxtRows_head {delim : Char} (rows : List (List F)) (h : ∀ r ∈ rows, r ≠ []) :
    ∀ c ∈ (savetxtRows delim rows).head?, c ≠ '#' ∧ c ≠ ';' := by
  intro c hc
  cases rows with
  | nil => simp [savetxtRows] at hc
  | cons r rows =>
    have hr := h r (List.mem_cons_self ..)
    cases r with
    | nil => exact absurd rfl hr
    | cons x r =>
      obtain ⟨hw, _, h1, h2, _⟩ := PrintingLaws.fmt8 x
      have : ∃ rest, savetxtRows delim ((x :: r) :: rows) = Printing.fmt8 x ++ rest := by
        cases r with
        | nil => exact ⟨_, by simp [savetxtRows, savetxtRows.joinWith]; rfl⟩
        | cons y r => exact ⟨_, by simp [savetxtRows, savetxtRows.joinWith]; rfl⟩
      obtain ⟨rest, he⟩ := this
      rw [he] at hc
      cases hf : (Printing.fmt8 x : List Char) with
      | nil => exact absurd hf hw.1
      | cons d ds =>
        rw [hf] at hc h1 h2
        have : d = c := by simpa using hc
        subst this
        exact ⟨by rintro rfl; exact h1 (List.mem_cons_self ..),
          by rintro rfl; exact h2 (List.mem_cons_self ..)⟩

/-- Reading back a file that consists of marked lines and rows. -/
theorem loadtxt_hash {delim : Char} {rd : Option Char} (hd : Sep delim rd)
    {bs : List (List Char)} (hb : ∀ b ∈ bs, OneLine b) (rows : List (List F))
    (h : ∀ r ∈ rows, r ≠ []) :
    loadtxt '#' rd (hashLines bs ++ savetxtRows delim rows) =
      squeezeRows (rows.map (fun r => r.map Printing.shown8)) := by
  have hcr : '\r' ∉ hashLines bs ++ savetxtRows delim rows := by
    intro hm
    rcases List.mem_append.1 hm with hm | hm
    · exact hashLines_cr hb hm
    · exact savetxtRows_cr hd rows hm
  rw [loadtxt, universal_id hcr, splitOnChar_hash hb, loadRows_hash, loadRows_savetxt hd rows h]
  rfl

end rows

end Disp
