import Verif.Model.Printing
import Verif.Lemmas.Text
import Verif.Lemmas.Laws
/-!
# C43: parsing and printing of tables in text form
-/

namespace Disp

/-! ## Contract on the printing of numbers -/

/-- What the package needs to know about the way NumPy writes numbers: an entry of an array is
a word padded with blanks, without brackets, at most 20 characters long (eight digits after
the decimal point, in positional or scientific notation) of printable ASCII characters other
than capital letters, and reads back as the number shown. `float` raises nothing but `ValueError` on text, and `...` is
not a number. A number written by `"%.8f"` is a word without a comma, a hash sign or a semicolon
and reads back as the number shown. -/
class PrintingLaws (F : Type) [NumText F] [Printing F] : Prop where
  cell : ∀ (xs : List F) (x : F), ∃ pre tok post, Printing.cell xs x = pre ++ tok ++ post ∧
    (∀ c ∈ pre, c = ' ') ∧ (∀ c ∈ post, c = ' ') ∧ Word tok ∧ '[' ∉ tok ∧ ']' ∉ tok ∧
    (Printing.cell xs x).length ≤ 20 ∧ NumText.parseFloat tok = .ok (Printing.shown xs x)
  ascii : ∀ (xs : List F) (x : F), ∀ c ∈ Printing.cell xs x, 32 ≤ c.toNat ∧ c.toNat ≤ 126 ∧
    ¬ (65 ≤ c.toNat ∧ c.toNat ≤ 90)
  only_value : ∀ s e, (NumText.parseFloat s : Res F) = .error e → e = .value
  dots : (NumText.parseFloat dots : Res F) = .error .value
  fmt8 : ∀ x : F, Word (Printing.fmt8 x) ∧ ',' ∉ Printing.fmt8 x ∧ '#' ∉ Printing.fmt8 x ∧
    ';' ∉ Printing.fmt8 x ∧ NumText.parseFloat (Printing.fmt8 x) = .ok (Printing.shown8 x)

section generic
variable {F : Type} [PyFloat F] [NumText F]

/-- The word reads as the number. -/
def Reads (t : List Char) (x : F) : Prop := NumText.parseFloat t = .ok x

omit [PyFloat F] in
theorem mapM_reads {ts : List (List Char)} {xs : List F} (h : List.Forall₂ Reads ts xs) :
    ts.mapM NumText.parseFloat = .ok xs := by
  induction h with
  | nil => rfl
  | cons h _ ih => rw [List.mapM_cons, h, ih]; rfl

/-- Text with the given lines, of which the ones before the first blank line consist of the
given words. -/
structure TextOf (toks : List (List (List Char))) (text : List Char) : Prop where
  intro ::
  ex : ∃ lines rest, text = unlines (lines ++ rest) ∧ lines ++ rest ≠ [] ∧
    List.Forall₂ LineOf toks lines ∧ (∀ ts ∈ toks, ts ≠ []) ∧
    (∀ l ∈ lines ++ rest, '\n' ∉ l) ∧ (∀ l ∈ rest.head?, isBlank l = true)

omit [PyFloat F] in
theorem parseLines_rows {toks : List (List (List Char))} {lines rest : List (List Char)}
    {rows : List (List F)} (hl : List.Forall₂ LineOf toks lines) (hne : ∀ ts ∈ toks, ts ≠ [])
    (hr : ∀ l ∈ rest.head?, isBlank l = true) (hv : List.Forall₂ (List.Forall₂ Reads) toks rows) :
    parseLines (lines ++ rest) = .ok rows := by
  induction hl generalizing rows with
  | nil =>
    cases hv
    cases rest with
    | nil => rfl
    | cons b rest =>
      have : isBlank b = true := hr b rfl
      simp [parseLines, this]
  | cons h _ ih =>
    cases hv with
    | cons hx hv =>
      rename_i ts l toks lines _ xs rows
      have hb : ¬ isBlank l = true := by
        rw [h.isBlank]; exact hne ts (List.mem_cons_self ..)
      rw [List.cons_append, parseLines, if_neg hb]
      simp only [parseRow, splitSpaces_line h, mapM_reads hx, bind, Except.bind,
        ih (fun t ht => hne t (List.mem_cons_of_mem _ ht)) hv]

omit [PyFloat F] in
theorem parseLines_text {toks : List (List (List Char))} {text : List Char}
    {rows : List (List F)} (h : TextOf toks text) (hv : List.Forall₂ (List.Forall₂ Reads) toks rows) :
    parseLines (splitOnChar '\n' text) = .ok rows := by
  obtain ⟨lines, rest, rfl, hne, hl, hw, hn, hr⟩ := h.ex
  rw [splitOnChar_unlines hne hn]
  exact parseLines_rows hl hw hr hv

omit [PyFloat F] [NumText F] in
theorem arrayOfRows_ok {rows : List (List F)} {m : ℕ} (hne : rows ≠ [])
    (hm : ∀ r ∈ rows, r.length = m) : arrayOfRows rows = .ok (.d2 m .float rows) := by
  cases rows with
  | nil => exact absurd rfl hne
  | cons r rs =>
    have h1 : r.length = m := hm r (List.mem_cons_self ..)
    have h2 : rs.all (fun q => q.length = r.length) = true := by
      rw [List.all_eq_true]
      intro q hq
      simp [h1, hm q (List.mem_cons_of_mem _ hq)]
    rw [arrayOfRows, if_pos h2, h1]

omit [NumText F] in
theorem validateTable_ok {rows : List (List F)} {m : ℕ} {dt : DType} (h0 : 0 < m)
    (hm : ∀ r ∈ rows, r.length = m) :
    ∃ xs, rows.mapM (fun r => pyIdx r 0) = .ok xs ∧
      validateTable (.d2 m dt rows) = .ok (increasing xs) := by
  have : ∀ rows : List (List F), (∀ r ∈ rows, r.length = m) →
      ∃ xs, rows.mapM (fun r => pyIdx r 0) = .ok xs := by
    intro rows
    induction rows with
    | nil => intro _; exact ⟨[], rfl⟩
    | cons r rs ih =>
      intro h
      obtain ⟨xs, hxs⟩ := ih (fun q hq => h q (List.mem_cons_of_mem _ hq))
      have hr := h r (List.mem_cons_self ..)
      cases r with
      | nil => simp at hr; omega
      | cons x r =>
        refine ⟨x :: xs, ?_⟩
        rw [List.mapM_cons, hxs]
        rfl
  obtain ⟨xs, hxs⟩ := this rows hm
  refine ⟨xs, hxs, ?_⟩
  rw [validateTable, NDArr.col, if_pos h0, hxs]
  rfl

/-- C43: a text whose first lines, up to a blank line, consist of `m` numbers each, in whatever
layout, gives the table of these numbers. -/
theorem C43_parse {toks : List (List (List Char))} {text : List Char} {rows : List (List F)}
    {m : ℕ} (h : TextOf toks text) (hv : List.Forall₂ (List.Forall₂ Reads) toks rows)
    (hne : rows ≠ []) (hm : ∀ r ∈ rows, r.length = m) :
    strTableToNumeric (.text text) = .ok (.d2 m .float rows) := by
  have h0 : 0 < m := by
    cases hv with
    | nil => exact absurd rfl hne
    | cons hx _ =>
      rename_i ts r toks rows _
      have h1 : ts ≠ [] := by
        obtain ⟨lines, rest, _, _, _, hw, _⟩ := h.ex
        exact hw ts (List.mem_cons_self ..)
      have h2 := hx.length_eq
      have h3 := hm r (List.mem_cons_self ..)
      have h4 : 0 < ts.length := List.length_pos_of_ne_nil h1
      omega
  obtain ⟨xs, _, hx⟩ := validateTable_ok (dt := .float) h0 hm
  rw [strTableToNumeric]
  simp only [bind, Except.bind, parseLines_text h hv, arrayOfRows_ok hne hm, hx]

/-- C43: rows of different lengths are rejected. -/
theorem C43_ragged {toks : List (List (List Char))} {text : List Char} {rows : List (List F)}
    (h : TextOf toks text) (hv : List.Forall₂ (List.Forall₂ Reads) toks rows)
    (hr : ∃ r ∈ rows, ∃ q ∈ rows, r.length ≠ q.length) :
    (strTableToNumeric (.text text) : Res (NDArr F)) = .error .value := by
  have : arrayOfRows rows = .error .value := by
    obtain ⟨r, hr, q, hq, hne⟩ := hr
    cases rows with
    | nil => cases hr
    | cons p ps =>
      rw [arrayOfRows, if_neg]
      intro hall
      rw [List.all_eq_true] at hall
      have key : ∀ x ∈ p :: ps, x.length = p.length := by
        intro x hx
        rcases List.mem_cons.1 hx with rfl | hx
        · rfl
        · simpa using hall x hx
      exact hne ((key r hr).trans (key q hq).symm)
  rw [strTableToNumeric]
  simp only [bind, Except.bind, parseLines_text h hv, this]

omit [PyFloat F] in
theorem mapM_malformed {ts : List (List Char)} {t : List Char} (ht : t ∈ ts)
    (hbad : ∀ t ∈ ts, ∀ e, (NumText.parseFloat t : Res F) = .error e → e = .value)
    (hb : (NumText.parseFloat t : Res F) = .error .value) :
    (ts.mapM NumText.parseFloat : Res (List F)) = .error .value := by
  induction ts with
  | nil => cases ht
  | cons s ts ih =>
    rw [List.mapM_cons]
    cases hs : (NumText.parseFloat s : Res F) with
    | error e => rw [hbad s (List.mem_cons_self ..) e hs]; rfl
    | ok x =>
      have : t ∈ ts := by
        rcases List.mem_cons.1 ht with rfl | h
        · rw [hs] at hb; cases hb
        · exact h
      rw [ih this (fun t ht => hbad t (List.mem_cons_of_mem _ ht))]
      rfl

omit [PyFloat F] in
theorem mapM_value (hval : ∀ s e, (NumText.parseFloat s : Res F) = .error e → e = .value)
    {us : List (List Char)} {e : PyErr}
    (hm : (us.mapM NumText.parseFloat : Res (List F)) = .error e) : e = .value := by
  induction us with
  | nil => cases hm
  | cons u us ihu =>
    rw [List.mapM_cons] at hm
    cases hu : (NumText.parseFloat u : Res F) with
    | error e' =>
      rw [hu] at hm
      have h1 := hval u e' hu
      cases hm
      exact h1
    | ok x =>
      rw [hu] at hm
      cases hus : (us.mapM NumText.parseFloat : Res (List F)) with
      | ok ys => rw [hus] at hm; cases hm
      | error e' =>
        rw [hus] at hm
        have h1 : e' = e := by cases hm; rfl
        subst h1
        exact ihu hus

/-- C43: a word that is not a number, in any line before the first blank one, is reported.
`float` raises nothing but `ValueError` on text. -/
theorem C43_malformed {toks : List (List (List Char))} {text : List Char}
    (h : TextOf toks text) {ts : List (List Char)} (hts : ts ∈ toks) {t : List Char} (ht : t ∈ ts)
    (hval : ∀ s e, (NumText.parseFloat s : Res F) = .error e → e = .value)
    (hb : (NumText.parseFloat t : Res F) = .error .value) :
    (strTableToNumeric (.text text) : Res (NDArr F)) = .error .value := by
  obtain ⟨lines, rest, rfl, hne, hl, hw, hn, hr⟩ := h.ex
  have : (parseLines (lines ++ rest) : Res (List (List F))) = .error .value := by
    clear hn hne h
    induction hl with
    | nil => cases hts
    | cons h _ ih =>
      rename_i us l toks lines hl
      have hb' : ¬ isBlank l = true := by rw [h.isBlank]; exact hw us (List.mem_cons_self ..)
      rw [List.cons_append, parseLines, if_neg hb']
      simp only [parseRow, splitSpaces_line h, bind, Except.bind]
      rcases List.mem_cons.1 hts with rfl | hts
      · rw [mapM_malformed ht (fun t _ e => hval t e) hb]
      · have ih' := ih hts (fun t ht => hw t (List.mem_cons_of_mem _ ht))
        cases hm : (us.mapM NumText.parseFloat : Res (List F)) with
        | ok xs => simp only [ih']
        | error e =>
          rw [mapM_value hval hm]
  rw [strTableToNumeric]
  simp only [bind, Except.bind, splitOnChar_unlines hne hn, this]

end generic

end Disp
