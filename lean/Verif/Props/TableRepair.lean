import Verif.Props.TableText
/-!
# C41, C42: repair of tables whose first column is not increasing
-/

namespace Disp

namespace Spec

variable {F : Type} [PyFloat F]

/-- The first entry of a row. -/
def Abscissa (r : List F) (x : F) : Prop := r.head? = some x

/-- Row `a` has the smaller abscissa. -/
def Before (a b : List F) : Prop := ∃ x y, Abscissa a x ∧ Abscissa b y ∧ PyFloat.lt x y = true

open Classical in
/-- The rows whose abscissa exceeds those of all rows before them, `seen` being the rows that
have gone by. -/
noncomputable def recordsFrom (seen : List (List F)) : List (List F) → List (List F)
  | [] => []
  | r :: rs => if ∀ q ∈ seen, Before q r then r :: recordsFrom (seen ++ [r]) rs
    else recordsFrom (seen ++ [r]) rs

/-- The rows of a table whose abscissa exceeds those of all rows above. -/
noncomputable def records (rows : List (List F)) : List (List F) := recordsFrom [] rows

end Spec

open Spec

section generic
variable {F : Type} [PyFloat F]

theorem before_cons {x y : F} {a b : List F} :
    Before (x :: a) (y :: b) ↔ PyFloat.lt x y = true := by
  constructor
  · rintro ⟨u, v, hu, hv, h⟩
    have hu' : x = u := by simpa [Abscissa] using hu
    have hv' : y = v := by simpa [Abscissa] using hv
    rw [hu', hv']; exact h
  · intro h; exact ⟨x, y, rfl, rfl, h⟩

theorem fixRows_cons (last x : F) (r : List F) (rs : List (List F)) :
    fixRows last ((x :: r) :: rs) =
      (if PyFloat.lt last x = true then (fixRows x rs).map (fun q => (x :: r) :: q)
        else fixRows last rs) := by
  rw [fixRows]
  simp only [pyIdx, List.getElem?_cons_zero, bind, Except.bind]
  split
  · cases fixRows x rs <;> rfl
  · rfl

/-- The loop of `fix_table` succeeds, keeps rows in order, and keeps an increasing sequence
above the last abscissa. -/
theorem fixRows_spec [LawfulCmp F] (last : F) (rows : List (List F)) (h : ∀ r ∈ rows, r ≠ []) :
    ∃ out, fixRows last rows = .ok out ∧ out.Sublist rows ∧ out.Pairwise Before ∧
      ∀ q ∈ out, ∃ y, Abscissa q y ∧ PyFloat.lt last y = true := by
  induction rows generalizing last with
  | nil => exact ⟨[], rfl, .slnil, .nil, by simp⟩
  | cons r rs ih =>
    have hr := h r (by simp)
    have hrs : ∀ q ∈ rs, q ≠ [] := fun q hq => h q (by simp [hq])
    cases r with
    | nil => exact absurd rfl hr
    | cons x r =>
      rw [fixRows_cons]
      split
      · rename_i hlt
        obtain ⟨out, h1, h2, h3, h4⟩ := ih x hrs
        refine ⟨(x :: r) :: out, by rw [h1]; rfl, h2.cons_cons _, ?_, ?_⟩
        · rw [List.pairwise_cons]
          refine ⟨fun q hq => ?_, h3⟩
          obtain ⟨y, hy, hxy⟩ := h4 q hq
          exact ⟨x, y, rfl, hy, hxy⟩
        · intro q hq
          rcases List.mem_cons.1 hq with rfl | hq
          · exact ⟨x, rfl, hlt⟩
          · obtain ⟨y, hy, hxy⟩ := h4 q hq
            exact ⟨y, hy, LawfulCmp.lt_trans _ _ _ hlt hxy⟩
      · obtain ⟨out, h1, h2, h3, h4⟩ := ih last hrs
        exact ⟨out, h1, h2.cons _, h3, h4⟩

/-- Every record is kept. -/
theorem fixRows_records {last : F} {rows out seen : List (List F)}
    (hs : ∃ q ∈ seen, Abscissa q last) (h : ∀ r ∈ rows, r ≠ []) (ho : fixRows last rows = .ok out) :
    (recordsFrom seen rows).Sublist out := by
  induction rows generalizing last out seen with
  | nil =>
    have : out = [] := by cases ho; rfl
    rw [this]; exact .slnil
  | cons r rs ih =>
    have hr := h r (by simp)
    have hrs : ∀ q ∈ rs, q ≠ [] := fun q hq => h q (by simp [hq])
    obtain ⟨p, hp, hpl⟩ := hs
    cases r with
    | nil => exact absurd rfl hr
    | cons x r =>
      rw [fixRows_cons] at ho
      rw [recordsFrom]
      split at ho
      · cases hf : fixRows x rs with
        | error e => rw [hf] at ho; cases ho
        | ok rest =>
          have ho' : out = (x :: r) :: rest := by rw [hf] at ho; cases ho; rfl
          rw [ho']
          have := ih (last := x) (seen := seen ++ [x :: r]) ⟨x :: r, by simp, rfl⟩ hrs hf
          split
          · exact this.cons_cons _
          · exact this.cons _
      · rename_i hlt
        have := ih (last := last) (seen := seen ++ [x :: r]) ⟨p, by simp [hp], hpl⟩ hrs ho
        rw [if_neg]
        · exact this
        · intro hall
          obtain ⟨u, v, hu, hv, huv⟩ := hall p hp
          have hu' : last = u := by
            rw [Abscissa] at hu hpl; rw [hpl] at hu; cases hu; rfl
          have hv' : x = v := by simpa [Abscissa] using hv
          rw [hu', hv'] at hlt
          exact hlt huv

/-- Without NaN, nothing but the records is kept. -/
theorem fixRows_eq_records [LawfulCmp F] {last : F} {rows seen : List (List F)}
    (hs : ∃ q ∈ seen, Abscissa q last)
    (hmax : ∀ q ∈ seen, ∃ y, Abscissa q y ∧ PyFloat.isNaN y = false ∧ PyFloat.lt last y = false)
    (h : ∀ r ∈ rows, ∃ y, Abscissa r y ∧ PyFloat.isNaN y = false) :
    fixRows last rows = .ok (recordsFrom seen rows) := by
  induction rows generalizing last seen with
  | nil => rfl
  | cons r rs ih =>
    obtain ⟨x, hx, hxn⟩ := h r (by simp)
    have hrs : ∀ q ∈ rs, ∃ y, Abscissa q y ∧ PyFloat.isNaN y = false :=
      fun q hq => h q (by simp [hq])
    obtain ⟨p, hp, hpl⟩ := hs
    cases r with
    | nil => cases hx
    | cons x' r =>
      have hxx : x' = x := by simpa [Abscissa] using hx
      subst hxx
      rw [fixRows_cons, recordsFrom]
      by_cases hlt : PyFloat.lt last x' = true
      · rw [if_pos hlt, if_pos]
        · rw [ih (last := x') (seen := seen ++ [x' :: r]) ⟨x' :: r, by simp, rfl⟩ _ hrs]
          · rfl
          · intro q hq
            rcases List.mem_append.1 hq with hq | hq
            · obtain ⟨y, hy, hyn, hly⟩ := hmax q hq
              refine ⟨y, hy, hyn, ?_⟩
              cases hxy : PyFloat.lt x' y with
              | false => rfl
              | true => rw [LawfulCmp.lt_trans _ _ _ hlt hxy] at hly; cases hly
            · have : q = x' :: r := by simpa using hq
              exact ⟨x', by rw [this]; rfl, hxn, LawfulCmp.lt_irrefl _⟩
        · intro q hq
          obtain ⟨y, hy, hyn, hly⟩ := hmax q hq
          refine ⟨y, x', hy, rfl, ?_⟩
          rcases LawfulCmp.lt_cotrans last y x' hyn hlt with h | h
          · rw [h] at hly; cases hly
          · exact h
      · rw [if_neg hlt, if_neg]
        · refine ih (last := last) (seen := seen ++ [x' :: r]) ⟨p, by simp [hp], hpl⟩ ?_ hrs
          intro q hq
          rcases List.mem_append.1 hq with hq | hq
          · exact hmax q hq
          · have : q = x' :: r := by simpa using hq
            exact ⟨x', by rw [this]; rfl, hxn, by simpa using hlt⟩
        · intro hall
          obtain ⟨u, v, hu, hv, huv⟩ := hall p hp
          have hu' : last = u := by
            rw [Abscissa] at hu hpl; rw [hpl] at hu; cases hu; rfl
          have hv' : x' = v := by simpa [Abscissa] using hv
          rw [hu', hv'] at hlt
          exact hlt huv

/-- An increasing first column is left as it is. -/
theorem fixRows_id {last : F} {rows : List (List F)}
    (h : (([last] : List F) :: rows).Pairwise Before) : fixRows last rows = .ok rows := by
  induction rows generalizing last with
  | nil => rfl
  | cons r rs ih =>
    rw [List.pairwise_cons] at h
    obtain ⟨x, y, hx, hy, hxy⟩ := h.1 r (by simp)
    cases r with
    | nil => cases hy
    | cons y' r =>
      have h1 : last = x := by simpa [Abscissa] using hx
      have h2 : y' = y := by simpa [Abscissa] using hy
      rw [fixRows_cons, if_pos (by rw [h1, h2]; exact hxy), ih]
      · rfl
      · have h3 := h.2
        rw [List.pairwise_cons] at h3 ⊢
        refine ⟨fun q hq => ?_, h3.2⟩
        obtain ⟨u, v, hu, hv, huv⟩ := h3.1 q hq
        exact ⟨u, v, hu, hv, huv⟩

/-- `validate_table` tells whether the first column is strictly increasing. -/
theorem validateTable_iff [LawfulCmp F] {m : ℕ} {dt : DType} {rows : List (List F)} (h0 : 0 < m)
    (hm : ∀ r ∈ rows, r.length = m) :
    validateTable (.d2 m dt rows) = .ok true ↔ rows.Pairwise Before := by
  have key : ∀ rows : List (List F), (∀ r ∈ rows, r.length = m) →
      ∃ xs, rows.mapM (fun r => pyIdx r 0) = .ok xs ∧ (increasing xs = true ↔ rows.Pairwise Before) ∧
        (∀ x ∈ xs.head?, ∃ q ∈ rows.head?, Abscissa q x) ∧ (rows = [] ↔ xs = []) := by
    intro rows
    induction rows with
    | nil => intro _; exact ⟨[], rfl, by simp [increasing], by simp, by simp⟩
    | cons r rs ih =>
      intro hm
      obtain ⟨xs, h1, h2, h3, h4⟩ := ih (fun q hq => hm q (by simp [hq]))
      have hr := hm r (by simp)
      cases r with
      | nil => simp at hr; omega
      | cons x r =>
        refine ⟨x :: xs, by rw [List.mapM_cons, h1]; rfl, ?_, ?_, by simp⟩
        · cases xs with
          | nil =>
            have : rs = [] := h4.2 rfl
            subst this
            simp [increasing]
          | cons y ys =>
            rw [increasing, Bool.and_eq_true, h2]
            obtain ⟨q, hq, hqy⟩ := h3 y rfl
            cases rs with
            | nil => cases hq
            | cons p ps =>
              have hpq : p = q := by cases hq; rfl
              subst hpq
              constructor
              · rintro ⟨hxy, hp⟩
                rw [List.pairwise_cons]
                refine ⟨fun z hz => ?_, hp⟩
                rcases List.mem_cons.1 hz with rfl | hz
                · exact ⟨x, y, rfl, hqy, hxy⟩
                · rw [List.pairwise_cons] at hp
                  obtain ⟨u, v, hu, hv, huv⟩ := hp.1 z hz
                  have : y = u := by rw [Abscissa] at hqy hu; rw [hqy] at hu; cases hu; rfl
                  subst this
                  exact ⟨x, v, rfl, hv, LawfulCmp.lt_trans _ _ _ hxy huv⟩
              · intro hp
                rw [List.pairwise_cons] at hp
                obtain ⟨u, v, hu, hv, huv⟩ := hp.1 p (by simp)
                have h5 : x = u := by simpa [Abscissa] using hu
                have h6 : y = v := by rw [Abscissa] at hqy hv; rw [hqy] at hv; cases hv; rfl
                exact ⟨by rw [h5, h6]; exact huv, hp.2⟩
        · intro z hz
          have : x = z := by simpa using hz
          subst this
          exact ⟨x :: r, rfl, rfl⟩
  obtain ⟨xs, h1, h2, _⟩ := key rows hm
  rw [validateTable, NDArr.col, if_pos h0, h1, ← h2]
  simp [bind, Except.bind]

/-- C41: `fix_table` on a table with at least one row and one column succeeds; the result keeps
the number of columns, is a subsequence of the rows that begins with the first row, has a
strictly increasing first column and contains every row whose abscissa exceeds those of all
rows above it. -/
theorem C41_repair [LawfulCmp F] {m : ℕ} {dt : DType} {rows : List (List F)} (h0 : 0 < m)
    (hne : rows ≠ []) (hm : ∀ r ∈ rows, r.length = m) :
    ∃ out, fixTable (.d2 m dt rows) = .ok (.d2 m dt out) ∧ out.Sublist rows ∧
      out.head? = rows.head? ∧ out.Pairwise Before ∧ (records rows).Sublist out := by
  cases rows with
  | nil => exact absurd rfl hne
  | cons r rs =>
    have hnn : ∀ q ∈ r :: rs, q ≠ [] := by
      intro q hq h
      have := hm q hq
      rw [h] at this; simp at this; omega
    cases r with
    | nil => exact absurd rfl (hnn [] (by simp))
    | cons x r =>
      obtain ⟨out, h1, h2, h3, h4⟩ := fixRows_spec x rs (fun q hq => hnn q (by simp [hq]))
      refine ⟨(x :: r) :: out, ?_, h2.cons_cons _, rfl, ?_, ?_⟩
      · rw [fixTable]
        simp only [pyIdx, List.getElem?_cons_zero, bind, Except.bind, h1]
      · rw [List.pairwise_cons]
        refine ⟨fun q hq => ?_, h3⟩
        obtain ⟨y, hy, hxy⟩ := h4 q hq
        exact ⟨x, y, rfl, hy, hxy⟩
      · rw [records, recordsFrom, if_pos (by simp)]
        exact (fixRows_records (last := x) (seen := [] ++ [x :: r]) ⟨x :: r, by simp, rfl⟩
          (fun q hq => hnn q (by simp [hq])) h1).cons_cons _

/-- C41: without NaN in the first column the result is exactly the list of the records. -/
theorem C41_exact [LawfulCmp F] {m : ℕ} {dt : DType} {rows : List (List F)}
    (hne : rows ≠ []) (hx : ∀ r ∈ rows, ∃ x, Abscissa r x ∧ PyFloat.isNaN x = false) :
    fixTable (.d2 m dt rows) = .ok (.d2 m dt (records rows)) := by
  cases rows with
  | nil => exact absurd rfl hne
  | cons r rs =>
    obtain ⟨x, hr, hn⟩ := hx r (by simp)
    cases r with
    | nil => cases hr
    | cons x' r =>
      have : x' = x := by simpa [Abscissa] using hr
      subst this
      have h1 := fixRows_eq_records (last := x') (seen := [] ++ [x' :: r]) (rows := rs)
        ⟨x' :: r, by simp, rfl⟩ (by
          intro q hq
          have : q = x' :: r := by simpa using hq
          exact ⟨x', by rw [this]; rfl, hn, LawfulCmp.lt_irrefl _⟩)
        (fun q hq => hx q (by simp [hq]))
      rw [fixTable]
      simp only [pyIdx, List.getElem?_cons_zero, bind, Except.bind, h1]
      rw [records, recordsFrom, if_pos (by simp)]

/-- C41: a table that `validate_table` accepts is left unchanged. -/
theorem C41_valid_unchanged [LawfulCmp F] {m : ℕ} {dt : DType} {rows : List (List F)} (h0 : 0 < m)
    (hne : rows ≠ []) (hm : ∀ r ∈ rows, r.length = m)
    (hv : validateTable (.d2 m dt rows) = .ok true) :
    fixTable (.d2 m dt rows) = .ok (.d2 m dt rows) := by
  rw [validateTable_iff h0 hm] at hv
  cases rows with
  | nil => exact absurd rfl hne
  | cons r rs =>
    cases r with
    | nil => have := hm [] (by simp); simp at this; omega
    | cons x r =>
      have : fixRows x rs = .ok rs := by
        refine fixRows_id ?_
        rw [List.pairwise_cons] at hv ⊢
        refine ⟨fun q hq => ?_, hv.2⟩
        obtain ⟨u, v, hu, hv, huv⟩ := hv.1 q hq
        exact ⟨u, v, hu, hv, huv⟩
      rw [fixTable]
      simp only [pyIdx, List.getElem?_cons_zero, bind, Except.bind, this]

/-- C41: `validate_table` accepts what `fix_table` returns, and a second call of `fix_table`
changes nothing. -/
theorem C41_idempotent [LawfulCmp F] {m : ℕ} {dt : DType} {rows : List (List F)} {t : NDArr F}
    (h0 : 0 < m) (hne : rows ≠ []) (hm : ∀ r ∈ rows, r.length = m)
    (ht : fixTable (.d2 m dt rows) = .ok t) :
    validateTable t = .ok true ∧ fixTable t = .ok t := by
  obtain ⟨out, h1, h2, h3, h4, _⟩ := C41_repair (dt := dt) h0 hne hm
  have hto : t = .d2 m dt out := by rw [h1] at ht; cases ht; rfl
  subst hto
  have hm' : ∀ r ∈ out, r.length = m := fun r hr => hm r (h2.mem hr)
  have hv := (validateTable_iff (dt := dt) h0 hm').2 h4
  refine ⟨hv, C41_valid_unchanged h0 ?_ hm' hv⟩
  rintro rfl
  cases rows with
  | nil => exact hne rfl
  | cons r rs => cases h3

end generic

/-- The hypotheses of C41 hold for the table `2, 1, 3`, whose second row is not a record. -/
example : ∃ out, fixTable (.d2 2 .float [[XR.fin 2, .fin 0], [.fin 1, .fin 0], [.fin 3, .fin 0]]) =
    .ok (.d2 2 .float out) ∧ out.Pairwise Before := by
  obtain ⟨out, h1, _, _, h4, _⟩ := C41_repair (F := XR) (dt := .float) (m := 2)
    (rows := [[XR.fin 2, .fin 0], [.fin 1, .fin 0], [.fin 3, .fin 0]]) (by norm_num) (by simp)
    (by intro r hr; simp at hr; rcases hr with rfl | rfl | rfl <;> rfl)
  exact ⟨out, h1, h4⟩

/-! ## C42 -/

/-- C42 in full: a table obtained from a file has a strictly increasing first column. -/
def C42_statement (F : Type) [PyFloat F] [NumText F] : Prop :=
  ∀ (t : TableArg F) (m : ℕ) (dt : DType) (rows : List (List F)),
    strTableToNumeric t = .ok (.d2 m dt rows) → rows.Pairwise Before

section
variable {F : Type} [PyFloat F] [NumText F]

/-- What holds instead of C42: an array is passed on as it is, whatever its first column.
Missing: the repair is never made, because the result of `validate_table` is compared with
`False` by identity. -/
theorem C42_unchanged_partial {a b : NDArr F} (h : strTableToNumeric (.array a) = .ok b) : b = a := by
  rw [strTableToNumeric] at h
  simp only [bind, Except.bind] at h
  cases hv : validateTable a with
  | error e => rw [hv] at h; cases h
  | ok c => rw [hv] at h; cases h; rfl

/-- The same for text (see also `C43_parse`): a table is returned whether or not it is
increasing, with all its rows. -/
theorem C42_text_partial {toks : List (List (List Char))} {text : List Char} {rows : List (List F)}
    {m : ℕ} {a : NDArr F} (h : TextOf toks text)
    (hv : List.Forall₂ (List.Forall₂ Reads) toks rows) (hne : rows ≠ [])
    (hm : ∀ r ∈ rows, r.length = m) (ha : strTableToNumeric (.text text) = .ok a) :
    a = .d2 m .float rows := by
  rw [C43_parse h hv hne hm] at ha
  cases ha; rfl

/-- Tables whose first column does increase are of course increasing afterwards. -/
theorem C42_increasing_partial {m : ℕ} {dt : DType} {rows : List (List F)} {b : NDArr F}
    (h : strTableToNumeric (.array (.d2 m dt rows)) = .ok b) (hp : rows.Pairwise Before) :
    ∃ out, b = .d2 m dt out ∧ out.Pairwise Before :=
  ⟨rows, C42_unchanged_partial h, hp⟩

end

/-- C42 in full is false: the table with the abscissae `2, 1`. -/
theorem C42_refuted [NumText XR] : ¬ C42_statement XR := by
  intro h
  have h1 : strTableToNumeric (.array (.d2 1 .float [[XR.fin 2], [XR.fin 1]])) =
      .ok (.d2 1 .float [[XR.fin 2], [XR.fin 1]]) := by
    rw [strTableToNumeric]
    simp [bind, Except.bind, validateTable, NDArr.col, pyIdx, pure, Except.pure]
  have h2 := h _ _ _ _ h1
  rw [List.pairwise_cons] at h2
  have := h2.1 _ (List.mem_singleton.2 rfl)
  rw [before_cons] at this
  change decide ((2 : ℝ) < 1) = true at this
  norm_num at this

end Disp
