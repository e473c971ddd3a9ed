import Verif.Model.CsvInterrupted
import Verif.Lemmas.CsvCut
import Verif.Props.CsvLosses
import Verif.Props.InterruptedSave
/-!
# C132: saving the catalogue is interrupted
-/

namespace Disp

open Spec CsvParser

section

variable {F : Type} [PyFloat F] [CsvIO F]

namespace Spec

/-- `y` is the number that a beginning of the text of `x` stands for. -/
def CutNum (x y : F) : Prop := ∃ w, w ≠ [] ∧ w <+: CsvIO.num x ∧ CsvIO.parse w = .ok y

/-- The same for numbers that may be missing: they may become missing. -/
def CutVals (v w : Vals F) : Prop :=
  w = .scalar PyFloat.nan ∨
    ∃ x y, v = .scalar x ∧ PyFloat.isNaN x = false ∧ w = .scalar y ∧ CutNum x y

/-- `d` is a beginning of the text `c`. -/
def CutText (c d : Cell) : Prop :=
  ∃ s t : String, c = .str s ∧ d = .str t ∧ t.toList <+: s.toList

/-- What is left of a row if its line was cut: the texts before the bounds and the lower bound are
complete, the cells after them may be cut, and cells after a cut are empty. -/
structure CutRow (r r' : Row F) : Prop where
  al : r'.al = r.al
  name : r'.name = r.name
  fullName : r'.fullName = r.fullName
  author : r'.author = r.author
  comment : r'.comment = r.comment
  reference : r'.reference = r.reference
  stype : r'.stype = r.stype
  unit : r'.unit = r.unit
  lower : Reread r.lower r'.lower
  upper : CutNum r.upper r'.upper
  nRef : CutVals r.nRef r'.nRef
  kRef : CutVals r.kRef r'.kRef
  path : CutText r.path r'.path
  modl : CutText r.modl r'.modl
  numbers : r'.path ≠ .str "" →
    Reread r.upper r'.upper ∧ RereadCell r.nRef r'.nRef ∧ RereadCell r.kRef r'.kRef
  located : r'.modl ≠ .str "" → r'.path = r.path

end Spec

theorem Spec.TextCell.cutText {cr : Bool} {c : Cell} (h : TextCell cr c) {v : List Char}
    (hv : v <+: c.text F) : CutText c (textCell v) := by
  obtain ⟨s, rfl, -⟩ := h
  exact ⟨s, String.ofList v, rfl, rfl, by simpa [Cell.text] using hv⟩

theorem Spec.TextCell.cutText_rfl {cr : Bool} {c : Cell} (h : TextCell cr c) : CutText c c := by
  obtain ⟨s, rfl, -⟩ := h
  exact ⟨s, s, rfl, rfl, List.prefix_rfl⟩

theorem Spec.TextCell.cutText_nil {cr : Bool} {c : Cell} (h : TextCell cr c) :
    CutText c (.str "") := by
  obtain ⟨s, rfl, -⟩ := h
  exact ⟨s, "", rfl, rfl, List.nil_prefix⟩

theorem Spec.Reread.cut [CsvPlain F] {x y : F} (hx : PyFloat.isNaN x = false) (h : Reread x y) :
    CutNum x y := ⟨_, CsvPlain.num_ne x hx, List.prefix_rfl, h⟩

theorem cutNum_of {x y : F} (hx : PyFloat.isNaN x = false) {v : List Char}
    (hv : v <+: numText F x) (h : parseNum v = .ok y) : CutNum x y := by
  unfold parseNum at h
  split at h
  · cases h
  · rename_i hne
    rw [numText, hx] at hv
    exact ⟨v, hne, hv, h⟩

theorem cutVals_of {v w : Vals F} (hv : NumCell v) {t : List Char} (ht : t <+: v.text)
    (h : parseRef t = .ok w) : CutVals v w := by
  obtain ⟨x, rfl⟩ := hv
  unfold parseRef at h
  split at h
  · left
    injection h with h
    exact h.symm
  · rename_i hne
    right
    obtain ⟨y, hy, h⟩ := except_bind_ok h
    injection h with h
    have ht' : t <+: numText F x := ht
    by_cases hx : PyFloat.isNaN x = true
    · rw [numText, if_pos hx] at ht'
      exact absurd (by simpa using ht') hne
    · rw [numText, if_neg hx] at ht'
      exact ⟨x, y, rfl, by simpa using hx, h.symm, t, hne, ht', hy⟩

theorem reread_of {x y : F} (hx : PyFloat.isNaN x = false)
    (h : parseNum (numText F x) = .ok y) : Reread x y := by
  have h' : parseNum (CsvIO.num x) = .ok y := by simpa [numText, hx] using h
  unfold parseNum at h'
  split at h'
  · cases h'
  · exact h'

theorem rereadCell_of [CsvPlain F] {v w : Vals F} (h : parseRef v.text = .ok w) :
    RereadCell v w := by
  rintro x rfl
  have h' : parseRef (numText F x) = .ok w := h
  by_cases hx : PyFloat.isNaN x = true
  · rw [numText, if_pos hx] at h'
    simp only [parseRef, if_true, Except.ok.injEq] at h'
    exact ⟨_, h'.symm, fun _ => rfl, fun h => by simp [hx] at h⟩
  · have hx' : PyFloat.isNaN x = false := by simpa using hx
    rw [numText, if_neg hx] at h'
    unfold parseRef at h'
    rw [if_neg (CsvPlain.num_ne x hx')] at h'
    obtain ⟨y, hy, h'⟩ := except_bind_ok h'
    injection h' with h'
    exact ⟨y, h'.symm, fun h => absurd h hx, fun _ => hy⟩

/-- The parts of a row that is read. -/
theorem ofFields_parts {l : List (List Char)} {r : Row F} (h : Row.ofFields l = .ok r) :
    parseNum (l.getD 8 []) = .ok r.lower ∧ parseNum (l.getD 9 []) = .ok r.upper ∧
      parseRef (l.getD 10 []) = .ok r.nRef ∧ parseRef (l.getD 11 []) = .ok r.kRef ∧
      r.al = textCell (l.getD 0 []) ∧ r.name = textCell (l.getD 1 []) ∧
      r.fullName = textCell (l.getD 2 []) ∧ r.author = textCell (l.getD 3 []) ∧
      r.comment = textCell (l.getD 4 []) ∧ r.reference = textCell (l.getD 5 []) ∧
      r.stype = textCell (l.getD 6 []) ∧ r.unit = textCell (l.getD 7 []) ∧
      r.path = textCell (l.getD 12 []) ∧ r.modl = textCell (l.getD 13 []) := by
  unfold Row.ofFields at h
  split at h
  · cases h
  obtain ⟨lo, hlo, h⟩ := except_bind_ok h
  obtain ⟨up, hup, h⟩ := except_bind_ok h
  obtain ⟨n, hn, h⟩ := except_bind_ok h
  obtain ⟨k, hk, h⟩ := except_bind_ok h
  injection h with h
  subst h
  exact ⟨hlo, hup, hn, hk, rfl, rfl, rfl, rfl, rfl, rfl, rfl, rfl, rfl, rfl⟩

theorem textCell_nil : textCell [] = .str "" := rfl

/-- What is read from a line that was cut. -/
theorem cutRow_of [CsvPlain F] {r r' : Row F} (hr : Spec.Storable r) {j : Nat} {s v : List Char}
    (hj : r.fields[j]? = some s) (hv : v <+: s)
    (h : Row.ofFields (r.fields.take j ++ [v]) = .ok r') : CutRow r r' := by
  obtain ⟨h8, h9, h10, h11, h0, h1, h2, h3, h4, h5, h6, h7, h12, h13⟩ := ofFields_parts h
  have hlt : j < 14 := by
    have := (List.getElem?_eq_some_iff.1 hj).1
    simpa [Row.fields] using this
  have hbad : ∀ y : F, parseNum ([] : List Char) ≠ .ok y := by
    intro y hy
    simp [parseNum] at hy
  have a0 := (hr.al.text (F := F)).2
  have a1 := (hr.name.text (F := F)).2
  have a2 := (hr.fullName.text (F := F)).2
  have a3 := (hr.author.text (F := F)).2
  have a4 := (hr.comment.text (F := F)).2
  have a5 := (hr.reference.text (F := F)).2
  have a6 := (hr.stype.text (F := F)).2
  have a7 := (hr.unit.text (F := F)).2
  have a12 := (hr.path.text (F := F)).2
  have hnan : ∀ w : Vals F, parseRef ([] : List Char) = .ok w → w = .scalar PyFloat.nan := by
    intro w hw
    simp only [parseRef, if_true, Except.ok.injEq] at hw
    exact hw.symm
  by_cases hj9 : j < 9
  · exfalso
    refine hbad r'.upper ?_
    have e : (r.fields.take j ++ [v]).getD 9 [] = [] := by
      rw [List.getD_eq_getElem?_getD, List.getElem?_eq_none]
      · rfl
      · simp only [List.length_append, List.length_take, List.length_singleton]
        omega
    rwa [e] at h9
  have hcases : j = 9 ∨ j = 10 ∨ j = 11 ∨ j = 12 ∨ j = 13 := by omega
  rcases hcases with rfl | rfl | rfl | rfl | rfl
  all_goals
    simp only [Row.fields, List.getElem?_cons_succ, List.getElem?_cons_zero, Option.some.injEq] at hj
    subst hj
    simp only [Row.fields, List.take_succ_cons, List.take_zero, List.cons_append, List.nil_append,
      List.getD_cons_succ, List.getD_cons_zero, List.getD_nil, a0, a1, a2, a3, a4, a5, a6, a7, a12,
      textCell_nil] at h0 h1 h2 h3 h4 h5 h6 h7 h8 h9 h10 h11 h12 h13
  · exact ⟨h0, h1, h2, h3, h4, h5, h6, h7, reread_of hr.lower h8, cutNum_of hr.upper hv h9,
      .inl (hnan _ h10), .inl (hnan _ h11), h12 ▸ hr.path.cutText_nil, h13 ▸ hr.modl.cutText_nil,
      fun hne => absurd h12 hne, fun hne => absurd h13 hne⟩
  · exact ⟨h0, h1, h2, h3, h4, h5, h6, h7, reread_of hr.lower h8,
      (reread_of hr.upper h9).cut hr.upper,
      cutVals_of hr.nRef hv h10, .inl (hnan _ h11), h12 ▸ hr.path.cutText_nil,
      h13 ▸ hr.modl.cutText_nil, fun hne => absurd h12 hne, fun hne => absurd h13 hne⟩
  · exact ⟨h0, h1, h2, h3, h4, h5, h6, h7, reread_of hr.lower h8,
      (reread_of hr.upper h9).cut hr.upper,
      cutVals_of hr.nRef List.prefix_rfl h10, cutVals_of hr.kRef hv h11,
      h12 ▸ hr.path.cutText_nil, h13 ▸ hr.modl.cutText_nil,
      fun hne => absurd h12 hne, fun hne => absurd h13 hne⟩
  · exact ⟨h0, h1, h2, h3, h4, h5, h6, h7, reread_of hr.lower h8,
      (reread_of hr.upper h9).cut hr.upper,
      cutVals_of hr.nRef List.prefix_rfl h10, cutVals_of hr.kRef List.prefix_rfl h11,
      h12 ▸ hr.path.cutText hv, h13 ▸ hr.modl.cutText_nil,
      fun _ => ⟨reread_of hr.upper h9, rereadCell_of h10, rereadCell_of h11⟩,
      fun hne => absurd h13 hne⟩
  · exact ⟨h0, h1, h2, h3, h4, h5, h6, h7, reread_of hr.lower h8,
      (reread_of hr.upper h9).cut hr.upper,
      cutVals_of hr.nRef List.prefix_rfl h10, cutVals_of hr.kRef List.prefix_rfl h11,
      h12 ▸ hr.path.cutText_rfl, h13 ▸ hr.modl.cutText hv,
      fun _ => ⟨reread_of hr.upper h9, rereadCell_of h10, rereadCell_of h11⟩, fun _ => h12⟩

/-- Rows that are read from complete lines. -/
theorem mapM_same [CsvPlain F] {rows rows' : List (Row F)} (h : ∀ r ∈ rows, Spec.Storable r)
    (hm : (rows.map Row.fields).mapM Row.ofFields = .ok rows') :
    List.Forall₂ SameRow rows rows' := by
  induction rows generalizing rows' with
  | nil =>
    simp only [List.map_nil, List.mapM_nil, pure, Except.pure, Except.ok.injEq] at hm
    subst hm
    exact .nil
  | cons r rows ih =>
    rw [List.map_cons, List.mapM_cons] at hm
    obtain ⟨r', hr', hm⟩ := except_bind_ok hm
    obtain ⟨rest, hrest, hm⟩ := except_bind_ok hm
    simp only [pure, Except.pure, Except.ok.injEq] at hm
    subst hm
    refine .cons ?_ (ih (fun r hr => h r (by simp [hr])) hrest)
    have hst := h r (by simp)
    obtain ⟨h8, h9, h10, h11, h0, h1, h2, h3, h4, h5, h6, h7, h12, h13⟩ := ofFields_parts hr'
    simp only [Row.fields, List.getD_cons_succ, List.getD_cons_zero] at h0 h1 h2 h3 h4 h5 h6 h7 h8 h9 h10 h11 h12 h13
    exact ⟨h0.trans (hst.al.text (F := F)).2, h1.trans (hst.name.text (F := F)).2,
      h2.trans (hst.fullName.text (F := F)).2, h3.trans (hst.author.text (F := F)).2,
      h4.trans (hst.comment.text (F := F)).2, h5.trans (hst.reference.text (F := F)).2,
      h6.trans (hst.stype.text (F := F)).2, h7.trans (hst.unit.text (F := F)).2,
      reread_of hst.lower h8, reread_of hst.upper h9, rereadCell_of h10, rereadCell_of h11,
      h12.trans (hst.path.text (F := F)).2, h13.trans (hst.modl.text (F := F)).2⟩

namespace Spec

/-- The catalogue `g` is what is left of `f`: the first rows, unchanged, and perhaps one more row
that was cut. -/
def LeftOf (f g : Frame F) : Prop :=
  g.map Prod.fst = (List.range g.length).map (fun i : Nat => (i : Int)) ∧
    ((∃ k, k ≤ f.length ∧ List.Forall₂ SameRow ((f.map Prod.snd).take k) (g.map Prod.snd)) ∨
      ∃ (k : Nat) (r r' : Row F) (rows : List (Row F)), (f.map Prod.snd)[k]? = some r ∧
        List.Forall₂ SameRow ((f.map Prod.snd).take k) rows ∧ CutRow r r' ∧
        g.map Prod.snd = rows ++ [r'])

end Spec

/-- C132 as far as it holds: whatever the moment of the interruption, if the new file can be
opened then its catalogue has the first rows of the saved one, and at most the last of them was cut,
behind its lower bound. -/
theorem C132_left_partial [CsvPlain F] {f : Frame F} (h : ∀ p ∈ f, Spec.Storable p.2)
    {text : List Char} (ht : text ∈ csvStates f) {g : Frame F}
    (hg : loadCsv text = some (.ok g)) : LeftOf f g := by
  have hp : text <+: csvText f := mem_beginnings.1 ht
  have hsafe : ∀ l ∈ csvColumns :: f.map (fun p => p.2.fields),
      2 ≤ l.length ∧ ∀ s ∈ l, CsvSafe (CsvIO.quotesCr F) s := by
    intro l hl
    rcases List.mem_cons.1 hl with rfl | hl
    · exact ⟨by decide, csvColumns_safe _⟩
    · obtain ⟨p, hp, rfl⟩ := List.mem_map.1 hl
      exact ⟨by simp [Row.fields], (h p hp).safe⟩
  have hst : ∀ r ∈ f.map Prod.snd, Spec.Storable r := by
    intro r hr
    obtain ⟨p, hp, rfl⟩ := List.mem_map.1 hr
    exact h p hp
  have hfields : f.map (fun p => p.2.fields) = (f.map Prod.snd).map Row.fields := by
    rw [List.map_map]; rfl
  have hnil : LeftOf f (numbered ([] : List (Row F))) :=
    ⟨rfl, .inl ⟨0, Nat.zero_le _, by simp [numbered]⟩⟩
  unfold loadCsv at hg
  rcases csvLines_beginning hsafe hp with he | ⟨k, hk, he⟩ | ⟨k, l, j, s, v, hk, hj, hv, he⟩
  · rw [he] at hg
    simp at hg
  · rw [he] at hg
    simp only at hg
    split at hg
    · cases hg
    cases k with
    | zero => simp at hg
    | succ k =>
      simp only [List.take_succ_cons, Option.some.injEq] at hg
      obtain ⟨rows, hrows, hg⟩ := except_bind_ok hg
      injection hg with hg
      subst hg
      rw [hfields, ← List.map_take] at hrows
      have hsame := mapM_same (fun r hr => hst r (List.mem_of_mem_take hr)) hrows
      refine ⟨?_, .inl ⟨k, by simpa using hk, by rw [numbered_snd]; exact hsame⟩⟩
      rw [numbered_fst]
      simp [numbered]
  · rw [he] at hg
    simp only at hg
    split at hg
    · cases hg
    cases k with
    | zero =>
      simp only [List.take_zero, List.nil_append, Option.some.injEq, List.mapM_nil, pure,
        Except.pure, bind, Except.bind] at hg
      injection hg with hg
      subst hg
      exact hnil
    | succ k =>
      simp only [List.take_succ_cons, List.cons_append, Option.some.injEq] at hg
      obtain ⟨rows, hrows, hg⟩ := except_bind_ok hg
      injection hg with hg
      subst hg
      rw [List.getElem?_cons_succ, hfields, List.getElem?_map] at hk
      cases hr : (f.map Prod.snd)[k]? with
      | none => rw [hr] at hk; cases hk
      | some r =>
        rw [hr] at hk
        injection hk with hk
        subst hk
        rw [List.mapM_append] at hrows
        obtain ⟨init, hinit, hrows⟩ := except_bind_ok hrows
        obtain ⟨last, hlast, hrows⟩ := except_bind_ok hrows
        simp only [pure, Except.pure, Except.ok.injEq] at hrows
        subst hrows
        rw [List.mapM_cons] at hlast
        obtain ⟨r', hr', hlast⟩ := except_bind_ok hlast
        simp only [List.mapM_nil, pure, Except.pure, bind, Except.bind, Except.ok.injEq] at hlast
        subst hlast
        rw [hfields, ← List.map_take] at hinit
        have hsame := mapM_same (fun r hr => hst r (List.mem_of_mem_take hr)) hinit
        refine ⟨?_, .inr ⟨k, r, r', init, hr, hsame,
          cutRow_of (hst r (List.mem_of_getElem? hr)) hj hv hr', numbered_snd _⟩⟩
        rw [numbered_fst]
        simp [numbered]

/-- In particular an alias never moves to another row: the aliases are the first ones. -/
theorem C132_aliases_partial [CsvPlain F] {f : Frame F} (h : ∀ p ∈ f, Spec.Storable p.2)
    {text : List Char} (ht : text ∈ csvStates f) {g : Frame F} (hg : loadCsv text = some (.ok g)) :
    g.map (fun p => p.2.al) <+: f.map (fun p => p.2.al) := by
  have hal : ∀ {rows rows' : List (Row F)}, List.Forall₂ SameRow rows rows' →
      rows'.map Row.al = rows.map Row.al := by
    intro rows rows' hh
    induction hh with
    | nil => rfl
    | cons hr _ ih => rw [List.map_cons, List.map_cons, hr.al, ih]
  have e1 : g.map (fun p => p.2.al) = (g.map Prod.snd).map Row.al := by rw [List.map_map]; rfl
  have e2 : f.map (fun p => p.2.al) = (f.map Prod.snd).map Row.al := by rw [List.map_map]; rfl
  rw [e1, e2]
  obtain ⟨-, ⟨k, -, hs⟩ | ⟨k, r, r', rows, hk, hs, hc, he⟩⟩ := C132_left_partial h ht hg
  · rw [hal hs]
    exact (List.take_prefix k _).map _
  · rw [he, List.map_append, hal hs, List.map_singleton, hc.al]
    have : ((f.map Prod.snd).take k).map Row.al ++ [r.al] =
        ((f.map Prod.snd).take (k + 1)).map Row.al := by
      rw [List.take_succ, hk, List.map_append]
      rfl
    rw [this]
    exact (List.take_prefix _ _).map _

/-! ## What can happen -/

/-- The text after `k` complete rows, `j` complete fields of the next row and `w` of the field after
them. -/
def cutAt (f : Frame F) (k : Nat) (r : Row F) (j : Nat) (w : List Char) : List Char :=
  csvText (f.take k) ++ (csvHead (CsvIO.quotesCr F) (r.fields.take j) ++ w)

theorem csvText_take (f : Frame F) (k : Nat) : csvText (f.take k) <+: csvText f := by
  have e : csvText f = csvText (f.take k) ++
      ((f.drop k).map (fun p => p.2.fields)).flatMap (csvLine (CsvIO.quotesCr F)) := by
    conv_lhs => rw [← List.take_append_drop k f]
    simp [csvText, -List.map_take, -List.map_drop, -List.take_append_drop]
  rw [e]
  exact List.prefix_append _ _

theorem cutAt_beginning {f : Frame F} {k : Nat} {l : Int} {r : Row F} (hk : f[k]? = some (l, r))
    {j : Nat} {s w : List Char} (hj : r.fields[j]? = some s)
    (hw : w <+: csvField (CsvIO.quotesCr F) s) : cutAt f k r j w <+: csvText f := by
  have e1 : f.drop k = (l, r) :: f.drop (k + 1) := by
    obtain ⟨h1, h2⟩ := List.getElem?_eq_some_iff.1 hk
    rw [List.drop_eq_getElem_cons h1, h2]
  have e2 : r.fields = r.fields.take j ++ s :: r.fields.drop (j + 1) := by
    obtain ⟨h1, h2⟩ := List.getElem?_eq_some_iff.1 hj
    conv_lhs => rw [← List.take_append_drop j r.fields, List.drop_eq_getElem_cons h1, h2]
  have e3 : csvText f = csvText (f.take k) ++ (csvLine (CsvIO.quotesCr F) r.fields ++
      ((f.drop (k + 1)).map (fun p => p.2.fields)).flatMap (csvLine (CsvIO.quotesCr F))) := by
    conv_lhs => rw [← List.take_append_drop k f, e1]
    simp [csvText, -List.map_take, -List.map_drop, -List.take_append_drop]
  have e4 : csvLine (CsvIO.quotesCr F) r.fields =
      csvHead (CsvIO.quotesCr F) (r.fields.take j) ++
        csvLine (CsvIO.quotesCr F) (s :: r.fields.drop (j + 1)) := by
    conv_lhs => rw [e2]
    exact csvLine_append _ _ (by simp)
  have e5 : csvField (CsvIO.quotesCr F) s <+:
      csvLine (CsvIO.quotesCr F) (s :: r.fields.drop (j + 1)) := by
    cases r.fields.drop (j + 1) with
    | nil => exact List.prefix_append _ _
    | cons a b => exact List.prefix_append _ _
  rw [e3, e4, cutAt, List.prefix_append_right_inj, List.append_assoc, List.prefix_append_right_inj]
  exact (hw.trans e5).trans (List.prefix_append _ _)

theorem mem_csvStates {text : List Char} {f : Frame F} (h : text <+: csvText f) :
    text ∈ csvStates f := mem_beginnings.2 h

theorem take_storable {f : Frame F} (h : ∀ p ∈ f, Spec.Storable p.2) (k : Nat) :
    ∀ p ∈ f.take k, Spec.Storable p.2 := fun p hp => h p (List.mem_of_mem_take hp)

/-- The lines of a file that was cut behind the first field of a row. -/
theorem csvLines_cutAt [CsvPlain F] {f : Frame F} (h : ∀ p ∈ f, Spec.Storable p.2) {k : Nat}
    {l : Int} {r : Row F} (hk : f[k]? = some (l, r)) {j : Nat} (h0 : 0 < j) {s w : List Char}
    (hj : r.fields[j]? = some s) (hw : w <+: csvField (CsvIO.quotesCr F) s) :
    csvLines (cutAt f k r j w) = .error .value ∨
      ∃ v, v <+: s ∧ csvLines (cutAt f k r j w) =
        .ok (csvColumns :: (f.take k).map (fun p => p.2.fields) ++ [r.fields.take j ++ [v]]) := by
  have hr : Spec.Storable r := h _ (List.mem_of_getElem? hk)
  have hsafe := hr.safe
  have hs : CsvSafe (CsvIO.quotesCr F) s := hsafe s (List.mem_of_getElem? hj)
  have hlines : ∀ x ∈ csvColumns :: (f.take k).map (fun p => p.2.fields),
      2 ≤ x.length ∧ ∀ s ∈ x, CsvSafe (CsvIO.quotesCr F) s := by
    intro x hx
    rcases List.mem_cons.1 hx with rfl | hx
    · exact ⟨by decide, csvColumns_safe _⟩
    · obtain ⟨p, hp, rfl⟩ := List.mem_map.1 hx
      exact ⟨by simp [Row.fields], (take_storable h k p hp).safe⟩
  have hne : r.fields.take j ≠ [] := by
    obtain ⟨i, rfl⟩ : ∃ i, j = i + 1 := ⟨j - 1, by omega⟩
    simp [Row.fields]
  have h1 := fold_lines (csvColumns :: (f.take k).map (fun p => p.2.fields))
    (fun x hx => ⟨(hlines x hx).1, fun s hs => ((hlines x hx).2 s hs).2⟩) []
  obtain ⟨st, v, hf, hv, hst⟩ := fold_cut_field hs.2 hw (r.fields.take j)
    (csvColumns :: (f.take k).map (fun p => p.2.fields))
  have e : csvLines (cutAt f k r j w) =
      (CsvParser.finish (CsvParser.mk st v (r.fields.take j)
        (csvColumns :: (f.take k).map (fun p => p.2.fields)))).bind
        (fun lines => .ok (lines.map (fun l => l.map (fun w => w.takeWhile (· ≠ '\x00'))))) := by
    rw [csvLines, cutAt, csvText, List.foldl_append, List.foldl_append,
      show CsvParser.start = ⟨.record, [], [], []⟩ from rfl, h1, List.nil_append,
      fold_head_record hne (fun x hx => (hsafe x (List.mem_of_mem_take hx)).2), hf]
    rfl
  have hmap : ∀ l : List (List Char), (∀ s ∈ l, CsvSafe (CsvIO.quotesCr F) s) →
      l.map (fun w => w.takeWhile (· ≠ '\x00')) = l := by
    intro l hl
    rw [List.map_congr_left (g := id), List.map_id]
    intro s hs
    exact takeWhile_safe (hl s hs)
  have hfull : (csvColumns :: (f.take k).map (fun p => p.2.fields) ++ [r.fields.take j ++ [v]]).map
      (fun l => l.map (fun w => w.takeWhile (· ≠ '\x00'))) =
      csvColumns :: (f.take k).map (fun p => p.2.fields) ++ [r.fields.take j ++ [v]] := by
    rw [List.map_append, List.map_singleton, List.map_append, List.map_singleton,
      hmap _ (fun x hx => hsafe x (List.mem_of_mem_take hx)),
      takeWhile_safe (cr := true) ⟨fun h => hs.1 (hv.subset h), fun _ => .inl rfl⟩]
    congr 1
    rw [List.map_congr_left (g := id), List.map_id]
    intro x hx
    exact hmap x (hlines x hx).2
  rw [e]
  rcases hst with rfl | rfl | rfl | rfl
  · exact .inr ⟨v, hv, by simp only [CsvParser.finish, Except.bind, endField, endLine, hfull]⟩
  · exact .inr ⟨v, hv, by simp only [CsvParser.finish, Except.bind, endField, endLine, hfull]⟩
  · exact .inl rfl
  · exact .inr ⟨v, hv, by simp only [CsvParser.finish, Except.bind, endField, endLine, hfull]⟩

theorem loadCsv_cutAt {f : Frame F} {k : Nat} {line : List (List Char)} (hline : line.length ≤ 14)
    {text : List Char}
    (hl : csvLines text = .ok (csvColumns :: (f.take k).map (fun p => p.2.fields) ++ [line])) :
    loadCsv (F := F) text = some (do
      let rows : List (Row F) ← ((f.take k).map (fun p => p.2.fields) ++ [line]).mapM Row.ofFields
      .ok (numbered rows)) := by
  have hc : csvColumns.length = 14 := rfl
  have hf : csvForeign (csvColumns :: ((f.take k).map (fun p => p.2.fields) ++ [line])) = false := by
    cases hm : (f.take k).map (fun p => p.2.fields) with
    | nil =>
      simp only [csvForeign, List.nil_append, ne_eq, not_true_eq_false, decide_false, Bool.false_or,
        decide_eq_false_iff_not, not_lt, hc]
      exact hline
    | cons x xs =>
      have hx : x ∈ (f.take k).map (fun p => p.2.fields) := by rw [hm]; simp
      obtain ⟨p, -, rfl⟩ := List.mem_map.1 hx
      simp [csvForeign, hc, Row.fields]
  rw [List.cons_append] at hl
  simp [loadCsv, hl, hf, -List.map_take]

/-- If the file is cut between the first comma of a row and the end of its lower bound, then it
cannot be opened at all, however many complete rows it has. -/
theorem C132_broken_partial [CsvLaws F] {f : Frame F} (h : ∀ p ∈ f, Spec.Storable p.2) {k : Nat}
    {l : Int} {r : Row F} (hk : f[k]? = some (l, r)) {j : Nat} (h0 : 0 < j) (h9 : j < 9)
    {s w : List Char} (hj : r.fields[j]? = some s) (hw : w <+: csvField (CsvIO.quotesCr F) s) :
    cutAt f k r j w ∈ csvStates f ∧
      ∃ e, loadCsv (F := F) (cutAt f k r j w) = some (.error e) := by
  refine ⟨mem_csvStates (cutAt_beginning hk hj hw), ?_⟩
  rcases csvLines_cutAt h hk h0 hj hw with he | ⟨v, hv, he⟩
  · exact ⟨.value, by simp [loadCsv, he]⟩
  have hlen : (r.fields.take j ++ [v]).length ≤ 9 := by
    simp only [List.length_append, List.length_take, List.length_singleton]
    omega
  rw [loadCsv_cutAt (by omega) he]
  obtain ⟨rows, hrows, -⟩ := mapM_sameRow ((f.take k).map Prod.snd) (by
    intro r hr
    obtain ⟨p, hp, rfl⟩ := List.mem_map.1 hr
    exact take_storable h k p hp)
  rw [List.map_map] at hrows
  have hrows' : ((f.take k).map (fun p => p.2.fields)).mapM Row.ofFields = .ok rows := hrows
  have hbad : ∃ e, (Row.ofFields (r.fields.take j ++ [v]) : Res (Row F)) = .error e := by
    cases hrow : (Row.ofFields (r.fields.take j ++ [v]) : Res (Row F)) with
    | error e => exact ⟨e, rfl⟩
    | ok r' =>
      have h2 := (ofFields_parts hrow).2.1
      have e : (r.fields.take j ++ [v]).getD 9 [] = [] := by
        rw [List.getD_eq_getElem?_getD, List.getElem?_eq_none hlen]
        rfl
      rw [e] at h2
      simp [parseNum] at h2
  obtain ⟨e, hbad⟩ := hbad
  exact ⟨e, by simp [hrows', hbad, bind, Except.bind, -List.map_take]⟩

/-- If the file is cut between two rows, then it opens without the rows after the cut. -/
theorem C132_rows_lost_partial [CsvLaws F] {f : Frame F} (h : ∀ p ∈ f, Spec.Storable p.2) (k : Nat) :
    ∃ text ∈ csvStates f, ∃ g : Frame F, loadCsv text = some (.ok g) ∧
      List.Forall₂ SameRow ((f.map Prod.snd).take k) (g.map Prod.snd) := by
  obtain ⟨g, hg, -, hs⟩ := C62_roundtrip_partial (f.take k) (take_storable h k)
  refine ⟨_, mem_csvStates (csvText_take f k), g, hg, ?_⟩
  rwa [← List.map_take]

/-- Saving empties the file before anything is written: there is a moment from which neither the
old nor the new catalogue can be opened. -/
theorem C132_emptied_partial (f : Frame F) :
    [] ∈ csvStates f ∧ loadCsv (F := F) [] = some (.error .value) :=
  ⟨mem_csvStates List.nil_prefix, rfl⟩

/-- If the file is cut inside of the path of a row, then it opens, and this row has a wrong path and
no module. -/
theorem C132_path_partial [CsvLaws F] {f : Frame F} (h : ∀ p ∈ f, Spec.Storable p.2) {k : Nat}
    {l : Int} {r : Row F} (hk : f[k]? = some (l, r)) {a b : String} (hpath : r.path = .str (a ++ b))
    (hq : needsQuotes (CsvIO.quotesCr F) (a ++ b).toList = false) :
    ∃ text ∈ csvStates f, ∃ (g : Frame F) (rows : List (Row F)) (r' : Row F),
      loadCsv text = some (.ok g) ∧
      g.map Prod.snd = rows ++ [r'] ∧
      List.Forall₂ SameRow ((f.map Prod.snd).take k) rows ∧
      SameRow { r with path := .str a, modl := .str "" } r' := by
  have hr : Spec.Storable r := h _ (List.mem_of_getElem? hk)
  have hj : r.fields[12]? = some (a ++ b).toList := by
    simp [Row.fields, hpath, Cell.text]
  have hsub : a.toList <+: (a ++ b).toList := by simp
  have hsafe : CsvSafe (CsvIO.quotesCr F) (a ++ b).toList := hr.safe _ (List.mem_of_getElem? hj)
  have hplain := needsQuotes_false hq hsafe.2
  have hw : a.toList <+: csvField (CsvIO.quotesCr F) (a ++ b).toList := by
    rw [csvField, if_neg (by rw [hq]; simp)]
    exact hsub
  refine ⟨cutAt f k r 12 a.toList, mem_csvStates (cutAt_beginning hk hj hw), ?_⟩
  have ha : CsvSafe (CsvIO.quotesCr F) a.toList :=
    ⟨fun hm => hsafe.1 (hsub.subset hm), fun hm => absurd rfl (hplain _ (hsub.subset hm)).2.2.2⟩
  have hst : Spec.Storable ({ r with path := .str a, modl := .str "" } : Row F) :=
    { hr with path := ⟨a, rfl, ha⟩, modl := ⟨"", rfl, by decide, fun hm => absurd hm (by decide)⟩ }
  have hlines : csvLines (cutAt f k r 12 a.toList) = .ok (csvColumns ::
      (f.take k).map (fun p => p.2.fields) ++ [r.fields.take 12 ++ [a.toList]]) := by
    have hx : ∀ x ∈ csvColumns :: (f.take k).map (fun p => p.2.fields),
        2 ≤ x.length ∧ ∀ s ∈ x, CsvSafe (CsvIO.quotesCr F) s := by
      intro x hx
      rcases List.mem_cons.1 hx with rfl | hx
      · exact ⟨by decide, csvColumns_safe _⟩
      · obtain ⟨p, hp, rfl⟩ := List.mem_map.1 hx
        exact ⟨by simp [Row.fields], (take_storable h k p hp).safe⟩
    have h1 := fold_lines (csvColumns :: (f.take k).map (fun p => p.2.fields))
      (fun x hh => ⟨(hx x hh).1, fun s hs => ((hx x hh).2 s hs).2⟩) []
    have hne : r.fields.take 12 ≠ [] := by simp [Row.fields]
    have hfold : ∃ st, List.foldl step ⟨.field, [], r.fields.take 12,
        csvColumns :: (f.take k).map (fun p => p.2.fields)⟩ a.toList =
        ⟨st, a.toList, r.fields.take 12, csvColumns :: (f.take k).map (fun p => p.2.fields)⟩ ∧
        (st = .field ∨ st = .inField) := by
      have hpa : ∀ c ∈ a.toList, c ≠ ',' ∧ c ≠ '"' ∧ c ≠ '\n' ∧ c ≠ '\r' :=
        fun c hc => hplain c (hsub.subset hc)
      revert hpa
      cases a.toList with
      | nil => exact fun _ => ⟨.field, rfl, .inl rfl⟩
      | cons c t =>
        intro hpa
        obtain ⟨c1, c2, c3, c4⟩ := hpa c (by simp)
        refine ⟨.inField, ?_, .inr rfl⟩
        rw [List.foldl_cons]
        have : step ⟨.field, [], r.fields.take 12,
            csvColumns :: (f.take k).map (fun p => p.2.fields)⟩ c = ⟨.inField, [c],
            r.fields.take 12, csvColumns :: (f.take k).map (fun p => p.2.fields)⟩ := by
          simp [step, stepField, c1, c2, c3, c4, push]
        rw [this, fold_inField (fun d hd => hpa d (by simp [hd]))]
        rfl
    obtain ⟨st, hf, hst'⟩ := hfold
    have hmap : ∀ l : List (List Char), (∀ s ∈ l, CsvSafe (CsvIO.quotesCr F) s) →
        l.map (fun w => w.takeWhile (· ≠ '\x00')) = l := by
      intro l hl
      rw [List.map_congr_left (g := id), List.map_id]
      intro s hs
      exact takeWhile_safe (hl s hs)
    have hfull : (csvColumns :: (f.take k).map (fun p => p.2.fields) ++
        [r.fields.take 12 ++ [a.toList]]).map
        (fun l => l.map (fun w => w.takeWhile (· ≠ '\x00'))) =
        csvColumns :: (f.take k).map (fun p => p.2.fields) ++ [r.fields.take 12 ++ [a.toList]] := by
      rw [List.map_append, List.map_singleton, List.map_append, List.map_singleton,
        hmap _ (fun x hx => hr.safe x (List.mem_of_mem_take hx)), takeWhile_safe ha]
      congr 1
      rw [List.map_congr_left (g := id), List.map_id]
      intro x hh
      exact hmap x (hx x hh).2
    rw [csvLines, cutAt, csvText, List.foldl_append, List.foldl_append,
      show CsvParser.start = ⟨.record, [], [], []⟩ from rfl, h1, List.nil_append,
      fold_head_record hne (fun x hx => (hr.safe x (List.mem_of_mem_take hx)).2), hf]
    rcases hst' with rfl | rfl <;>
      simp only [CsvParser.finish, bind, Except.bind, endField, endLine, hfull]
  obtain ⟨rows, hrows, hsame⟩ := mapM_sameRow ((f.take k).map Prod.snd) (by
    intro r hr
    obtain ⟨p, hp, rfl⟩ := List.mem_map.1 hr
    exact take_storable h k p hp)
  rw [List.map_map] at hrows
  have hrows' : ((f.take k).map (fun p => p.2.fields)).mapM Row.ofFields = .ok rows := hrows
  obtain ⟨r', hr', hs'⟩ := hst.read
  have hcut : Row.ofFields (r.fields.take 12 ++ [a.toList]) = .ok r' := by
    rw [← hr']
    have e : ({ r with path := .str a, modl := .str "" } : Row F).fields =
        r.fields.take 12 ++ [a.toList] ++ [[]] := by
      simp [Row.fields, Cell.text]
    rw [e]
    have hlen : (r.fields.take 12).length = 12 := by simp [Row.fields]
    unfold Row.ofFields
    rw [if_neg (by simp [hlen, csvColumns]), if_neg (by simp [hlen, csvColumns])]
    simp [Row.fields]
  refine ⟨numbered (rows ++ [r']), rows, r', ?_, numbered_snd _, by rwa [← List.map_take], hs'⟩
  rw [loadCsv_cutAt (by simp [Row.fields]) hlines]
  simp [hrows', hcut, bind, Except.bind, pure, Except.pure, -List.map_take]

end

/-- **C132** as stated, for one way to write and read numbers: if the file can be opened after an
interruption, then its rows are the first rows of the catalogue that was being saved. -/
def C132_statement (io : CsvIO XR) : Prop :=
  ∀ f : Frame XR, (∀ p ∈ f, @Spec.Storable XR _ io p.2) →
    ∀ text ∈ @csvStates XR _ io f, ∀ g : Frame XR, @loadCsv XR _ io text = some (.ok g) →
      ∃ k, List.Forall₂ (@SameRow XR _ io) ((f.map Prod.snd).take k) (g.map Prod.snd)

/-- C132 is false for every way to write and read numbers: the path of the last row can be cut. -/
theorem C132_refuted (io : CsvIO XR) (laws : @CsvLaws XR _ io) : ¬ C132_statement io := by
  letI := io
  haveI := laws
  intro h
  have hst : ∀ p ∈ [((0 : Int), demoCsvRow)], Spec.Storable p.2 := by
    intro p hp
    rw [List.mem_singleton.1 hp]
    exact demoCsvRow_storable io
  obtain ⟨text, ht, g, rows, r', hg, hrows, hs, hr'⟩ := C132_path_partial hst (k := 0) (l := 0)
    (r := demoCsvRow) rfl (a := "glass/BK7") (b := ".yml") (by decide)
    (by
      generalize CsvIO.quotesCr XR = cr
      revert cr
      decide)
  obtain ⟨k, hk⟩ := h _ hst text ht g hg
  have h0 : rows = [] := by simpa using hs
  rw [hrows, h0] at hk
  cases k with
  | zero => simp at hk
  | succ k =>
    have hk' : List.Forall₂ SameRow [demoCsvRow] [r'] := by simpa using hk
    have e1 := (List.forall₂_cons.1 hk').1.path
    have e2 := hr'.path
    rw [e1] at e2
    simp [demoCsvRow] at e2

theorem demoCsvRows_storable (io : CsvIO XR) :
    ∀ p ∈ [((0 : Int), demoCsvRow), (7, demoCsvRow)], @Spec.Storable XR _ io p.2 := by
  intro p hp
  have : p.2 = demoCsvRow := by
    rcases List.mem_cons.1 hp with rfl | hp
    · rfl
    · rw [List.mem_singleton.1 hp]
  rw [this]
  exact demoCsvRow_storable _

/-- Two rows: if the second one is cut inside of its reference, which is in quotes, the first one
is lost as well. -/
example (cr : Bool) : ∃ text ∈ @csvStates XR _ (demoCsv cr) [(0, demoCsvRow), (7, demoCsvRow)],
    ∃ e, @loadCsv XR _ (demoCsv cr) text = some (.error e) := by
  letI := demoCsv cr
  haveI := demoCsvLaws cr
  obtain ⟨h1, h2⟩ := C132_broken_partial (demoCsvRows_storable (demoCsv cr)) (k := 1) (l := 7)
    (r := demoCsvRow) rfl (j := 5) (by decide) (by decide) (s := "line 1\nline 2".toList)
    (w := ['"', 'l']) rfl (by
      have e : csvField (CsvIO.quotesCr XR) "line 1\nline 2".toList =
          '"' :: (doubled "line 1\nline 2".toList ++ ['"']) := by
        generalize CsvIO.quotesCr XR = cr
        revert cr
        decide
      rw [e]
      exact ⟨"ine 1\nline 2\"".toList, by decide⟩)
  exact ⟨_, h1, h2⟩

/-- The same table: if the second one is cut inside of its path, the file opens with two rows, and
their aliases and the first row are as before. -/
example (cr : Bool) : ∃ text ∈ @csvStates XR _ (demoCsv cr) [(0, demoCsvRow), (7, demoCsvRow)],
    ∃ g, @loadCsv XR _ (demoCsv cr) text = some (.ok g) ∧ g.length = 2 ∧
      @LeftOf XR _ (demoCsv cr) [(0, demoCsvRow), (7, demoCsvRow)] g ∧
      g.map (fun p => p.2.al) <+: [.str "glass", .str "glass"] := by
  letI := demoCsv cr
  haveI := demoCsvLaws cr
  obtain ⟨text, ht, g, rows, r', hg, hrows, hs, hr'⟩ := C132_path_partial
    (demoCsvRows_storable (demoCsv cr)) (k := 1) (l := 7) (r := demoCsvRow) rfl (a := "glass/B")
    (b := "K7.yml") (by decide) (by
      generalize CsvIO.quotesCr XR = cr
      revert cr
      decide)
  refine ⟨text, ht, g, hg, ?_, C132_left_partial (demoCsvRows_storable _) ht hg,
    C132_aliases_partial (demoCsvRows_storable _) ht hg⟩
  have h1 := congrArg List.length hrows
  have h2 := hs.length_eq
  simp at h1 h2
  omega

end Disp
