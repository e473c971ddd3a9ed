import Mathlib.Data.List.Perm.Basic
import Verif.Props.DataEval
/-!
# C14 and C15: tabulated data
-/

namespace Disp

open Spec

section generic
variable {F : Type} [PyFloat F]

theorem insertRow_perm (r : F × F) (l : List (F × F)) : (insertRow r l).Perm (r :: l) := by
  induction l with
  | nil => exact .refl _
  | cons q qs ih =>
    simp only [insertRow]
    split
    · exact .refl _
    · exact (ih.cons q).trans (List.Perm.swap r q qs)

theorem sortRows_perm (rows : List (F × F)) : (sortRows rows).Perm rows := by
  induction rows with
  | nil => exact .refl _
  | cons r rows ih =>
    show (insertRow r (sortRows rows)).Perm _
    exact (insertRow_perm _ _).trans (ih.cons r)

variable [LawfulCmp F]

/-- Sorted, weakly. -/
def WeakSorted (l : List (F × F)) : Prop := l.Pairwise (fun a b => PyFloat.lt b.1 a.1 = false)

/-- Sorted, strictly. -/
def StrictSorted (l : List (F × F)) : Prop := l.Pairwise (fun a b => PyFloat.lt a.1 b.1 = true)

theorem insertRow_sorted (r : F × F) (l : List (F × F)) (h : WeakSorted l)
    (hn : NoNaN (l.map (·.1))) : WeakSorted (insertRow r l) := by
  induction l with
  | nil => exact List.pairwise_singleton _ _
  | cons q qs ih =>
    obtain ⟨h1, h2⟩ := List.pairwise_cons.1 h
    have hq : PyFloat.isNaN q.1 = false := hn q.1 (by simp)
    have hn' : NoNaN (qs.map (·.1)) := fun x hx => hn x (List.mem_cons_of_mem _ hx)
    simp only [insertRow]
    split
    · rename_i hlt
      refine List.pairwise_cons.2 ⟨?_, h⟩
      intro p hp
      rcases List.mem_cons.1 hp with rfl | hp
      · exact lt_asymm' hlt
      · exact not_lt_trans hq (h1 p hp) (lt_asymm' hlt)
    · rename_i hlt
      refine List.pairwise_cons.2 ⟨?_, ih h2 hn'⟩
      intro p hp
      rcases List.mem_cons.1 ((insertRow_perm r qs).mem_iff.1 hp) with rfl | hp
      · exact eq_false_of_ne_true hlt
      · exact h1 p hp

theorem sortRows_sorted (rows : List (F × F)) (hn : NoNaN (rows.map (·.1))) :
    WeakSorted (sortRows rows) := by
  induction rows with
  | nil => exact List.Pairwise.nil
  | cons r rows ih =>
    have hn' : NoNaN (rows.map (·.1)) := fun x hx => hn x (List.mem_cons_of_mem _ hx)
    refine insertRow_sorted r _ (ih hn') ?_
    intro x hx
    obtain ⟨p, hp, rfl⟩ := List.mem_map.1 hx
    exact hn' _ (List.mem_map_of_mem (f := Prod.fst) ((sortRows_perm rows).mem_iff.1 hp))

theorem noDuplicates_strict : ∀ l : List (F × F), noDuplicates l = true ↔ StrictSorted l
  | [] => by simp [noDuplicates, StrictSorted]
  | [a] => by simp [noDuplicates, StrictSorted]
  | a :: b :: rest => by
    have ih := noDuplicates_strict (b :: rest)
    simp only [noDuplicates, Bool.and_eq_true]
    rw [ih]
    constructor
    · rintro ⟨h1, h2⟩
      refine List.pairwise_cons.2 ⟨?_, h2⟩
      intro p hp
      rcases List.mem_cons.1 hp with rfl | hp
      · exact h1
      · exact LawfulCmp.lt_trans _ _ _ h1 ((List.pairwise_cons.1 h2).1 p hp)
    · intro h
      obtain ⟨h1, h2⟩ := List.pairwise_cons.1 h
      exact ⟨h1 b (by simp), h2⟩

/-- Sorting forgets the order of rows with distinct abscissae. -/
theorem sortRows_eq_of_perm {rows rows' : List (F × F)} (hp : rows.Perm rows')
    (hn : NoNaN (rows.map (·.1))) (hd : noDuplicates (sortRows rows) = true) :
    sortRows rows' = sortRows rows := by
  have hs := (noDuplicates_strict _).1 hd
  have hn' : NoNaN (rows'.map (·.1)) := by
    intro x hx
    exact hn x ((hp.map Prod.fst).mem_iff.2 hx)
  have hw := sortRows_sorted rows' hn'
  have hperm : (sortRows rows').Perm (sortRows rows) :=
    (sortRows_perm rows').trans (hp.symm.trans (sortRows_perm rows).symm)
  -- distinctness is invariant under permutation
  have hdist : (sortRows rows').Pairwise
      (fun a b => PyFloat.lt a.1 b.1 = true ∨ PyFloat.lt b.1 a.1 = true) := by
    refine (hperm.pairwise_iff (fun h => h.symm)).2 ?_
    exact hs.imp Or.inl
  have hs' : StrictSorted (sortRows rows') := by
    have := hw.and hdist
    exact this.imp (fun ⟨h1, h2⟩ => by
      rcases h2 with h2 | h2
      · exact h2
      · rw [h1] at h2; cases h2)
  refine hperm.eq_of_pairwise ?_ hs' hs
  intro a b _ _ h1 h2
  rw [lt_asymm' h1] at h2
  cases h2

/-- The extrema of distinct abscissae do not depend on the order. -/
theorem npMin_perm {rows rows' : List (F × F)} (dt : DType) (hp : rows.Perm rows')
    (hn : NoNaN (rows.map (·.1))) (hd : noDuplicates (sortRows rows) = true) (hne : rows ≠ []) :
    npMin (.array dt (rows'.map (·.1))) = npMin (.array dt (rows.map (·.1))) ∧
    npMax (.array dt (rows'.map (·.1))) = npMax (.array dt (rows.map (·.1))) := by
  have hs := (noDuplicates_strict _).1 hd
  have hdist : (rows.map Prod.fst).Pairwise
      (fun a b => PyFloat.lt a b = true ∨ PyFloat.lt b a = true) := by
    rw [List.pairwise_map]
    exact ((sortRows_perm rows).pairwise_iff (fun h => h.symm)).1 (hs.imp Or.inl)
  have huniq : ∀ x ∈ rows.map Prod.fst, ∀ y ∈ rows.map Prod.fst, PyFloat.lt x y = false →
      PyFloat.lt y x = false → x = y := by
    intro x hx y hy h1 h2
    by_contra hne
    haveI : Std.Symm (fun a b : F => PyFloat.lt a b = true ∨ PyFloat.lt b a = true) :=
      ⟨fun _ _ h => h.symm⟩
    rcases hdist.forall hx hy hne with h | h
    · rw [h1] at h; cases h
    · rw [h2] at h; cases h
  have hpm := hp.map Prod.fst
  have hn' : NoNaN (rows'.map Prod.fst) := fun x hx => hn x (hpm.mem_iff.2 hx)
  have hne1 : (Vals.array dt (rows.map Prod.fst)).toList ≠ [] := by
    simpa [Vals.toList] using hne
  have hne2 : (Vals.array dt (rows'.map Prod.fst)).toList ≠ [] := by
    intro h
    have : rows' = [] := by simpa [Vals.toList] using h
    subst this
    exact hne (List.perm_nil.1 hp)
  constructor
  · obtain ⟨m, h1, h2, h3⟩ := npMin_spec (.array dt (rows.map Prod.fst)) hne1 hn
    obtain ⟨m', h1', h2', h3'⟩ := npMin_spec (.array dt (rows'.map Prod.fst)) hne2 hn'
    rw [h1, h1', huniq m' (hpm.mem_iff.2 h2') m h2 (h3 _ (hpm.mem_iff.2 h2'))
      (h3' _ (hpm.mem_iff.1 h2))]
  · obtain ⟨m, h1, h2, h3⟩ := npMax_spec (.array dt (rows.map Prod.fst)) hne1 hn
    obtain ⟨m', h1', h2', h3'⟩ := npMax_spec (.array dt (rows'.map Prod.fst)) hne2 hn'
    rw [h1, h1', huniq m' (hpm.mem_iff.2 h2') m h2 (h3' _ (hpm.mem_iff.1 h2))
      (h3 _ (hpm.mem_iff.2 h2'))]

omit [LawfulCmp F] in
/-- What a successful construction of tabulated data tells. -/
theorem newInterp_ok [SciPy F] {dt : DType} {rows : List (F × F)} {t u : String} {order : Nat}
    {d : RealData F} (h : RealData.newInterp dt rows t u order = .ok d) :
    ∃ lo hi r, npMin (.array dt (rows.map (·.1))) = .ok lo ∧
      npMax (.array dt (rows.map (·.1))) = .ok hi ∧
      Spectrum.new (.list dt [lo, hi]) t u = .ok r ∧ order + 1 ≤ rows.length ∧
      noDuplicates (sortRows rows) = true ∧ d = .interp order rows r t u := by
  unfold RealData.newInterp at h
  simp only [bind, Except.bind] at h
  cases hlo : npMin (.array dt (rows.map (·.1))) with
  | error e => rw [hlo] at h; cases h
  | ok lo =>
    cases hhi : npMax (.array dt (rows.map (·.1))) with
    | error e => rw [hlo, hhi] at h; cases h
    | ok hi =>
      rw [hlo, hhi] at h
      simp only at h
      cases hr : Spectrum.new (.list dt [lo, hi]) t u with
      | error e => rw [hr] at h; cases h
      | ok r =>
        rw [hr] at h
        simp only at h
        cases hi' : interpInit order rows with
        | error e => rw [hi'] at h; cases h
        | ok _ =>
          rw [hi'] at h
          unfold interpInit at hi'
          split at hi'
          · cases hi'
          · rename_i hlen
            split at hi'
            · rename_i hdup
              exact ⟨lo, hi, r, rfl, rfl, hr, by omega, hdup, (Except.ok.inj h).symm⟩
            · cases hi'

/-- C15, every arithmetic with IEEE comparisons and every interpolation order: a permutation of
the rows gives an object with the same valid range and the same value (or exception) at every
spectrum. -/
theorem C15_permutation [SciPy F] (dt : DType) (rows rows' : List (F × F)) (t u : String)
    (order : Nat) (d : RealData F) (hp : rows.Perm rows') (hn : NoNaN (rows.map (·.1)))
    (h : RealData.newInterp dt rows t u order = .ok d) :
    ∃ d', RealData.newInterp dt rows' t u order = .ok d' ∧ d'.range = d.range ∧
      ∀ s, d'.evaluate s = d.evaluate s := by
  obtain ⟨lo, hi, r, h1, h2, h3, h4, h5, rfl⟩ := newInterp_ok h
  have hne : rows ≠ [] := by rintro rfl; simp at h4
  obtain ⟨e1, e2⟩ := npMin_perm dt hp hn h5 hne
  have hs := sortRows_eq_of_perm hp hn h5
  refine ⟨.interp order rows' r t u, ?_, rfl, ?_⟩
  · unfold RealData.newInterp
    rw [e1, e2, h1, h2]
    simp only [bind, Except.bind, h3]
    have : interpInit order rows' = .ok () := by
      unfold interpInit
      rw [if_neg (by rw [← hp.length_eq]; omega), hs, h5]
      rfl
    rw [this]
  · intro s
    have : interpAt order rows' = interpAt order rows := by
      funext v
      unfold interpAt interpLinear
      rw [hs]
    simp only [RealData.evaluate, this]

end generic

/-! ## C14 -/

/-- Rows of reals as rows of floats. -/
noncomputable def xrows (rows : List (ℝ × ℝ)) : List (XR × XR) :=
  rows.map (fun p => (XR.fin p.1, XR.fin p.2))

/-- Specification: `y` is the straight-line value at `x` between two neighbouring rows. -/
def OnLine (rows : List (ℝ × ℝ)) (x y : ℝ) : Prop :=
  ∃ a ∈ rows, ∃ b ∈ rows, a.1 < b.1 ∧ a.1 ≤ x ∧ x ≤ b.1 ∧
    (∀ r ∈ rows, ¬ (a.1 < r.1 ∧ r.1 < b.1)) ∧
    y = a.2 + (b.2 - a.2) * ((x - a.1) / (b.1 - a.1))

theorem insertRow_real (r : ℝ × ℝ) (l : List (ℝ × ℝ)) :
    ∃ l' : List (ℝ × ℝ), l'.Perm (r :: l) ∧
      insertRow (XR.fin r.1, XR.fin r.2) (xrows l) = xrows l' := by
  induction l with
  | nil => exact ⟨[r], .refl _, rfl⟩
  | cons q qs ih =>
    obtain ⟨l', h1, h2⟩ := ih
    by_cases h : r.1 < q.1
    · refine ⟨r :: q :: qs, .refl _, ?_⟩
      simp [xrows, insertRow, h]
    · refine ⟨q :: l', (h1.cons q).trans (List.Perm.swap r q qs), ?_⟩
      have : insertRow (XR.fin r.1, XR.fin r.2) (xrows (q :: qs)) =
          (XR.fin q.1, XR.fin q.2) :: insertRow (XR.fin r.1, XR.fin r.2) (xrows qs) := by
        simp [xrows, insertRow, h]
      rw [this, h2]
      rfl

theorem sortRows_real (rows : List (ℝ × ℝ)) :
    ∃ l : List (ℝ × ℝ), l.Perm rows ∧ sortRows (xrows rows) = xrows l := by
  induction rows with
  | nil => exact ⟨[], .refl _, rfl⟩
  | cons r rows ih =>
    obtain ⟨l, h1, h2⟩ := ih
    obtain ⟨l', h3, h4⟩ := insertRow_real r l
    refine ⟨l', h3.trans (h1.cons r), ?_⟩
    show insertRow _ (sortRows (xrows rows)) = _
    rw [h2, h4]

theorem strictSorted_real (l : List (ℝ × ℝ)) :
    StrictSorted (xrows l) ↔ l.Pairwise (fun a b => a.1 < b.1) := by
  unfold StrictSorted xrows
  rw [List.pairwise_map]
  simp

theorem segment_real (a b : ℝ × ℝ) (h : a.1 < b.1) (x : ℝ) :
    segment (XR.fin a.1, XR.fin a.2) (XR.fin b.1, XR.fin b.2) (XR.fin x) =
      XR.fin (a.2 + (b.2 - a.2) * ((x - a.1) / (b.1 - a.1))) := by
  have hne : b.1 - a.1 ≠ 0 := by linarith
  simp only [segment, XR.lit_eq, XR.sub_fin, XR.div_fin_of_ne _ hne, XR.mul_fin, XR.add_fin]
  congr 1
  push_cast
  field_simp
  ring

/-- The segment that is used consists of two adjacent rows around `x`. -/
theorem evalSegments_real (a : ℝ × ℝ) (rest : List (ℝ × ℝ)) (hne : rest ≠ [])
    (hs : (a :: rest).Pairwise (fun a b => a.1 < b.1)) (x : ℝ) (h1 : a.1 ≤ x)
    (h2 : ∃ z ∈ rest, x ≤ z.1) :
    ∃ l1 p q l2, a :: rest = l1 ++ p :: q :: l2 ∧ p.1 ≤ x ∧ x ≤ q.1 ∧
      evalSegments (XR.fin a.1, XR.fin a.2) (xrows rest) (XR.fin x) =
        segment (XR.fin p.1, XR.fin p.2) (XR.fin q.1, XR.fin q.2) (XR.fin x) := by
  induction rest generalizing a with
  | nil => exact absurd rfl hne
  | cons b rest ih =>
    cases rest with
    | nil =>
      obtain ⟨z, hz, hzx⟩ := h2
      simp only [List.mem_singleton] at hz
      subst hz
      exact ⟨[], a, z, [], rfl, h1, hzx, rfl⟩
    | cons c rest =>
      by_cases hb : x < b.1
      · refine ⟨[], a, b, c :: rest, rfl, h1, hb.le, ?_⟩
        simp [xrows, evalSegments, hb]
      · have hs' := (List.pairwise_cons.1 hs).2
        obtain ⟨z, hz, hzx⟩ := h2
        have h2' : ∃ z ∈ c :: rest, x ≤ z.1 := by
          rcases List.mem_cons.1 hz with rfl | hz
          · refine ⟨c, by simp, ?_⟩
            have := (List.pairwise_cons.1 hs').1 c (by simp)
            linarith
          · exact ⟨z, hz, hzx⟩
        obtain ⟨l1, p, q, l2, e1, e2, e3, e4⟩ := ih b (by simp) hs' (not_lt.1 hb) h2'
        refine ⟨a :: l1, p, q, l2, by rw [e1]; rfl, e2, e3, ?_⟩
        rw [← e4]
        simp [xrows, evalSegments, hb]

theorem getLast_max (a : ℝ × ℝ) (rest : List (ℝ × ℝ))
    (hs : (a :: rest).Pairwise (fun a b => a.1 < b.1)) :
    ∀ r ∈ a :: rest, r.1 ≤ (rest.getLast?.getD a).1 := by
  induction rest generalizing a with
  | nil => intro r hr; simp only [List.mem_singleton] at hr; subst hr; exact le_rfl
  | cons b rest ih =>
    have hs' := (List.pairwise_cons.1 hs).2
    have hlast : ((b :: rest).getLast?.getD a) = (rest.getLast?.getD b) := by
      cases rest with
      | nil => rfl
      | cons c rest => simp [List.getLast?_cons]
    intro r hr
    rw [hlast]
    rcases List.mem_cons.1 hr with rfl | hr
    · have := (List.pairwise_cons.1 hs).1 b (by simp)
      exact this.le.trans (ih b hs' b (by simp))
    · exact ih b hs' r hr

/-- `interp1d` on a table of reals with distinct abscissae. -/
theorem interpLinear_real (rows : List (ℝ × ℝ)) (hlen : 2 ≤ rows.length)
    (hd : noDuplicates (sortRows (xrows rows)) = true) (x : ℝ) :
    ((∃ a ∈ rows, a.1 ≤ x) ∧ (∃ b ∈ rows, x ≤ b.1) →
      ∃ y, interpLinear (xrows rows) (XR.fin x) = .ok (XR.fin y) ∧ OnLine rows x y) ∧
    (¬ ((∃ a ∈ rows, a.1 ≤ x) ∧ (∃ b ∈ rows, x ≤ b.1)) →
      interpLinear (xrows rows) (XR.fin x) = .error .value) := by
  obtain ⟨l, hp, hl⟩ := sortRows_real rows
  rw [hl] at hd
  have hs := (strictSorted_real l).1 ((noDuplicates_strict _).1 hd)
  cases l with
  | nil => rw [hp.symm.eq_nil] at hlen; simp at hlen
  | cons a rest =>
    have hrest : rest ≠ [] := by
      rintro rfl
      have := hp.length_eq
      simp at this; omega
    have hgl : (((xrows rest).getLast?).getD (XR.fin a.1, XR.fin a.2)).1 =
        XR.fin (rest.getLast?.getD a).1 := by
      unfold xrows
      rw [List.getLast?_map]
      cases rest.getLast? <;> rfl
    have hex : interpLinear (xrows rows) (XR.fin x) =
        if x < a.1 ∨ (rest.getLast?.getD a).1 < x then .error .value
        else .ok (evalSegments (XR.fin a.1, XR.fin a.2) (xrows rest) (XR.fin x)) := by
      unfold interpLinear
      rw [hl]
      show (if (PyFloat.lt (XR.fin x) (XR.fin a.1) || PyFloat.lt
        (((xrows rest).getLast?).getD (XR.fin a.1, XR.fin a.2)).1 (XR.fin x)) = true
        then _ else _) = _
      rw [hgl]
      simp only [XR.lt_fin, Bool.or_eq_true, decide_eq_true_eq]
      rfl
    have hmin : ∀ r ∈ a :: rest, a.1 ≤ r.1 := by
      intro r hr
      rcases List.mem_cons.1 hr with rfl | hr
      · exact le_rfl
      · exact ((List.pairwise_cons.1 hs).1 r hr).le
    have hmax := getLast_max a rest hs
    have hmem : (rest.getLast?.getD a) ∈ a :: rest := by
      cases hg : rest.getLast? with
      | none => simp
      | some z => simp; right; exact List.mem_of_getLast? hg
    constructor
    · rintro ⟨⟨p, hp1, hp2⟩, ⟨q, hq1, hq2⟩⟩
      have h1 : a.1 ≤ x := (hmin p (hp.mem_iff.2 hp1)).trans hp2
      have h2 : x ≤ (rest.getLast?.getD a).1 := hq2.trans (hmax q (hp.mem_iff.2 hq1))
      have h2' : ∃ z ∈ rest, x ≤ z.1 := by
        cases hg : rest.getLast? with
        | none => exact absurd (List.getLast?_eq_none_iff.1 hg) hrest
        | some z =>
          rw [hg] at h2
          exact ⟨z, List.mem_of_getLast? hg, h2⟩
      obtain ⟨l1, p, q, l2, e1, e2, e3, e4⟩ := evalSegments_real a rest hrest hs x h1 h2'
      have hpq : p.1 < q.1 := by
        rw [e1] at hs
        have := (List.pairwise_append.1 hs).2.1
        exact (List.pairwise_cons.1 this).1 q (by simp)
      refine ⟨_, ?_, p, hp.mem_iff.1 (by rw [e1]; simp), q, hp.mem_iff.1 (by rw [e1]; simp), hpq,
        e2, e3, ?_, rfl⟩
      · rw [hex, if_neg (by rintro (h | h) <;> linarith), e4, segment_real p q hpq]
      · rintro r hr ⟨hr1, hr2⟩
        have hr' := hp.mem_iff.2 hr
        rw [e1] at hr' hs
        obtain ⟨s1, s2, s3⟩ := List.pairwise_append.1 hs
        have s4 := (List.pairwise_cons.1 s2).2
        rcases List.mem_append.1 hr' with h | h
        · have := s3 r h p (by simp)
          linarith
        · rcases List.mem_cons.1 h with rfl | h
          · linarith
          · rcases List.mem_cons.1 h with rfl | h
            · linarith
            · have := (List.pairwise_cons.1 s4).1 r h
              linarith
    · intro hn
      rw [hex, if_pos]
      by_contra hc
      push Not at hc
      exact hn ⟨⟨a, hp.mem_iff.1 (by simp), hc.1⟩, ⟨_, hp.mem_iff.1 hmem, hc.2⟩⟩

/-- C14, ideal arithmetic: every value that tabulated data of order one return at a finite
point is the straight-line value between the two neighbouring rows. `x` is the requested
point in the type and unit of the table. -/
theorem C14_interpolation [SciPy XR] (rows : List (ℝ × ℝ)) (t u : String) (d : RealData XR)
    (hd : RealData.newInterp .float (xrows rows) t u 1 = .ok d) (s : Spectrum XR)
    (v ov : Vals XR) (hv : (d.evaluate s).1 = .ok v) (hov : s.convertTo t u = .ok ov)
    (i : ℕ) (x : ℝ) (hx : ov.toList[i]? = some (XR.fin x)) :
    ∃ y, v.toList[i]? = some (XR.fin y) ∧ OnLine rows x y := by
  obtain ⟨lo, hi, r, h1, h2, h3, h4, h5, rfl⟩ := newInterp_ok hd
  have hlen : 2 ≤ rows.length := by simpa [xrows] using h4
  simp only [RealData.evaluate, bind, Except.bind] at hv
  cases hc : r.contains s with
  | error e => rw [hc] at hv; cases hv
  | ok b =>
    rw [hc, hov] at hv
    simp only at hv
    have hat : ∀ z, interpAt 1 (xrows rows) z = interpLinear (xrows rows) z := fun z => by
      simp [interpAt]
    have key : ∀ y, interpLinear (xrows rows) (XR.fin x) = .ok y →
        ∃ y', y = XR.fin y' ∧ OnLine rows x y' := by
      intro y hy
      obtain ⟨g1, g2⟩ := interpLinear_real rows hlen h5 x
      by_cases hin : (∃ a ∈ rows, a.1 ≤ x) ∧ (∃ b ∈ rows, x ≤ b.1)
      · obtain ⟨y', e1, e2⟩ := g1 hin
        rw [hy] at e1
        exact ⟨y', Except.ok.inj e1, e2⟩
      · rw [hy] at g2
        cases g2 hin
    cases ov with
    | scalar z =>
      have hi0 : i = 0 ∧ z = XR.fin x := by
        cases i with
        | zero => simpa [Vals.toList] using hx
        | succ i => simp [Vals.toList] at hx
      obtain ⟨rfl, rfl⟩ := hi0
      simp only [Vals.mapRes, bind, Except.bind, hat] at hv
      cases hy : interpLinear (xrows rows) (XR.fin x) with
      | error e => rw [hy] at hv; cases hv
      | ok y =>
        rw [hy] at hv
        cases hv
        obtain ⟨y', rfl, h⟩ := key y hy
        exact ⟨y', rfl, h⟩
    | array dt xs =>
      simp only [Vals.mapRes, bind, Except.bind] at hv
      cases hm : xs.mapM (interpAt 1 (xrows rows)) with
      | error e => rw [hm] at hv; cases hv
      | ok ys =>
        rw [hm] at hv
        cases hv
        obtain ⟨-, hg⟩ := mapM_getElem _ _ _ hm
        obtain ⟨y, e1, e2⟩ := hg i _ hx
        rw [hat] at e1
        obtain ⟨y', rfl, h⟩ := key y e1
        exact ⟨y', e2, h⟩

theorem noDuplicates_distinct {rows : List (ℝ × ℝ)}
    (h : noDuplicates (sortRows (xrows rows)) = true) {a b : ℝ × ℝ} (ha : a ∈ rows) (hb : b ∈ rows)
    (hab : a.1 = b.1) : a = b := by
  obtain ⟨l, hp, hl⟩ := sortRows_real rows
  rw [hl] at h
  have hs := (strictSorted_real l).1 ((noDuplicates_strict _).1 h)
  by_contra hne
  have hs' : l.Pairwise (fun a b => a.1 ≠ b.1) := hs.imp (fun h => h.ne)
  haveI : Std.Symm (fun a b : ℝ × ℝ => a.1 ≠ b.1) := ⟨fun _ _ h => h.symm⟩
  exact (hs'.forall (hp.mem_iff.2 ha) (hp.mem_iff.2 hb) hne) hab

/-- C14: at a tabulated abscissa the straight-line value is the tabulated ordinate. -/
theorem C14_knots [SciPy XR] (rows : List (ℝ × ℝ)) (t u : String) (d : RealData XR)
    (hd : RealData.newInterp .float (xrows rows) t u 1 = .ok d) (r : ℝ × ℝ) (hr : r ∈ rows)
    (y : ℝ) (hy : OnLine rows r.1 y) : y = r.2 := by
  obtain ⟨lo, hi, r', h1, h2, h3, h4, h5, rfl⟩ := newInterp_ok hd
  obtain ⟨a, ha, b, hb, hab, hax, hxb, hno, rfl⟩ := hy
  have hne : b.1 - a.1 ≠ 0 := by linarith
  rcases hax.lt_or_eq with h | h
  · rcases hxb.lt_or_eq with h' | h'
    · exact absurd ⟨h, h'⟩ (hno r hr)
    · rw [noDuplicates_distinct h5 hr hb h', div_self hne]; ring
  · rw [← noDuplicates_distinct h5 ha hr h]; simp

/-- C14: a straight-line value lies between the two neighbouring ordinates, hence between the
smallest and the largest ordinate of the table. -/
theorem C14_bounds (rows : List (ℝ × ℝ)) (x y : ℝ) (h : OnLine rows x y) :
    (∃ a ∈ rows, ∃ b ∈ rows, min a.2 b.2 ≤ y ∧ y ≤ max a.2 b.2) ∧
    (∀ m, (∀ r ∈ rows, m ≤ r.2) → m ≤ y) ∧ (∀ m, (∀ r ∈ rows, r.2 ≤ m) → y ≤ m) := by
  obtain ⟨a, ha, b, hb, hab, hax, hxb, -, rfl⟩ := h
  have hd : (0 : ℝ) < b.1 - a.1 := by linarith
  have hw0 : 0 ≤ (x - a.1) / (b.1 - a.1) := div_nonneg (by linarith) hd.le
  have hw1 : (x - a.1) / (b.1 - a.1) ≤ 1 := by rw [div_le_one hd]; linarith
  generalize (x - a.1) / (b.1 - a.1) = w at hw0 hw1
  have key : ∀ m, m ≤ a.2 → m ≤ b.2 → m ≤ a.2 + (b.2 - a.2) * w := by
    intro m h1 h2; nlinarith
  have key' : ∀ m, a.2 ≤ m → b.2 ≤ m → a.2 + (b.2 - a.2) * w ≤ m := by
    intro m h1 h2; nlinarith
  exact ⟨⟨a, ha, b, hb, key _ (min_le_left _ _) (min_le_right _ _),
    key' _ (le_max_left _ _) (le_max_right _ _)⟩, fun m hm => key m (hm a ha) (hm b hb),
    fun m hm => key' m (hm a ha) (hm b hb)⟩

/-- C14: every spectrum of finite points between the smallest and the largest abscissa can be
evaluated (the unit being spelled as `convert_to` accepts it). -/
theorem C14_total [SciPy XR] (rows : List (ℝ × ℝ)) (t u : String) (d : RealData XR)
    (hd : RealData.newInterp .float (xrows rows) t u 1 = .ok d) (s : Spectrum XR)
    (ov : Vals XR) (hov : s.convertTo t u = .ok ov) (hne : ov.toList ≠ [])
    (hin : ∀ z ∈ ov.toList, ∃ x : ℝ, z = XR.fin x ∧ (∃ a ∈ rows, a.1 ≤ x) ∧ ∃ b ∈ rows, x ≤ b.1) :
    ∃ v, (d.evaluate s).1 = .ok v := by
  obtain ⟨lo, hi, r, h1, h2, h3, h4, h5, rfl⟩ := newInterp_ok hd
  have hlen : 2 ≤ rows.length := by simpa [xrows] using h4
  obtain ⟨a1, a2, a3⟩ := C01_stored _ _ _ _ h3
  have hrv : r.values = .array .float [lo, hi] := (Except.ok.inj a3).symm
  -- the range check converts to the same unit
  have hu : (lower t, u, r.unit) ∈ names := by
    rw [Spectrum.convertTo_eq] at hov
    cases hs : specLookup (lower t) u with
    | error e => rw [hs] at hov; cases hov
    | ok c =>
      have hc := specLookup_ok_iff.1 hs
      have hl : lower u = u := (names_lower _ hc).2
      rw [hl] at a2
      exact a2
  have hconv : s.convertTo r.stype r.unit = .ok ov := by
    rw [← hov, Spectrum.convertTo_eq, Spectrum.convertTo_eq, a1,
      specLookup_ok_iff.2 hu]
    have hl : lower (lower t) = lower t := (names_lower _ hu).1
    rw [hl, specLookup_ok_iff.2 (pairs_names _ (names_pairs _ hu))]
  have hnn : NoNaN ov.toList := by
    intro z hz
    obtain ⟨x, rfl, -⟩ := hin z hz
    rfl
  have hnx : NoNaN ((xrows rows).map Prod.fst) := by
    intro z hz
    simp only [xrows, List.map_map, List.mem_map] at hz
    obtain ⟨p, -, rfl⟩ := hz
    rfl
  have hxne : (Vals.array DType.float ((xrows rows).map Prod.fst)).toList ≠ [] := by
    intro h
    have : rows = [] := by simpa [Vals.toList, xrows] using h
    rw [this] at hlen; simp at hlen
  obtain ⟨m, m1, m2, m3⟩ := npMin_spec _ hxne hnx
  obtain ⟨m', m1', m2', m3'⟩ := npMax_spec _ hxne hnx
  have em : m = lo := Except.ok.inj (m1.symm.trans h1)
  have em' : m' = hi := Except.ok.inj (m1'.symm.trans h2)
  subst em em'
  have hrn : NoNaN r.values.toList := by
    rw [hrv]
    intro z hz
    simp only [Vals.toList, List.mem_cons, List.not_mem_nil, or_false] at hz
    rcases hz with rfl | rfl
    · exact hnx _ m2
    · exact hnx _ m2'
  have hr0 : r.values.toList ≠ [] := by rw [hrv]; simp [Vals.toList]
  have hcon : r.contains s = .ok true := by
    rw [contains_spec r s ov hr0 hconv hne hrn hnn, if_neg]
    rw [← within_iff hr0 hrn hnn]
    intro z hz
    obtain ⟨x, rfl, ⟨a, ha, hax⟩, ⟨b, hb, hbx⟩⟩ := hin z hz
    rw [hrv]
    have ma : XR.fin a.1 ∈ (Vals.array DType.float ((xrows rows).map Prod.fst)).toList := by
      simp only [Vals.toList, xrows, List.map_map, List.mem_map]
      exact ⟨a, ha, rfl⟩
    have mb : XR.fin b.1 ∈ (Vals.array DType.float ((xrows rows).map Prod.fst)).toList := by
      simp only [Vals.toList, xrows, List.map_map, List.mem_map]
      exact ⟨b, hb, rfl⟩
    refine ⟨⟨m, by simp [Vals.toList], ?_⟩, ⟨m', by simp [Vals.toList], ?_⟩⟩
    · exact le_trans' (le_iff.2 ⟨hnx _ m2, rfl, m3 _ ma⟩) (by simpa using hax)
    · exact le_trans' (y := XR.fin b.1) (by simpa using hbx) (le_iff.2 ⟨rfl, hnx _ m2', m3' _ mb⟩)
  have hat : ∀ z ∈ ov.toList, ∃ y, interpAt 1 (xrows rows) z = .ok y := by
    intro z hz
    obtain ⟨x, rfl, hx⟩ := hin z hz
    obtain ⟨y, hy, -⟩ := (interpLinear_real rows hlen h5 x).1 hx
    exact ⟨_, by simpa [interpAt] using hy⟩
  simp only [RealData.evaluate, hcon, hov, bind, Except.bind]
  cases ov with
  | scalar z =>
    obtain ⟨y, hy⟩ := hat z (by simp [Vals.toList])
    exact ⟨.scalar y, by simp only [Vals.mapRes, hy, bind, Except.bind]⟩
  | array dt xs =>
    have : ∃ ys, xs.mapM (interpAt 1 (xrows rows)) = .ok ys := by
      clear hov hne hin hnn hconv
      simp only [Vals.toList] at hat
      induction xs with
      | nil => exact ⟨[], rfl⟩
      | cons z zs ih =>
        obtain ⟨y, hy⟩ := hat z (by simp)
        obtain ⟨ys, hys⟩ := ih (fun z hz => hat z (by simp [hz]))
        exact ⟨y :: ys, by rw [List.mapM_cons, hy, hys]; rfl⟩
    obtain ⟨ys, hys⟩ := this
    exact ⟨.array .float ys, by simp only [Vals.mapRes, hys, bind, Except.bind]⟩

/-- A table in metres, not sorted. -/
theorem demoTable_new [SciPy XR] : ∃ d,
    RealData.newInterp .float (xrows [(3, 5), (1, 2)]) "wavelength" "m" 1 = .ok d := by
  have h1 : npMin (Vals.array DType.float [XR.fin 3, XR.fin 1]) = .ok (XR.fin 1) := by
    simp [npMin, Vals.toList, npMinList]
  have h2 : npMax (Vals.array DType.float [XR.fin 3, XR.fin 1]) = .ok (XR.fin 3) := by
    simp [npMax, Vals.toList, npMaxList]
  have h3 : interpInit 1 [(XR.fin 3, XR.fin 5), (XR.fin 1, XR.fin 2)] = .ok () := by
    have : sortRows [(XR.fin 3, XR.fin 5), (XR.fin 1, XR.fin 2)] =
        [(XR.fin 1, XR.fin 2), (XR.fin 3, XR.fin 5)] := by
      simp [sortRows, insertRow]
    simp only [interpInit, this, noDuplicates]
    norm_num
  refine ⟨.interp 1 (xrows [(3, 5), (1, 2)]) (metreSpectrum [XR.fin 1, XR.fin 3]) "wavelength" "m",
    ?_⟩
  unfold RealData.newInterp
  simp only [xrows, List.map_cons, List.map_nil, h1, h2, h3, metreSpectrum_new, bind, Except.bind]

/-- Concrete case for C14: that table evaluates at 2 m, to 3.5. -/
example [SciPy XR] : ∃ d v,
    RealData.newInterp .float (xrows [(3, 5), (1, 2)]) "wavelength" "m" 1 = .ok d ∧
    (d.evaluate (metreSpectrum [XR.fin 2])).1 = .ok v ∧ v.toList[0]? = some (XR.fin 3.5) := by
  obtain ⟨d, hd⟩ := demoTable_new
  have hov := metreSpectrum_convert [XR.fin 2]
  obtain ⟨v, hv⟩ := C14_total [(3, 5), (1, 2)] "wavelength" "m" d hd _ _ hov (by simp [Vals.toList]) (by
    intro z hz
    simp only [Vals.toList, List.mem_singleton] at hz
    subst hz
    exact ⟨2, rfl, ⟨(1, 2), by simp, by norm_num⟩, ⟨(3, 5), by simp, by norm_num⟩⟩)
  obtain ⟨y, h1, h2⟩ := C14_interpolation [(3, 5), (1, 2)] "wavelength" "m" d hd _ _ _ hv hov 0 2 rfl
  refine ⟨d, v, hd, hv, ?_⟩
  rw [h1]
  obtain ⟨a, ha, b, hb, hab, hax, hxb, -, rfl⟩ := h2
  simp only [List.mem_cons, List.not_mem_nil, or_false] at ha hb
  rcases ha with rfl | rfl <;> rcases hb with rfl | rfl <;> first | (norm_num at hab; done) | norm_num

/-- Concrete case for C15: the rows the other way round. -/
example [SciPy XR] : ∃ d d',
    RealData.newInterp .float (xrows [(3, 5), (1, 2)]) "wavelength" "m" 1 = .ok d ∧
    RealData.newInterp .float (xrows [(1, 2), (3, 5)]) "wavelength" "m" 1 = .ok d' ∧
    ∀ s, d'.evaluate s = d.evaluate s := by
  obtain ⟨d, hd⟩ := demoTable_new
  obtain ⟨d', h1, -, h2⟩ := C15_permutation .float (xrows [(3, 5), (1, 2)])
    (xrows [(1, 2), (3, 5)]) "wavelength" "m" 1 d (List.Perm.swap _ _ _) (by
      intro z hz
      simp only [xrows, List.map_cons, List.map_nil, List.mem_cons, List.not_mem_nil, or_false] at hz
      rcases hz with rfl | rfl <;> rfl) hd
  exact ⟨d, d', hd, h1, h2⟩

end Disp
