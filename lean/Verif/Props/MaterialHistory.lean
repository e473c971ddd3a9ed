import Verif.Props.MaterialFiles
import Verif.Props.Extrapolation
import Verif.Props.DataBasics
import Verif.Props.MaterialConstant
/-!
# C111: materials after any history of `extrapolate` and `remove_absorption`
-/

namespace Disp

open Spec

section generic
variable {F : Type} [PyFloat F] [SciPy F]

/-! ## Specification -/

namespace Spec

/-- A call that changes a material. -/
inductive Change (F : Type) where
  /-- `material.extrapolate(s, spline_order=order)` -/
  | extrapolate (s : Spectrum F) (order : Nat)
  /-- `material.remove_absorption()` -/
  | removeAbsorption

/-- The material after a call, whether it returned or raised. -/
def Change.on (m : Material F) : Change F → Material F
  | .extrapolate s order => (m.extrapolate s order).2.1
  | .removeAbsorption => m.removeAbsorption.2

/-- The material after a sequence of calls, each of which may have raised and been caught. -/
def changed (m : Material F) (h : List (Change F)) : Material F := h.foldl Change.on m

/-- Somewhere in the history the absorption was removed. -/
def Removed (h : List (Change F)) : Prop := Change.removeAbsorption ∈ h

/-- What a constructor of the library makes from a constant, or from a table or a model whose
valid range is given in increasing order. -/
inductive Original : RealData F → Prop
  | constant (c : F) (r : Spectrum F) (t u : String) : Original (.constant c r t u)
  | table {o rows r t u} : Built (RealData.interp o rows r t u : RealData F) →
      Ordered r.values → Original (.interp o rows r t u)
  | model {k p r t u} : Built (RealData.model k p r t u : RealData F) →
      Ordered r.values → Original (.model k p r t u)

/-- The object made by extrapolating `b` any number of times. -/
inductive Grown (b : RealData F) : RealData F → Prop
  | refl : Grown b b
  | step {d d' : RealData F} {ext : Spectrum F} {order : Nat} : Grown b d →
      (d.newExtrap ext order).1 = .ok d' → Grown b d'

end Spec

/-! ## One part -/

theorem Spec.Original.not_constant {d : RealData F} (h : Original d)
    (hc : ¬ IsConstant (some d)) : Built d ∧ Ordered d.range.values := by
  cases h with
  | constant c r t u => exact absurd ⟨c, r, t, u, rfl⟩ hc
  | table h1 h2 => exact ⟨h1, h2⟩
  | model h1 h2 => exact ⟨h1, h2⟩

/-- An original object evaluates only where its range contains the request, and leaves the
request alone. -/
theorem Spec.Original.contains {d : RealData F} (h : Original d) {s : Spectrum F} {v : Vals F}
    (hv : (d.evaluate s).1 = .ok v) :
    (∃ b, d.range.contains s = .ok b) ∧ d.evaluate s = (.ok v, s) := by
  cases h with
  | constant c r t u =>
    refine ⟨?_, by rw [← hv]; rfl⟩
    simp only [RealData.evaluate, bind, Except.bind] at hv
    cases hc : r.contains s with
    | error e => rw [hc] at hv; cases hv
    | ok b => exact ⟨b, hc⟩
  | @table o rows r t u h1 h2 =>
    refine ⟨?_, by rw [← hv]; rfl⟩
    simp only [RealData.evaluate, bind, Except.bind] at hv
    cases hc : r.contains s with
    | error e => rw [hc] at hv; cases hv
    | ok b => exact ⟨b, hc⟩
  | @model k p r t u h1 h2 =>
    refine ⟨?_, by rw [← hv]; rfl⟩
    simp only [RealData.evaluate, bind, Except.bind] at hv
    cases hc : r.contains s with
    | error e => rw [hc] at hv; cases hv
    | ok b => exact ⟨b, hc⟩

section cmp
variable [LawfulCmp F]

theorem not_lt_of_le' {x y : F} (h : PyFloat.le x y = true) : PyFloat.lt y x = false := by
  obtain ⟨nx, ny⟩ := le_noNaN h
  rw [LawfulCmp.le_eq_not_lt x y nx ny] at h
  simpa using h

/-- A wider range of the same type and unit contains whatever the narrower one contains. -/
theorem contains_wider {r r' s : Spectrum F} {dt dt' : DType} {a b lo hi : F}
    (ht : r'.stype = r.stype) (hu : r'.unit = r.unit) (hr : r.values = .array dt [a, b])
    (hr' : r'.values = .array dt' [lo, hi]) (hab : PyFloat.le a b = true)
    (hlo : PyFloat.le lo a = true) (hhi : PyFloat.le b hi = true) {x : Bool}
    (h : r.contains s = .ok x) : r'.contains s = .ok true := by
  obtain ⟨na, nb⟩ := le_noNaN hab
  obtain ⟨nlo, -⟩ := le_noNaN hlo
  obtain ⟨-, nhi⟩ := le_noNaN hhi
  have two : ∀ {p q : F}, PyFloat.isNaN p = false → PyFloat.isNaN q = false → NoNaN [p, q] := by
    intro p q hp hq y hy
    simp only [List.mem_cons, List.not_mem_nil, or_false] at hy
    rcases hy with rfl | rfl
    · exact hp
    · exact hq
  obtain ⟨m, m1, m2, -⟩ := npMin_spec r.values (by rw [hr]; simp [Vals.toList])
    (by rw [hr]; exact two na nb)
  obtain ⟨M, M1, M2, -⟩ := npMax_spec r.values (by rw [hr]; simp [Vals.toList])
    (by rw [hr]; exact two na nb)
  obtain ⟨m', m1', -, m3'⟩ := npMin_spec r'.values (by rw [hr']; simp [Vals.toList])
    (by rw [hr']; exact two nlo nhi)
  obtain ⟨M', M1', -, M3'⟩ := npMax_spec r'.values (by rw [hr']; simp [Vals.toList])
    (by rw [hr']; exact two nlo nhi)
  simp only [hr, hr', Vals.toList, List.mem_cons, List.not_mem_nil, or_false] at m2 M2 m3' M3'
  have nm : PyFloat.isNaN m = false := by rcases m2 with rfl | rfl <;> assumption
  have nM : PyFloat.isNaN M = false := by rcases M2 with rfl | rfl <;> assumption
  have hba := not_lt_of_le' hab
  have ha : PyFloat.lt a m' = false := not_lt_trans nlo (not_lt_of_le' hlo) (m3' lo (.inl rfl))
  have hb : PyFloat.lt M' b = false := not_lt_trans nhi (M3' hi (.inr rfl)) (not_lt_of_le' hhi)
  have hm : PyFloat.lt m m' = false := by
    rcases m2 with rfl | rfl
    · exact ha
    · exact not_lt_trans na hba ha
  have hM : PyFloat.lt M' M = false := by
    rcases M2 with rfl | rfl
    · exact not_lt_trans nb hb hba
    · exact hb
  unfold Spectrum.contains at h ⊢
  rw [ht, hu]
  cases hov : s.convertTo r.stype r.unit with
  | error e => rw [hov] at h; cases h
  | ok ov =>
    simp only [hov, bind, Except.bind] at h ⊢
    cases h1 : npMin ov with
    | error e => rw [h1] at h; cases h
    | ok omin =>
      cases h2 : npMax ov with
      | error e => rw [h1, h2] at h; cases h
      | ok omax =>
        simp only [h1, h2, m1, M1, m1', M1'] at h ⊢
        cases c1 : PyFloat.lt omin m with
        | true =>
          rw [c1] at h
          simp only [Bool.true_or, if_true] at h
          split at h <;> cases h
        | false =>
          cases c2 : PyFloat.lt M omax with
          | true =>
            rw [c1, c2] at h
            simp only [Bool.or_true, if_true] at h
            split at h <;> cases h
          | false =>
            rw [not_lt_trans nm c1 hm, not_lt_trans nM hM c2]
            rfl

variable [LawfulTrunc F]

/-- What repeated extrapolation keeps. -/
theorem Spec.Grown.range {b d : RealData F} (hb : RangeInv b) (ho : Ordered b.range.values)
    (h : Grown b d) : RangeInv d ∧ d.range.stype = b.range.stype ∧ d.range.unit = b.range.unit ∧
    d.stype = b.stype ∧ d.unit = b.unit ∧
    ∃ dt x y lo hi, b.range.values = .array dt [x, y] ∧ d.range.values = .array dt [lo, hi] ∧
      PyFloat.le x y = true ∧ PyFloat.le lo x = true ∧ PyFloat.le y hi = true := by
  induction h with
  | refl =>
    obtain ⟨dt, x, y, hv, hle⟩ := ho
    obtain ⟨nx, ny⟩ := le_noNaN hle
    exact ⟨hb, rfl, rfl, rfl, rfl, dt, x, y, x, y, hv, hv, hle, le_refl' nx, le_refl' ny⟩
  | @step d d' ext order hg hd ih =>
    obtain ⟨i1, i2, i3, i4, i5, dt, x, y, lo, hi, v1, v2, l1, l2, l3⟩ := ih
    have hord : Ordered d.range.values := ⟨dt, lo, hi, v2, le_trans' l2 (le_trans' l1 l3)⟩
    obtain ⟨dt', lo1, hi1, lo2, hi2, spl, r, e1, e2, e3, e4, e5, e6, e7, e8⟩ :=
      extrap_range i1 hord hd
    rw [v2] at e1
    cases e1
    obtain ⟨s1, s2, -⟩ := C01_stored _ _ _ _ e3
    have hn : NoNaN [lo2, hi2] := by
      intro z hz
      simp only [List.mem_cons, List.not_mem_nil, or_false] at hz
      rcases hz with rfl | rfl
      · exact (le_noNaN e5).1
      · exact (le_noNaN e6).2
    subst e2
    refine ⟨⟨?_, ?_, s1, s2⟩, s1.trans (i1.stype.symm.trans i2), ?_, i4, i5, dt, x, y, lo2, hi2, v1,
      e4, l1, le_trans' e5 l2, le_trans' l3 e6⟩
    · show NoNaN r.values.toList
      rw [e4]; exact hn
    · show IntWF r.values
      rw [e4]; exact e8
    · have := names_functional _ s2 _ i1.unit rfl rfl
      exact this.trans i3

/-- C111, one part: wherever the original evaluates, its repeated extrapolations give the same
values and leave the request alone. -/
theorem C111_part {b d : RealData F} (hb : Original b) (hc : ¬ IsConstant (some b))
    (h : Grown b d) {s : Spectrum F} {v : Vals F} (hv : (b.evaluate s).1 = .ok v) :
    d.evaluate s = (.ok v, s) ∧ d.range.contains s = .ok true := by
  obtain ⟨b1, b2⟩ := hb.not_constant hc
  obtain ⟨⟨x, hx⟩, hev⟩ := hb.contains hv
  have key : ∀ d, Grown b d → d.range.contains s = .ok true := by
    intro d hd
    obtain ⟨-, i2, i3, -, -, dt, x, y, lo, hi, v1, v2, l1, l2, l3⟩ :=
      hd.range (rangeInv_of_built b1) b2
    exact contains_wider i2 i3 v1 v2 l1 l2 l3 hx
  refine ⟨?_, key d h⟩
  induction h with
  | refl => exact hev
  | @step d d' ext order hg hd ih =>
    rw [C21_in_range d d' ext order hd s (key d hg) v (by rw [ih])]
    exact ih

/-! ## Materials -/

/-- What a part of a material can have become. -/
def Became (b d : RealData F) : Prop :=
  (IsConstant (some b) ∧ d = b) ∨ (¬ IsConstant (some b) ∧ Grown b d)

omit [LawfulCmp F] [LawfulTrunc F] in
theorem became_self (b : RealData F) : Became b b := by
  by_cases h : IsConstant (some b)
  · exact .inl ⟨h, rfl⟩
  · exact .inr ⟨h, .refl⟩

omit [LawfulCmp F] [LawfulTrunc F] in
theorem part_became {b d : RealData F} (hd : Became b d) {s : Spectrum F} {order : Nat}
    {d' : Option (RealData F)} (h : (extrapolatePart (some d) s order).1 = .ok d') :
    ∃ e, d' = some e ∧ Became b e := by
  by_cases hc : IsConstant (some d)
  · obtain ⟨c, r, t, u, hd'⟩ := hc
    cases hd'
    simp only [extrapolatePart, Except.ok.injEq] at h
    exact ⟨_, h.symm, hd⟩
  · rcases hd with ⟨h1, rfl⟩ | ⟨h1, h2⟩
    · exact absurd h1 hc
    · have he : ∃ e, d' = some e ∧ (d.newExtrap s order).1 = .ok e := by
        unfold extrapolatePart at h
        cases hn : d.newExtrap s order with
        | mk res s' =>
          cases d with
          | constant c r t u => exact absurd ⟨c, r, t, u, rfl⟩ hc
          | _ =>
            simp only [hn] at h
            cases res with
            | error e => cases h
            | ok e =>
              simp only [Except.ok.injEq] at h
              exact ⟨e, h.symm, rfl⟩
      obtain ⟨e, rfl, he⟩ := he
      exact ⟨e, rfl, .inr ⟨h1, .step h2 he⟩⟩

/-- A part that has been extrapolated any number of times still gives the original values. -/
theorem became_eval {b d : RealData F} (ho : Original b) (h : Became b d) {s : Spectrum F}
    {v : Vals F} (hv : (b.evaluate s).1 = .ok v) : d.evaluate s = (.ok v, s) := by
  rcases h with ⟨-, rfl⟩ | ⟨h1, h2⟩
  · exact (ho.contains hv).2
  · exact (C111_part ho h1 h2 hv).1

/-- The state of a material with two parts after a history. -/
structure Lived (m m' : Material F) (r i : RealData F) (removed : Prop) : Prop where
  rest : m' = { m with real := m'.real, imag := m'.imag }
  real : ∃ r', m'.real = some r' ∧ Became r r'
  imag : ∃ i', m'.imag = some i' ∧ (¬ removed → Became i i') ∧
    (removed → i' = cdata (lit 0))

omit [LawfulCmp F] [LawfulTrunc F] in
theorem lived_extrapolate {m m' : Material F} {r i : RealData F} {R : Prop}
    (hc : m.cplx = none) (h : Lived m m' r i R) (s : Spectrum F) (order : Nat) :
    Lived m (m'.extrapolate s order).2.1 r i R := by
  have hc' : m'.cplx = none := by rw [h.rest]; exact hc
  obtain ⟨r', hr', br⟩ := h.real
  obtain ⟨i', hi', bi1, bi2⟩ := h.imag
  unfold Material.extrapolate
  rw [hc']
  simp only [hr', hi']
  cases h1 : extrapolatePart (some r') s order with
  | mk res1 s1 =>
    cases res1 with
    | error e => exact h
    | ok re =>
      obtain ⟨r2, rfl, br2⟩ := part_became br (h := by rw [h1])
      simp only
      have hrest : ∀ re im, ({ m' with real := re, imag := im, cplx := none } : Material F) =
          { m with real := re, imag := im } := by
        intro re im
        rw [h.rest]
        simp only [hc]
      cases h2 : extrapolatePart (some i') s1 order with
      | mk res2 s2 =>
        cases res2 with
        | error e =>
          exact ⟨hrest (some r2) (some i'), ⟨r2, rfl, br2⟩, ⟨i', rfl, bi1, bi2⟩⟩
        | ok im =>
          simp only
          have him : ∃ i2, im = some i2 ∧ (¬ R → Became i i2) ∧ (R → i2 = cdata (lit 0)) := by
            by_cases hR : R
            · have := bi2 hR
              subst this
              simp only [cdata, extrapolatePart, Prod.mk.injEq, Except.ok.injEq] at h2
              exact ⟨_, h2.1.symm, fun h => absurd hR h, fun _ => rfl⟩
            · obtain ⟨i2, rfl, bi⟩ := part_became (bi1 hR) (h := by rw [h2])
              exact ⟨i2, rfl, fun _ => bi, fun h => absurd h hR⟩
          obtain ⟨i2, rfl, hi2⟩ := him
          exact ⟨hrest (some r2) (some i2), ⟨r2, rfl, br2⟩, ⟨i2, rfl, hi2⟩⟩

omit [LawfulCmp F] [LawfulTrunc F] in
theorem lived_after {m : Material F} {r i : RealData F} (hc : m.cplx = none)
    (hr : m.real = some r) (hi : m.imag = some i) (h : List (Change F)) :
    Lived m (changed m h) r i (Removed h) := by
  induction h using List.reverseRecOn with
  | nil =>
    exact ⟨rfl, ⟨r, hr, became_self r⟩, ⟨i, hi, fun _ => became_self i, fun h => by cases h⟩⟩
  | append_singleton h c ih =>
    have hf : changed m (h ++ [c]) = c.on (changed m h) := by simp [changed]
    rw [hf]
    cases c with
    | extrapolate s order =>
      have := lived_extrapolate hc ih s order
      have hR : Removed (h ++ [.extrapolate s order]) ↔ Removed h := by simp [Removed]
      exact ⟨this.rest, this.real, by rw [hR]; exact this.imag⟩
    | removeAbsorption =>
      have hR : Removed (h ++ [.removeAbsorption]) := by simp [Removed]
      show Lived m (changed m h).removeAbsorption.2 r i _
      rw [removeAbsorption_eq]
      refine ⟨?_, ih.real, ⟨_, rfl, fun hn => absurd hR hn, fun _ => rfl⟩⟩
      rw [ih.rest]

/-- Materials with parts that agree wherever the first ones can be evaluated. -/
theorem stored_eq {m m' : Material F} (hc : m.cplx = none) (hc' : m'.cplx = none)
    {r i r' i' : RealData F} (hr : m.real = some r) (hi : m.imag = some i)
    (hr' : m'.real = some r') (hi' : m'.imag = some i') (or : Original r) (oi : Original i)
    (br : Became r r') (bi : Became i i') {s : Spectrum F} {v : CVals F}
    (hv : (m.evalStored s).1 = .ok v) : m'.evalStored s = m.evalStored s := by
  unfold Material.evalStored at hv ⊢
  rw [hc] at hv ⊢
  rw [hc']
  simp only [hr, hi, hr', hi', evalPart] at hv ⊢
  cases h1 : r.evaluate s with
  | mk res1 s1 =>
    rw [h1] at hv
    cases res1 with
    | error e => cases hv
    | ok x =>
      have e1 := became_eval or br (s := s) (v := x) (by rw [h1])
      have e1' := (or.contains (s := s) (v := x) (by rw [h1])).2
      rw [h1] at e1'
      have hs : s1 = s := by cases e1'; rfl
      subst hs
      rw [e1]
      simp only at hv ⊢
      cases h2 : i.evaluate s1 with
      | mk res2 s2 =>
        rw [h2] at hv
        cases res2 with
        | error e => cases hv
        | ok y =>
          have e2 := became_eval oi bi (s := s1) (v := y) (by rw [h2])
          have e2' := (oi.contains (s := s1) (v := y) (by rw [h2])).2
          rw [h2] at e2'
          rw [e2, e2']

omit [LawfulCmp F] [LawfulTrunc F] in
/-- The answers of a material follow from what it stores. -/
theorem answers_eq {m m' : Material F} (hn : m'.name = m.name)
    (h : ∀ s v, (m.evalStored s).1 = .ok v → m'.evalStored s = m.evalStored s) (s : Spectrum F)
    (v : CVals F) :
    ((m.getNk s).1 = .ok v → m'.getNk s = m.getNk s) ∧
    ((m.getPermittivity s).1 = .ok v → m'.getPermittivity s = m.getPermittivity s) := by
  constructor
  · intro hv
    unfold Material.getNk at hv ⊢
    congr 1
    unfold Material.nkCore at hv ⊢
    simp only [bind, Except.bind] at hv ⊢
    cases hs : Spectrum.new s.values.toRaw s.stype s.unit with
    | error e => rfl
    | ok s' =>
      simp only [hs, hn] at hv ⊢
      split
      · rfl
      · rename_i hname
        rw [if_neg hname] at hv
        cases he : (m.evalStored s').1 with
        | error e => rw [he] at hv; cases hv
        | ok w => rw [h s' w he, he]
  · intro hv
    unfold Material.getPermittivity at hv ⊢
    simp only [hn] at hv ⊢
    split
    · rfl
    · rename_i hname
      rw [if_neg hname] at hv
      cases he : m.evalStored s with
      | mk res s' =>
        cases res with
        | error e => rw [he] at hv; cases hv
        | ok w => rw [h s w (by rw [he]), he]

/-- C111, materials with a real and an imaginary part, every arithmetic with IEEE comparisons,
every black-box library, every history of calls of `extrapolate` and `remove_absorption`,
including calls that raise: nothing but the two parts has changed, and wherever the constructed
material answered, the material gives the same answer, or, if the absorption was removed at any
point of the history, the answer that the constructed material gives after `remove_absorption`. -/
theorem C111_history (m : Material F) (r i : RealData F) (hc : m.cplx = none)
    (hr : m.real = some r) (hi : m.imag = some i) (or : Original r) (oi : Original i)
    (h : List (Change F)) :
    (changed m h).name = m.name ∧ (changed m h).metaData = m.metaData ∧
    (changed m h).interpOrder = m.interpOrder ∧ (changed m h).defType = m.defType ∧
    (changed m h).defUnit = m.defUnit ∧ (changed m h).cplx = none ∧
    (¬ Removed h → ∀ s v,
      ((m.getNk s).1 = .ok v → (changed m h).getNk s = m.getNk s) ∧
      ((m.getPermittivity s).1 = .ok v →
        (changed m h).getPermittivity s = m.getPermittivity s)) ∧
    (Removed h → ∀ s v,
      ((m.removeAbsorption.2.getNk s).1 = .ok v →
        (changed m h).getNk s = m.removeAbsorption.2.getNk s) ∧
      ((m.removeAbsorption.2.getPermittivity s).1 = .ok v →
        (changed m h).getPermittivity s = m.removeAbsorption.2.getPermittivity s)) := by
  have hl := lived_after hc hr hi h
  obtain ⟨r', hr', br⟩ := hl.real
  obtain ⟨i', hi', bi1, bi2⟩ := hl.imag
  have hrest := hl.rest
  have hname : (changed m h).name = m.name := by rw [hrest]
  have hc' : (changed m h).cplx = none := by rw [hrest]; exact hc
  refine ⟨hname, by rw [hrest], by rw [hrest], by rw [hrest], by rw [hrest], hc', ?_, ?_⟩
  · intro hR s v
    exact answers_eq hname (fun s v hv => stored_eq hc hc' hr hi hr' hi' or oi br (bi1 hR) hv) s v
  · intro hR s v
    rw [removeAbsorption_eq]
    have hi0 := bi2 hR
    subst hi0
    exact answers_eq (m := { m with imag := some (cdata (lit 0)) }) hname
      (fun s v hv => stored_eq (m := { m with imag := some (cdata (lit 0)) }) hc hc' hr rfl hr' hi'
        or (.constant _ _ _ _) br (became_self _) hv) s v

omit [LawfulCmp F] [LawfulTrunc F] in
/-- C111, materials stored as complex data: no history changes any answer. -/
theorem C111_complex (m : Material F) (hc : m.cplx.isSome) (h : List (Change F)) :
    (changed m h).name = m.name ∧ (changed m h).metaData = m.metaData ∧
    (changed m h).cplx = m.cplx ∧
    ∀ s, (changed m h).getNk s = m.getNk s ∧
      (changed m h).getPermittivity s = m.getPermittivity s := by
  induction h using List.reverseRecOn with
  | nil => exact ⟨rfl, rfl, rfl, fun s => ⟨rfl, rfl⟩⟩
  | append_singleton h c ih =>
    have hf : changed m (h ++ [c]) = c.on (changed m h) := by simp [changed]
    rw [hf]
    cases c with
    | extrapolate s order =>
      have : Change.on (changed m h) (.extrapolate s order) = changed m h := by
        show ((changed m h).extrapolate s order).2.1 = _
        unfold Material.extrapolate
        obtain ⟨d, hd⟩ := Option.isSome_iff_exists.1 hc
        rw [ih.2.2.1, hd]
      rw [this]
      exact ih
    | removeAbsorption =>
      have h3 := (C30_idempotent (changed m h)).2.2 (by rw [ih.2.2.1]; exact hc)
      show (changed m h).removeAbsorption.2.name = _ ∧ _
      refine ⟨?_, ?_, ?_, fun s => ?_⟩
      · rw [removeAbsorption_eq]; exact ih.1
      · show (changed m h).removeAbsorption.2.metaData = _; rw [removeAbsorption_eq]; exact ih.2.1
      · show (changed m h).removeAbsorption.2.cplx = _; rw [removeAbsorption_eq]; exact ih.2.2.1
      · exact ⟨((h3 s).1).trans (ih.2.2.2 s).1, ((h3 s).2).trans (ih.2.2.2 s).2⟩

end cmp
end generic

/-! ## Concrete case -/

section ideal
variable [SciPy XR]

theorem lineData_original {a b ya yb : ℝ} (h : a < b) : Original (lineData a b ya yb) := by
  refine .table (.interp (lineData_new h) ?_ trivial) ?_
  · intro x hx
    simp only [xrows, List.map_cons, List.map_nil, List.mem_cons, List.not_mem_nil, or_false] at hx
    rcases hx with rfl | rfl <;> rfl
  · refine ⟨.float, XR.fin a, XR.fin b, rfl, ?_⟩
    rw [XR.le_fin]
    exact decide_eq_true h.le

/-- Concrete case for `C111_history`: an index table on 1 m to 2 m and an extinction table on
1 m to 5 m. The first extrapolation, to 3 m, raises but replaces the real part; then the
absorption is removed and the material is extrapolated to 8 m. At 1.5 m the permittivity without
absorption is still what it was. -/
example [NumText XR] [SciPyLaws] : ∃ m : Material XR, m.cplx = none ∧
    m.real = some (lineData 1 2 1 2) ∧ m.imag = some (lineData 1 5 0 1) ∧
    Original (lineData 1 2 1 2) ∧ Original (lineData 1 5 0 1) ∧
    (m.extrapolate (metreSpectrum ([3].map XR.fin)) 1).1 = .error .value ∧
    (m.extrapolate (metreSpectrum ([3].map XR.fin)) 1).2.1 ≠ m ∧
    ((changed m [.extrapolate (metreSpectrum ([3].map XR.fin)) 1, .removeAbsorption,
      .extrapolate (metreSpectrum ([8].map XR.fin)) 1]).getPermittivity
        (metreSpectrum ([1.5].map XR.fin))).1 = .ok (.array [⟨XR.fin (1.5 ^ 2), XR.fin 0⟩]) := by
  obtain ⟨m, -, hn, hc, hr, hi, -⟩ := two_tables (a := 1) (b := 2) (ya := 1) (yb := 2)
    (a' := 1) (b' := 5) (ya' := 0) (yb' := 1) (by norm_num) (by norm_num)
  obtain ⟨spl, h1, -⟩ := lineData_extrap (a := 1) (b := 2) (ya := 1) (yb := 2) (e := 3)
    (by norm_num) (by norm_num) (by norm_num) 1 (by norm_num) (by norm_num)
  have h2 := lineData_extrap_inside (a := 1) (b := 5) (ya := 0) (yb := 1) (e := 3)
    (by norm_num) (by norm_num) 1
  have hx : m.extrapolate (metreSpectrum ([3].map XR.fin)) 1 = (.error .value, { m with
      real := some (.extrap (lineData 1 2 1 2) 1 spl (metreSpectrum ([1, 3].map XR.fin))
        "wavelength" "m") }, metreSpectrum ([3].map XR.fin)) := by
    unfold Material.extrapolate
    rw [hc, hr, hi]
    rw [part_line_ok h1]
    simp only
    rw [part_line_error h2]
  have o1 : Original (lineData 1 2 1 2) := lineData_original (by norm_num)
  have o2 : Original (lineData 1 5 0 1) := lineData_original (by norm_num)
  refine ⟨m, hc, hr, hi, o1, o2, by rw [hx], ?_, ?_⟩
  · rw [hx]
    intro h
    have h3 := congrArg Material.real h
    rw [hr] at h3
    cases h3
  · have hev : (m.removeAbsorption.2.getPermittivity (metreSpectrum ([1.5].map XR.fin))).1 =
        .ok (.array [⟨XR.fin (1.5 ^ 2), XR.fin 0⟩]) := by
      rw [removeAbsorption_eq]
      unfold Material.getPermittivity Material.evalStored
      simp only [hn, hc, hr, evalPart]
      rw [lineData_evaluate (by norm_num) [1.5] (by simp) (by norm_num)]
      have hz : (lit 0 : XR) = XR.fin 0 := by show XR.fin _ = _; norm_num
      simp only [List.map_cons, List.map_nil]
      rw [hz, cdata_evaluate (XR.fin 0) (raw := .ndarray .float [XR.fin 1.5]) rfl
        (metreSpectrum_new' _) (by simp [metreSpectrum, Vals.toList])
        (by simp [metreSpectrum, Vals.toList, NonNeg]; norm_num) rfl]
      simp only [List.map_cons, List.map_nil, metreSpectrum, constLike, combineParts,
        List.length_cons, List.length_nil, if_true, List.zipWith_cons_cons, List.zipWith_nil_left,
        cplxOf_fin, CVals.map, Cx.sq_toCx]
      norm_num [lineAt]
      rw [cplxOf_fin, Cx.sq_toCx, pow_two]
      simp only [toCx, Complex.mul_re, Complex.mul_im]
      norm_num
    obtain ⟨-, -, -, -, -, -, -, h⟩ := C111_history m _ _ hc hr hi o1 o2
      [.extrapolate (metreSpectrum ([3].map XR.fin)) 1, .removeAbsorption,
      .extrapolate (metreSpectrum ([8].map XR.fin)) 1]
    rw [((h (by simp [Removed])) _ _).2 hev]
    exact hev

end ideal

end Disp
