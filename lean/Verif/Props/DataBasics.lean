import Verif.Model.SpectralData
import Verif.Lemmas.Laws
import Verif.Lemmas.SciPyIdeal
import Verif.Props.SpectrumContains
/-!
# C12, C13, C16, C19 (and C03 for evaluation): data objects
-/

namespace Disp

open Spec

section generic
variable {F : Type} [PyFloat F]

theorem contains_ok {self other : Spectrum F} {b : Bool} (h : self.contains other = .ok b) :
    b = true := by
  unfold Spectrum.contains at h
  simp only [bind, Except.bind] at h
  cases h0 : other.convertTo self.stype self.unit with
  | error e => rw [h0] at h; cases h
  | ok ov =>
    cases h1 : npMin ov with
    | error e => rw [h0] at h; simp only [h1] at h; cases h
    | ok a =>
      cases h2 : npMax ov with
      | error e => rw [h0] at h; simp only [h1, h2] at h; cases h
      | ok a' =>
        cases h3 : npMin self.values with
        | error e => rw [h0] at h; simp only [h1, h2, h3] at h; cases h
        | ok b' =>
          cases h4 : npMax self.values with
          | error e => rw [h0] at h; simp only [h1, h2, h3, h4] at h; cases h
          | ok b'' =>
            rw [h0] at h
            simp only [h1, h2, h3, h4] at h
            split at h
            · cases hd : dictGet displayNames self.unit <;> rw [hd] at h <;> cases h
            · cases h; rfl

/-! ## C12 -/

/-- What a constant must return: one `c` for a scalar, a `c` per entry for an array. -/
def constLike (v : Vals F) (c : F) : Vals F :=
  match v with
  | .scalar _ => .scalar c
  | .array _ xs => .array .float (List.replicate xs.length c)

/-- C12, for every arithmetic in which `x*1.0 = x`: a Constant evaluates to its value at a
scalar in range and to an array of its value at an array in range; outside the range it raises
the exception of the range check. The Spectrum is not modified. -/
theorem C12_constant [SciPy F] [LawfulOne F] (c : F) (raw : Raw F) (t u : String)
    (d : RealData F) (hd : RealData.newConstant c raw t u = .ok d) (s : Spectrum F) :
    (d.evaluate s).2 = s ∧
    (∀ e, d.range.contains s = .error e → (d.evaluate s).1 = .error e) ∧
    (d.range.contains s = .ok true →
      (d.evaluate s).1 = .ok (constLike s.values c)) := by
  unfold RealData.newConstant at hd
  cases hr : Spectrum.new raw t u with
  | error e => rw [hr] at hd; cases hd
  | ok r =>
    rw [hr] at hd
    have hd' : d = .constant c r t u := by cases hd; rfl
    subst hd'
    refine ⟨rfl, ?_, ?_⟩
    · intro e he
      simp only [RealData.range] at he
      simp only [RealData.evaluate, he, bind, Except.bind]
    · intro he
      simp only [RealData.range] at he
      simp only [RealData.evaluate, he, bind, Except.bind]
      cases s.values with
      | scalar x => rfl
      | array dt xs =>
        simp only [LawfulOne.mul_one, constLike]
        congr 2
        exact List.map_const' ..

end generic

/-- C12, ideal arithmetic: with the default range a Constant evaluates at every spectrum of
values in [0, inf], of whatever type and unit. -/
theorem C12_default_range [SciPy XR] (c : XR) (t u : String) (d : RealData XR)
    (hd : RealData.newConstant c defaultRange t u = .ok d)
    (raw : Raw XR) (hraw : FloatInput raw) (t' u' : String) (s : Spectrum XR)
    (hs : Spectrum.new raw t' u' = .ok s) (hne : s.values.toList ≠ [])
    (hv : ∀ x ∈ s.values.toList, NonNeg x) :
    d.evaluate s = (.ok (constLike s.values c), s) := by
  obtain ⟨h1, -, h3⟩ := C12_constant c defaultRange t u d hd s
  suffices hc : d.range.contains s = .ok true by
    exact Prod.ext (h3 hc) h1
  unfold RealData.newConstant at hd
  cases hr : Spectrum.new (defaultRange : Raw XR) t u with
  | error e => rw [hr] at hd; cases hd
  | ok r =>
    rw [hr] at hd
    have hd' : d = .constant c r t u := by cases hd; rfl
    subst hd'
    show r.contains s = .ok true
    obtain ⟨a1, a2, a3⟩ := C01_stored _ _ _ _ hr
    have hrv : r.values = .array .float [XR.fin 0, XR.pinf] := by
      have : (defaultRange : Raw XR).check = .ok (.array .float [XR.fin 0, XR.pinf]) := by
        simp [defaultRange, Raw.check]
      rw [this] at a3; exact (Except.ok.inj a3).symm
    cases hov : s.convertTo r.stype r.unit with
    | error e =>
      exfalso
      have hcanon := pairs_names _ (names_pairs _ a2)
      obtain ⟨v, hv'⟩ := (C02_convert_iff raw hraw t' u' s hs [] r.stype r.unit).1.2
        ⟨r.unit, by rw [a1, (names_lower _ a2).1]; exact hcanon⟩
      rw [show afterConversions s [] = s from rfl, hov] at hv'; cases hv'
    | ok ov =>
      have hnn := C07_no_nan raw hraw t' u' s hs hv [] r.stype r.unit ov hov
      have hlen := (C02_shape raw hraw t' u' s hs r.stype r.unit ov hov).2
      have hne' : ov.toList ≠ [] := by
        intro h; rw [h] at hlen; exact hne (List.eq_nil_of_length_eq_zero hlen.symm)
      have n1 : NoNaN r.values.toList := by rw [hrv]; simp [NoNaN, Vals.toList]
      have n2 : NoNaN ov.toList := fun y hy => (hnn y hy).not_nan
      have hr0 : r.values.toList ≠ [] := by rw [hrv]; simp [Vals.toList]
      rw [contains_spec r s ov hr0 hov hne' n1 n2, if_neg]
      rw [← within_iff hr0 n1 n2]
      intro y hy
      have hy' := hnn y hy
      rw [hrv]
      cases y with
      | ninf => cases hy'
      | nan => cases hy'
      | pinf => exact ⟨⟨XR.pinf, by simp [Vals.toList], by simp⟩, ⟨XR.pinf, by simp [Vals.toList], by simp⟩⟩
      | fin y =>
        have hy0 : (0 : ℝ) ≤ y := hy'
        exact ⟨⟨XR.fin 0, by simp [Vals.toList], by simpa using hy0⟩,
          ⟨XR.pinf, by simp [Vals.toList], by simp⟩⟩

section generic
variable {F : Type} [PyFloat F]

/-! ## C13 -/

/-- Entries of an integer array are integers. -/
def IntWF : Vals F → Prop
  | .array .int xs => ∀ x ∈ xs, PyFloat.trunc x = x
  | _ => True

/-- A valid range given by a caller: without NaN, and integers if of integer type. -/
def RangeOK (raw : Raw F) : Prop := ∀ v, raw.check = .ok v → NoNaN v.toList ∧ IntWF v

/-- A range `[a, b]` with `a <= b`. -/
def Ordered (v : Vals F) : Prop := ∃ dt a b, v = .array dt [a, b] ∧ PyFloat.le a b = true

/-- The data objects that can be built from the constructors with NaN-free ranges and
abscissae. Extrapolations may be nested to any depth, but only over objects whose range is
given in increasing order (see `C13_refuted`); the ranges of interpolations and of
extrapolations always are. -/
inductive Built [SciPy F] : RealData F → Prop
  | constant {c raw t u d} : RealData.newConstant c raw t u = .ok d → RangeOK raw → Built d
  | model {k p raw t u d} : RealData.newModel k p raw t u = .ok d → RangeOK raw → Built d
  | interp {dt rows t u order d} : RealData.newInterp dt rows t u order = .ok d →
      NoNaN (rows.map (·.1)) → IntWF (.array dt (rows.map (·.1))) → Built d
  | extrap {base ext order d} : Built base → Ordered base.range.values →
      (RealData.newExtrap base ext order).1 = .ok d → Built d

/-- What every built object satisfies. -/
structure RangeInv [SciPy F] (d : RealData F) : Prop where
  noNaN : NoNaN d.range.values.toList
  intWF : IntWF d.range.values
  stype : d.range.stype = lower d.stype
  unit : (lower d.stype, lower d.unit, d.range.unit) ∈ names

theorem rangeInv_of_new [SciPy F] {raw : Raw F} {t u : String} {r : Spectrum F}
    (h : Spectrum.new raw t u = .ok r) (hraw : RangeOK raw) {d : RealData F}
    (hr : d.range = r) (ht : d.stype = t) (hu : d.unit = u) : RangeInv d := by
  obtain ⟨h1, h2, h3⟩ := C01_stored _ _ _ _ h
  obtain ⟨n1, n2⟩ := hraw _ h3
  subst hr ht hu
  exact ⟨n1, n2, h1, h2⟩

variable [LawfulCmp F]

theorem validate_step [LawfulTrunc F] {dt : DType} {v a b : F} {r' : List F}
    (hle : PyFloat.le a b = true) (hwf : IntWF (.array dt [a, b]))
    (h : validateExtrapVal dt v [a, b] = .ok r') :
    ∃ a' b', r' = [a', b'] ∧ PyFloat.le a' a = true ∧ PyFloat.le b b' = true ∧
      IntWF (.array dt [a', b']) := by
  obtain ⟨na, nb⟩ := le_noNaN hle
  simp only [validateExtrapVal, pyIdx, List.getElem?_cons_zero, List.getElem?_cons_succ, bind,
    Except.bind] at h
  cases h1 : PyFloat.lt v a with
  | true =>
    simp only [h1, if_true] at h
    cases dt with
    | float =>
      simp only [storeEntry, Except.ok.injEq] at h
      exact ⟨v, b, h.symm, le_of_lt' h1, le_refl' nb, trivial⟩
    | int =>
      simp only [storeEntry] at h
      split at h
      · cases h
      · rename_i x hx
        split at hx
        · cases hx
          simp only [Except.ok.injEq] at h
          have hw : PyFloat.trunc a = a := hwf a (by simp)
          have hm := LawfulTrunc.trunc_mono v a (le_of_lt' h1)
          rw [hw] at hm
          refine ⟨PyFloat.trunc v, b, h.symm, hm, le_refl' nb, ?_⟩
          intro x hx
          simp only [List.mem_cons, List.not_mem_nil, or_false] at hx
          rcases hx with rfl | rfl
          · exact LawfulTrunc.trunc_idem v
          · exact hwf _ (by simp)
        · cases hx
  | false =>
    simp only [h1, Bool.false_eq_true, if_false] at h
    cases h2 : PyFloat.lt b v with
    | false => simp only [h2, Bool.false_eq_true, if_false] at h; cases h
    | true =>
      simp only [h2, if_true] at h
      cases dt with
      | float =>
        simp only [storeEntry, Except.ok.injEq] at h
        exact ⟨a, v, h.symm, le_refl' na, le_of_lt' h2, trivial⟩
      | int =>
        simp only [storeEntry] at h
        split at h
        · cases h
        · rename_i x hx
          split at hx
          · cases hx
            simp only [Except.ok.injEq] at h
            have hw : PyFloat.trunc b = b := hwf b (by simp)
            have hm := LawfulTrunc.trunc_mono b v (le_of_lt' h2)
            rw [hw] at hm
            refine ⟨a, PyFloat.trunc v, h.symm, le_refl' na, hm, ?_⟩
            intro x hx
            simp only [List.mem_cons, List.not_mem_nil, or_false] at hx
            rcases hx with rfl | rfl
            · exact hwf _ (by simp)
            · exact LawfulTrunc.trunc_idem v
          · cases hx

theorem validate_fold [LawfulTrunc F] {dt : DType} : ∀ (vs : List F) {a b : F} {r' : List F},
    PyFloat.le a b = true → IntWF (.array dt [a, b]) →
    vs.foldlM (fun r v => validateExtrapVal dt v r) [a, b] = .ok r' →
    ∃ a' b', r' = [a', b'] ∧ PyFloat.le a' a = true ∧ PyFloat.le b b' = true ∧
      IntWF (.array dt [a', b']) := by
  intro vs
  induction vs with
  | nil =>
    intro a b r' hle hwf h
    obtain ⟨na, nb⟩ := le_noNaN hle
    rw [List.foldlM_nil] at h
    cases h
    exact ⟨a, b, rfl, le_refl' na, le_refl' nb, hwf⟩
  | cons v vs ih =>
    intro a b r' hle hwf h
    rw [List.foldlM_cons] at h
    cases h1 : validateExtrapVal dt v [a, b] with
    | error e => rw [h1] at h; cases h
    | ok r1 =>
      obtain ⟨a1, b1, rfl, ha, hb, hw⟩ := validate_step hle hwf h1
      rw [h1] at h
      obtain ⟨a2, b2, hr, ha2, hb2, hw2⟩ := ih (le_trans' ha (le_trans' hle hb)) hw h
      exact ⟨a2, b2, hr, le_trans' ha2 ha, le_trans' hb hb2, hw2⟩

/-- The range of an extrapolation has the form `[lo, hi]` and contains the base range. -/
theorem extrap_range [SciPy F] [LawfulTrunc F] {base d : RealData F} {ext : Spectrum F}
    {order : Nat} (hi : RangeInv base) (ho : Ordered base.range.values)
    (h : (RealData.newExtrap base ext order).1 = .ok d) :
    ∃ dt a b lo hi' spl r, base.range.values = .array dt [a, b] ∧
      d = .extrap base order spl r base.stype base.unit ∧
      Spectrum.new (.list dt [lo, hi']) base.stype base.unit = .ok r ∧
      r.values = .array dt [lo, hi'] ∧
      PyFloat.le lo a = true ∧ PyFloat.le b hi' = true ∧ PyFloat.le lo hi' = true ∧
      IntWF (.array dt [lo, hi']) := by
  obtain ⟨dt, a, b, hv, hle⟩ := ho
  have hwf := hi.intWF
  rw [hv] at hwf
  unfold RealData.newExtrap at h
  cases hg : getExtrapSpectrum base.range ext with
  | mk res ext' =>
    rw [hg] at h
    cases res with
    | error e => cases h
    | ok es =>
      simp only at h
      -- the values of `es`
      have hes : ∃ a' b', es.values = .array dt [a', b'] ∧ PyFloat.le a' a = true ∧
          PyFloat.le b b' = true ∧ IntWF (.array dt [a', b']) := by
        unfold getExtrapSpectrum at hg
        cases hc : ext.convertInPlace base.range.stype base.range.unit with
        | mk res2 ext2 =>
          rw [hc] at hg
          cases res2 with
          | error e => simp only [Prod.mk.injEq] at hg; cases hg.1
          | ok _ =>
            simp only [Prod.mk.injEq, hv] at hg
            have hg1 := hg.1
            cases hx : ext2.values with
            | scalar v =>
              simp only [hx, bind, Except.bind] at hg1
              cases hval : validateExtrapVal dt v [a, b] with
              | error e => rw [hval] at hg1; cases hg1
              | ok r1 =>
                rw [hval] at hg1
                obtain ⟨a1, b1, rfl, h1, h2, h3⟩ := validate_step hle hwf hval
                obtain ⟨-, -, hst⟩ := C01_stored _ _ _ _ hg1
                exact ⟨a1, b1, (Except.ok.inj hst).symm, h1, h2, h3⟩
            | array dt2 vs =>
              simp only [hx, bind, Except.bind] at hg1
              split at hg1
              · cases hg1
              · cases hval : vs.foldlM (fun r v => validateExtrapVal dt v r) [a, b] with
                | error e => rw [hval] at hg1; cases hg1
                | ok r1 =>
                  rw [hval] at hg1
                  obtain ⟨a1, b1, rfl, h1, h2, h3⟩ := validate_fold vs hle hwf hval
                  obtain ⟨-, -, hst⟩ := C01_stored _ _ _ _ hg1
                  exact ⟨a1, b1, (Except.ok.inj hst).symm, h1, h2, h3⟩
      obtain ⟨a', b', he, h1, h2, h3⟩ := hes
      have hle' : PyFloat.le a' b' = true := le_trans' h1 (le_trans' hle h2)
      obtain ⟨na, nb⟩ := le_noNaN hle'
      have hnn : NoNaN (es.values.toList) := by
        rw [he]
        intro x hx
        simp only [Vals.toList, List.mem_cons, List.not_mem_nil, or_false] at hx
        rcases hx with rfl | rfl
        · exact na
        · exact nb
      have hne : es.values.toList ≠ [] := by rw [he]; simp [Vals.toList]
      obtain ⟨lo, hlo1, hlo2, hlo3⟩ := npMin_spec es.values hne hnn
      obtain ⟨hi', hhi1, hhi2, hhi3⟩ := npMax_spec es.values hne hnn
      rw [he] at hlo1 hhi1
      simp only [extrapRange, he, hlo1, hhi1, bind, Except.bind] at h
      cases hr : Spectrum.new (.list dt [lo, hi']) base.stype base.unit with
      | error e => rw [hr] at h; cases h
      | ok r =>
        rw [hr] at h
        simp only at h
        cases hs : extrapolateData base order with
        | error e => rw [hs] at h; cases h
        | ok spl =>
          rw [hs] at h
          simp only [Except.ok.injEq] at h
          obtain ⟨-, -, hst⟩ := C01_stored _ _ _ _ hr
          have hmem : ∀ y ∈ es.values.toList, y = a' ∨ y = b' := by
            rw [he]; intro y hy; simpa [Vals.toList] using hy
          have ma : a' ∈ es.values.toList := by rw [he]; simp [Vals.toList]
          have mb : b' ∈ es.values.toList := by rw [he]; simp [Vals.toList]
          have nlo := hnn lo hlo2
          have nhi := hnn hi' hhi2
          refine ⟨dt, a, b, lo, hi', spl, r, hv, h.symm, hr, (Except.ok.inj hst).symm, ?_, ?_, ?_, ?_⟩
          · exact le_trans' (le_iff.2 ⟨nlo, na, hlo3 a' ma⟩) h1
          · exact le_trans' h2 (le_iff.2 ⟨nb, nhi, hhi3 b' mb⟩)
          · exact le_trans' (le_iff.2 ⟨nlo, na, hlo3 a' ma⟩) (le_iff.2 ⟨na, nhi, hhi3 a' ma⟩)
          · cases dt with
            | float => trivial
            | int =>
              intro x hx
              simp only [List.mem_cons, List.not_mem_nil, or_false] at hx
              have h3' : ∀ x ∈ [a', b'], PyFloat.trunc x = x := h3
              rcases hx with rfl | rfl
              · rcases hmem _ hlo2 with h | h <;> rw [h] <;> exact h3' _ (by simp)
              · rcases hmem _ hhi2 with h | h <;> rw [h] <;> exact h3' _ (by simp)

theorem rangeInv_of_built [SciPy F] [LawfulTrunc F] {d : RealData F} (h : Built d) :
    RangeInv d := by
  induction h with
  | @constant c raw t u d h1 h2 =>
    unfold RealData.newConstant at h1
    cases hr : Spectrum.new raw t u with
    | error e => rw [hr] at h1; cases h1
    | ok r => rw [hr] at h1; cases h1; exact rangeInv_of_new hr h2 rfl rfl rfl
  | @model k p raw t u d h1 h2 =>
    unfold RealData.newModel at h1
    cases hr : Spectrum.new raw t u with
    | error e => rw [hr] at h1; cases h1
    | ok r =>
      rw [hr] at h1
      simp only [bind, Except.bind] at h1
      cases hv : validateSpectrumType (F := F) k.required t u with
      | error e => rw [hv] at h1; cases h1
      | ok _ => rw [hv] at h1; cases h1; exact rangeInv_of_new hr h2 rfl rfl rfl
  | @interp dt rows t u order d h1 h2 h3 =>
    unfold RealData.newInterp at h1
    simp only [bind, Except.bind] at h1
    cases hlo : npMin (.array dt (rows.map (·.1))) with
    | error e => rw [hlo] at h1; cases h1
    | ok lo =>
      cases hhi : npMax (.array dt (rows.map (·.1))) with
      | error e => rw [hlo, hhi] at h1; cases h1
      | ok hi =>
        rw [hlo, hhi] at h1
        simp only at h1
        cases hr : Spectrum.new (.list dt [lo, hi]) t u with
        | error e => rw [hr] at h1; cases h1
        | ok r =>
          rw [hr] at h1
          simp only at h1
          cases hi' : interpInit order rows with
          | error e => rw [hi'] at h1; cases h1
          | ok _ =>
            rw [hi'] at h1
            cases h1
            have hne : (Vals.array dt (rows.map Prod.fst)).toList ≠ [] := by
              intro h0
              simp only [npMin, h0] at hlo
              cases hlo
            obtain ⟨m, m1, m2, -⟩ := npMin_spec (.array dt (rows.map Prod.fst)) hne h2
            obtain ⟨m', m1', m2', -⟩ := npMax_spec (.array dt (rows.map Prod.fst)) hne h2
            rw [hlo] at m1; cases m1
            rw [hhi] at m1'; cases m1'
            refine rangeInv_of_new hr ?_ rfl rfl rfl
            intro v hv
            cases hv
            refine ⟨?_, ?_⟩
            · intro x hx
              simp only [Vals.toList, List.mem_cons, List.not_mem_nil, or_false] at hx
              rcases hx with rfl | rfl
              · exact h2 _ m2
              · exact h2 _ m2'
            · cases dt with
              | float => trivial
              | int =>
                have h3' : ∀ x ∈ rows.map (·.1), PyFloat.trunc x = x := h3
                intro x hx
                simp only [List.mem_cons, List.not_mem_nil, or_false] at hx
                rcases hx with rfl | rfl
                · exact h3' _ m2
                · exact h3' _ m2'
  | @extrap base ext order d h1 h2 h3 ih =>
    obtain ⟨dt, a, b, lo, hi, spl, r, e1, rfl, e3, e4, e5, e6, e7, e8⟩ := extrap_range ih h2 h3
    refine rangeInv_of_new e3 ?_ rfl rfl rfl
    intro v hv
    cases hv
    obtain ⟨n1, n2⟩ := le_noNaN e7
    refine ⟨?_, e8⟩
    intro x hx
    simp only [Vals.toList, List.mem_cons, List.not_mem_nil, or_false] at hx
    rcases hx with rfl | rfl
    · exact n1
    · exact n2

omit [LawfulCmp F] in
theorem convertTo_std {s s' : Spectrum F} (h : s.std = s'.std) (t u : String) :
    s.convertTo t u = s'.convertTo t u := by
  rw [Spectrum.convertTo_eq, Spectrum.convertTo_eq, h]

omit [LawfulCmp F] in
/-- Evaluation never changes the physical content of the caller's Spectrum. -/
theorem evaluate_std [SciPy F] (d : RealData F) (s : Spectrum F) :
    (d.evaluate s).2.std = s.std := by
  induction d generalizing s with
  | constant => rfl
  | interp => rfl
  | model => rfl
  | extrap base order spl r t u ih =>
    simp only [RealData.evaluate]
    have hcip : ∀ s' : Spectrum F, s'.std = s.std →
        (match s'.convertInPlace t u with
        | (.error e', s'') => (.error e', s'')
        | (.ok _, s'') =>
          (do
            let _ ← r.contains s''
            .ok (s''.values.map (SciPy.splev spl)), s'') : Res (Vals F) × Spectrum F).2.std
          = s.std := by
      intro s' hs'
      have := convertInPlace_std s' t u
      cases hc : s'.convertInPlace t u with
      | mk res2 s'' =>
        rw [hc] at this
        cases res2 with
        | error e' => exact this.trans hs'
        | ok _ => exact this.trans hs'
    cases hcon : base.range.contains s with
    | ok b =>
      simp only
      have := ih s
      cases he : base.evaluate s with
      | mk res s' =>
        rw [he] at this
        cases res with
        | ok v => exact this
        | error e =>
          simp only
          split
          · exact hcip s' this
          · exact this
    | error e =>
      simp only
      split
      · exact hcip s rfl
      · rfl

/-- C13 (full statement, refuted below): an evaluation that returns was in range. -/
def C13_statement (F : Type) [PyFloat F] [SciPy F] : Prop :=
  ∀ (c : F) (raw : Raw F) (t u : String) (base d : RealData F) (ext : Spectrum F) (order : Nat),
    RangeOK raw → RealData.newConstant c raw t u = .ok base →
    (RealData.newExtrap base ext order).1 = .ok d →
    ∀ (s : Spectrum F) (v ov : Vals F), (d.evaluate s).1 = .ok v →
      s.convertTo d.range.stype d.range.unit = .ok ov → NoNaN ov.toList →
      Within d.range.values.toList ov.toList

/-- C13 for every arithmetic with IEEE comparisons, every black-box library, every object built
from the constructors, extrapolations nested to any depth: if `evaluate` returns, every
requested value lies within the object's valid range. Missing for the full claim:
extrapolations of objects whose range was given in decreasing order. -/
theorem C13_range_partial [SciPy F] [LawfulTrunc F] (d : RealData F) (hb : Built d)
    (s : Spectrum F) (v : Vals F) (h : (d.evaluate s).1 = .ok v) :
    ∃ ov, s.convertTo d.range.stype d.range.unit = .ok ov ∧
      (NoNaN ov.toList → ov.toList ≠ [] ∧ Within d.range.values.toList ov.toList) := by
  have base : ∀ (r : Spectrum F), NoNaN r.values.toList → ∀ b, r.contains s = .ok b →
      ∃ ov, s.convertTo r.stype r.unit = .ok ov ∧
        (NoNaN ov.toList → ov.toList ≠ [] ∧ Within r.values.toList ov.toList) := by
    intro r hn b hcon
    obtain ⟨-, ov, h1, h2⟩ := C10_sound r s b hn hcon
    exact ⟨ov, h1, fun hh => ⟨(h2 hh).1, (h2 hh).2.2⟩⟩
  cases d with
  | constant c r t u =>
    simp only [RealData.evaluate, bind, Except.bind] at h
    cases hcon : r.contains s with
    | error e => rw [hcon] at h; cases h
    | ok b => exact base r (rangeInv_of_built hb).noNaN b hcon
  | interp o rows r t u =>
    simp only [RealData.evaluate, bind, Except.bind] at h
    cases hcon : r.contains s with
    | error e => rw [hcon] at h; cases h
    | ok b => exact base r (rangeInv_of_built hb).noNaN b hcon
  | model k p r t u =>
    simp only [RealData.evaluate, bind, Except.bind] at h
    cases hcon : r.contains s with
    | error e => rw [hcon] at h; cases h
    | ok b => exact base r (rangeInv_of_built hb).noNaN b hcon
  | extrap bd order spl r t u =>
    have hinv := rangeInv_of_built hb
    -- the two ways to return
    have key : (∃ b, bd.range.contains s = .ok b) ∨
        ∃ s'' : Spectrum F, s''.std = s.std ∧ ∃ b, r.contains s'' = .ok b := by
      simp only [RealData.evaluate] at h
      cases hcon : bd.range.contains s with
      | ok b => exact Or.inl ⟨b, rfl⟩
      | error e =>
        rw [hcon] at h
        simp only at h
        split at h
        · have hstd := convertInPlace_std s t u
          cases hcip : s.convertInPlace t u with
          | mk res2 s'' =>
            rw [hcip] at h hstd
            cases res2 with
            | error e' => cases h
            | ok _ =>
              simp only [bind, Except.bind] at h
              cases hcon2 : r.contains s'' with
              | error e => rw [hcon2] at h; cases h
              | ok b => exact Or.inr ⟨s'', hstd, b, hcon2⟩
        · cases h
    rcases key with ⟨b, hcon⟩ | ⟨s'', hstd, b, hcon⟩
    · cases hb with
      | constant h1 _ =>
        unfold RealData.newConstant at h1
        simp only [bind, Except.bind] at h1
        split at h1 <;> cases h1
      | model h1 _ =>
        unfold RealData.newModel at h1
        simp only [bind, Except.bind] at h1
        split at h1
        · cases h1
        · split at h1 <;> cases h1
      | interp h1 _ _ =>
        unfold RealData.newInterp at h1
        simp only [bind, Except.bind] at h1
        repeat' split at h1
        all_goals cases h1
      | @extrap base' ext order' _ hbb hord hnew =>
        have hib := rangeInv_of_built hbb
        obtain ⟨dt, a, b', lo, hi, spl', r', e1, e2, e3, e4, e5, e6, e7, e8⟩ :=
          extrap_range hib hord hnew
        cases e2
        obtain ⟨-, ov, h1, h2⟩ := C10_sound _ s b hib.noNaN hcon
        have hs : r.stype = bd.range.stype := hinv.stype.trans hib.stype.symm
        have hu : r.unit = bd.range.unit := names_functional _ hinv.unit _ hib.unit rfl rfl
        refine ⟨ov, ?_, fun hh => ⟨(h2 hh).1, ?_⟩⟩
        · show s.convertTo r.stype r.unit = .ok ov
          rw [hs, hu]; exact h1
        · intro y hy
          obtain ⟨⟨x1, hx1, hle1⟩, ⟨x2, hx2, hle2⟩⟩ := (h2 hh).2.2 y hy
          obtain ⟨dt2, a2, b2, hab, hle⟩ := hord
          rw [e1] at hab
          cases hab
          rw [e1] at hx1 hx2
          simp only [Vals.toList, List.mem_cons, List.not_mem_nil, or_false] at hx1 hx2
          have hlo : PyFloat.le lo x1 = true := by
            rcases hx1 with rfl | rfl
            · exact e5
            · exact le_trans' e5 hle
          have hhi : PyFloat.le x2 hi = true := by
            rcases hx2 with rfl | rfl
            · exact le_trans' hle e6
            · exact e6
          show (∃ a ∈ r.values.toList, _) ∧ (∃ b ∈ r.values.toList, _)
          rw [e4]
          exact ⟨⟨lo, by simp [Vals.toList], le_trans' hlo hle1⟩,
            ⟨hi, by simp [Vals.toList], le_trans' hle2 hhi⟩⟩
    · obtain ⟨-, ov, h1, h2⟩ := C10_sound r s'' b hinv.noNaN hcon
      exact ⟨ov, (convertTo_std hstd.symm _ _).trans h1, fun hh => ⟨(h2 hh).1, (h2 hh).2.2⟩⟩

end generic

/-! ### Witnesses in metres -/

theorem metreSpectrum_new' (xs : List XR) :
    Spectrum.new (.ndarray .float xs) "wavelength" "m" = .ok (metreSpectrum xs) :=
  metreSpectrum_new xs

theorem metre_convertInPlace (xs : List XR) :
    (metreSpectrum xs).convertInPlace "wavelength" "m" = (.ok (), metreSpectrum xs) := by
  have hl : lower "wavelength" = "wavelength" := by decide +kernel
  have hc := metreSpectrum_convert xs
  unfold Spectrum.convertTo at hc
  unfold Spectrum.convertInPlace
  unfold Spectrum.convertCore at hc ⊢
  simp only [hl, show dictHas spectrumTypes "wavelength" = true by decide +kernel, if_true,
    show standardiseUnit "wavelength" "m" = .ok "m" by decide +kernel, bind, Except.bind] at hc ⊢
  cases hv : convertVals "wavelength" "m" (metreSpectrum xs).std with
  | error e => rw [hv] at hc; cases hc
  | ok v => rw [hv] at hc; cases hc; rfl

theorem metre_contains (xs ys : List ℝ) (hx : xs ≠ []) (hy : ys ≠ [])
    (h : ∀ y ∈ ys, (∃ a ∈ xs, a ≤ y) ∧ ∃ b ∈ xs, y ≤ b) :
    (metreSpectrum (xs.map XR.fin)).contains (metreSpectrum (ys.map XR.fin)) = .ok true := by
  have hx' : (metreSpectrum (xs.map XR.fin)).values.toList ≠ [] := by
    simpa [metreSpectrum, Vals.toList] using hx
  have hy' : (Vals.array DType.float (ys.map XR.fin)).toList ≠ [] := by
    simpa [Vals.toList] using hy
  rw [contains_spec _ _ _ hx' (metreSpectrum_convert _) hy' (noNaN_fin xs) (noNaN_fin ys), if_neg]
  refine (within_iff hx' (noNaN_fin xs) (noNaN_fin ys)).1 ?_
  intro y hy
  obtain ⟨y, hym, rfl⟩ := List.mem_map.1 hy
  obtain ⟨⟨a, ha, h1⟩, ⟨b, hb, h2⟩⟩ := h y hym
  exact ⟨⟨XR.fin a, List.mem_map_of_mem ha, by simpa using h1⟩,
    ⟨XR.fin b, List.mem_map_of_mem hb, by simpa using h2⟩⟩

theorem metre_not_contains (xs ys : List ℝ) (hx : xs ≠ []) {y : ℝ} (hy : y ∈ ys)
    (h : (∀ a ∈ xs, y < a) ∨ (∀ a ∈ xs, a < y)) :
    (metreSpectrum (xs.map XR.fin)).contains (metreSpectrum (ys.map XR.fin)) = .error .value := by
  have hx' : (metreSpectrum (xs.map XR.fin)).values.toList ≠ [] := by
    simpa [metreSpectrum, Vals.toList] using hx
  have hy' : (Vals.array DType.float (ys.map XR.fin)).toList ≠ [] := by
    intro h0
    have : ys = [] := by simpa [Vals.toList] using h0
    rw [this] at hy; cases hy
  rw [contains_spec _ _ _ hx' (metreSpectrum_convert _) hy' (noNaN_fin xs) (noNaN_fin ys), if_pos]
  · rfl
  · refine ⟨XR.fin y, List.mem_map_of_mem hy, ?_⟩
    rcases h with h | h
    · left
      intro a ha
      obtain ⟨a, ha', rfl⟩ := List.mem_map.1 ha
      simpa using h a ha'
    · right
      intro a ha
      obtain ⟨a, ha', rfl⟩ := List.mem_map.1 ha
      simpa using h a ha'

/-- A constant with a range in metres (in either order). -/
noncomputable def metreConstant [SciPy XR] (c a b : ℝ) : RealData XR :=
  .constant (XR.fin c) (metreSpectrum ([a, b].map XR.fin)) "wavelength" "m"

theorem metreConstant_new [SciPy XR] (c a b : ℝ) :
    RealData.newConstant (XR.fin c) (.list .float ([a, b].map XR.fin)) "wavelength" "m" =
      .ok (metreConstant c a b) := by
  unfold RealData.newConstant
  rw [metreSpectrum_new]
  rfl

theorem metreConstant_evaluate [SciPy XR] (c a b : ℝ) (ys : List ℝ) (hy : ys ≠ [])
    (h : ∀ y ∈ ys, (∃ x ∈ [a, b], x ≤ y) ∧ ∃ x ∈ [a, b], y ≤ x) :
    (metreConstant c a b).evaluate (metreSpectrum (ys.map XR.fin)) =
      (.ok (.array .float (ys.map (fun _ => XR.fin c))), metreSpectrum (ys.map XR.fin)) := by
  simp only [metreConstant, RealData.evaluate]
  rw [metre_contains [a, b] ys (by simp) hy h]
  simp only [bind, Except.bind, metreSpectrum, LawfulOne.mul_one, List.map_map, Function.comp_def]

/-- Concrete case for C12: the constant 1.5 on [1, 3] m, asked at 2 m and 2.5 m. -/
example [SciPy XR] :
    RealData.newConstant (XR.fin 1.5) (.list .float (([1, 3] : List ℝ).map XR.fin)) "wavelength" "m"
      = .ok (metreConstant 1.5 1 3) ∧
    (metreConstant 1.5 1 3).range.contains (metreSpectrum (([2, 2.5] : List ℝ).map XR.fin))
      = .ok true := by
  refine ⟨metreConstant_new 1.5 1 3, ?_⟩
  show (metreSpectrum _).contains _ = _
  exact metre_contains [1, 3] [2, 2.5] (by simp) (by simp) (by
    intro y hy
    simp only [List.mem_cons, List.not_mem_nil, or_false] at hy
    rcases hy with rfl | rfl <;>
      exact ⟨⟨1, by simp, by norm_num⟩, ⟨3, by simp, by norm_num⟩⟩)

theorem metreConstant_extrapolateData [SciPy XR] [SciPyLaws] (c a b : ℝ) (ha : 0 < a)
    (hb : 0 < b) (hab : a ≠ b) (k : ℕ) (hk : 1 ≤ k) (hk' : k ≤ 5) :
    ∃ spl, extrapolateData (metreConstant c a b) k = .ok spl ∧
      ∀ x ∈ geomReal (min a b) (max a b) 1000, SciPy.splev spl (XR.fin x) = XR.fin c := by
  have hmin : npMin (metreSpectrum ([a, b].map XR.fin)).values = .ok (XR.fin (min a b)) := by
    simp only [metreSpectrum, npMin, Vals.toList, List.map_cons, List.map_nil, npMinList,
      List.foldl_cons, List.foldl_nil, XR.isNaN_fin, XR.lt_fin, Bool.false_eq_true, if_false,
      decide_eq_true_eq]
    split_ifs with h
    · rw [min_eq_right h.le]
    · rw [min_eq_left (not_lt.1 h)]
  have hmax : npMax (metreSpectrum ([a, b].map XR.fin)).values = .ok (XR.fin (max a b)) := by
    simp only [metreSpectrum, npMax, Vals.toList, List.map_cons, List.map_nil, npMaxList,
      List.foldl_cons, List.foldl_nil, XR.isNaN_fin, XR.lt_fin, Bool.false_eq_true, if_false,
      decide_eq_true_eq]
    split_ifs with h
    · rw [max_eq_right h.le]
    · rw [max_eq_left (not_lt.1 h)]
  have hlt : min a b < max a b := min_lt_max.2 hab
  have hpos : 0 < min a b := lt_min ha hb
  have hg := SciPyLaws.geom (min a b) (max a b) 1000 hpos (hpos.trans hlt) (by norm_num)
  have hs : RealData.suggestSpectrum (metreConstant c a b) =
      .ok (metreSpectrum ((geomReal (min a b) (max a b) 1000).map XR.fin)) := by
    unfold RealData.suggestSpectrum
    rw [show (metreConstant c a b).range = metreSpectrum ([a, b].map XR.fin) from rfl, hmin, hmax]
    simp only [bind, Except.bind, hg]
    exact metreSpectrum_new' _
  have hev := metreConstant_evaluate c a b (geomReal (min a b) (max a b) 1000)
    (List.ne_nil_of_mem (geomReal_first (a := min a b) (b := max a b) (by norm_num))) (by
      intro y hy
      obtain ⟨h1, h2⟩ := geomReal_mem hpos hlt.le (by norm_num) hy
      refine ⟨⟨min a b, ?_, h1⟩, ⟨max a b, ?_, h2⟩⟩
      · rcases min_choice a b with h | h <;> rw [h] <;> simp
      · rcases max_choice a b with h | h <;> rw [h] <;> simp)
  obtain ⟨spl, h1, h2⟩ := SciPyLaws.spline
    ((geomReal (min a b) (max a b) 1000).map (fun x => (x, c))) k hk hk'
    (by rw [List.length_map, geomReal_length]; omega)
    (by
      rw [List.map_map]
      have : ((fun p : ℝ × ℝ => p.1) ∘ fun x => (x, c)) = id := rfl
      rw [this, List.map_id]
      exact geomReal_pairwise hpos hlt (by norm_num))
  refine ⟨spl, ?_, ?_⟩
  · unfold extrapolateData
    rw [hs]
    simp only [bind, Except.bind, hev]
    rw [← h1]
    simp only [List.map_map, Function.comp_def, metreSpectrum, Vals.toList]
  · intro x hx
    exact h2 (x, c) (List.mem_map.2 ⟨x, hx, rfl⟩)

/-- Extrapolating a constant with range `[a, b]` metres beyond its second bound. -/
theorem metreConstant_extrap [SciPy XR] [SciPyLaws] (c a b e : ℝ) (ha : 0 < a)
    (hb : 0 < b) (hab : a ≠ b) (he1 : a ≤ e) (he2 : b < e) (k : ℕ) (hk : 1 ≤ k) (hk' : k ≤ 5) :
    ∃ spl, RealData.newExtrap (metreConstant c a b) (metreSpectrum ([e].map XR.fin)) k =
      (.ok (.extrap (metreConstant c a b) k spl (metreSpectrum ([a, e].map XR.fin))
        "wavelength" "m"), metreSpectrum ([e].map XR.fin)) ∧
      ∀ x ∈ geomReal (min a b) (max a b) 1000, SciPy.splev spl (XR.fin x) = XR.fin c := by
  obtain ⟨spl, h1, h2⟩ := metreConstant_extrapolateData c a b ha hb hab k hk hk'
  refine ⟨spl, ?_, h2⟩
  have hcip := metre_convertInPlace ([e].map XR.fin)
  have hg : getExtrapSpectrum (metreConstant c a b).range (metreSpectrum ([e].map XR.fin)) =
      (.ok (metreSpectrum ([a, e].map XR.fin)), metreSpectrum ([e].map XR.fin)) := by
    unfold getExtrapSpectrum
    simp only [metreConstant, RealData.range]
    rw [show (metreSpectrum ([a, b].map XR.fin)).stype = "wavelength" from rfl,
      show (metreSpectrum ([a, b].map XR.fin)).unit = "m" from rfl, hcip]
    simp only [metreSpectrum, List.map_cons, List.map_nil, List.length_cons, List.length_nil]
    have hval : validateExtrapVal .float (XR.fin e) [XR.fin a, XR.fin b] =
        .ok [XR.fin a, XR.fin e] := by
      simp [validateExtrapVal, pyIdx, bind, Except.bind, he2, storeEntry, not_lt.2 he1]
    simp only [List.foldlM_cons, List.foldlM_nil, hval, bind, Except.bind, pure, Except.pure]
    have := metreSpectrum_new' [XR.fin a, XR.fin e]
    rw [this]
    simp [metreSpectrum]
  unfold RealData.newExtrap
  rw [hg]
  have hmin : npMin (metreSpectrum ([a, e].map XR.fin)).values = .ok (XR.fin a) := by
    simp [metreSpectrum, npMin, Vals.toList, npMinList, not_lt.2 he1]
  have hmax : npMax (metreSpectrum ([a, e].map XR.fin)).values = .ok (XR.fin e) := by
    simp only [metreSpectrum, npMax, Vals.toList, List.map_cons, List.map_nil, npMaxList,
      List.foldl_cons, List.foldl_nil, XR.isNaN_fin, XR.lt_fin, Bool.false_eq_true, if_false,
      decide_eq_true_eq]
    split_ifs with h
    · rfl
    · rw [le_antisymm he1 (not_lt.1 h)]
  have hr : extrapRange (metreConstant c a b) (metreSpectrum ([a, e].map XR.fin)) =
      .ok (metreSpectrum ([a, e].map XR.fin)) := by
    unfold extrapRange
    rw [hmin, hmax]
    have := metreSpectrum_new [XR.fin a, XR.fin e]
    simp only [metreConstant, RealData.stype, RealData.unit, bind, Except.bind]
    exact this
  simp only [hr, h1, bind, Except.bind]
  rfl

/-- C13 is false for ranges given in decreasing order: the constant with range (8 m, 4 m),
extrapolated to 10 m, has the valid range [8 m, 10 m] and still evaluates at 5 m. -/
theorem C13_refuted [SciPy XR] [SciPyLaws] : ¬ C13_statement XR := by
  intro hst
  obtain ⟨spl, h1, -⟩ := metreConstant_extrap 1 8 4 10 (by norm_num) (by norm_num) (by norm_num)
    (by norm_num) (by norm_num) 1 le_rfl (by norm_num)
  have hev := metreConstant_evaluate 1 8 4 [5] (by simp) (by
    intro y hy
    simp only [List.mem_singleton] at hy
    subst hy
    exact ⟨⟨4, by simp, by norm_num⟩, ⟨8, by simp, by norm_num⟩⟩)
  have hcon : (metreConstant 1 8 4).range.contains (metreSpectrum ([5].map XR.fin)) = .ok true :=
    metre_contains [8, 4] [5] (by simp) (by simp) (by
      intro y hy
      simp only [List.mem_singleton] at hy
      subst hy
      exact ⟨⟨4, by simp, by norm_num⟩, ⟨8, by simp, by norm_num⟩⟩)
  have hraw : RangeOK (Raw.list DType.float ([8, 4].map XR.fin)) := by
    intro v hv
    cases hv
    exact ⟨noNaN_fin [8, 4], trivial⟩
  have hd : (RealData.extrap (metreConstant 1 8 4) 1 spl (metreSpectrum ([8, 10].map XR.fin))
      "wavelength" "m").evaluate (metreSpectrum ([5].map XR.fin)) =
      (.ok (.array .float (([5] : List ℝ).map (fun _ => XR.fin 1))), metreSpectrum ([5].map XR.fin)) := by
    simp only [RealData.evaluate, hcon, hev]
  have hw := hst (XR.fin 1) (.list .float ([8, 4].map XR.fin)) "wavelength" "m"
    (metreConstant 1 8 4) (RealData.extrap (metreConstant 1 8 4) 1 spl
      (metreSpectrum ([8, 10].map XR.fin)) "wavelength" "m")
    (metreSpectrum ([10].map XR.fin)) 1 hraw (metreConstant_new 1 8 4)
    (congrArg Prod.fst h1)
    (metreSpectrum ([5].map XR.fin)) (.array .float (([5] : List ℝ).map (fun _ => XR.fin 1)))
    (.array .float ([5].map XR.fin)) (congrArg Prod.fst hd)
    (metreSpectrum_convert _) (noNaN_fin [5])
  obtain ⟨⟨a, ha, hle⟩, -⟩ := hw (XR.fin 5) (by simp [Vals.toList])
  simp only [RealData.range, metreSpectrum, Vals.toList, List.map_cons, List.map_nil,
    List.mem_cons, List.not_mem_nil, or_false] at ha
  rcases ha with rfl | rfl <;> norm_num at hle

/-- Concrete case for `C13_range_partial`: the constant 1 on [4 m, 8 m], extrapolated to 10 m,
is built from the constructors, and returns a value at 5 m. -/
example [SciPy XR] [SciPyLaws] : ∃ d : RealData XR, Built d ∧
    d.range = metreSpectrum ([4, 10].map XR.fin) ∧
    (d.evaluate (metreSpectrum ([5].map XR.fin))).1 = .ok (.array .float [XR.fin 1]) := by
  obtain ⟨spl, h1, -⟩ := metreConstant_extrap 1 4 8 10 (by norm_num) (by norm_num) (by norm_num)
    (by norm_num) (by norm_num) 1 le_rfl (by norm_num)
  have hin : ∀ y ∈ [(5 : ℝ)], (∃ x ∈ [(4 : ℝ), 8], x ≤ y) ∧ ∃ x ∈ [(4 : ℝ), 8], y ≤ x := by
    intro y hy
    simp only [List.mem_singleton] at hy
    subst hy
    exact ⟨⟨4, by simp, by norm_num⟩, ⟨8, by simp, by norm_num⟩⟩
  have hcon : (metreConstant 1 4 8).range.contains (metreSpectrum ([5].map XR.fin)) = .ok true :=
    metre_contains [4, 8] [5] (by simp) (by simp) hin
  refine ⟨_, Built.extrap (Built.constant (metreConstant_new 1 4 8) ?_) ?_ (by rw [h1]), rfl, ?_⟩
  · intro v hv
    cases hv
    exact ⟨noNaN_fin [4, 8], trivial⟩
  · exact ⟨.float, XR.fin 4, XR.fin 8, rfl, by norm_num⟩
  · simp only [RealData.evaluate, hcon, metreConstant_evaluate 1 4 8 [5] (by simp) hin]
    rfl

end Disp
