import Verif.Props.DataEval
/-!
# C21: extrapolation
-/

namespace Disp

open Spec

section generic
variable {F : Type} [PyFloat F]

/-- `[lo, hi]` is the smallest interval that contains all of `xs`. -/
def Hull (xs : List F) (lo hi : F) : Prop :=
  lo ∈ xs ∧ hi ∈ xs ∧ ∀ x ∈ xs, PyFloat.le lo x = true ∧ PyFloat.le x hi = true

/-- C21, values: where the original data can be evaluated inside its valid range, the
extrapolation returns the same (and leaves the caller's Spectrum in the same state); every
arithmetic, every spline library, every nesting. -/
theorem C21_in_range [SciPy F] (base d : RealData F) (ext : Spectrum F) (order : Nat)
    (hd : (RealData.newExtrap base ext order).1 = .ok d) (s : Spectrum F)
    (hin : base.range.contains s = .ok true) (v : Vals F) (hv : (base.evaluate s).1 = .ok v) :
    d.evaluate s = base.evaluate s := by
  unfold RealData.newExtrap at hd
  cases hg : getExtrapSpectrum base.range ext with
  | mk res ext' =>
    rw [hg] at hd
    cases res with
    | error e => cases hd
    | ok es =>
      simp only [bind, Except.bind] at hd
      cases hr : extrapRange base es with
      | error e => rw [hr] at hd; cases hd
      | ok r =>
        rw [hr] at hd
        simp only at hd
        cases hs : extrapolateData base order with
        | error e => rw [hs] at hd; cases hd
        | ok spl =>
          rw [hs] at hd
          have hd' : d = .extrap base order spl r base.stype base.unit := by cases hd; rfl
          subst hd'
          cases hb : base.evaluate s with
          | mk res2 s2 =>
            rw [hb] at hv
            simp only at hv
            subst hv
            simp only [RealData.evaluate, hin, hb]

variable [LawfulCmp F]

theorem validate_float {v a b : F} : validateExtrapVal .float v [a, b] =
    if PyFloat.lt v a then .ok [v, b] else if PyFloat.lt b v then .ok [a, v] else .error .value := by
  simp only [validateExtrapVal, pyIdx, List.getElem?_cons_zero, List.getElem?_cons_succ, bind,
    Except.bind, storeEntry]
  split_ifs <;> rfl

theorem validate_fold_float : ∀ (vs : List F) {a b : F} {r' : List F}, PyFloat.le a b = true →
    vs.foldlM (fun r v => validateExtrapVal .float v r) [a, b] = .ok r' →
    ∃ a' b', r' = [a', b'] ∧ Hull (a :: b :: vs) a' b' ∧ PyFloat.le a' b' = true ∧
      ∀ v ∈ vs, PyFloat.lt v a = true ∨ PyFloat.lt b v = true := by
  intro vs
  induction vs with
  | nil =>
    intro a b r' hle h
    obtain ⟨na, nb⟩ := le_noNaN hle
    rw [List.foldlM_nil] at h
    cases h
    refine ⟨a, b, rfl, ⟨by simp, by simp, ?_⟩, hle, by simp⟩
    intro x hx
    simp only [List.mem_cons, List.not_mem_nil, or_false] at hx
    rcases hx with rfl | rfl
    · exact ⟨le_refl' na, hle⟩
    · exact ⟨hle, le_refl' nb⟩
  | cons v vs ih =>
    intro a b r' hle h
    rw [List.foldlM_cons, validate_float] at h
    by_cases h1 : PyFloat.lt v a = true
    · rw [if_pos h1] at h
      have hvb : PyFloat.le v b = true := le_trans' (le_of_lt' h1) hle
      obtain ⟨a', b', hr, ⟨ha, hb, hh⟩, hab, ho⟩ := ih hvb h
      refine ⟨a', b', hr, ⟨?_, ?_, ?_⟩, hab, ?_⟩
      · simp only [List.mem_cons] at ha ⊢; tauto
      · simp only [List.mem_cons] at hb ⊢; tauto
      · intro x hx
        simp only [List.mem_cons] at hx
        rcases hx with rfl | rfl | rfl | hx
        · exact ⟨le_trans' (hh v (by simp)).1 (le_of_lt' h1), le_trans' hle (hh b (by simp)).2⟩
        · exact hh _ (by simp)
        · exact hh _ (by simp)
        · exact hh _ (by simp [hx])
      · intro x hx
        rcases List.mem_cons.1 hx with rfl | hx
        · exact Or.inl h1
        · rcases ho x hx with h2 | h2
          · exact Or.inl (LawfulCmp.lt_trans _ _ _ h2 h1)
          · exact Or.inr h2
    · rw [if_neg h1] at h
      by_cases h2 : PyFloat.lt b v = true
      · rw [if_pos h2] at h
        have hav : PyFloat.le a v = true := le_trans' hle (le_of_lt' h2)
        obtain ⟨a', b', hr, ⟨ha, hb, hh⟩, hab, ho⟩ := ih hav h
        refine ⟨a', b', hr, ⟨?_, ?_, ?_⟩, hab, ?_⟩
        · simp only [List.mem_cons] at ha ⊢; tauto
        · simp only [List.mem_cons] at hb ⊢; tauto
        · intro x hx
          simp only [List.mem_cons] at hx
          rcases hx with rfl | rfl | rfl | hx
          · exact hh _ (by simp)
          · exact ⟨le_trans' (hh a (by simp)).1 hle, le_trans' (le_of_lt' h2) (hh v (by simp)).2⟩
          · exact hh _ (by simp)
          · exact hh _ (by simp [hx])
        · intro x hx
          rcases List.mem_cons.1 hx with rfl | hx
          · exact Or.inr h2
          · rcases ho x hx with h3 | h3
            · exact Or.inl h3
            · exact Or.inr (LawfulCmp.lt_trans _ _ _ h2 h3)
      · rw [if_neg h2] at h; cases h

theorem validate_fold_rejects : ∀ (vs : List F) {a b v : F}, v ∈ vs → PyFloat.le a v = true →
    PyFloat.le v b = true →
    vs.foldlM (fun r v => validateExtrapVal .float v r) [a, b] = .error .value := by
  intro vs
  induction vs with
  | nil => intro a b v hv; cases hv
  | cons w vs ih =>
    intro a b v hv h1 h2
    rw [List.foldlM_cons, validate_float]
    rcases List.mem_cons.1 hv with rfl | hv
    · rw [if_neg (by rw [(le_iff.1 h1).2.2]; simp), if_neg (by rw [(le_iff.1 h2).2.2]; simp)]
      rfl
    · split_ifs with h3 h4
      · exact ih hv (le_trans' (le_of_lt' h3) h1) h2
      · exact ih hv h1 (le_trans' h2 (le_of_lt' h4))
      · rfl

/-- What the requested values are: the extended spectrum in the unit of the data. -/
theorem getExtrap_eq (base ext : Spectrum F) (rs : Vals F)
    (hrs : ext.convertTo base.stype base.unit = .ok rs) (a b : F) (dt : DType)
    (hb : base.values = .array dt [a, b]) :
    (getExtrapSpectrum base ext).1 =
      if 2 < rs.toList.length then .error .value
      else (do
        let r' ← rs.toList.foldlM (fun r v => validateExtrapVal dt v r) [a, b]
        Spectrum.new (.ndarray dt r') base.stype base.unit) := by
  unfold Spectrum.convertTo at hrs
  unfold getExtrapSpectrum Spectrum.convertInPlace
  cases hc : ext.convertCore base.stype base.unit with
  | error e => rw [hc] at hrs; cases hrs
  | ok tuv =>
    obtain ⟨t, u, v⟩ := tuv
    rw [hc] at hrs
    simp only [bind, Except.bind, Except.ok.injEq] at hrs
    subst hrs
    simp only [hb]
    cases v with
    | scalar x =>
      simp only [Vals.toList, List.length_singleton, Nat.not_ofNat_lt_one, if_false,
        List.foldlM_cons, List.foldlM_nil, bind_pure]
    | array dt2 xs => simp only [Vals.toList]; rfl

/-- C21 (full statement, refuted below): the new valid range is the smallest interval that
contains the old one and the requested values. -/
def C21_statement (F : Type) [PyFloat F] [SciPy F] : Prop :=
  ∀ (c : F) (raw : Raw F) (t u : String) (base d : RealData F) (ext : Spectrum F) (order : Nat),
    RangeOK raw → RealData.newConstant c raw t u = .ok base →
    (RealData.newExtrap base ext order).1 = .ok d →
    ∃ rs lo hi, ext.convertTo base.range.stype base.range.unit = .ok rs ∧
      d.range.values.toList = [lo, hi] ∧ Hull (base.range.values.toList ++ rs.toList) lo hi

/-- C21, range: for every data object with an increasing float range the extrapolated range is
the smallest interval that contains the old one and the requested values, none of which lay in
the old range; at most two values can be requested. Missing for the full claim: ranges given in
decreasing order (`C21_refuted`) and integer ranges (`C21_integer_partial`). -/
theorem C21_range_partial [SciPy F] (base d : RealData F) (ext : Spectrum F) (order : Nat) (a b : F)
    (hb : base.range.values = .array .float [a, b]) (hab : PyFloat.le a b = true)
    (hd : (RealData.newExtrap base ext order).1 = .ok d) :
    ∃ rs lo hi, ext.convertTo base.range.stype base.range.unit = .ok rs ∧
      d.range.values = .array .float [lo, hi] ∧ Hull (a :: b :: rs.toList) lo hi ∧
      rs.toList.length ≤ 2 ∧ ∀ v ∈ rs.toList, PyFloat.lt v a = true ∨ PyFloat.lt b v = true := by
  cases hrs : ext.convertTo base.range.stype base.range.unit with
  | error e =>
    exfalso
    unfold RealData.newExtrap getExtrapSpectrum Spectrum.convertInPlace at hd
    unfold Spectrum.convertTo at hrs
    cases hc : ext.convertCore base.range.stype base.range.unit with
    | error e => rw [hc] at hd; cases hd
    | ok tuv => rw [hc] at hrs; cases hrs
  | ok rs =>
    have hg := getExtrap_eq base.range ext rs hrs a b .float hb
    unfold RealData.newExtrap at hd
    cases hg' : getExtrapSpectrum base.range ext with
    | mk res ext' =>
      rw [hg'] at hd hg
      simp only at hg
      subst hg
      by_cases hl : 2 < rs.toList.length
      · rw [if_pos hl] at hd; cases hd
      · rw [if_neg hl] at hd
        simp only [bind, Except.bind] at hd
        cases hf : rs.toList.foldlM (fun r v => validateExtrapVal .float v r) [a, b] with
        | error e => rw [hf] at hd; cases hd
        | ok r' =>
          obtain ⟨a', b', rfl, hh, hab', ho⟩ := validate_fold_float _ hab hf
          rw [hf] at hd
          simp only at hd
          cases hn : Spectrum.new (.ndarray .float [a', b']) base.range.stype base.range.unit with
          | error e => rw [hn] at hd; cases hd
          | ok es =>
            rw [hn] at hd
            simp only at hd
            have hesv : es.values = .array .float [a', b'] := by
              obtain ⟨-, -, hst⟩ := C01_stored _ _ _ _ hn
              exact (Except.ok.inj hst).symm
            obtain ⟨na, nb⟩ := le_noNaN hab'
            have hmin : npMin es.values = .ok a' := by
              rw [hesv]
              simp only [npMin, Vals.toList, npMinList, List.foldl_cons, List.foldl_nil, na, nb,
                Bool.false_eq_true, if_false, (le_iff.1 hab').2.2]
            have hmax : npMax es.values = .ok (if PyFloat.lt a' b' then b' else a') := by
              rw [hesv]
              simp only [npMax, Vals.toList, npMaxList, List.foldl_cons, List.foldl_nil, na, nb,
                Bool.false_eq_true, if_false]
            cases hr : extrapRange base es with
            | error e => rw [hr] at hd; cases hd
            | ok r =>
              rw [hr] at hd
              simp only at hd
              cases hs : extrapolateData base order with
              | error e => rw [hs] at hd; cases hd
              | ok spl =>
                rw [hs] at hd
                have hd' : d = .extrap base order spl r base.stype base.unit := by cases hd; rfl
                subst hd'
                rw [hesv] at hmin hmax
                simp only [extrapRange, hesv, hmin, hmax, bind, Except.bind] at hr
                obtain ⟨-, -, hst⟩ := C01_stored _ _ _ _ hr
                refine ⟨rs, a', _, rfl, (Except.ok.inj hst).symm, ?_, by omega, ho⟩
                obtain ⟨m1, m2, m3⟩ := hh
                by_cases hlt : PyFloat.lt a' b' = true
                · rw [if_pos hlt]
                  exact ⟨m1, m2, m3⟩
                · rw [if_neg hlt]
                  have hba : PyFloat.le b' a' = true := le_iff.2 ⟨nb, na, by simpa using hlt⟩
                  exact ⟨m1, m1, fun x hx => ⟨(m3 x hx).1, le_trans' (m3 x hx).2 hba⟩⟩

/-- C21, rejection: requesting a value inside the original range raises `ValueError`, also if it
is one of two requested values; increasing float ranges, every arithmetic. -/
theorem C21_rejects_inside [SciPy F] (base : RealData F) (ext : Spectrum F) (order : Nat) (a b : F)
    (hb : base.range.values = .array .float [a, b]) (rs : Vals F)
    (hrs : ext.convertTo base.range.stype base.range.unit = .ok rs)
    (v : F) (hv : v ∈ rs.toList) (h1 : PyFloat.le a v = true) (h2 : PyFloat.le v b = true) :
    (RealData.newExtrap base ext order).1 = .error .value := by
  have hg := getExtrap_eq base.range ext rs hrs a b .float hb
  rw [validate_fold_rejects _ hv h1 h2] at hg
  unfold RealData.newExtrap
  cases hg' : getExtrapSpectrum base.range ext with
  | mk res ext' =>
    rw [hg'] at hg
    simp only at hg
    subst hg
    split_ifs <;> rfl

end generic

/-- C21 is false for ranges given in decreasing order: the constant with range (8 m, 4 m),
extrapolated to 10 m, has the valid range [8 m, 10 m]. -/
theorem C21_refuted [SciPy XR] [SciPyLaws] : ¬ C21_statement XR := by
  intro hst
  obtain ⟨spl, h1, -⟩ := metreConstant_extrap 1 8 4 10 (by norm_num) (by norm_num) (by norm_num)
    (by norm_num) (by norm_num) 1 le_rfl (by norm_num)
  have hraw : RangeOK (.list .float (([8, 4] : List ℝ).map XR.fin)) := by
    intro v hv
    cases hv
    exact ⟨noNaN_fin [8, 4], trivial⟩
  obtain ⟨rs, lo, hi, -, h3, h4, h5, h6⟩ := hst (XR.fin 1)
    (.list .float (([8, 4] : List ℝ).map XR.fin)) "wavelength" "m"
    (metreConstant 1 8 4) _ (metreSpectrum ([10].map XR.fin)) 1 hraw (metreConstant_new 1 8 4)
    (congrArg Prod.fst h1)
  simp only [RealData.range, metreSpectrum, Vals.toList, List.map_cons, List.map_nil,
    List.cons.injEq, and_true] at h3
  obtain ⟨rfl, rfl⟩ := h3
  have := (h6 (XR.fin 4) (by
    simp [metreConstant, RealData.range, metreSpectrum, Vals.toList])).1
  norm_num at this

/-- Integer ranges: the requested value is truncated, so that the new range need not contain
it. Full claim: `C21_statement`. -/
theorem C21_integer_partial [SciPy XR] (base d : RealData XR) (ext : Spectrum XR) (order : Nat)
    (a b : ℤ) (hab : a ≤ b) (v : ℝ)
    (hb : base.range.values = .array .int [XR.fin a, XR.fin b])
    (hrs : ext.convertTo base.range.stype base.range.unit = .ok (.scalar (XR.fin v)))
    (hv : (b : ℝ) < v) (hpos : 0 ≤ v) (hd : (RealData.newExtrap base ext order).1 = .ok d) :
    ∃ lo hi : ℝ, d.range.values = .array .int [XR.fin lo, XR.fin hi] ∧ lo = a ∧ hi = ⌊v⌋ := by
  have hg := getExtrap_eq base.range ext _ hrs (XR.fin a) (XR.fin b) .int hb
  have hab' : (a : ℝ) ≤ b := by exact_mod_cast hab
  have htr : (PyFloat.trunc (XR.fin v) : XR) = XR.fin (⌊v⌋ : ℝ) := by
    rw [XR.trunc_fin, if_neg (not_lt.2 hpos)]
  have hfl : b ≤ ⌊v⌋ := Int.le_floor.2 hv.le
  have hfl' : (b : ℝ) ≤ (⌊v⌋ : ℝ) := by exact_mod_cast hfl
  unfold RealData.newExtrap at hd
  cases hg' : getExtrapSpectrum base.range ext with
  | mk res ext' =>
    rw [hg'] at hd hg
    simp only at hg
    subst hg
    have hval : validateExtrapVal .int (XR.fin v) [XR.fin a, XR.fin b] =
        if PyFloat.lt (PyFloat.abs (XR.fin v)) (lit (2 ^ 63)) then
          .ok [XR.fin a, XR.fin (⌊v⌋ : ℝ)] else .error .overflow := by
      simp only [validateExtrapVal, pyIdx, List.getElem?_cons_zero, List.getElem?_cons_succ, bind,
        Except.bind, XR.lt_fin, decide_eq_true_eq, storeEntry, htr]
      rw [if_neg (by linarith), if_pos hv]
      split_ifs <;> rfl
    simp only [Vals.toList, List.length_singleton, Nat.not_ofNat_lt_one, if_false,
      List.foldlM_cons, List.foldlM_nil, bind_pure, hval] at hd
    by_cases hb63 : PyFloat.lt (PyFloat.abs (XR.fin v)) (lit (2 ^ 63)) = true
    · rw [if_pos hb63] at hd
      simp only [bind, Except.bind] at hd
      cases hn : Spectrum.new (.ndarray .int [XR.fin a, XR.fin (⌊v⌋ : ℝ)]) base.range.stype
          base.range.unit with
      | error e => rw [hn] at hd; cases hd
      | ok es =>
        rw [hn] at hd
        simp only at hd
        have hesv : es.values = .array .int [XR.fin a, XR.fin (⌊v⌋ : ℝ)] := by
          obtain ⟨-, -, hst⟩ := C01_stored _ _ _ _ hn
          exact (Except.ok.inj hst).symm
        have hmin : npMin es.values = .ok (XR.fin a) := by
          rw [hesv]
          simp only [npMin, Vals.toList, npMinList, List.foldl_cons, List.foldl_nil,
            XR.isNaN_fin, Bool.false_eq_true, if_false, XR.lt_fin, decide_eq_true_eq]
          rw [if_neg (by linarith)]
        have hmax : npMax es.values = .ok (XR.fin (⌊v⌋ : ℝ)) := by
          rw [hesv]
          simp only [npMax, Vals.toList, npMaxList, List.foldl_cons, List.foldl_nil,
            XR.isNaN_fin, Bool.false_eq_true, if_false, XR.lt_fin, decide_eq_true_eq]
          split_ifs with h
          · rfl
          · have : (a : ℝ) = ⌊v⌋ := le_antisymm (by linarith) (not_lt.1 h)
            rw [this]
        cases hr : extrapRange base es with
        | error e => rw [hr] at hd; cases hd
        | ok r =>
          rw [hr] at hd
          simp only at hd
          cases hs : extrapolateData base order with
          | error e => rw [hs] at hd; cases hd
          | ok spl =>
            rw [hs] at hd
            have hd' : d = .extrap base order spl r base.stype base.unit := by cases hd; rfl
            subst hd'
            rw [hesv] at hmin hmax
            simp only [extrapRange, hesv, hmin, hmax, bind, Except.bind] at hr
            obtain ⟨-, -, hst⟩ := C01_stored _ _ _ _ hr
            exact ⟨_, _, (Except.ok.inj hst).symm, rfl, rfl⟩
    · rw [if_neg hb63] at hd; cases hd

/-- Concrete case: the constant 1 on [4 m, 8 m], extrapolated to 10 m. -/
example [SciPy XR] [SciPyLaws] : ∃ d : RealData XR,
    (RealData.newExtrap (metreConstant 1 4 8) (metreSpectrum ([10].map XR.fin)) 1).1 = .ok d ∧
    (metreConstant 1 4 8).range.values = .array .float [XR.fin 4, XR.fin 8] ∧
    PyFloat.le (XR.fin 4) (XR.fin 8) = true ∧
    (metreConstant 1 4 8).range.contains (metreSpectrum ([5].map XR.fin)) = .ok true := by
  obtain ⟨spl, h1, -⟩ := metreConstant_extrap 1 4 8 10 (by norm_num) (by norm_num) (by norm_num)
    (by norm_num) (by norm_num) 1 le_rfl (by norm_num)
  refine ⟨_, congrArg Prod.fst h1, rfl, by norm_num, ?_⟩
  exact metre_contains [4, 8] [5] (by simp) (by simp) (by
    intro y hy
    simp only [List.mem_singleton] at hy
    subst hy
    exact ⟨⟨4, by simp, by norm_num⟩, ⟨8, by simp, by norm_num⟩⟩)

end Disp
