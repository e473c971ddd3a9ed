import Verif.Props.DataBasics
/-!
# C16, C19 and C03 for data objects

Evaluation point by point, required types and units of models, unit spelling.
-/

namespace Disp

open Spec

section generic
variable {F : Type} [PyFloat F] [SciPy F]

/-! ## C16 -/

/-- Data objects that are not extrapolations. -/
def Plain : RealData F → Prop
  | .extrap .. => False
  | _ => True

omit [SciPy F] in
/-- The conversion of an array from the constructor is a map, with a function that depends
only on the names. -/
theorem convert_new_list (t u t' u' : String) : ∃ g : F → F, ∀ (xs : List F) (s : Spectrum F)
    (w : Vals F), Spectrum.new (.list .float xs) t u = .ok s → s.convertTo t' u' = .ok w →
    w = .array .float (xs.map g) := by
  by_cases h1 : ∃ c, (lower t, lower u, c) ∈ names
  · by_cases h2 : ∃ c, (lower t', u', c) ∈ names
    · obtain ⟨c, hc⟩ := h1
      obtain ⟨c', hc'⟩ := h2
      refine ⟨fun x => toElem safeInverseElem (lower t') c' (fromElem safeInverseElem (lower t) c x),
        ?_⟩
      intro xs s w hs hw
      have := convertList_eq hc hc' xs
      unfold convertList at this
      rw [hs] at this
      simp only [bind, Except.bind, hw] at this
      exact Except.ok.inj this
    · refine ⟨id, ?_⟩
      intro xs s w hs hw
      have := (C02_convert_iff (.list .float xs) (by simp [FloatInput]) t u s hs [] t' u').1.1 ⟨w, hw⟩
      exact absurd this h2
  · refine ⟨id, ?_⟩
    intro xs s w hs hw
    obtain ⟨-, h, -⟩ := C01_stored _ _ _ _ hs
    exact absurd ⟨_, h⟩ h1

/-- C16 (full statement, refuted below for extrapolations). -/
def C16_statement (F : Type) [PyFloat F] [SciPy F] (d : RealData F) : Prop :=
  ∀ (t u : String) (xs xs' : List F) (s s' : Spectrum F) (v v' : Vals F) (i j : ℕ) (x : F),
    Spectrum.new (.list .float xs) t u = .ok s → Spectrum.new (.list .float xs') t u = .ok s' →
    (d.evaluate s).1 = .ok v → (d.evaluate s').1 = .ok v' →
    xs[i]? = some x → xs'[j]? = some x →
    ∃ y, v.toList[i]? = some y ∧ v'.toList[j]? = some y

omit [SciPy F] in
theorem pointwise_of_map {t u : String} (f : F → Res F) (ts us : String)
    (xs xs' : List F) (s s' : Spectrum F) (v v' : Vals F) (i j : ℕ) (x : F)
    (hs : Spectrum.new (.list .float xs) t u = .ok s)
    (hs' : Spectrum.new (.list .float xs') t u = .ok s')
    (hv : (do let w ← s.convertTo ts us; w.mapRes f) = .ok v)
    (hv' : (do let w ← s'.convertTo ts us; w.mapRes f) = .ok v')
    (hi : xs[i]? = some x) (hj : xs'[j]? = some x) :
    ∃ y, v.toList[i]? = some y ∧ v'.toList[j]? = some y := by
  obtain ⟨g, hg⟩ := convert_new_list (F := F) t u ts us
  have key : ∀ (xs : List F) (s : Spectrum F) (v : Vals F) (i : ℕ),
      Spectrum.new (.list .float xs) t u = .ok s →
      (do let w ← s.convertTo ts us; w.mapRes f) = .ok v → xs[i]? = some x →
      ∃ y, f (g x) = .ok y ∧ v.toList[i]? = some y := by
    intro xs s v i hs hv hi
    simp only [bind, Except.bind] at hv
    cases hw : s.convertTo ts us with
    | error e => rw [hw] at hv; cases hv
    | ok w =>
      have hw' := hg xs s w hs hw
      rw [hw, hw'] at hv
      simp only [Vals.mapRes, bind, Except.bind] at hv
      cases hm : (xs.map g).mapM f with
      | error e => rw [hm] at hv; cases hv
      | ok ys =>
        rw [hm] at hv
        cases hv
        obtain ⟨-, h2⟩ := mapM_getElem f _ _ hm
        obtain ⟨y, h3, h4⟩ := h2 i (g x) (by rw [List.getElem?_map, hi]; rfl)
        exact ⟨y, h3, h4⟩
  obtain ⟨y, h1, h2⟩ := key xs s v i hs hv hi
  obtain ⟨y', h1', h2'⟩ := key xs' s' v' j hs' hv' hj
  rw [h1] at h1'
  cases h1'
  exact ⟨y, h2, h2'⟩

/-- C16 for every arithmetic and every data object that is not an extrapolation: the value at
a point does not depend on the other points of the call. Missing for the full claim:
extrapolations, for which it is false. -/
theorem C16_pointwise_partial (d : RealData F) (hp : Plain d) : C16_statement F d := by
  intro t u xs xs' s s' v v' i j x hs hs' hv hv' hi hj
  have drop : ∀ (r : Spectrum F) (s : Spectrum F) (k : Res (Vals F)) (v : Vals F),
      (do let _ ← r.contains s; k) = .ok v → k = .ok v := by
    intro r s k v h
    simp only [bind, Except.bind] at h
    cases hc : r.contains s with
    | error e => rw [hc] at h; cases h
    | ok b => rw [hc] at h; exact h
  cases d with
  | extrap => cases hp
  | constant c r ts us =>
    obtain ⟨-, -, e1⟩ := C01_stored _ _ _ _ hs
    obtain ⟨-, -, e1'⟩ := C01_stored _ _ _ _ hs'
    have hx : s.values = .array .float xs := (Except.ok.inj e1).symm
    have hx' : s'.values = .array .float xs' := (Except.ok.inj e1').symm
    simp only [RealData.evaluate] at hv hv'
    have h1 := drop _ _ _ _ hv
    have h1' := drop _ _ _ _ hv'
    rw [hx] at h1
    rw [hx'] at h1'
    cases h1
    cases h1'
    exact ⟨c * lit 1, by rw [Vals.toList, List.getElem?_map, hi]; rfl,
      by rw [Vals.toList, List.getElem?_map, hj]; rfl⟩
  | interp o rows r ts us =>
    simp only [RealData.evaluate] at hv hv'
    exact pointwise_of_map _ ts us xs xs' s s' v v' i j x hs hs' (drop _ _ _ _ hv)
      (drop _ _ _ _ hv') hi hj
  | model k p r ts us =>
    simp only [RealData.evaluate] at hv hv'
    exact pointwise_of_map _ ts us xs xs' s s' v v' i j x hs hs' (drop _ _ _ _ hv)
      (drop _ _ _ _ hv') hi hj

/-- C16 for the complex models. -/
theorem C16_complex (d : CplxData F) (t u : String) (xs xs' : List F) (s s' : Spectrum F)
    (v v' : CVals F) (i j : ℕ) (x : F)
    (hs : Spectrum.new (.list .float xs) t u = .ok s)
    (hs' : Spectrum.new (.list .float xs') t u = .ok s')
    (hv : d.evaluate s = .ok v) (hv' : d.evaluate s' = .ok v')
    (hi : xs[i]? = some x) (hj : xs'[j]? = some x) :
    ∃ zs zs' z, v = .array zs ∧ v' = .array zs' ∧ zs[i]? = some z ∧ zs'[j]? = some z := by
  obtain ⟨g, hg⟩ := convert_new_list (F := F) t u d.stype d.unit
  have key : ∀ (xs : List F) (s : Spectrum F) (v : CVals F) (i : ℕ),
      Spectrum.new (.list .float xs) t u = .ok s → d.evaluate s = .ok v → xs[i]? = some x →
      ∃ zs z, v = .array zs ∧ d.kind.at d.params (g x) = .ok z ∧ zs[i]? = some z := by
    intro xs s v i hs hv hi
    unfold CplxData.evaluate at hv
    simp only [bind, Except.bind] at hv
    cases hc : d.range.contains s with
    | error e => rw [hc] at hv; cases hv
    | ok b =>
      rw [hc] at hv
      simp only at hv
      cases hw : s.convertTo d.stype d.unit with
      | error e => rw [hw] at hv; cases hv
      | ok w =>
        have hw' := hg xs s w hs hw
        rw [hw, hw'] at hv
        simp only at hv
        cases hm : (xs.map g).mapM (d.kind.at d.params) with
        | error e => rw [hm] at hv; cases hv
        | ok zs =>
          rw [hm] at hv
          cases hv
          obtain ⟨-, h2⟩ := mapM_getElem _ _ _ hm
          obtain ⟨y, h3, h4⟩ := h2 i (g x) (by rw [List.getElem?_map, hi]; rfl)
          exact ⟨zs, y, rfl, h3, h4⟩
  obtain ⟨zs, z, h0, h1, h2⟩ := key xs s v i hs hv hi
  obtain ⟨zs', z', h0', h1', h2'⟩ := key xs' s' v' j hs' hv' hj
  rw [h1] at h1'
  cases h1'
  exact ⟨zs, zs', z, h0, h0', h2, h2'⟩

end generic

/-- C16, what happens with an extrapolation over [4 m, 10 m] of a constant on [4 m, 8 m], for
every spline library: alone, a point of [4, 8] gets the base value; requested together with a
point beyond 8 m it gets the value of the spline. -/
theorem C16_extrapolation [SciPy XR] (c : ℝ) (spl : SciPy.Spl XR) (k : ℕ) (x y : ℝ)
    (hx : 4 ≤ x ∧ x ≤ 8) (hy : 8 < y ∧ y ≤ 10) :
    ((RealData.extrap (metreConstant c 4 8) k spl (metreSpectrum ([4, 10].map XR.fin))
      "wavelength" "m").evaluate (metreSpectrum ([x].map XR.fin))).1 = .ok (.array .float [XR.fin c]) ∧
    ((RealData.extrap (metreConstant c 4 8) k spl (metreSpectrum ([4, 10].map XR.fin))
      "wavelength" "m").evaluate (metreSpectrum ([x, y].map XR.fin))).1 =
      .ok (.array .float [SciPy.splev spl (XR.fin x), SciPy.splev spl (XR.fin y)]) := by
  have hin : ∀ z ∈ [x], (∃ a ∈ [(4 : ℝ), 8], a ≤ z) ∧ ∃ a ∈ [(4 : ℝ), 8], z ≤ a := by
    intro z hz
    simp only [List.mem_singleton] at hz
    subst hz
    exact ⟨⟨4, by simp, hx.1⟩, ⟨8, by simp, hx.2⟩⟩
  have hcon : (metreConstant c 4 8).range.contains (metreSpectrum ([x].map XR.fin)) = .ok true :=
    metre_contains [4, 8] [x] (by simp) (by simp) hin
  have hncon : (metreConstant c 4 8).range.contains (metreSpectrum ([x, y].map XR.fin)) =
      .error .value :=
    metre_not_contains [4, 8] [x, y] (by simp) (y := y) (by simp) (by
      right
      intro a ha
      simp only [List.mem_cons, List.not_mem_nil, or_false] at ha
      rcases ha with rfl | rfl <;> linarith [hy.1])
  have hcip := metre_convertInPlace ([x, y].map XR.fin)
  have hcon2 : (metreSpectrum ([4, 10].map XR.fin)).contains
      (metreSpectrum ([x, y].map XR.fin)) = .ok true :=
    metre_contains [4, 10] [x, y] (by simp) (by simp) (by
      intro z hz
      simp only [List.mem_cons, List.not_mem_nil, or_false] at hz
      rcases hz with rfl | rfl
      · exact ⟨⟨4, by simp, hx.1⟩, ⟨10, by simp, by linarith [hx.2]⟩⟩
      · exact ⟨⟨4, by simp, by linarith [hy.1]⟩, ⟨10, by simp, hy.2⟩⟩)
  constructor
  · simp only [RealData.evaluate, hcon, metreConstant_evaluate c 4 8 [x] (by simp) hin]
    rfl
  · simp only [RealData.evaluate, hncon, show PyErr.value.isA PyErr.value = true from rfl, if_true,
      hcip, hcon2, bind, Except.bind]
    rfl

/-- C16 is false: there is a spline library that keeps the documented contract and
extrapolated data for which the value at a point changes when another point is added. -/
theorem C16_refuted : ∃ (_ : SciPy XR) (_ : SciPyLaws) (base d : RealData XR) (e : Spectrum XR),
    (RealData.newExtrap base e 1).1 = .ok d ∧ ¬ C16_statement XR d := by
  letI := demoSciPy
  haveI := demoSciPyLaws
  obtain ⟨spl, h1, -⟩ := metreConstant_extrap 1 4 8 10 (by norm_num) (by norm_num) (by norm_num)
    (by norm_num) (by norm_num) 1 le_rfl (by norm_num)
  -- the demonstration library returns zero away from the 1000 sample points
  refine ⟨demoSciPy, demoSciPyLaws, metreConstant 1 4 8, _, metreSpectrum ([10].map XR.fin),
    congrArg Prod.fst h1, ?_⟩
  intro hst
  have hspl : spl = ((geomReal (min 4 8) (max 4 8) 1000).map (fun x => (XR.fin x, XR.fin 1))) := by
    have h := congrArg Prod.fst h1
    unfold RealData.newExtrap at h
    cases hg : getExtrapSpectrum (metreConstant 1 4 8).range (metreSpectrum ([10].map XR.fin)) with
    | mk r e' =>
      rw [hg] at h
      cases r with
      | error e => cases h
      | ok es =>
        simp only [bind, Except.bind] at h
        cases hr : extrapRange (metreConstant 1 4 8) es with
        | error e => rw [hr] at h; cases h
        | ok r =>
          rw [hr] at h
          simp only at h
          cases hd : extrapolateData (metreConstant 1 4 8) 1 with
          | error e => rw [hd] at h; cases h
          | ok spl' =>
            rw [hd] at h
            have : spl' = spl := by
              simp only [Except.ok.injEq, RealData.extrap.injEq] at h
              exact h.2.2.1
            subst this
            have hs : RealData.suggestSpectrum (metreConstant 1 4 8) =
                .ok (metreSpectrum ((geomReal (min 4 8) (max 4 8) 1000).map XR.fin)) := by
              unfold RealData.suggestSpectrum
              have hmin : npMin (metreConstant 1 4 8).range.values = .ok (XR.fin (min 4 8)) := by
                simp [metreConstant, RealData.range, metreSpectrum, npMin, Vals.toList, npMinList]
                norm_num
              have hmax : npMax (metreConstant 1 4 8).range.values = .ok (XR.fin (max 4 8)) := by
                simp [metreConstant, RealData.range, metreSpectrum, npMax, Vals.toList, npMaxList]
                norm_num
              rw [hmin, hmax]
              simp only [bind, Except.bind,
                SciPyLaws.geom (min 4 8) (max 4 8) 1000 (by norm_num) (by norm_num) (by norm_num)]
              exact metreSpectrum_new' _
            have hev := metreConstant_evaluate 1 4 8 (geomReal (min 4 8) (max 4 8) 1000)
              (List.ne_nil_of_mem (geomReal_first (a := min 4 8) (b := max 4 8) (by norm_num))) (by
                intro y hy
                obtain ⟨h1, h2⟩ := geomReal_mem (by norm_num) (by norm_num) (by norm_num) hy
                norm_num at h1 h2
                exact ⟨⟨4, by simp, h1⟩, ⟨8, by simp, h2⟩⟩)
            generalize geomReal (min 4 8) (max 4 8) 1000 = l at hs hev ⊢
            unfold extrapolateData at hd
            rw [hs] at hd
            simp only [bind, Except.bind] at hd
            rw [hev] at hd
            simp only [metreSpectrum, Vals.toList] at hd
            have hd' := Except.ok.inj hd
            rw [← hd', List.zip_map']
  obtain ⟨x, hx, hx'⟩ : ∃ x ∈ Set.Icc (4 : ℝ) 8, x ∉ (geomReal (min 4 8) (max 4 8) 1000).toFinset :=
    (Set.Icc_infinite (by norm_num)).exists_notMem_finset _
  obtain ⟨e1, e2⟩ := C16_extrapolation 1 spl 1 x 9 hx (by norm_num)
  obtain ⟨y, h3, h4⟩ := hst "wavelength" "m" ([x].map XR.fin) ([x, 9].map XR.fin)
    (metreSpectrum ([x].map XR.fin)) (metreSpectrum ([x, 9].map XR.fin)) _ _ 0 0 (XR.fin x)
    (metreSpectrum_new _) (metreSpectrum_new _) e1 e2 rfl rfl
  have h5 : (XR.fin 1) = y := by simpa [Vals.toList] using h3
  have h6 : SciPy.splev spl (XR.fin x) = y := by simpa [Vals.toList] using h4
  have h7 : SciPy.splev spl (XR.fin x) = XR.fin 0 := by
    show lookupXR (XR.fin x) spl = _
    rw [hspl]
    rw [List.mem_toFinset] at hx'
    generalize geomReal (min 4 8) (max 4 8) 1000 = l at hx'
    induction l with
    | nil => rfl
    | cons a l ih =>
      simp only [List.mem_cons, not_or] at hx'
      simp only [List.map_cons, lookupXR]
      rw [if_neg (fun h => hx'.1 (XR.fin_inj.1 h).symm)]
      exact ih hx'.2
  rw [h7, ← h5] at h6
  have := XR.fin_inj.1 h6
  norm_num at this

/-- Concrete case for `C16_pointwise_partial`: a constant on [4 m, 8 m] evaluates both at [5]
and at [6, 5]; the value at 5 is the same. -/
example [SciPy XR] : ∃ y, [XR.fin 1][0]? = some y ∧ [XR.fin 1, XR.fin 1][1]? = some y :=
  C16_pointwise_partial (metreConstant 1 4 8) trivial "wavelength" "m" ([5].map XR.fin)
    ([6, 5].map XR.fin) _ _ (.array .float [XR.fin 1]) (.array .float [XR.fin 1, XR.fin 1]) 0 1
    (XR.fin 5) (metreSpectrum_new _) (metreSpectrum_new _)
    (by rw [metreConstant_evaluate 1 4 8 [5] (by simp) (by
          intro z hz
          simp only [List.mem_singleton] at hz
          subst hz
          exact ⟨⟨4, by simp, by norm_num⟩, ⟨8, by simp, by norm_num⟩⟩)]; rfl)
    (by rw [metreConstant_evaluate 1 4 8 [6, 5] (by simp) (by
          intro z hz
          simp only [List.mem_cons, List.not_mem_nil, or_false] at hz
          rcases hz with rfl | rfl <;>
          exact ⟨⟨4, by simp, by norm_num⟩, ⟨8, by simp, by norm_num⟩⟩)]; rfl) rfl rfl

/-! ## C19 -/

section generic
variable {F : Type} [PyFloat F]

theorem new_float_ok_iff {raw : Raw F} (hraw : FloatInput raw) (t u : String) :
    (∀ c, (lower t, lower u, c) ∈ names → ∃ r, Spectrum.new raw t u = .ok r ∧
      r.stype = lower t ∧ r.unit = c) ∧
    ((∀ c, (lower t, lower u, c) ∉ names) → Spectrum.new raw t u = .error .value) := by
  constructor
  · intro c hc
    cases raw with
    | float x => exact ⟨_, new_scalar hc x, rfl, rfl⟩
    | list dt xs => cases hraw; exact ⟨_, new_list hc xs, rfl, rfl⟩
    | ndarray dt xs => cases hraw; exact ⟨_, new_list hc xs, rfl, rfl⟩
    | other => cases hraw
  · intro h
    rw [Spectrum.new_eq]
    cases hs : specLookup (lower t) (lower u) with
    | error e => rw [(specLookup_error hs).1]
    | ok c => exact absurd (specLookup_ok_iff.1 hs) (h c)

theorem validate_iff (rt ru t u : String) {c : String} (hc : (lower t, lower u, c) ∈ names) :
    validateSpectrumType (F := F) (some (rt, ru)) t u =
      if lower t = rt ∧ c = ru then .ok () else .error .value := by
  simp only [validateSpectrumType, new_scalar hc, bind, Except.bind]
  by_cases h1 : lower t = rt
  · by_cases h2 : c = ru
    · simp [h1, h2]
    · simp [h1, h2]
  · simp [h1]

theorem um_names : ∀ p ∈ names, (p.1 = "wavelength" ∧ p.2.2 = "um") ↔
    (p.1 = "wavelength" ∧ p.2.1 ∈ ["um", "micrometer", "micrometre"]) := by decide +kernel

theorem ev_names : ∀ p ∈ names, (p.1 = "energy" ∧ p.2.2 = "ev") ↔
    (p.1 = "energy" ∧ p.2.1 ∈ ["ev", "electronvolt"]) := by decide +kernel

/-- C19 for the refractive-index formulas, every arithmetic: a model can be constructed exactly
for wavelengths in micrometres, its valid range is then in micrometres, and every other type or
unit raises `ValueError`. -/
theorem C19_index_models [SciPy F] (k : Formula) (hk : k ≠ .fano) (p : List F) (raw : Raw F)
    (hraw : FloatInput raw) (t u : String) :
    (lower t = "wavelength" ∧ lower u ∈ ["um", "micrometer", "micrometre"] →
      ∃ d, RealData.newModel k p raw t u = .ok d ∧ d.range.stype = "wavelength" ∧
        d.range.unit = "um") ∧
    (¬ (lower t = "wavelength" ∧ lower u ∈ ["um", "micrometer", "micrometre"]) →
      RealData.newModel k p raw t u = .error .value) := by
  have hreq : k.required = some ("wavelength", "um") := by cases k <;> first | rfl | exact absurd rfl hk
  obtain ⟨h1, h2⟩ := new_float_ok_iff hraw t u
  unfold RealData.newModel
  rw [hreq]
  constructor
  · rintro ⟨ht, hu⟩
    have hc : (lower t, lower u, "um") ∈ names := by
      rw [ht]
      simp only [List.mem_cons, List.not_mem_nil, or_false] at hu
      rcases hu with hu | hu | hu <;> rw [hu] <;> decide +kernel
    obtain ⟨r, hr, hr1, hr2⟩ := h1 _ hc
    rw [hr]
    simp only [bind, Except.bind, validate_iff _ _ _ _ hc, ht]
    exact ⟨_, rfl, hr1.trans ht, hr2⟩
  · intro hn
    by_cases hc : ∃ c, (lower t, lower u, c) ∈ names
    · obtain ⟨c, hc⟩ := hc
      obtain ⟨r, hr, hr1, hr2⟩ := h1 _ hc
      rw [hr]
      simp only [bind, Except.bind, validate_iff _ _ _ _ hc]
      rw [if_neg]
      intro h
      exact hn ((um_names _ hc).1 h)
    · rw [h2 (fun c hh => hc ⟨c, hh⟩)]
      rfl

/-- C19 for the permittivity models: exactly energies in eV. -/
theorem C19_permittivity_models (k : EpsFormula) (p : List F) (raw : Raw F)
    (hraw : FloatInput raw) (t u : String) :
    (lower t = "energy" ∧ lower u ∈ ["ev", "electronvolt"] →
      ∃ d, CplxData.new k p raw t u = .ok d ∧ d.range.stype = "energy" ∧ d.range.unit = "ev") ∧
    (¬ (lower t = "energy" ∧ lower u ∈ ["ev", "electronvolt"]) →
      CplxData.new k p raw t u = .error .value) := by
  obtain ⟨h1, h2⟩ := new_float_ok_iff hraw t u
  unfold CplxData.new
  constructor
  · rintro ⟨ht, hu⟩
    have hc : (lower t, lower u, "ev") ∈ names := by
      rw [ht]
      simp only [List.mem_cons, List.not_mem_nil, or_false] at hu
      rcases hu with hu | hu <;> rw [hu] <;> decide +kernel
    obtain ⟨r, hr, hr1, hr2⟩ := h1 _ hc
    rw [hr]
    simp only [bind, Except.bind, validate_iff _ _ _ _ hc, ht]
    exact ⟨_, rfl, hr1.trans ht, hr2⟩
  · intro hn
    by_cases hc : ∃ c, (lower t, lower u, c) ∈ names
    · obtain ⟨c, hc⟩ := hc
      obtain ⟨r, hr, hr1, hr2⟩ := h1 _ hc
      rw [hr]
      simp only [bind, Except.bind, validate_iff _ _ _ _ hc]
      rw [if_neg]
      intro h
      exact hn ((ev_names _ hc).1 h)
    · rw [h2 (fun c hh => hc ⟨c, hh⟩)]
      rfl

/-- C19 is false for Fano, whose documentation asks for energies in eV: a Fano model can be
built on wavelengths in nanometres (and in every other accepted type and unit). -/
theorem C19_fano_refuted [SciPy F] (p : List F) (raw : Raw F) (hraw : FloatInput raw)
    (t u c : String) (hc : (lower t, lower u, c) ∈ names) :
    ∃ d, RealData.newModel .fano p raw t u = .ok d ∧ d.range.stype = lower t ∧
      d.range.unit = c := by
  obtain ⟨h1, -⟩ := new_float_ok_iff hraw t u
  obtain ⟨r, hr, hr1, hr2⟩ := h1 c hc
  unfold RealData.newModel
  rw [hr]
  exact ⟨_, rfl, hr1, hr2⟩

example [SciPy F] (p : List F) (x : F) :
    ∃ d, RealData.newModel .fano p (.float x) "Wavelength" "nm" = .ok d ∧
      d.range.stype = lower "Wavelength" ∧ d.range.unit = "nm" :=
  C19_fano_refuted p (.float x) trivial "Wavelength" "nm" "nm" (by decide +kernel)

example [SciPy F] (p : List F) (x : F) :
    ∃ d, RealData.newModel .sellmeier p (.float x) "WaveLength" "Micrometre" = .ok d ∧
      d.range.stype = "wavelength" ∧ d.range.unit = "um" :=
  (C19_index_models .sellmeier (by decide) p (.float x) trivial "WaveLength" "Micrometre").1
    (by decide +kernel)

/-! ## C03 for evaluation -/

/-- C03 for tables and models, every arithmetic: if the unit was spelled in a way that
`convert_to` does not know, e.g. with capital letters, no evaluation ever succeeds although the
constructor accepted it. -/
theorem C03_evaluation_fails [SciPy F] (d : RealData F)
    (hd : (∃ o rows r, d = .interp o rows r d.stype d.unit) ∨
      ∃ k p r, d = .model k p r d.stype d.unit)
    (hu : ∀ c, (lower d.stype, d.unit, c) ∉ names) (s : Spectrum F) :
    ∃ e, (d.evaluate s).1 = .error e := by
  have hconv : s.convertTo d.stype d.unit = .error .value := by
    rw [Spectrum.convertTo_eq]
    cases hs : specLookup (lower d.stype) d.unit with
    | error e => rw [(specLookup_error hs).1]
    | ok c => exact absurd (specLookup_ok_iff.1 hs) (hu c)
  rcases hd with ⟨o, rows, r, hd⟩ | ⟨k, p, r, hd⟩ <;>
  · generalize d.stype = t at *
    generalize d.unit = u at *
    subst hd
    simp only [RealData.evaluate, bind, Except.bind, hconv]
    cases r.contains s with
    | error e => exact ⟨e, rfl⟩
    | ok b => exact ⟨.value, rfl⟩

/-- Concrete case: a table in `'NM'` is accepted by the constructor but can never be
evaluated. -/
theorem C03_evaluation_refuted [SciPy XR] : ∃ d : RealData XR,
    RealData.newInterp .float [(XR.fin 400, XR.fin 1), (XR.fin 800, XR.fin 2)] "wavelength" "NM" 1
      = .ok d ∧ ∀ s : Spectrum XR, ∃ e, (d.evaluate s).1 = .error e := by
  have hc : (lower "wavelength", lower "NM", "nm") ∈ names := by decide +kernel
  have h1 : npMin (Vals.array DType.float [XR.fin 400, XR.fin 800]) = .ok (XR.fin 400) := by
    simp [npMin, Vals.toList, npMinList]; norm_num
  have h2 : npMax (Vals.array DType.float [XR.fin 400, XR.fin 800]) = .ok (XR.fin 800) := by
    simp [npMax, Vals.toList, npMaxList]; norm_num
  have h3 : interpInit 1 [(XR.fin 400, XR.fin 1), (XR.fin 800, XR.fin 2)] = .ok () := by
    have : sortRows [(XR.fin 400, XR.fin 1), (XR.fin 800, XR.fin 2)] =
        [(XR.fin 400, XR.fin 1), (XR.fin 800, XR.fin 2)] := by
      simp [sortRows, insertRow]; norm_num
    simp only [interpInit, this, noDuplicates]
    norm_num
  refine ⟨_, by
    unfold RealData.newInterp
    simp only [List.map_cons, List.map_nil, h1, h2, h3, new_list hc, bind, Except.bind]
    rfl, ?_⟩
  exact C03_evaluation_fails _ (.inl ⟨_, _, _, rfl⟩) (fun c => by
    show (lower "wavelength", "NM", c) ∉ names
    intro h
    have : lower "NM" = "NM" := (names_lower _ h).2
    exact absurd this (by decide +kernel))

end generic

end Disp
