import Verif.Props.MaterialConstant
/-!
# C32, C33: the valid range of a material and its sample spectrum
-/

namespace Disp

open Spec

section ideal
variable [SciPy XR]

/-- The points of a Spectrum are the wavelengths `ys` (in metres), whatever its type and unit. -/
def StandsFor (s : Spectrum XR) (ys : List ℝ) : Prop :=
  ys ≠ [] ∧ ((∃ y, ys = [y] ∧ s.std = .scalar (XR.fin y)) ∨ s.std = .array .float (ys.map XR.fin))

omit [SciPy XR] in
theorem StandsFor.convert {s : Spectrum XR} {ys : List ℝ} (h : StandsFor s ys) :
    ∃ ov, s.convertTo "wavelength" "m" = .ok ov ∧ ov.toList = ys.map XR.fin := by
  have hl : lower "wavelength" = "wavelength" := by decide +kernel
  refine ⟨s.std, ?_, ?_⟩
  · rw [Spectrum.convertTo_eq, hl, show specLookup "wavelength" "m" = .ok "m" by decide +kernel]
    simp only
    rcases h.2 with ⟨y, -, hy⟩ | hy
    · rw [hy, convertVals_scalar (by decide +kernel)]
      simp [toElem]
    · rw [hy, convertVals_array (by decide +kernel)]
      congr 2
      conv_rhs => rw [← List.map_id (ys.map XR.fin)]
      exact List.map_congr_left fun a _ => by simp [toElem]
  · rcases h.2 with ⟨y, rfl, hy⟩ | hy
    · rw [hy]; rfl
    · rw [hy]; rfl

omit [SciPy XR] in
theorem noNaN_map (ys : List ℝ) : NoNaN (ys.map XR.fin) := by
  intro x hx
  obtain ⟨y, -, rfl⟩ := List.mem_map.1 hx
  rfl

omit [SciPy XR] in
/-- The range check of a range in metres. -/
theorem metre_check {vs : List XR} (hv : vs ≠ []) (hn : NoNaN vs) {s : Spectrum XR} {ys : List ℝ}
    (h : StandsFor s ys) :
    (Within vs (ys.map XR.fin) → (metreSpectrum vs).contains s = .ok true) ∧
    (¬ Within vs (ys.map XR.fin) → (metreSpectrum vs).contains s = .error .value) := by
  obtain ⟨ov, h1, h2⟩ := h.convert
  have := C10_contains_partial (metreSpectrum vs) s ov hv h1 (by rw [h2]; simpa using h.1) hn
    (by rw [h2]; exact noNaN_map ys) (by show "m" ∈ _; decide) (by show "m" ≠ _; decide)
  rw [h2] at this
  exact this

/-- A Constant or a linearly interpolated table on wavelengths in metres, as constructed. -/
inductive MetrePart : RealData XR → List XR → Prop
  | const (c : XR) (vs : List XR) : vs ≠ [] → NoNaN vs →
      MetrePart (.constant c (metreSpectrum vs) "wavelength" "m") vs
  | table (rows : List (ℝ × ℝ)) (d : RealData XR) (lo hi : XR) :
      RealData.newInterp .float (xrows rows) "wavelength" "m" 1 = .ok d →
      d.range = metreSpectrum [lo, hi] → MetrePart d [lo, hi]

theorem MetrePart.spec {d : RealData XR} {vs : List XR} (h : MetrePart d vs) :
    d.range = metreSpectrum vs ∧ vs ≠ [] ∧ NoNaN vs ∧ Plain d := by
  cases h with
  | const c _ h1 h2 => exact ⟨rfl, h1, h2, trivial⟩
  | table rows _ lo hi h1 h2 =>
    obtain ⟨lo', hi', r, e1, e2, e3, e4, e5, rfl⟩ := newInterp_ok h1
    have hr : r = metreSpectrum [lo', hi'] := Except.ok.inj (e3.symm.trans (metreSpectrum_new _))
    have h2' : r = metreSpectrum [lo, hi] := h2
    have hne : ((xrows rows).map (fun p : XR × XR => p.1)) ≠ [] := by
      intro h0
      have : (xrows rows).length = 0 := by simpa using congrArg List.length h0
      omega
    have hnn : NoNaN ((xrows rows).map (fun p : XR × XR => p.1)) := by
      intro x hx
      simp only [xrows, List.map_map, List.mem_map] at hx
      obtain ⟨p, -, rfl⟩ := hx
      rfl
    obtain ⟨m1, f1, f2, -⟩ := npMin_spec (.array .float ((xrows rows).map (fun p : XR × XR => p.1))) hne hnn
    obtain ⟨m2, g1, g2, -⟩ := npMax_spec (.array .float ((xrows rows).map (fun p : XR × XR => p.1))) hne hnn
    have a1 : m1 = lo' := Except.ok.inj (f1.symm.trans e1)
    have a2 : m2 = hi' := Except.ok.inj (g1.symm.trans e2)
    have hl : [lo', hi'] = [lo, hi] := by
      have := hr.symm.trans h2'
      have := congrArg (fun s => s.values.toList) this
      exact this
    rw [← hl]
    refine ⟨hr, by simp, ?_, trivial⟩
    intro x hx
    simp only [List.mem_cons, List.not_mem_nil, or_false] at hx
    rcases hx with rfl | rfl
    · exact hnn _ (a1 ▸ f2)
    · exact hnn _ (a2 ▸ g2)

/-- Such a part can be evaluated exactly inside its range. -/
theorem MetrePart.evaluate {d : RealData XR} {vs : List XR} (h : MetrePart d vs)
    {s : Spectrum XR} {ys : List ℝ} (hs : StandsFor s ys) :
    (∃ v, (d.evaluate s).1 = .ok v) ↔ Within vs (ys.map XR.fin) := by
  obtain ⟨h1, h2, h3, h4⟩ := h.spec
  obtain ⟨c1, c2⟩ := metre_check h2 h3 hs
  by_cases hw : Within vs (ys.map XR.fin)
  · refine iff_of_true ?_ hw
    cases h with
    | const c _ _ _ =>
      simp only [RealData.evaluate, c1 hw, bind, Except.bind]
      cases s.values <;> exact ⟨_, rfl⟩
    | table rows _ lo hi e1 e2 =>
      obtain ⟨ov, o1, o2⟩ := hs.convert
      refine C14_total rows _ _ d e1 s ov o1 (by rw [o2]; simpa using hs.1) ?_
      obtain ⟨lo', hi', r, g1, g2, g3, g4, g5, rfl⟩ := newInterp_ok e1
      have hr : r = metreSpectrum [lo', hi'] := Except.ok.inj (g3.symm.trans (metreSpectrum_new _))
      have hl : [lo', hi'] = [lo, hi] := by
        have := hr.symm.trans (show r = metreSpectrum [lo, hi] from e2)
        exact congrArg (fun s => s.values.toList) this
      have hne : ((xrows rows).map (fun p : XR × XR => p.1)) ≠ [] := by
        intro h0
        have : (xrows rows).length = 0 := by simpa using congrArg List.length h0
        omega
      have hnn : NoNaN ((xrows rows).map (fun p : XR × XR => p.1)) := by
        intro x hx
        simp only [xrows, List.map_map, List.mem_map] at hx
        obtain ⟨p, -, rfl⟩ := hx
        rfl
      obtain ⟨m1, f1, f2, -⟩ := npMin_spec (.array .float ((xrows rows).map (fun p : XR × XR => p.1))) hne hnn
      obtain ⟨m2, k1, k2, -⟩ := npMax_spec (.array .float ((xrows rows).map (fun p : XR × XR => p.1))) hne hnn
      have a1 : m1 = lo' := Except.ok.inj (f1.symm.trans g1)
      have a2 : m2 = hi' := Except.ok.inj (k1.symm.trans g2)
      subst a1; subst a2
      have hmem : ∀ x ∈ [m1, m2], ∃ p ∈ rows, x = XR.fin p.1 := by
        intro x hx
        have : x ∈ (xrows rows).map (fun p : XR × XR => p.1) := by
          simp only [List.mem_cons, List.not_mem_nil, or_false] at hx
          rcases hx with rfl | rfl
          · exact f2
          · exact k2
        simp only [xrows, List.map_map, List.mem_map] at this
        obtain ⟨p, hp, rfl⟩ := this
        exact ⟨p, hp, rfl⟩
      rw [← hl] at hw
      intro z hz
      rw [o2] at hz
      obtain ⟨y, hy, rfl⟩ := List.mem_map.1 hz
      obtain ⟨⟨a, ha, hay⟩, b, hb, hyb⟩ := hw _ (List.mem_map_of_mem hy)
      obtain ⟨p, hp, rfl⟩ := hmem a ha
      obtain ⟨q, hq, rfl⟩ := hmem b hb
      refine ⟨y, rfl, ⟨p, hp, ?_⟩, q, hq, ?_⟩
      · simpa using hay
      · simpa using hyb
  · refine iff_of_false ?_ hw
    rintro ⟨v, hv⟩
    have hc := c2 hw
    rw [← h1] at hc
    cases d with
    | constant c r t u =>
      simp only [RealData.range] at hc
      simp only [RealData.evaluate, hc, bind, Except.bind] at hv
      cases hv
    | interp o rows r t u =>
      simp only [RealData.range] at hc
      simp only [RealData.evaluate, hc, bind, Except.bind] at hv
      cases hv
    | model k p r t u =>
      simp only [RealData.range] at hc
      simp only [RealData.evaluate, hc, bind, Except.bind] at hv
      cases hv
    | extrap => exact h4.elim

/-- C32 (full statement, refuted below): the two numbers returned are such that a point can be
evaluated exactly when it lies between them, in the default type and unit of the material. -/
def C32_statement [NumText XR] : Prop :=
  ∀ (rd : String → Res (FileDict XR)) (kw : Kwargs XR) (m : Material XR),
    Material.new rd kw = .ok m → ∃ lo hi, m.maxRange = .ok (.array .float [lo, hi]) ∧
    ∀ (x : ℝ) (s : Spectrum XR), Spectrum.new (.float (XR.fin x)) m.defType m.defUnit = .ok s →
      ((∃ v, reported m s = .ok v) ↔
        PyFloat.le lo (XR.fin x) = true ∧ PyFloat.le (XR.fin x) hi = true)

theorem reported_stored {m : Material XR} (hn : m.name = "nk" ∨ m.name = "eps") {s : Spectrum XR}
    (hfr : Fresh s) : reported m s = (m.evalStored s).1 := by
  unfold reported
  rcases hn with h | h
  · rw [if_neg (by rw [h]; decide), getNk_fresh m hfr (.inl h), h]
    cases (m.evalStored s).1 with
    | error e => rfl
    | ok v => simp only [Except.map]; rw [if_neg (by decide)]
  · rw [if_pos h, getPermittivity_eq m s (.inr h), h]
    cases (m.evalStored s).1 with
    | error e => rfl
    | ok v => simp only [Except.map]; rw [if_neg (by decide)]

/-- The maximum range of two parts in metres: between the larger minimum and the smaller
maximum. -/
theorem maxRange_metres {m : Material XR} {r i : RealData XR} {vs ws : List XR}
    (hc : m.cplx = none) (hn : m.name = "nk" ∨ m.name = "eps") (hr : m.real = some r)
    (hi : m.imag = some i) (hrr : r.range = metreSpectrum vs) (hir : i.range = metreSpectrum ws)
    (hv : vs ≠ []) (hw : ws ≠ []) (nv : NoNaN vs) (nw : NoNaN ws)
    (ht : m.defType = "wavelength") (hu : m.defUnit = "m") :
    ∃ lo hi, m.maxRange = .ok (.array .float [lo, hi]) ∧ PyFloat.isNaN lo = false ∧
      PyFloat.isNaN hi = false ∧ ∀ y : XR, PyFloat.isNaN y = false →
      ((PyFloat.le lo y = true ∧ PyFloat.le y hi = true) ↔
        (∃ a ∈ vs, PyFloat.le a y = true) ∧ (∃ a ∈ vs, PyFloat.le y a = true) ∧
        (∃ a ∈ ws, PyFloat.le a y = true) ∧ (∃ a ∈ ws, PyFloat.le y a = true)) := by
  obtain ⟨rl, r1, r2, r3⟩ := npMin_spec (.array .float vs) hv nv
  obtain ⟨ru, s1, s2, s3⟩ := npMax_spec (.array .float vs) hv nv
  obtain ⟨il, i1, i2, i3⟩ := npMin_spec (.array .float ws) hw nw
  obtain ⟨iu, j1, j2, j3⟩ := npMax_spec (.array .float ws) hw nw
  have nrl := nv rl r2; have nru := nv ru s2; have nil' := nw il i2; have niu := nw iu j2
  obtain ⟨lo, l1, l2, l3⟩ := npMax_spec (.array .float [rl, il]) (by simp [Vals.toList])
    (by intro x hx
        simp only [Vals.toList, List.mem_cons, List.not_mem_nil, or_false] at hx
        rcases hx with rfl | rfl <;> assumption)
  obtain ⟨hi', h1, h2, h3⟩ := npMin_spec (.array .float [ru, iu]) (by simp [Vals.toList])
    (by intro x hx
        simp only [Vals.toList, List.mem_cons, List.not_mem_nil, or_false] at hx
        rcases hx with rfl | rfl <;> assumption)
  simp only [Vals.toList, List.mem_cons, List.not_mem_nil, or_false] at l2 l3 h2 h3
  have nlo : PyFloat.isNaN lo = false := by rcases l2 with rfl | rfl <;> assumption
  have nhi : PyFloat.isNaN hi' = false := by rcases h2 with rfl | rfl <;> assumption
  refine ⟨lo, hi', ?_, nlo, nhi, ?_⟩
  · unfold Material.maxRange Material.rangeArray
    rw [if_neg (not_not.2 hn), hc, hr, hi]
    simp only [bind, Except.bind, hrr, hir, metreSpectrum, r1, s1, i1, j1, Vals.dtype, DType.join, l1, h1]
    have hnew := metreSpectrum_new' [lo, hi']
    simp only [metreSpectrum] at hnew
    rw [hnew, ht, hu]
    exact metreSpectrum_convert _
  · intro y hy
    have key : ∀ {p q : XR}, PyFloat.isNaN p = false → PyFloat.isNaN q = false →
        (PyFloat.le p q = true ↔ PyFloat.lt q p = false) := by
      intro p q hp hq
      rw [LawfulCmp.le_eq_not_lt _ _ hp hq]; simp
    constructor
    · rintro ⟨b1, b2⟩
      refine ⟨⟨rl, r2, le_trans' ((key nrl nlo).2 (l3 rl (.inl rfl))) b1⟩,
        ⟨ru, s2, le_trans' b2 ((key nhi nru).2 (h3 ru (.inl rfl)))⟩,
        ⟨il, i2, le_trans' ((key nil' nlo).2 (l3 il (.inr rfl))) b1⟩,
        ⟨iu, j2, le_trans' b2 ((key nhi niu).2 (h3 iu (.inr rfl)))⟩⟩
    · rintro ⟨⟨a, ha, a'⟩, ⟨b, hb, b'⟩, ⟨c, hc', c'⟩, d, hd, d'⟩
      constructor
      · rcases l2 with rfl | rfl
        · exact le_trans' ((key nrl (nv a ha)).2 (r3 a ha)) a'
        · exact le_trans' ((key nil' (nw c hc')).2 (i3 c hc')) c'
      · rcases h2 with rfl | rfl
        · exact le_trans' b' ((key (nv b hb) nru).2 (s3 b hb))
        · exact le_trans' d' ((key (nw d hd) niu).2 (j3 d hd))

/-- A material with two parts can be evaluated exactly where both parts can. -/
theorem stored_both {m : Material XR} {r i : RealData XR} (hc : m.cplx = none)
    (hr : m.real = some r) (hi : m.imag = some i) (pr : Plain r) (pi : Plain i)
    {s : Spectrum XR} (hal : Aligned s) :
    (∃ v, (m.evalStored s).1 = .ok v) ↔
      (∃ v, (r.evaluate s).1 = .ok v) ∧ ∃ v, (i.evaluate s).1 = .ok v := by
  have h2 : (r.evaluate s).2 = s := evalPart_plain (d := some r) pr s
  have h2' : (i.evaluate s).2 = s := evalPart_plain (d := some i) pi s
  have f1 := fun v => evaluate_form r s hal (v := v)
  have f2 := fun v => evaluate_form i s hal (v := v)
  unfold Material.evalStored
  rw [hc, hr, hi]
  simp only [evalPart]
  cases hx : r.evaluate s with
  | mk x s1 =>
    rw [hx] at h2 f1
    obtain rfl : s1 = s := h2
    cases x with
    | error e => simp
    | ok v =>
      simp only
      cases hy : i.evaluate s1 with
      | mk y s2 =>
        rw [hy] at h2' f2
        obtain rfl : s2 = s1 := h2'
        cases y with
        | error e => simp
        | ok w =>
          have g1 := f1 v rfl
          have g2 := f2 w rfl
          simp only at g1 g2
          simp only [Except.ok.injEq, exists_eq', and_self, iff_true]
          cases hsv : s2.values with
          | scalar z =>
            rw [hsv] at g1 g2
            cases v with
            | array _ _ => exact g1.elim
            | scalar _ =>
              cases w with
              | array _ _ => exact g2.elim
              | scalar _ => exact ⟨_, rfl⟩
          | array _ zs =>
            rw [hsv] at g1 g2
            cases v with
            | scalar _ => exact g1.elim
            | array _ xs =>
              cases w with
              | scalar _ => exact g2.elim
              | array _ ws =>
                simp only [SameForm] at g1 g2
                simp only [combineParts, if_pos (g1.trans g2.symm)]
                exact ⟨_, rfl⟩

/-- Both parts are evaluated exactly inside both ranges. -/
theorem stored_within {m : Material XR} {r i : RealData XR} {vs ws : List XR}
    (hc : m.cplx = none) (hr : m.real = some r) (hi : m.imag = some i) (pr : MetrePart r vs)
    (pi : MetrePart i ws) {s : Spectrum XR} (hal : Aligned s) {ys : List ℝ}
    (hs : StandsFor s ys) :
    (∃ v, (m.evalStored s).1 = .ok v) ↔
      Within vs (ys.map XR.fin) ∧ Within ws (ys.map XR.fin) := by
  rw [← pr.evaluate hs, ← pi.evaluate hs]
  exact stored_both hc hr hi pr.spec.2.2.2 pi.spec.2.2.2 hal

/-- C32 for materials whose parts are Constants or linearly interpolated tables on wavelengths
in metres, with default unit metres: the returned numbers are the ends of exactly the set of
wavelengths at which the material can be evaluated, for requests in every type and unit. Missing
for the full claim: other defaults (energies give the numbers in the wrong order), and complex
data, for which it is false. -/
theorem C32_metres_partial (m : Material XR) (r i : RealData XR) (vs ws : List XR)
    (hc : m.cplx = none) (hn : m.name = "nk" ∨ m.name = "eps") (hr : m.real = some r)
    (hi : m.imag = some i) (pr : MetrePart r vs) (pi : MetrePart i ws)
    (ht : m.defType = "wavelength") (hu : m.defUnit = "m") :
    ∃ lo hi, m.maxRange = .ok (.array .float [lo, hi]) ∧
    ∀ (raw : Raw XR) (t u : String) (s : Spectrum XR), FloatInput raw →
      Spectrum.new raw t u = .ok s → ∀ ys, StandsFor s ys →
      ((∃ v, reported m s = .ok v) ↔
        ∀ y ∈ ys, PyFloat.le lo (XR.fin y) = true ∧ PyFloat.le (XR.fin y) hi = true) := by
  obtain ⟨a1, a2, a3, -⟩ := pr.spec
  obtain ⟨b1, b2, b3, -⟩ := pi.spec
  obtain ⟨lo, hi', h1, -, -, h2⟩ := maxRange_metres hc hn hr hi a1 b1 a2 b2 a3 b3 ht hu
  refine ⟨lo, hi', h1, fun raw t u s hraw hnew ys hs => ?_⟩
  rw [reported_stored hn ⟨raw, t, u, hnew⟩, stored_within hc hr hi pr pi (aligned_new hraw hnew) hs]
  constructor
  · rintro ⟨w1, w2⟩ y hy
    obtain ⟨c1, c2⟩ := w1 _ (List.mem_map_of_mem hy)
    obtain ⟨d1, d2⟩ := w2 _ (List.mem_map_of_mem hy)
    exact (h2 (XR.fin y) rfl).2 ⟨c1, c2, d1, d2⟩
  · intro h
    constructor
    · intro z hz
      obtain ⟨y, hy, rfl⟩ := List.mem_map.1 hz
      obtain ⟨e1, e2, e3, e4⟩ := (h2 (XR.fin y) rfl).1 (h y hy)
      exact ⟨e1, e2⟩
    · intro z hz
      obtain ⟨y, hy, rfl⟩ := List.mem_map.1 hz
      obtain ⟨e1, e2, e3, e4⟩ := (h2 (XR.fin y) rfl).1 (h y hy)
      exact ⟨e3, e4⟩

/-- Tables on wavelengths in metres are such parts. -/
theorem lineData_part {a b ya yb : ℝ} (h : a < b) :
    MetrePart (lineData a b ya yb) [XR.fin a, XR.fin b] :=
  .table [(a, ya), (b, yb)] _ _ _ (lineData_new h) rfl

/-- Concrete case for `C32_metres_partial`: tables on overlapping ranges. -/
example [NumText XR] : ∃ (m : Material XR) (r i : RealData XR) (vs ws : List XR), m.cplx = none ∧
    m.name = "nk" ∧ m.real = some r ∧ m.imag = some i ∧ MetrePart r vs ∧ MetrePart i ws ∧
    m.defType = "wavelength" ∧ m.defUnit = "m" := by
  obtain ⟨m, -, hn, hc, hr, hi, ht, hu⟩ := two_tables (a := 1) (b := 4) (ya := 1.5) (yb := 1.6)
    (a' := 2) (b' := 5) (ya' := 0) (yb' := 1) (by norm_num) (by norm_num)
  exact ⟨m, _, _, _, _, hc, hn, hr, hi, lineData_part (by norm_num), lineData_part (by norm_num),
    ht, hu⟩

/-! ## Energies -/

/-- `Material(fixed_n=1.5, spectrum_type='energy', unit='ev')`. -/
noncomputable def energyKw : Kwargs XR :=
  [("fixed_n", .float (XR.fin 1.5)), ("spectrum_type", .str "energy"), ("unit", .str "ev")]

theorem energy_new [NumText XR] (rd : String → Res (FileDict XR)) : ∃ m : Material XR,
    Material.new rd energyKw = .ok m ∧ m.name = "nk" ∧ m.cplx = none ∧
      m.real = some (cdata (XR.fin 1.5)) ∧ m.imag = some (cdata (XR.fin 0)) ∧
      m.defType = "energy" ∧ m.defUnit = "ev" := by
  have h0 : (lit 0 : XR) = XR.fin 0 := by show XR.fin _ = _; norm_num
  have hnd : (energyKw.map Prod.fst).Nodup := by simp [energyKw]
  have honly : Only energyKw "fixed_n" .real (.float (XR.fin 1.5)) := by
    refine ⟨by decide, by simp [energyKw], by simp, ?_⟩
    rintro m ty hs ⟨w, hw, -⟩
    simp only [energyKw, List.mem_cons, List.not_mem_nil, or_false, Prod.mk.injEq] at hw
    rcases hw with hw | hw | hw
    · exact hw.1
    · rw [hw.1] at hs; revert hs; simp [sources]
    · rw [hw.1] at hs; revert hs; simp [sources]
  have hpl : PlainOptions energyKw := by
    constructor
    · intro n hn w hw
      simp only [energyKw, List.mem_cons, List.not_mem_nil, or_false, Prod.mk.injEq] at hw
      rcases hw with hw | hw | hw
      · rw [hw.1] at hn; exact absurd hn (by decide)
      · exact .inr ⟨_, hw.2⟩
      · exact .inr ⟨_, hw.2⟩
    · rintro ⟨w, hw, -⟩
      simp [energyKw] at hw
  obtain ⟨h1, -⟩ := C24_fixed_partial rd energyKw hnd hpl
  rw [h0] at h1
  exact ⟨_, h1 _ honly, rfl, rfl, rfl, rfl, rfl, rfl⟩

omit [SciPy XR] in
theorem defaultSpec_metres : (defaultSpec : Spectrum XR) = metreSpectrum [XR.fin 0, XR.pinf] := by
  have h0 : (lit 0 : XR) = XR.fin 0 := by show XR.fin _ = _; norm_num
  simp only [defaultSpec, metreSpectrum, h0]
  rfl

theorem default_rangeArray {m : Material XR} {x y : XR} (hc : m.cplx = none)
    (hr : m.real = some (cdata x)) (hi : m.imag = some (cdata y)) :
    m.rangeArray = .ok (.float, XR.fin 0, XR.pinf) := by
  unfold Material.rangeArray
  rw [hc, hr, hi]
  simp only [cdata, RealData.range, defaultSpec_metres, metreSpectrum, bind, Except.bind, npMin,
    npMax, Vals.toList, npMinList, npMaxList, List.foldl_cons, List.foldl_nil, Vals.dtype, DType.join,
    XR.isNaN_fin, Bool.false_eq_true, if_false]
  have h1 : PyFloat.isNaN XR.pinf = false := rfl
  have h2 : PyFloat.lt XR.pinf (XR.fin 0) = false := rfl
  have h3 : PyFloat.lt (XR.fin 0) XR.pinf = true := rfl
  have h4 : PyFloat.lt (XR.fin 0) (XR.fin 0) = false := by simp
  have h5 : PyFloat.lt XR.pinf XR.pinf = false := rfl
  simp only [h1, h2, h3, h4, h5, Bool.false_eq_true, if_false, if_true, ite_self]

/-- In electronvolts the range `(0, inf)` in metres is returned as `[inf, 0]`. -/
theorem energy_range {m : Material XR} {x y : XR} (hn : m.name = "nk") (hc : m.cplx = none)
    (hr : m.real = some (cdata x)) (hi : m.imag = some (cdata y)) (ht : m.defType = "energy")
    (hu : m.defUnit = "ev") : m.maxRange = .ok (.array .float [XR.pinf, XR.fin 0]) := by
  have hl : lower "energy" = "energy" := by decide +kernel
  unfold Material.maxRange
  rw [if_neg (not_not.2 (.inl hn)), default_rangeArray hc hr hi]
  simp only [bind, Except.bind]
  rw [metreSpectrum_new']
  simp only
  rw [Spectrum.convertTo_eq, ht, hu, hl, show specLookup "energy" "ev" = .ok "ev" by decide +kernel]
  simp only [metreSpectrum]
  rw [convertVals_array (by decide +kernel)]
  have hpos : (0 : ℝ) < Spec.h * Spec.c / Spec.e := by
    have := c_pos; have := h_pos; have := e_pos
    positivity
  have h0 : (lit 0 : XR) = XR.fin 0 := by show XR.fin _ = _; norm_num
  have e1 : toElem safeInverseElem "energy" "ev" (XR.fin 0) = XR.pinf := by
    simp only [toElem, String.reduceEq, if_false, if_true]
    have : (safeInverseElem (XR.fin 0) : XR) = XR.pinf := by
      unfold safeInverseElem isCloseZero
      rw [if_pos]
      · rfl
      · show PyFloat.le (XR.fin |0|) _ = true
        rw [show (lit 1e-8 : XR) = XR.fin ((1e-8 : ℚ) : ℝ) from rfl, XR.le_fin]
        norm_num
    rw [this, hce_eq]
    rw [show XR.fin (Spec.h * Spec.c / Spec.e) * XR.pinf = XR.pinf from XR.signInf_pos hpos]
    rfl
  have e2 : toElem safeInverseElem "energy" "ev" XR.pinf = XR.fin 0 := by
    simp only [toElem, String.reduceEq, if_false, if_true]
    have : (safeInverseElem XR.pinf : XR) = XR.fin 0 := by
      unfold safeInverseElem isCloseZero
      rw [if_neg, if_pos, h0]
      · rfl
      · show ¬ PyFloat.le XR.pinf _ = true
        rw [show (lit 1e-8 : XR) = XR.fin ((1e-8 : ℚ) : ℝ) from rfl]
        exact Bool.false_ne_true
    rw [this, hce_eq, XR.mul_fin, mul_zero]
    simp only [XR.round_fin, XR.roundDec_zero]
  simp only [List.map_cons, List.map_nil, e1, e2]

/-- C32 is false: a constant index with energies as default reports the range [inf, 0], although
it can be evaluated at 2 eV. -/
theorem C32_refuted [NumText XR] : ¬ C32_statement := by
  intro hst
  obtain ⟨m, hm, hn, hc, hr, hi, ht, hu⟩ := energy_new (fun _ => .error .key)
  obtain ⟨lo, hi', h1, h2⟩ := hst _ _ m hm
  rw [energy_range hn hc hr hi ht hu] at h1
  have h3 : lo = XR.pinf := by
    have := congrArg (fun r => match r with | .ok (Vals.array _ (x :: _)) => x | _ => XR.nan) h1
    exact this.symm
  subst h3
  have hs := new_scalar (F := XR) (t := "energy") (u := "ev") (c := "ev") (by decide +kernel)
    (XR.fin 2)
  rw [← ht, ← hu] at hs
  obtain ⟨h4, -⟩ := h2 2 _ hs
  have hnn : ∀ x ∈ (Vals.scalar (XR.fin 2)).toList, NonNeg x := by
    intro x hx
    simp only [Vals.toList, List.mem_singleton] at hx
    subst hx
    show (0 : ℝ) ≤ 2
    norm_num
  have hst := constant_stored (m := m) hr hi hc (raw := .float (XR.fin 2)) trivial hs
    (by simp [Vals.toList]) hnn
  obtain ⟨h5, -⟩ := h4 ⟨_, by rw [reported_stored (.inl hn) ⟨_, _, _, hs⟩, hst]⟩
  exact absurd h5 (by show ¬ (false = true); decide)

/-! ## C33 -/

/-- C33 (full statement, refuted below). -/
def C33_statement [NumText XR] : Prop :=
  ∀ (rd : String → Res (FileDict XR)) (kw : Kwargs XR) (m : Material XR),
    Material.new rd kw = .ok m → ∃ s, m.sampleSpectrum = .ok s ∧ ∃ v, reported m s = .ok v

/-- C33 is false: for a constant index with energies as default, `get_sample_spectrum` itself
raises `ValueError` (a geometric sequence from infinity to 0). -/
theorem C33_refuted [NumText XR] [SciPyLaws] : ¬ C33_statement := by
  intro hst
  obtain ⟨m, hm, hn, hc, hr, hi, ht, hu⟩ := energy_new (fun _ => .error .key)
  obtain ⟨s, hs, -⟩ := hst _ _ m hm
  unfold Material.sampleSpectrum at hs
  rw [energy_range hn hc hr hi ht hu] at hs
  have h0 : (lit 0 : XR) = XR.fin 0 := by show XR.fin _ = _; norm_num
  have e1 : (PyFloat.eq XR.pinf (lit 0 : XR) || PyFloat.eq (XR.fin 0) (PyFloat.inf : XR)) = false := by
    rw [h0]; rfl
  have p0 : pyIdx (Vals.array DType.float [XR.pinf, XR.fin 0]).toList 0 = .ok XR.pinf := rfl
  have p1 : pyIdx (Vals.array DType.float [XR.pinf, XR.fin 0]).toList 1 = .ok (XR.fin 0) := rfl
  simp only [bind, Except.bind, p0, p1, e1, Bool.false_eq_true, if_false, SciPyLaws.geom_to_zero] at hs
  cases hs

omit [SciPy XR] in
theorem clampEnds_inside {lo hi : ℝ} {xs : List ℝ} (h : ∀ x ∈ xs, lo ≤ x ∧ x ≤ hi) :
    clampEnds (XR.fin lo) (XR.fin hi) (xs.map XR.fin) = xs.map XR.fin := by
  cases xs with
  | nil => rfl
  | cons x xs =>
    unfold clampEnds
    have hx : PyFloat.lt (XR.fin x) (XR.fin lo) = false := by
      rw [XR.lt_fin]; simpa using (h x (by simp)).1
    simp only [List.map_cons, hx, Bool.false_eq_true, if_false]
    have hlast : ∀ z, (XR.fin x :: xs.map XR.fin).getLast? = some z → ∃ y ∈ x :: xs, z = XR.fin y := by
      intro z hz
      have := List.mem_of_getLast? hz
      rw [← List.map_cons] at this
      obtain ⟨y, hy, rfl⟩ := List.mem_map.1 this
      exact ⟨y, hy, rfl⟩
    cases hg : (XR.fin x :: xs.map XR.fin).getLast? with
    | none => rfl
    | some z =>
      obtain ⟨y, hy, rfl⟩ := hlast z hg
      have hy' : PyFloat.lt (XR.fin hi) (XR.fin y) = false := by
        rw [XR.lt_fin]; simpa using (h y hy).2
      simp only [hy', Bool.false_eq_true, if_false]

/-- C33 for materials as in `C32_metres_partial` whose common range is a finite interval
`[lo, hi]` of positive wavelengths: the sample spectrum is the geometric sequence from `lo` to
`hi` and the material can be evaluated there. Missing for the full claim: other defaults, complex
data and disjoint ranges, for which it is false. -/
theorem C33_metres_partial [SciPyLaws] (m : Material XR) (r i : RealData XR) (vs ws : List XR)
    (hc : m.cplx = none) (hn : m.name = "nk" ∨ m.name = "eps") (hr : m.real = some r)
    (hi : m.imag = some i) (pr : MetrePart r vs) (pi : MetrePart i ws)
    (ht : m.defType = "wavelength") (hu : m.defUnit = "m") (a b : ℝ) (ha : 0 < a) (hab : a ≤ b)
    (hrange : m.maxRange = .ok (.array .float [XR.fin a, XR.fin b])) :
    ∃ s, m.sampleSpectrum = .ok s ∧ s = metreSpectrum ((geomReal a b 1000).map XR.fin) ∧
      ∃ v, reported m s = .ok v := by
  have hg := fun x (hx : x ∈ geomReal a b 1000) => geomReal_mem ha hab (by norm_num) hx
  have hs : m.sampleSpectrum = .ok (metreSpectrum ((geomReal a b 1000).map XR.fin)) := by
    unfold Material.sampleSpectrum
    rw [hrange]
    have h0 : (lit 0 : XR) = XR.fin 0 := by show XR.fin _ = _; norm_num
    have e1 : (PyFloat.eq (XR.fin a) (lit 0 : XR) || PyFloat.eq (XR.fin b) (PyFloat.inf : XR)) =
        false := by
      rw [h0]
      have : PyFloat.eq (XR.fin b) (PyFloat.inf : XR) = false := rfl
      rw [this, Bool.or_false]
      have h1 : PyFloat.eq (XR.fin a) (XR.fin 0) =
        (PyFloat.le (XR.fin a) (XR.fin 0) && PyFloat.le (XR.fin 0) (XR.fin a)) := rfl
      rw [h1, XR.le_fin, decide_eq_false (not_le.2 ha)]
      rfl
    have p0 : pyIdx (Vals.array DType.float [XR.fin a, XR.fin b]).toList 0 = .ok (XR.fin a) := rfl
    have p1 : pyIdx (Vals.array DType.float [XR.fin a, XR.fin b]).toList 1 = .ok (XR.fin b) := rfl
    simp only [bind, Except.bind, p0, p1, e1, Bool.false_eq_true, if_false,
      SciPyLaws.geom a b 1000 ha (lt_of_lt_of_le ha hab) (by norm_num), clampEnds_inside hg, ht, hu]
    exact metreSpectrum_new' _
  refine ⟨_, hs, rfl, ?_⟩
  obtain ⟨lo, hi', h1, h2⟩ := C32_metres_partial m r i vs ws hc hn hr hi pr pi ht hu
  rw [hrange] at h1
  have hl : [XR.fin a, XR.fin b] = [lo, hi'] := by
    exact congrArg (fun r => match r with | .ok (Vals.array _ xs) => xs | _ => []) h1
  simp only [List.cons.injEq, and_true] at hl
  obtain ⟨rfl, rfl⟩ := hl
  have hne : geomReal a b 1000 ≠ [] := by
    intro h0
    have := geomReal_length a b 1000
    rw [h0] at this
    simp at this
  refine (h2 (.list .float ((geomReal a b 1000).map XR.fin)) "wavelength" "m" _ rfl
    (metreSpectrum_new _) (geomReal a b 1000) ⟨hne, .inr rfl⟩).2 ?_
  intro y hy
  obtain ⟨e1, e2⟩ := hg y hy
  simp only [XR.le_fin, decide_eq_true_eq]
  exact ⟨e1, e2⟩

/-- Concrete case for `C33_metres_partial`: n from 1 m to 4 m and k from 2 m to 5 m are sampled
from 2 m to 4 m. -/
example [NumText XR] [SciPyLaws] : ∃ m : Material XR, m.maxRange =
    .ok (.array .float [XR.fin 2, XR.fin 4]) ∧
    ∃ s, m.sampleSpectrum = .ok s ∧ ∃ v, reported m s = .ok v := by
  obtain ⟨m, -, hn, hc, hr, hi, ht, hu⟩ := two_tables (a := 1) (b := 4) (ya := 1.5) (yb := 1.6)
    (a' := 2) (b' := 5) (ya' := 0) (yb' := 1) (by norm_num) (by norm_num)
  have hrange : m.maxRange = .ok (.array .float [XR.fin 2, XR.fin 4]) := by
    have hrg : ∀ a b ya yb : ℝ, (lineData a b ya yb).range = metreSpectrum [XR.fin a, XR.fin b] :=
      fun _ _ _ _ => rfl
    unfold Material.maxRange Material.rangeArray
    rw [if_neg (not_not.2 (.inl hn)), hc, hr, hi]
    have n1 : (4 : ℝ) < 1 ↔ False := by norm_num
    have n2 : (5 : ℝ) < 2 ↔ False := by norm_num
    have n3 : (1 : ℝ) < 4 ↔ True := by norm_num
    have n4 : (2 : ℝ) < 5 ↔ True := by norm_num
    have n5 : (1 : ℝ) < 2 ↔ True := by norm_num
    have n6 : (5 : ℝ) < 4 ↔ False := by norm_num
    simp only [bind, Except.bind, hrg, metreSpectrum, Vals.dtype, DType.join, npMin, npMax,
      Vals.toList, npMinList, npMaxList, List.foldl_cons, List.foldl_nil, XR.isNaN_fin, XR.lt_fin,
      Bool.false_eq_true, if_false, decide_eq_true_eq, n1, n2, n3, n4, n5, n6, if_true]
    have hnew := metreSpectrum_new' [XR.fin 2, XR.fin 4]
    simp only [metreSpectrum] at hnew
    rw [hnew, ht, hu]
    exact metreSpectrum_convert _
  obtain ⟨s, h1, -, h2⟩ := C33_metres_partial m _ _ _ _ hc (.inl hn) hr hi
    (lineData_part (by norm_num)) (lineData_part (by norm_num)) ht hu 2 4 (by norm_num) (by norm_num)
    hrange
  exact ⟨m, hrange, s, h1, h2⟩

end ideal

end Disp
