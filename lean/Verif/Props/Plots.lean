import Verif.Model.Plot
import Verif.Props.MediumBuild
import Verif.Props.ModelRange
/-!
# C94–C96: plots
-/

namespace Disp

open Spec

/-- How the canonical units are written on an axis. -/
def Spec.symbols : List (String × String) :=
  [("m", "m"), ("nm", "nm"), ("um", "μm"), ("a", "Å"), ("hz", "Hz"), ("ev", "eV"),
   ("1/s", "1/s"), ("1/cm", "1/cm")]

/-- The names of the two plotted quantities. -/
def Spec.quantities : PlotKind → String × String
  | .nk => ("n", "k")
  | .permittivity => ("eps_r", "eps_i")

/-- The figure that shows the complex numbers `zs` over the abscissae `xs`, which have the type
`t` and the unit with the symbol `sym`: real and imaginary parts as curves, for a single abscissa
as levels. -/
def Spec.figure {F : Type} (k : PlotKind) (xs : List F) (zs : List (Cx F)) (t sym : String) :
    Plot F where
  drawing := match zs with
    | [z] => .levels z.re z.im
    | _ => .curves xs (zs.map (·.re)) (zs.map (·.im))
  legend := [(quantities k).1, (quantities k).2]
  ylabel := (quantities k).1 ++ ", " ++ (quantities k).2
  xlabel := t ++ " (" ++ sym ++ ")"

theorem symbols_lookup : ∀ p ∈ symbols, dictGet displayNames p.1 = .ok p.2 := by decide +kernel

theorem no_symbol_cm : dictGet displayNames "cm" = .error .key := by decide +kernel

section generic
variable {F : Type} [PyFloat F] [SciPy F]

/-- Complex values in the form of the values of a Spectrum. -/
def CForm : CVals F → Vals F → Prop
  | .scalar _, .scalar _ => True
  | .array zs, .array _ xs => zs.length = xs.length
  | _, _ => False

omit [PyFloat F] [SciPy F] in
theorem CForm.of_same {v : CVals F} {w w' : Vals F} (h : CForm v w) (hs : SameForm w' w) :
    CForm v w' := by
  cases v <;> cases w <;> cases w' <;> simp_all [CForm, SameForm]

omit [SciPy F] in
theorem combineParts_form {r i w : Vals F} (h1 : SameForm r w) (h2 : SameForm i w) {v : CVals F}
    (hv : combineParts r i = .ok v) : CForm v w := by
  cases r with
  | scalar x =>
    cases w with
    | array _ _ => exact h1.elim
    | scalar z =>
      cases i with
      | array _ _ => exact h2.elim
      | scalar y => cases hv; trivial
  | array dt xs =>
    cases w with
    | scalar z => exact h1.elim
    | array dt' ws =>
      cases i with
      | scalar y => exact h2.elim
      | array dt'' ys =>
        simp only [combineParts] at hv
        have e1 : xs.length = ws.length := by simpa [SameForm] using h1
        have e2 : ys.length = ws.length := by simpa [SameForm] using h2
        rw [if_pos (by omega), Except.ok.injEq] at hv
        subst hv
        simp [CForm, e1, e2]

theorem cplx_form (d : CplxData F) {s : Spectrum F} (h : Aligned s) {v : CVals F}
    (hv : d.evaluate s = .ok v) : CForm v s.values := by
  simp only [CplxData.evaluate, bind, Except.bind] at hv
  cases hc : d.range.contains s with
  | error e => rw [hc] at hv; cases hv
  | ok b =>
    rw [hc] at hv
    simp only at hv
    cases hw : s.convertTo d.stype d.unit with
    | error e => rw [hw] at hv; cases hv
    | ok w =>
      rw [hw] at hv
      have hf := convertTo_sameForm h hw
      cases w with
      | array dt es =>
        simp only at hv
        cases hm : es.mapM (d.kind.at d.params) with
        | error e => rw [hm] at hv; cases hv
        | ok zs =>
          rw [hm] at hv
          cases hv
          have hl := (mapM_getElem _ es zs hm).1
          cases hs : s.values with
          | scalar x => rw [hs] at hf; exact hf.elim
          | array dt' xs =>
            rw [hs] at hf
            have : es.length = xs.length := by simpa [SameForm] using hf
            simp only [CForm]
            omega
      | scalar x =>
        simp only at hv
        cases hm : d.kind.at d.params x with
        | error e => rw [hm] at hv; cases hv
        | ok z =>
          rw [hm] at hv
          simp only at hv
          split_ifs at hv
          cases hv
          cases hs : s.values with
          | array dt' xs => rw [hs] at hf; exact hf.elim
          | scalar y => trivial

/-- The result of an evaluation has the form of the values of the Spectrum. -/
theorem evalStored_form (m : Material F) {s : Spectrum F} (h : Aligned s) {v : CVals F}
    (hv : (m.evalStored s).1 = .ok v) : CForm v s.values := by
  unfold Material.evalStored at hv
  cases hc : m.cplx with
  | some d => rw [hc] at hv; exact cplx_form d h hv
  | none =>
    rw [hc] at hv
    simp only at hv
    obtain ⟨g, hg⟩ := evalPart_history m.real s
    cases hx : evalPart m.real s with
    | mk x s1 =>
      rw [hx] at hv hg
      simp only at hg
      cases x with
      | error e => cases hv
      | ok r =>
        simp only at hv
        have hal1 : Aligned s1 := by rw [hg]; exact aligned_after h g
        have hst1 : s1.std = s.std := by rw [hg, C09_reference_fixed]
        obtain ⟨g', hg'⟩ := evalPart_history m.imag s1
        cases hy : evalPart m.imag s1 with
        | mk y s2 =>
          rw [hy] at hv hg'
          simp only at hg'
          cases y with
          | error e => cases hv
          | ok i =>
            simp only at hv
            have hal2 : Aligned s2 := by rw [hg']; exact aligned_after hal1 g'
            have hst2 : s2.std = s.std := by rw [hg', C09_reference_fixed, hst1]
            have hr : SameForm r s.values := by
              cases hd : m.real with
              | none => rw [hd] at hx; cases hx
              | some d =>
                rw [hd] at hx
                have e1 : (d.evaluate s).1 = .ok r := congrArg Prod.fst hx
                have e2 : (d.evaluate s).2 = s1 := congrArg Prod.snd hx
                have := evaluate_form d s h e1
                rw [e2] at this
                exact this.trans (aligned_sameForm h hal1 hst1)
            have hi : SameForm i s.values := by
              cases hd : m.imag with
              | none => rw [hd] at hy; cases hy
              | some d =>
                rw [hd] at hy
                have e1 : (d.evaluate s1).1 = .ok i := congrArg Prod.fst hy
                have e2 : (d.evaluate s1).2 = s2 := congrArg Prod.snd hy
                have := evaluate_form d s1 hal1 e1
                rw [e2] at this
                exact this.trans (aligned_sameForm h hal2 hst2)
            exact combineParts_form hr hi hv

omit [PyFloat F] [SciPy F] in
theorem CForm.map {v : CVals F} {w : Vals F} (h : CForm v w) (f : Cx F → Cx F) :
    CForm (v.map f) w := by
  cases v <;> cases w <;> simp_all [CForm, CVals.map]

/-- The data of a plot, in the form of the abscissae. -/
theorem plotData_form (m : Material F) (k : PlotKind) {raw : Raw F} (hraw : FloatInput raw)
    {t u : String} {s : Spectrum F} (hs : Spectrum.new raw t u = .ok s) {v : CVals F}
    (hv : (m.plotData k s).1 = .ok v) : CForm v s.values := by
  have hal := aligned_new hraw hs
  by_cases hn : m.name = "nk" ∨ m.name = "eps"
  · cases k with
    | nk =>
      simp only [Material.plotData] at hv
      rw [getNk_fresh m ⟨raw, t, u, hs⟩ hn] at hv
      cases he : (m.evalStored s).1 with
      | error e => rw [he] at hv; cases hv
      | ok w =>
        rw [he] at hv
        cases hv
        have := evalStored_form m hal he
        split_ifs
        · exact this.map _
        · exact this
    | permittivity =>
      simp only [Material.plotData] at hv
      rw [getPermittivity_eq m s hn] at hv
      cases he : (m.evalStored s).1 with
      | error e => rw [he] at hv; cases hv
      | ok w =>
        rw [he] at hv
        cases hv
        have := evalStored_form m hal he
        split_ifs
        · exact this.map _
        · exact this
  · exfalso
    cases k with
    | nk =>
      simp only [Material.plotData, Material.getNk, Material.nkCore, bind, Except.bind] at hv
      cases hq : Spectrum.new s.values.toRaw s.stype s.unit with
      | error e => rw [hq] at hv; cases hv
      | ok q => rw [hq] at hv; simp only at hv; rw [if_pos hn] at hv; cases hv
    | permittivity =>
      simp only [Material.plotData, Material.getPermittivity] at hv
      rw [if_pos hn] at hv
      cases hv

/-- The values that a direct call returns for the same request. -/
def Spec.answer (m : Material F) (k : PlotKind) (raw : Raw F) (t u : String) : Res (CVals F) :=
  match k with
  | .nk => m.getNkRaw raw t u
  | .permittivity => m.getPermittivityRaw raw t u

omit [SciPy F] in
theorem plot_new {t u c : String} (hc : (lower t, lower u, c) ∈ names) {raw : Raw F} {xs : List F}
    (hraw : raw = .list .float xs ∨ raw = .ndarray .float xs) :
    ∃ s, Spectrum.new raw t u = .ok s ∧ s.values = .array .float xs ∧ s.stype = lower t ∧
      s.unit = c := by
  have : Spectrum.new raw t u = Spectrum.new (.list .float xs) t u := by
    rcases hraw with rfl | rfl <;> rfl
  rw [this, new_list hc]
  exact ⟨_, rfl, rfl, rfl, rfl⟩

/-- A Spectrum built again from its values is the same. -/
theorem answer_plotData (m : Material F) (k : PlotKind) {raw : Raw F} {t u : String}
    {s : Spectrum F} (hs : Spectrum.new raw t u = .ok s) :
    answer m k raw t u = (m.plotData k s).1 := by
  cases k with
  | nk =>
    simp only [answer, Material.getNkRaw, Material.plotData, Material.getNk, Material.nkCore]
    rw [hs, Fresh.again ⟨raw, t, u, hs⟩]
  | permittivity =>
    simp only [answer, Material.getPermittivityRaw, Material.plotData, hs, bind, Except.bind]

omit [PyFloat F] [SciPy F] in
theorem floatInput_of {raw : Raw F} {xs : List F}
    (hraw : raw = .list .float xs ∨ raw = .ndarray .float xs) : FloatInput raw := by
  rcases hraw with rfl | rfl <;> rfl

/-- C94, every arithmetic: a plot of given values (a list, tuple or array of floats) shows the
refractive index, or for materials without extrapolated parts the permittivity, that a direct call
returns for these values, over the values as given, with the type and the symbol of the unit at
the axis. -/
theorem C94_values (m : Material F) (k : PlotKind) (kw : PlotKw F) (raw : Raw F) (xs : List F)
    (hkw : kw.values = some raw) (hraw : raw = .list .float xs ∨ raw = .ndarray .float xs)
    (hk : k = .nk ∨ m.cplx.isSome ∨ PlainPart m.real ∧ PlainPart m.imag) (t u c sym : String)
    (ht : t = kw.stype.getD m.defType) (hu : u = kw.unit.getD m.defUnit)
    (hc : (lower t, lower u, c) ∈ names) (hsym : (c, sym) ∈ symbols) (v : CVals F)
    (hv : answer m k raw t u = .ok v) :
    ∃ zs, v = .array zs ∧ zs.length = xs.length ∧
      m.plot k kw = .ok (figure k xs zs (lower t) sym) := by
  obtain ⟨s, hs, h1, h2, h3⟩ := plot_new hc hraw
  rw [answer_plotData m k hs] at hv
  have hf := plotData_form m k (floatInput_of hraw) hs hv
  rw [h1] at hf
  have hsame : (m.plotData k s).2 = s := by
    cases k with
    | nk => rfl
    | permittivity => exact C31_unchanged_partial m (hk.resolve_left (by simp)) s
  cases v with
  | scalar z => exact hf.elim
  | array zs =>
    have hl : zs.length = xs.length := hf
    refine ⟨zs, rfl, hl, ?_⟩
    have hx : s.typeUnitString = .ok (lower t ++ " (" ++ sym ++ ")") := by
      unfold Spectrum.typeUnitString
      rw [h3, symbols_lookup _ hsym, h2]
      rfl
    have hd : drawData s (.array zs) = .ok (figure k xs zs (lower t) sym).drawing := by
      unfold drawData
      rw [h1]
      simp only [figure]
      match zs, hl with
      | [], hl => rw [if_neg (by rw [← hl]; simp), if_pos hl.symm]
      | [z], hl => rw [if_pos (by rw [← hl]; rfl)]
      | z1 :: z2 :: zs, hl => rw [if_neg (by rw [← hl]; simp), if_pos hl.symm]
    have hp : m.preparePlot kw = .ok s := by
      unfold Material.preparePlot
      rw [hkw, ← ht, ← hu]
      exact hs
    unfold Material.plot
    simp only [hp, hv, hsame, hx, hd, bind, Except.bind]
    cases k <;> rfl

/-- C94, every arithmetic: centimetres are a unit of spectra but have no symbol, so a plot in
centimetres raises a KeyError although the direct call returns values. -/
theorem C94_centimetres (m : Material F) (kw : PlotKw F) (raw : Raw F) (xs : List F)
    (hkw : kw.values = some raw) (hraw : raw = .list .float xs ∨ raw = .ndarray .float xs)
    (t u : String) (ht : t = kw.stype.getD m.defType) (hu : u = kw.unit.getD m.defUnit)
    (hc : (lower t, lower u, "cm") ∈ names) (v : CVals F) (hv : answer m .nk raw t u = .ok v) :
    m.plot .nk kw = .error .key := by
  obtain ⟨s, hs, h1, h2, h3⟩ := plot_new hc hraw
  rw [answer_plotData m .nk hs] at hv
  have hf := plotData_form m .nk (floatInput_of hraw) hs hv
  rw [h1] at hf
  cases v with
  | scalar z => exact hf.elim
  | array zs =>
    have hl : zs.length = xs.length := hf
    have hx : s.typeUnitString = .error .key := by
      unfold Spectrum.typeUnitString
      rw [h3, no_symbol_cm]
      rfl
    have hd : ∃ d, drawData s (.array zs) = .ok d := by
      unfold drawData
      rw [h1]
      dsimp only
      match zs, hl with
      | [], hl => exact ⟨_, by rw [if_neg (by rw [← hl]; simp), if_pos hl.symm]⟩
      | [z], hl => exact ⟨_, by rw [if_pos (by rw [← hl]; rfl)]⟩
      | z1 :: z2 :: zs, hl => exact ⟨_, by rw [if_neg (by rw [← hl]; simp), if_pos hl.symm]⟩
    obtain ⟨d, hd⟩ := hd
    have hp : m.preparePlot kw = .ok s := by
      unfold Material.preparePlot
      rw [hkw, ← ht, ← hu]
      exact hs
    have hs2 : (m.plotData .nk s).2 = s := rfl
    unfold Material.plot
    simp only [hp, hv, hs2, hx, hd, bind, Except.bind]

/-- C94, every arithmetic, every material and request: if the direct call raises, so does the
plot, with the same exception. -/
theorem C94_error (m : Material F) (k : PlotKind) (kw : PlotKw F) (raw : Raw F)
    (hkw : kw.values = some raw) (e : PyErr)
    (hv : answer m k raw (kw.stype.getD m.defType) (kw.unit.getD m.defUnit) = .error e) :
    m.plot k kw = .error e := by
  have hp : m.preparePlot kw = Spectrum.new raw (kw.stype.getD m.defType) (kw.unit.getD m.defUnit) := by
    unfold Material.preparePlot
    rw [hkw]
  unfold Material.plot
  rw [hp]
  cases hs : Spectrum.new raw (kw.stype.getD m.defType) (kw.unit.getD m.defUnit) with
  | error e' =>
    have : answer m k raw (kw.stype.getD m.defType) (kw.unit.getD m.defUnit) = .error e' := by
      cases k <;>
        simp only [answer, Material.getNkRaw, Material.nkCore, Material.getPermittivityRaw, hs, bind,
          Except.bind]
    rw [this] at hv
    cases hv
    rfl
  | ok s =>
    rw [answer_plotData m k hs] at hv
    simp only [hv, bind, Except.bind]

end generic

/-! ## Plots of the sample spectrum -/

section ideal
variable [SciPy XR]

/-- The same range of wavelengths in two units: the ends belong to each other, in one order or
the other. -/
def Spec.SameRange (t c : String) (lo hi : ℝ) (t' c' : String) (lo' hi' : ℝ) : Prop :=
  (metres t' c' lo' = metres t c lo ∧ metres t' c' hi' = metres t c hi) ∨
  (metres t' c' lo' = metres t c hi ∧ metres t' c' hi' = metres t c lo)

omit [SciPy XR] in
theorem ofMetres_mono_length {c : String} {x y : ℝ} (h : x ≤ y) :
    ofMetres "wavelength" c x ≤ ofMetres "wavelength" c y := by
  have := lengthUnit_pos c
  simp only [ofMetres, String.reduceEq, if_false]
  gcongr

omit [SciPy XR] in
theorem ofMetres_anti {t c : String} (hp : (t, c) ∈ pairs) (ht : t ≠ "wavelength") {x y : ℝ}
    (hx : 0 < x) (h : x ≤ y) : ofMetres t c y ≤ ofMetres t c x := by
  have := c_pos; have := h_pos; have := e_pos; have := Real.pi_pos
  rcases pairs_cases hp with ⟨rfl, rfl⟩ | ⟨rfl, rfl⟩ | ⟨rfl, rfl⟩ | ⟨rfl, rfl⟩ | ⟨rfl, rfl⟩ |
    ⟨rfl, rfl⟩ | ⟨rfl, rfl⟩ | ⟨rfl, rfl⟩ | ⟨rfl, rfl⟩ <;> first
    | exact absurd rfl ht
    | (simp only [ofMetres, String.reduceEq, if_false, if_true]; gcongr)

omit [SciPy XR] in
/-- A value between the ends of a range lies between them in metres. -/
theorem metres_between {t c : String} (hp : (t, c) ∈ pairs) {lo hi x : ℝ} (h0 : 0 < lo)
    (h1 : lo ≤ x) (h2 : x ≤ hi) :
    min (metres t c lo) (metres t c hi) ≤ metres t c x ∧
      metres t c x ≤ max (metres t c lo) (metres t c hi) := by
  by_cases ht : t = "wavelength"
  · subst ht
    exact ⟨(min_le_left _ _).trans (metres_mono_length h1), (metres_mono_length h2).trans (le_max_right _ _)⟩
  · exact ⟨(min_le_right _ _).trans (metres_anti hp ht (lt_of_lt_of_le h0 h1) h2),
      (metres_anti hp ht h0 h1).trans (le_max_left _ _)⟩

omit [SciPy XR] in
/-- A wavelength between the ends of a range is shown between them. -/
theorem shown_between {t c : String} (hp : (t, c) ∈ pairs) {lo hi y : ℝ} (h0 : 0 < lo)
    (hle : lo ≤ hi) (g1 : OnGrid (decimals t c) lo) (g2 : OnGrid (decimals t c) hi)
    (h1 : min (metres t c lo) (metres t c hi) ≤ y)
    (h2 : y ≤ max (metres t c lo) (metres t c hi)) : lo ≤ shown t c y ∧ shown t c y ≤ hi := by
  have hh := lt_of_lt_of_le h0 hle
  have p1 := metres_pos t c h0
  have p2 := metres_pos t c hh
  have key : lo ≤ ofMetres t c y ∧ ofMetres t c y ≤ hi := by
    by_cases ht : t = "wavelength"
    · subst ht
      have hm := metres_mono_length (c := c) hle
      rw [min_eq_left hm] at h1
      rw [max_eq_right hm] at h2
      have a := ofMetres_mono_length (c := c) h1
      have b := ofMetres_mono_length (c := c) h2
      rw [ofMetres_metres _ _ h0] at a
      rw [ofMetres_metres _ _ hh] at b
      exact ⟨a, b⟩
    · have hm := metres_anti hp ht h0 hle
      rw [min_eq_right hm] at h1
      rw [max_eq_left hm] at h2
      have a := ofMetres_anti hp ht p2 h1
      have b := ofMetres_anti hp ht (lt_of_lt_of_le p2 h1) h2
      rw [ofMetres_metres _ _ h0] at b
      rw [ofMetres_metres _ _ hh] at a
      exact ⟨b, a⟩
  have r1 := roundOpt_mono (decimals t c) key.1
  have r2 := roundOpt_mono (decimals t c) key.2
  rw [rounded_of_grid g1] at r1
  rw [rounded_of_grid g2] at r2
  exact ⟨r1, r2⟩

omit [SciPy XR] in
theorem Spec.SameRange.ends {t c t' c' : String} {lo hi lo' hi' : ℝ}
    (h : SameRange t c lo hi t' c' lo' hi') :
    min (metres t' c' lo') (metres t' c' hi') = min (metres t c lo) (metres t c hi) ∧
    max (metres t' c' lo') (metres t' c' hi') = max (metres t c lo) (metres t c hi) := by
  rcases h with ⟨h1, h2⟩ | ⟨h1, h2⟩
  · rw [h1, h2]; exact ⟨rfl, rfl⟩
  · rw [h1, h2]; exact ⟨min_comm _ _, max_comm _ _⟩

/-- The points of the sample spectrum, from one end of the range to the other. -/
noncomputable def Spec.samplePoints (t : String) (lo hi : ℝ) : List ℝ :=
  if t = "wavelength" then geomReal lo hi 1000 else geomReal hi lo 1000

/-- The values that a direct call returns exist if and only if the stored data exist. -/
theorem answer_exists {m : Material XR} (hn : m.name = "nk" ∨ m.name = "eps") (k : PlotKind)
    {raw : Raw XR} {t u : String} {s : Spectrum XR} (hs : Spectrum.new raw t u = .ok s)
    (h : ∃ v, reported m s = .ok v) : ∃ v, answer m k raw t u = .ok v := by
  rw [reported_stored hn ⟨raw, t, u, hs⟩] at h
  obtain ⟨v, hv⟩ := h
  rw [answer_plotData m k hs]
  cases k with
  | nk =>
    simp only [Material.plotData]
    rw [getNk_fresh m ⟨raw, t, u, hs⟩ hn, hv]
    exact ⟨_, rfl⟩
  | permittivity =>
    simp only [Material.plotData]
    rw [getPermittivity_eq m s hn, hv]
    exact ⟨_, rfl⟩

theorem sample_fresh {m : Material XR} {s : Spectrum XR} (h : m.sampleSpectrum = .ok s) : Fresh s := by
  unfold Material.sampleSpectrum at h
  simp only [bind, Except.bind] at h
  split at h
  · cases h
  split at h
  · cases h
  split at h
  · cases h
  split_ifs at h
  · split at h
    · cases h
    · exact ⟨_, _, _, h⟩
  · split at h
    · cases h
    · exact ⟨_, _, _, h⟩

omit [SciPy XR] in
theorem samplePoints_mem {t : String} {lo hi : ℝ} (h0 : 0 < lo) (hle : lo ≤ hi) {x : ℝ}
    (hx : x ∈ samplePoints t lo hi) : lo ≤ x ∧ x ≤ hi := by
  unfold samplePoints at hx
  split_ifs at hx
  · exact geomReal_mem h0 hle (by norm_num) hx
  · exact geomReal_mem_down h0 hle (by norm_num) hx

omit [SciPy XR] in
theorem samplePoints_length (t : String) (lo hi : ℝ) : (samplePoints t lo hi).length = 1000 := by
  unfold samplePoints
  split_ifs <;> exact geomReal_length _ _ _

/-- What is evaluated for a plot without `values`: the points of the sample spectrum as shown in
the unit of the plot, provided that no number on the way is taken for zero. The material can be
evaluated there exactly if all of them, shown again in the default unit, lie in its range. -/
theorem sample_request [SciPyLaws] (m : Material XR) (r i : RealData XR) (c : String) (lo hi : ℝ)
    (hcx : m.cplx = none) (hn : m.name = "nk" ∨ m.name = "eps") (hr : m.real = some r)
    (hi' : m.imag = some i) (hu : (lower m.defType, m.defUnit, c) ∈ names)
    (hk : lower m.defType ≠ "wavenumber") (hp : BandParts (lower m.defType) c r i lo hi)
    (hle : lo ≤ hi) (kw : PlotKw XR) (hkw : kw.values = Option.none)
    (t u c' : String) (ht : t = kw.stype.getD m.defType) (hu' : u = kw.unit.getD m.defUnit)
    (hc' : (lower t, u, c') ∈ names) (hk' : lower t ≠ "wavenumber")
    (xs : List ℝ) (hxs : xs = samplePoints (lower m.defType) lo hi) (zs : List ℝ)
    (hzs : zs = xs.map (fun x => shown (lower t) c' (metres (lower m.defType) c x)))
    (q1 : lower t ≠ "wavelength" → ∀ x ∈ xs, 1 / 10 ^ 8 < metres (lower m.defType) c x)
    (q2 : ∀ z ∈ zs, 0 < z ∧ (lower t ≠ "wavelength" → 1 / 10 ^ 8 < z))
    (q3 : lower m.defType ≠ "wavelength" → ∀ z ∈ zs, 1 / 10 ^ 8 < metres (lower t) c' z) :
    ∃ s, Spectrum.new (.ndarray .float (zs.map XR.fin)) t u = .ok s ∧ m.preparePlot kw = .ok s ∧
      ((∃ v, reported m s = .ok v) ↔ ∀ z ∈ zs,
        lo ≤ shown (lower m.defType) c (metres (lower t) c' z) ∧
        shown (lower m.defType) c (metres (lower t) c' z) ≤ hi) := by
  obtain ⟨k1, k2, k3, k4, k5⟩ := hp.common
  have hpr := names_pairs _ hu
  have hpr' := names_pairs _ hc'
  simp only at hpr hpr'
  obtain ⟨s, s1, s2, s3, s4, -⟩ := C33_units_partial m r i c lo hi hcx hn hr hi' hu hk hp hle
  have hsp : s.values = .array .float (xs.map XR.fin) := by rw [hxs]; exact s4
  have hxm : ∀ x ∈ xs, lo ≤ x ∧ x ≤ hi := by
    rw [hxs]; exact fun x hx => samplePoints_mem k1 hle hx
  have hlen : xs.length = 1000 := by rw [hxs]; exact samplePoints_length _ _ _
  clear s4 hxs
  set T := lower t with hT
  set D := lower m.defType with hD
  have hpos : ∀ x ∈ xs, 0 < x := fun x hx => lt_of_lt_of_le k1 (hxm x hx).1
  have hne : xs ≠ [] := by intro h0; rw [h0] at hlen; simp at hlen
  -- the sample in metres
  have hcc : (lower D, lower c, c) ∈ names := by
    have h1 := pairs_names _ hpr
    obtain ⟨h2, h3⟩ := names_lower _ h1
    simp only at h2 h3
    rw [h2, h3]; exact h1
  have hll : lower D = D := (names_lower _ hu).1
  have hstd : s.std = .array .float ((xs.map (metres D c)).map XR.fin) := by
    have hag := (sample_fresh s1).again
    rw [hsp, s2, s3] at hag
    have e : Spectrum.new (Vals.array DType.float (xs.map XR.fin)).toRaw D c =
      Spectrum.new (.list .float (xs.map XR.fin)) D c := rfl
    rw [e, new_list hcc, Except.ok.injEq] at hag
    rw [← hag, hll]
    simp only [List.map_map]
    refine congrArg (Vals.array DType.float) (List.map_congr_left fun x hx => ?_)
    simp only [Function.comp]
    exact fromElem_fin hpr (hpos x hx) (fun hw => XR.inv_elem_fin (by
      rw [abs_of_pos (hpos x hx)]; exact lt_of_lt_of_le (k5 hw).1 (hxm x hx).1))
  -- the abscissae
  have hask : Asks T s (xs.map (metres D c)) := by
    refine ⟨⟨by simpa using hne, .inr hstd⟩, ?_, ?_⟩
    · intro y hy
      obtain ⟨x, hx, rfl⟩ := List.mem_map.1 hy
      exact metres_pos _ _ (hpos x hx)
    · intro hw
      right
      intro y hy
      obtain ⟨x, hx, rfl⟩ := List.mem_map.1 hy
      exact q1 hw x hx
  obtain ⟨ov, ho1, ho2⟩ := hask.convert hc' hk'
  have hal : Aligned s := .inr ⟨_, _, hsp, hstd, by simp⟩
  have hov : ov = .array .float (zs.map XR.fin) := by
    have hf := convertTo_sameForm hal ho1
    rw [hsp] at hf
    rw [Spectrum.convertTo_eq, specLookup_ok_iff.2 hc', hstd] at ho1
    simp only at ho1
    rw [convertVals_array hpr', Except.ok.injEq] at ho1
    cases ov with
    | scalar z => exact hf.elim
    | array dt vs =>
      cases ho1
      have e : (xs.map (metres D c)).map (fun y => XR.fin (shown (lower t) c' y)) =
          zs.map XR.fin := by rw [hzs, List.map_map, List.map_map]; rfl
      exact congrArg (Vals.array DType.float) (Eq.trans ho2 e)
  have hlu : lower u = u := (names_lower _ hc').2
  have hcl : (lower t, lower u, c') ∈ names := by rw [hlu]; exact hc'
  -- the Spectrum that is evaluated
  have hnew := new_list (F := XR) hcl (zs.map XR.fin)
  have hstd' : (zs.map XR.fin).map (fromElem safeInverseElem (lower t) c') =
      (zs.map (metres T c')).map XR.fin := by
    rw [List.map_map, List.map_map]
    refine List.map_congr_left fun z hz => ?_
    simp only [Function.comp]
    exact fromElem_fin hpr' (q2 z hz).1 (fun hw => XR.inv_elem_fin (by
      rw [abs_of_pos (q2 z hz).1]; exact (q2 z hz).2 hw))
  obtain ⟨-, hev⟩ := C32_units_partial m r i c lo hi hcx hn hr hi' hu hk hp
  have hzne : zs ≠ [] := by rw [hzs]; simpa using hne
  refine ⟨_, hnew, ?_, ?_⟩
  · unfold Material.preparePlot
    rw [hkw]
    simp only
    unfold Material.plotSpectrum
    rw [← ht, ← hu']
    simp only [s1, ho1, hov, bind, Except.bind]
    exact hnew
  · have := hev (.list .float (zs.map XR.fin)) t u _ rfl hnew (zs.map (metres T c'))
      ⟨⟨by simpa using hzne, .inr (congrArg _ hstd')⟩, by
        intro y hy
        obtain ⟨z, hz, rfl⟩ := List.mem_map.1 hy
        exact metres_pos _ _ (q2 z hz).1, by
        intro hw
        right
        intro y hy
        obtain ⟨z, hz, rfl⟩ := List.mem_map.1 hy
        exact q3 hw z hz⟩
    rw [this]
    constructor
    · exact fun h z hz => h _ (List.mem_map_of_mem hz)
    · intro h y hy
      obtain ⟨z, hz, rfl⟩ := List.mem_map.1 hy
      exact h z hz

/-- A plot without `values`, for a material whose parts are valid from `lo` to `hi` in the default
unit, in a unit in which the ends of the range have no more decimals than conversions keep. -/
theorem sample_plot [SciPyLaws] (m : Material XR) (r i : RealData XR) (c : String) (lo hi : ℝ)
    (hcx : m.cplx = none) (hn : m.name = "nk" ∨ m.name = "eps") (hr : m.real = some r)
    (hi' : m.imag = some i) (hu : (lower m.defType, m.defUnit, c) ∈ names)
    (hk : lower m.defType ≠ "wavenumber") (hp : BandParts (lower m.defType) c r i lo hi)
    (hle : lo ≤ hi) (k : PlotKind) (kw : PlotKw XR) (hkw : kw.values = Option.none)
    (t u c' sym : String) (ht : t = kw.stype.getD m.defType) (hu' : u = kw.unit.getD m.defUnit)
    (hc' : (lower t, u, c') ∈ names) (hk' : lower t ≠ "wavenumber") (hsym : (c', sym) ∈ symbols)
    (lo' hi'' : ℝ) (hb : Band (lower t) c' lo' hi'')
    (hsame : SameRange (lower m.defType) c lo hi (lower t) c' lo' hi'') (xs : List XR)
    (hxs : xs = (samplePoints (lower m.defType) lo hi).map
      (fun x => XR.fin (shown (lower t) c' (metres (lower m.defType) c x)))) :
    ∃ zs, answer m k (.ndarray .float xs) t u = .ok (.array zs) ∧ zs.length = 1000 ∧
      m.plot k kw = .ok (figure k xs zs (lower t) sym) := by
  obtain ⟨k1, k2, k3, k4, k5⟩ := hp.common
  have hpr := names_pairs _ hu
  have hpr' := names_pairs _ hc'
  simp only at hpr hpr'
  obtain ⟨ps, hps⟩ : ∃ ps, ps = samplePoints (lower m.defType) lo hi := ⟨_, rfl⟩
  have hxm : ∀ x ∈ ps, lo ≤ x ∧ x ≤ hi := by
    rw [hps]; exact fun x hx => samplePoints_mem k1 hle hx
  have hlen : ps.length = 1000 := by rw [hps]; exact samplePoints_length _ _ _
  rw [← hps] at hxs
  -- the ends in metres
  obtain ⟨em, eM⟩ := hsame.ends
  have hlo' := hb.pos
  have hhi' := lt_of_lt_of_le hb.pos hb.le
  have hmb : ∀ x ∈ ps, min (metres (lower t) c' lo') (metres (lower t) c' hi'') ≤
        metres (lower m.defType) c x ∧
      metres (lower m.defType) c x ≤ max (metres (lower t) c' lo') (metres (lower t) c' hi'') := by
    intro x hx
    rw [em, eM]
    exact metres_between hpr k1 (hxm x hx).1 (hxm x hx).2
  have hz : ∀ z ∈ ps.map (fun x => shown (lower t) c' (metres (lower m.defType) c x)),
      lo' ≤ z ∧ z ≤ hi'' := by
    intro z hz
    obtain ⟨x, hx, rfl⟩ := List.mem_map.1 hz
    exact shown_between hpr' hlo' hb.le hb.gridLo hb.gridHi (hmb x hx).1 (hmb x hx).2
  have hback : ∀ z ∈ ps.map (fun x => shown (lower t) c' (metres (lower m.defType) c x)),
      min (metres (lower m.defType) c lo) (metres (lower m.defType) c hi) ≤ metres (lower t) c' z ∧
      metres (lower t) c' z ≤ max (metres (lower m.defType) c lo) (metres (lower m.defType) c hi) := by
    intro z hz'
    rw [← em, ← eM]
    exact metres_between hpr' hlo' (hz z hz').1 (hz z hz').2
  obtain ⟨s, g1, g2, g3⟩ := sample_request m r i c lo hi hcx hn hr hi' hu hk hp hle kw hkw t u c' ht
    hu' hc' hk' ps hps _ rfl
    (by
      intro hw x hx
      refine lt_of_lt_of_le ?_ (hmb x hx).1
      rw [min_eq_right (metres_anti hpr' hw hlo' hb.le)]
      exact (hb.big hw).2)
    (fun z hz' => ⟨lt_of_lt_of_le hlo' (hz z hz').1,
      fun hw => lt_of_lt_of_le (hb.big hw).1 (hz z hz').1⟩)
    (by
      intro hw z hz'
      refine lt_of_lt_of_le ?_ (hback z hz').1
      rw [min_eq_right (metres_anti hpr hw k1 hle)]
      exact (k5 hw).2.2)
  have hrep := g3.2 fun z hz' => shown_between hpr k1 hle k3 k4 (hback z hz').1 (hback z hz').2
  have hxs' : (ps.map (fun x => shown (lower t) c' (metres (lower m.defType) c x))).map XR.fin = xs := by
    rw [hxs, List.map_map]; rfl
  rw [hxs'] at g1
  obtain ⟨v, hv⟩ := answer_exists hn k g1 hrep
  have hlu : lower u = u := (names_lower _ hc').2
  have hcl : (lower t, lower u, c') ∈ names := by rw [hlu]; exact hc'
  obtain ⟨ws, rfl, hwl, hplot⟩ := C94_values m k
    { values := some (.ndarray .float xs), stype := some t, unit := some u } (.ndarray .float xs) xs
    rfl (.inr rfl) (.inr (.inr (by rw [hr, hi']; exact ⟨hp.plain.1, hp.plain.2⟩))) t u c' sym rfl rfl
    hcl hsym v hv
  refine ⟨ws, hv, by rw [hwl, hxs, List.length_map, hlen], ?_⟩
  rw [← hplot]
  have : m.preparePlot kw = m.preparePlot
      { values := some (.ndarray .float xs), stype := some t, unit := some u } := by
    rw [g2, ← g1]
    rfl
  unfold Material.plot
  rw [this]

/-- C95 for tables: a plot without values shows the material at the 1000 points of its sample
spectrum, in its own type and unit or in any other in which the ends of the table have no more
decimals than conversions keep; the ordinates are those that a direct call returns there. -/
theorem C95_table [NumText XR] [SciPyLaws] (rd : String → Res (FileDict XR)) (kw : Kwargs XR)
    (n : String) (w : ℕ) (rows : List (List ℝ)) (htab : RealTable kw n w rows) (c : String)
    (hc : (lower (defaultsOf kw).1, (defaultsOf kw).2, c) ∈ names)
    (hk : lower (defaultsOf kw).1 ≠ "wavenumber") (lo hi : ℝ)
    (hs : Spans rows lo hi) (hb : Band (lower (defaultsOf kw).1) c lo hi) (k : PlotKind)
    (pkw : PlotKw XR) (hpkw : pkw.values = Option.none) (t u c' sym : String)
    (ht : t = pkw.stype.getD (defaultsOf kw).1) (hu : u = pkw.unit.getD (defaultsOf kw).2)
    (hc' : (lower t, u, c') ∈ names) (hk' : lower t ≠ "wavenumber") (hsym : (c', sym) ∈ symbols)
    (lo' hi' : ℝ) (hb' : Band (lower t) c' lo' hi')
    (hsame : SameRange (lower (defaultsOf kw).1) c lo hi (lower t) c' lo' hi') (xs : List XR)
    (hxs : xs = (samplePoints (lower (defaultsOf kw).1) lo hi).map
      (fun x => XR.fin (shown (lower t) c' (metres (lower (defaultsOf kw).1) c x)))) :
    ∃ (m : Material XR) (zs : List (Cx XR)), Material.new rd kw = .ok m ∧
      answer m k (.ndarray .float xs) t u = .ok (.array zs) ∧ zs.length = 1000 ∧
      m.plot k pkw = .ok (figure k xs zs (lower t) sym) := by
  obtain ⟨m, r, i, h1, h2, h3, h4, h5, h6, h7, h8⟩ := table_material rd htab hc hs hb
  rw [← h6] at hc hk h8 ht hsame hxs
  rw [← h7] at hc hu
  obtain ⟨zs, g⟩ := sample_plot m r i c lo hi h2 h3 h4 h5 hc hk h8 hb.le k pkw hpkw t u c' sym ht hu
    hc' hk' hsym lo' hi' hb' hsame xs hxs
  exact ⟨m, zs, h1, g⟩

/-- C95 for refractive index models. -/
theorem C95_model [NumText XR] [SciPyLaws] (rd : String → Res (FileDict XR)) (kw : Kwargs XR)
    (f : String) (p : List XR) (lo hi : ℝ) (t0 u0 : String) (h : ModelArg kw f p lo hi t0 u0)
    (hf : f ∈ indexModels) (hp : takes f p.length) (ht0 : lower t0 = "wavelength")
    (hu0 : u0 ∈ ["um", "micrometer", "micrometre"]) (hb : Band "wavelength" "um" lo hi)
    (k : PlotKind) (pkw : PlotKw XR) (hpkw : pkw.values = Option.none) (t u c' sym : String)
    (ht : t = pkw.stype.getD t0) (hu : u = pkw.unit.getD u0)
    (hc' : (lower t, u, c') ∈ names) (hk' : lower t ≠ "wavenumber") (hsym : (c', sym) ∈ symbols)
    (lo' hi' : ℝ) (hb' : Band (lower t) c' lo' hi')
    (hsame : SameRange "wavelength" "um" lo hi (lower t) c' lo' hi') (xs : List XR)
    (hxs : xs = (geomReal lo hi 1000).map
      (fun x => XR.fin (shown (lower t) c' (metres "wavelength" "um" x)))) :
    ∃ (m : Material XR) (zs : List (Cx XR)), Material.new rd kw = .ok m ∧
      answer m k (.ndarray .float xs) t u = .ok (.array zs) ∧ zs.length = 1000 ∧
      m.plot k pkw = .ok (figure k xs zs (lower t) sym) := by
  obtain ⟨m, r, i, h1, h2, h3, h4, h5, h6, h7, h8⟩ := model_material rd h hf hp ht0 hu0 hb
  have hn : (lower m.defType, m.defUnit, "um") ∈ names := by
    rw [h6, h7, ht0]; exact (micro_names u0 hu0).2
  have hw : lower m.defType ≠ "wavenumber" := by rw [h6, ht0]; decide
  have hx : xs = (samplePoints (lower m.defType) lo hi).map
      (fun x => XR.fin (shown (lower t) c' (metres (lower m.defType) "um" x))) := by
    rw [hxs, h6, ht0, samplePoints, if_pos rfl]
  rw [← ht0, ← h6] at hsame
  rw [← h6] at h8 ht
  rw [← h7] at hu
  obtain ⟨zs, g⟩ := sample_plot m r i "um" lo hi h2 (.inl h3) h4 h5 hn hw h8 hb.le k pkw hpkw t u c'
    sym ht hu hc' hk' hsym lo' hi' hb' hsame xs hx
  exact ⟨m, zs, h1, g⟩

/-! ## Plots in other units -/

/-- C96 (full statement, refuted below): a table over 10 nm to 1 m can be plotted over every
spectrum type and unit that has a symbol. -/
def C96_statement [NumText XR] : Prop :=
  ∀ (rd : String → Res (FileDict XR)) (kw : Kwargs XR) (n : String) (w : ℕ) (rows : List (List ℝ)),
    RealTable kw n w rows → ∀ c, (lower (defaultsOf kw).1, (defaultsOf kw).2, c) ∈ names →
    lower (defaultsOf kw).1 ≠ "wavenumber" → ∀ lo hi, Spans rows lo hi →
    Band (lower (defaultsOf kw).1) c lo hi →
    (∀ x, x = lo ∨ x = hi → 1 / 10 ^ 8 < metres (lower (defaultsOf kw).1) c x ∧
      metres (lower (defaultsOf kw).1) c x ≤ 1) →
    ∀ (k : PlotKind) (t u c' sym : String), (lower t, u, c') ∈ names → lower t ≠ "wavenumber" →
    (c', sym) ∈ symbols →
    ∃ (m : Material XR) (p : Plot XR), Material.new rd kw = .ok m ∧
      m.plot k { stype := some t, unit := some u } = .ok p

omit [SciPy XR] in
theorem metres_ofMetres (t u : String) {x : ℝ} (hx : 0 < x) :
    metres t u (ofMetres t u x) = x := by
  have := c_pos; have := h_pos; have := e_pos; have := lengthUnit_pos u
  have := Real.pi_pos
  unfold ofMetres metres; split_ifs <;> field_simp

/-- C96 for the units to which conversions do not round (metres, Hz, 1/s): the plot shows the
material at the points of its sample spectrum. Missing for the full claim: units in which the ends
of the table have more decimals than conversions keep, for which it is false. -/
theorem C96_unrounded_partial [NumText XR] [SciPyLaws] (rd : String → Res (FileDict XR))
    (kw : Kwargs XR) (n : String) (w : ℕ) (rows : List (List ℝ)) (htab : RealTable kw n w rows)
    (c : String) (hc : (lower (defaultsOf kw).1, (defaultsOf kw).2, c) ∈ names)
    (hk : lower (defaultsOf kw).1 ≠ "wavenumber") (lo hi : ℝ) (hs : Spans rows lo hi)
    (hb : Band (lower (defaultsOf kw).1) c lo hi)
    (hr : ∀ x, x = lo ∨ x = hi → 1 / 10 ^ 8 < metres (lower (defaultsOf kw).1) c x ∧
      metres (lower (defaultsOf kw).1) c x ≤ 1)
    (k : PlotKind) (t u c' sym : String) (hc' : (lower t, u, c') ∈ names)
    (hk' : lower t ≠ "wavenumber") (hsym : (c', sym) ∈ symbols)
    (hd : decimals (lower t) c' = none) (xs : List XR)
    (hxs : xs = (samplePoints (lower (defaultsOf kw).1) lo hi).map
      (fun x => XR.fin (ofMetres (lower t) c' (metres (lower (defaultsOf kw).1) c x)))) :
    ∃ (m : Material XR) (zs : List (Cx XR)), Material.new rd kw = .ok m ∧
      answer m k (.ndarray .float xs) t u = .ok (.array zs) ∧ zs.length = 1000 ∧
      m.plot k { stype := some t, unit := some u } = .ok (figure k xs zs (lower t) sym) := by
  have hpr := names_pairs _ hc
  have hpr' := names_pairs _ hc'
  simp only at hpr hpr'
  have l1 := hr lo (.inl rfl)
  have l2 := hr hi (.inr rfl)
  have z8 : (0 : ℝ) < 1 / 10 ^ 8 := by norm_num
  have p1 := z8.trans l1.1
  have p2 := z8.trans l2.1
  have hx : xs = (samplePoints (lower (defaultsOf kw).1) lo hi).map
      (fun x => XR.fin (shown (lower t) c' (metres (lower (defaultsOf kw).1) c x))) := by
    rw [hxs]
    simp only [shown, hd, roundOpt]
  have hgrid : ∀ x, OnGrid (decimals (lower t) c') x := fun x => by rw [hd]; trivial
  -- the smaller and the larger of the two ends in the unit of the plot
  have main : ∀ a b : ℝ, (a = metres (lower (defaultsOf kw).1) c lo ∧
        b = metres (lower (defaultsOf kw).1) c hi ∨ a = metres (lower (defaultsOf kw).1) c hi ∧
        b = metres (lower (defaultsOf kw).1) c lo) →
      ofMetres (lower t) c' a ≤ ofMetres (lower t) c' b →
      Band (lower t) c' (ofMetres (lower t) c' a) (ofMetres (lower t) c' b) ∧
      SameRange (lower (defaultsOf kw).1) c lo hi (lower t) c' (ofMetres (lower t) c' a)
        (ofMetres (lower t) c' b) := by
    intro a b hab hle
    have ha : 1 / 10 ^ 8 < a ∧ a ≤ 1 := by rcases hab with ⟨rfl, -⟩ | ⟨rfl, -⟩ <;> assumption
    have hb' : 1 / 10 ^ 8 < b ∧ b ≤ 1 := by rcases hab with ⟨-, rfl⟩ | ⟨-, rfl⟩ <;> assumption
    have pa := z8.trans ha.1
    have pb := z8.trans hb'.1
    refine ⟨⟨ofMetres_pos _ _ pa, hle, hgrid _, hgrid _, fun hw => ⟨?_, ?_⟩⟩, ?_⟩
    · have h1 := ofMetres_anti hpr' hw pa ha.2
      refine lt_of_lt_of_le ?_ h1
      rcases pairs_cases hpr' with ⟨e1, e2⟩ | ⟨e1, e2⟩ | ⟨e1, e2⟩ | ⟨e1, e2⟩ | ⟨e1, e2⟩ |
        ⟨e1, e2⟩ | ⟨e1, e2⟩ | ⟨e1, e2⟩ | ⟨e1, e2⟩ <;> rw [e1, e2] <;> first
        | exact absurd e1 hw
        | exact absurd e1 hk'
        | (rw [e1, e2] at hd; exact absurd hd (by decide))
        | (have := Real.two_le_pi
           simp only [ofMetres, String.reduceEq, if_false, if_true, Spec.c]
           norm_num
           try nlinarith)
    · rw [metres_ofMetres _ _ pb]; exact hb'.1
    · rcases hab with ⟨rfl, rfl⟩ | ⟨rfl, rfl⟩
      · exact .inl ⟨metres_ofMetres _ _ p1, metres_ofMetres _ _ p2⟩
      · exact .inr ⟨metres_ofMetres _ _ p2, metres_ofMetres _ _ p1⟩
  rcases le_total (ofMetres (lower t) c' (metres (lower (defaultsOf kw).1) c lo))
    (ofMetres (lower t) c' (metres (lower (defaultsOf kw).1) c hi)) with hle | hle
  · obtain ⟨b1, b2⟩ := main _ _ (.inl ⟨rfl, rfl⟩) hle
    exact C95_table rd kw n w rows htab c hc hk lo hi hs hb k { stype := some t, unit := some u } rfl
      t u c' sym rfl rfl hc' hk' hsym _ _ b1 b2 xs hx
  · obtain ⟨b1, b2⟩ := main _ _ (.inr ⟨rfl, rfl⟩) hle
    exact C95_table rd kw n w rows htab c hc hk lo hi hs hb k { stype := some t, unit := some u } rfl
      t u c' sym rfl rfl hc' hk' hsym _ _ b1 b2 xs hx

/-- A plot exists only if the material can be evaluated at its abscissae. -/
theorem plot_reported {m : Material XR} (hn : m.name = "nk" ∨ m.name = "eps") {k : PlotKind}
    {kw : PlotKw XR} {s : Spectrum XR} (hfr : Fresh s) (hs : m.preparePlot kw = .ok s) {p : Plot XR}
    (h : m.plot k kw = .ok p) : ∃ v, reported m s = .ok v := by
  rw [reported_stored hn hfr]
  unfold Material.plot at h
  rw [hs] at h
  simp only [bind, Except.bind] at h
  cases hd : (m.plotData k s).1 with
  | error e => rw [hd] at h; cases h
  | ok v =>
    cases k with
    | nk =>
      simp only [Material.plotData] at hd
      rw [getNk_fresh m hfr hn] at hd
      cases he : (m.evalStored s).1 with
      | error e => rw [he] at hd; cases hd
      | ok w => exact ⟨w, rfl⟩
    | permittivity =>
      simp only [Material.plotData] at hd
      rw [getPermittivity_eq m s hn] at hd
      cases he : (m.evalStored s).1 with
      | error e => rw [he] at hd; cases hd
      | ok w => exact ⟨w, rfl⟩

omit [SciPy XR] in
/-- 400 nm is shown as 3.099604961 eV, which is less than 400 nm. -/
theorem volts_of_400 : shown "energy" "ev" (metres "wavelength" "nm" 400) = 3099604961 / 10 ^ 9 ∧
    shown "wavelength" "nm" (metres "energy" "ev" (3099604961 / 10 ^ 9)) < 400 := by
  constructor
  · unfold shown
    have : decimals "energy" "ev" = some 9 := by decide
    rw [this]
    simp only [roundOpt]
    rw [XR.roundDec_eq_of_near 9 3099604961]
    · norm_num
    · simp only [ofMetres, metres, lengthUnit, String.reduceEq, if_true, if_false, Spec.h, Spec.c,
        Spec.e]
      rw [abs_lt]
      constructor <;> norm_num
  · unfold shown
    have : decimals "wavelength" "nm" = some 12 := by decide
    rw [this]
    have h1 : ofMetres "wavelength" "nm" (metres "energy" "ev" (3099604961 / 10 ^ 9)) ≤
        ((399999999990000 : ℤ) : ℝ) / 10 ^ 12 := by
      simp only [ofMetres, metres, lengthUnit, String.reduceEq, if_true, if_false, Spec.h, Spec.c,
        Spec.e]
      norm_num
    have h2 := XR.roundDec_mono 12 h1
    rw [XR.roundDec_grid] at h2
    exact lt_of_le_of_lt h2 (by norm_num)

/-- The setting of the examples below: a table from 400 nm to 800 nm. -/
theorem nano_setting : lower (defaultsOf nanoKw).1 = "wavelength" ∧
    (lower (defaultsOf nanoKw).1, (defaultsOf nanoKw).2, "nm") ∈ names ∧
    Spans [[400, 1.5], [800, 1.4]] 400 800 ∧
    Band (lower (defaultsOf nanoKw).1) "nm" 400 800 := by
  have hl : lower (defaultsOf nanoKw).1 = "wavelength" := by
    show lower "wavelength" = "wavelength"
    decide +kernel
  have gr : ∀ k : ℕ, OnGrid (decimals (lower (defaultsOf nanoKw).1) "nm") (k : ℝ) := by
    intro k
    rw [hl]
    simp only [decimals, String.reduceEq, if_true, if_false, OnGrid]
    exact ⟨k * 10 ^ 12, by push_cast; field_simp; norm_num⟩
  refine ⟨hl, ?_, ⟨⟨[400, 1.5], by simp, rfl⟩, ⟨[800, 1.4], by simp, rfl⟩, by norm_num [abscissa]⟩,
    by norm_num, by norm_num, by exact_mod_cast gr 400, by exact_mod_cast gr 800,
      fun h => absurd hl h⟩
  show (lower "wavelength", "nanometer", "nm") ∈ names
  decide +kernel

/-- A table that starts at 400 nm cannot be plotted over energies in eV: the first abscissa,
3.099604961 eV, is just outside its range. -/
theorem nano_volts [NumText XR] [SciPyLaws] (rd : String → Res (FileDict XR)) (m : Material XR)
    (hm : Material.new rd nanoKw = .ok m) (k : PlotKind) (p : Plot XR) :
    m.plot k { stype := some "energy", unit := some "ev" } ≠ .ok p := by
  intro hplot
  obtain ⟨hl, hc, hs, hb⟩ := nano_setting
  obtain ⟨m', r, i, h1, h2, h3, h4, h5, h6, h7, h8⟩ := table_material rd nano_table hc hs hb
  have e : m' = m := Except.ok.inj (h1.symm.trans hm)
  subst e
  have hw : lower m'.defType = "wavelength" := by rw [h6, hl]
  have hle : lower "energy" = "energy" := by decide +kernel
  rw [← h6] at h8 hc
  rw [← h7] at hc
  have hce : (lower "energy", "ev", "ev") ∈ names := by decide +kernel
  -- abscissae between 1.5 eV and 3.1 eV
  have hmem : ∀ x ∈ samplePoints (lower m'.defType) 400 800, (400 : ℝ) ≤ x ∧ x ≤ 800 :=
    fun x hx => samplePoints_mem (by norm_num) (by norm_num) hx
  have hfirst : (400 : ℝ) ∈ samplePoints (lower m'.defType) 400 800 := by
    rw [samplePoints, if_pos hw]
    exact List.mem_of_getElem? (geomReal_first' 400 800 (by norm_num))
  have hm400 : ∀ x : ℝ, metres (lower m'.defType) "nm" x = x / 10 ^ 9 := by
    intro x
    rw [hw]
    simp only [metres, lengthUnit, String.reduceEq, if_true, if_false]
    ring
  have hlow : ∀ x : ℝ, 400 ≤ x → x ≤ 800 →
      1 ≤ shown (lower "energy") "ev" (metres (lower m'.defType) "nm" x) := by
    intro x hx1 hx2
    rw [hm400, hle]
    unfold shown
    have : decimals "energy" "ev" = some 9 := by decide
    rw [this]
    have h1 : ((10 ^ 9 : ℤ) : ℝ) / 10 ^ 9 ≤ ofMetres "energy" "ev" (x / 10 ^ 9) := by
      simp only [ofMetres, metres, lengthUnit, String.reduceEq, if_true, if_false, Spec.h, Spec.c,
        Spec.e]
      rw [le_div_iff₀ (by positivity)]
      norm_num
      linarith
    have h2 := XR.roundDec_mono 9 h1
    rw [XR.roundDec_grid] at h2
    exact le_trans (by norm_num) h2
  obtain ⟨s, s1, s2, s3⟩ := sample_request m' r i "nm" 400 800 h2 h3 h4 h5 hc
    (by rw [hw]; decide) h8 (by norm_num) { stype := some "energy", unit := some "ev" } rfl
    "energy" "ev" "ev" rfl rfl hce (by rw [hle]; decide) _ rfl _ rfl
    (by
      intro _ x hx
      rw [hm400]
      have := (hmem x hx).1
      rw [lt_div_iff₀ (by norm_num)]
      exact lt_of_lt_of_le (by norm_num) this)
    (by
      intro z hz
      obtain ⟨x, hx, rfl⟩ := List.mem_map.1 hz
      have := hlow x (hmem x hx).1 (hmem x hx).2
      exact ⟨by linarith, fun _ => lt_of_lt_of_le (by norm_num) this⟩)
    (fun h => absurd hw h)
  have hfr : Fresh s := ⟨_, _, _, s1⟩
  have := (s3.1 (plot_reported h3 hfr s2 hplot) _ (List.mem_map_of_mem hfirst)).1
  rw [hw, hle, volts_of_400.1] at this
  exact absurd volts_of_400.2 (not_lt.2 this)

theorem C96_refuted [NumText XR] [SciPyLaws] : ¬ C96_statement := by
  intro hst
  obtain ⟨hl, hc, hs, hb⟩ := nano_setting
  have hle : lower "energy" = "energy" := by decide +kernel
  obtain ⟨m, p, h1, h2⟩ := hst (fun _ => .error .os) nanoKw _ _ _ nano_table "nm" hc
    (by rw [hl]; decide) 400 800 hs hb
    (by
      rw [hl]
      rintro x (rfl | rfl) <;>
        simp only [metres, lengthUnit, String.reduceEq, if_true, if_false] <;> norm_num)
    .nk "energy" "ev" "ev" "eV" (by decide +kernel) (by rw [hle]; decide) (by decide)
  exact nano_volts _ m h1 _ p h2

/-! ## Concrete cases -/

/-- The table from 400 nm to 800 nm can be plotted in its own unit … -/
example [NumText XR] [SciPyLaws] (rd : String → Res (FileDict XR)) (k : PlotKind) :
    ∃ (m : Material XR) (zs : List (Cx XR)), Material.new rd nanoKw = .ok m ∧
      m.plot k {} = .ok (figure k ((samplePoints "wavelength" 400 800).map
        (fun x => XR.fin (shown "wavelength" "nm" (metres "wavelength" "nm" x)))) zs
        "wavelength" "nm") := by
  obtain ⟨hl, hc, hs, hb⟩ := nano_setting
  obtain ⟨m, zs, h1, -, -, h2⟩ := C95_table rd nanoKw _ _ _ nano_table "nm" hc
    (by rw [hl]; decide) 400 800 hs hb k {} rfl (defaultsOf nanoKw).1 (defaultsOf nanoKw).2 "nm" "nm" rfl
    rfl hc (by rw [hl]; decide) (by decide) 400 800 hb (.inl ⟨rfl, rfl⟩) _ rfl
  rw [hl] at h2
  exact ⟨m, zs, h1, h2⟩

/-- … and over frequencies in Hz. -/
example [NumText XR] [SciPyLaws] (rd : String → Res (FileDict XR)) (k : PlotKind) :
    ∃ (m : Material XR) (zs : List (Cx XR)), Material.new rd nanoKw = .ok m ∧
      m.plot k { stype := some "frequency", unit := some "hz" } =
        .ok (figure k ((samplePoints "wavelength" 400 800).map
          (fun x => XR.fin (Spec.c / (x * (1 / 10 ^ 9))))) zs "frequency" "Hz") := by
  obtain ⟨hl, hc, hs, hb⟩ := nano_setting
  have hf : lower "frequency" = "frequency" := by decide +kernel
  obtain ⟨m, zs, h1, -, -, h2⟩ := C96_unrounded_partial rd nanoKw _ _ _ nano_table "nm" hc
    (by rw [hl]; decide) 400 800 hs hb
    (by
      rw [hl]
      rintro x (rfl | rfl) <;>
        simp only [metres, lengthUnit, String.reduceEq, if_true, if_false] <;> norm_num)
    k "frequency" "hz" "hz" "Hz" (by decide +kernel) (by rw [hf]; decide) (by decide)
    (by rw [hf]; decide) _ rfl
  rw [hl, hf] at h2
  exact ⟨m, zs, h1, by simpa [ofMetres, metres, lengthUnit] using h2⟩

/-- Glass of index 1.5 at 400 and 500: the plot in nm shows the two points (400, 1.5), (500, 1.5)
and zeros; the same plot in cm raises a KeyError. -/
example [NumText XR] (rd : String → Res (FileDict XR)) : ∃ m : Material XR,
    Material.new rd [("fixed_n", .float (XR.fin 1.5))] = .ok m ∧
    m.plot .nk { values := some (.list .float [XR.fin 400, XR.fin 500]), unit := some "nm" } =
      .ok { drawing := .curves [XR.fin 400, XR.fin 500] [XR.fin 1.5, XR.fin 1.5]
              [XR.fin 0, XR.fin 0],
            legend := ["n", "k"], ylabel := "n, k", xlabel := "wavelength (nm)" } ∧
    m.plot .nk { values := some (.list .float [XR.fin 400, XR.fin 500]), unit := some "cm" } =
      .error .key := by
  obtain ⟨h1, h2⟩ := only_single (F := XR) (n := "fixed_n") (t := .real) (by decide)
    (v := .float (XR.fin 1.5)) (by simp)
  have hp := plain_single (F := XR) (n := "fixed_n") (v := .float (XR.fin 1.5)) (by decide)
    (by decide)
  have key : ∀ u c : String, (lower "wavelength", lower u, c) ∈ names → ∃ m : Material XR,
      Material.new rd [("fixed_n", .float (XR.fin 1.5))] = .ok m ∧
      answer m .nk (.list .float [XR.fin 400, XR.fin 500]) "wavelength" u =
        .ok (.array [⟨XR.fin 1.5, XR.fin 0⟩, ⟨XR.fin 1.5, XR.fin 0⟩]) := by
    intro u c hc
    obtain ⟨s, hs, e1, -, -⟩ := plot_new (F := XR) (t := "wavelength") (u := u) (c := c) hc
      (raw := .list .float [XR.fin 400, XR.fin 500]) (.inl rfl)
    obtain ⟨h, -⟩ := C29_fixed rd _ h1 hp (.list .float [XR.fin 400, XR.fin 500]) rfl _ _ _ hs
      (by rw [e1]; simp [Vals.toList]) (by
        rw [e1]
        intro x hx
        simp only [Vals.toList, List.mem_cons, List.not_mem_nil, or_false] at hx
        rcases hx with rfl | rfl
        · show (0 : ℝ) ≤ 400
          norm_num
        · show (0 : ℝ) ≤ 500
          norm_num)
    obtain ⟨m, hm, he⟩ := h 1.5 h2
    refine ⟨m, hm, ?_⟩
    rw [answer_plotData m .nk hs]
    show (m.getNk s).1 = _
    rw [he, e1]
    rfl
  obtain ⟨m, hm, hnm⟩ := key "nm" "nm" (by decide +kernel)
  obtain ⟨m', hm', hcm⟩ := key "cm" "cm" (by decide +kernel)
  have e : m' = m := Except.ok.inj (hm'.symm.trans hm)
  subst e
  have hd : m'.defType = "wavelength" := by
    obtain ⟨h, -⟩ := C24_fixed_partial rd _ h1 hp
    rw [h _ h2] at hm
    cases hm; rfl
  refine ⟨m', hm, ?_, ?_⟩
  · obtain ⟨zs, e1, -, e2⟩ := C94_values m' .nk
      { values := some (.list .float [XR.fin 400, XR.fin 500]), unit := some "nm" } _ _ rfl (.inl rfl)
      (.inl rfl) "wavelength" "nm" "nm" "nm" hd.symm rfl (by decide +kernel) (by decide) _ hnm
    cases e1
    rw [e2]
    have : lower "wavelength" = "wavelength" := by decide +kernel
    rw [this]
    rfl
  · exact C94_centimetres m'
      { values := some (.list .float [XR.fin 400, XR.fin 500]), unit := some "cm" } _ _ rfl (.inl rfl)
      "wavelength" "cm" hd.symm rfl (by decide +kernel) _ hcm

end ideal

end Disp
