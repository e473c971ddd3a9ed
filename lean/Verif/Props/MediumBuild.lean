import Verif.Props.MixingFormulas
import Verif.Props.MaterialRange
/-!
# How an effective medium is built

The outcome of the constructor in terms of the permittivities of the constituents, and the data
objects made from a table of finite numbers at distinct wavelengths.
-/

namespace Disp

open Spec

section generic
variable {F : Type} [PyFloat F] [SciPy F]

omit [SciPy F] in
/-- In-place conversion sees only the wavelengths. -/
theorem convertCore_congr {s s' : Spectrum F} (h : s'.std = s.std) (t u : String) :
    s'.convertCore t u = s.convertCore t u := by
  unfold Spectrum.convertCore
  rw [h]

omit [PyFloat F] [SciPy F] in
theorem SameForm.length {v w : Vals F} (h : SameForm v w) : v.toList.length = w.toList.length := by
  cases v <;> cases w <;> simp_all [SameForm, Vals.toList]

omit [PyFloat F] [SciPy F] in
theorem Aligned.length {s : Spectrum F} (h : Aligned s) :
    s.values.toList.length = s.std.toList.length := by
  rcases h with ⟨x, y, h1, h2⟩ | ⟨xs, ys, h1, h2, h3⟩
  · rw [h1, h2]; rfl
  · rw [h1, h2]; exact h3

/-- The outcome of an evaluation depends only on the wavelengths of the Spectrum object, not on
the type and unit in which it is expressed at that moment. -/
theorem evaluate_congr (d : RealData F) {s s' : Spectrum F} (hal : Aligned s) (hal' : Aligned s')
    (h : s'.std = s.std) : (d.evaluate s').1 = (d.evaluate s).1 := by
  induction d generalizing s s' with
  | constant c r t u =>
    simp only [RealData.evaluate]
    rw [contains_congr h]
    rcases hal with ⟨x, y, h1, h2⟩ | ⟨xs, ys, h1, h2, h3⟩
    · rcases hal' with ⟨x', y', h1', h2'⟩ | ⟨xs', ys', h1', h2', h3'⟩
      · rw [h1, h1']
      · rw [h2, h2'] at h; cases h
    · rcases hal' with ⟨x', y', h1', h2'⟩ | ⟨xs', ys', h1', h2', h3'⟩
      · rw [h2, h2'] at h; cases h
      · rw [h2, h2'] at h
        have hy : ys' = ys := by cases h; rfl
        rw [h1, h1']
        simp only
        have : xs'.map (fun _ => c * lit 1) = xs.map (fun _ => c * (lit 1 : F)) := by
          rw [List.map_const', List.map_const', h3, h3', hy]
        rw [this]
  | interp o rows r t u => exact interp_congr h o rows r t u
  | model k p r t u =>
    simp only [RealData.evaluate]
    rw [contains_congr h, convertTo_congr h]
  | extrap base order spl r t u ih =>
    have key : ∀ (s1 s1' : Spectrum F), s1'.std = s1.std → ∀ e : PyErr,
        (if e.isA .value then
          match s1'.convertInPlace t u with
          | (.error e', s'') => (.error e', s'')
          | (.ok _, s'') =>
            (do
              let _ ← r.contains s''
              .ok (s''.values.map (SciPy.splev spl)), s'')
         else (.error e, s1') : Res (Vals F) × Spectrum F).1 =
        (if e.isA .value then
          match s1.convertInPlace t u with
          | (.error e', s'') => (.error e', s'')
          | (.ok _, s'') =>
            (do
              let _ ← r.contains s''
              .ok (s''.values.map (SciPy.splev spl)), s'')
         else (.error e, s1) : Res (Vals F) × Spectrum F).1 := by
      intro s1 s1' h1 e
      split
      · unfold Spectrum.convertInPlace
        rw [convertCore_congr h1]
        cases s1.convertCore t u with
        | error e' => rfl
        | ok p =>
          obtain ⟨t', u', v⟩ := p
          simp only
          rw [contains_congr (s := { s1 with values := v, stype := t', unit := u' })
            (s' := { s1' with values := v, stype := t', unit := u' }) h1]
      · rfl
    simp only [RealData.evaluate]
    rw [contains_congr h]
    cases hc : base.range.contains s with
    | error e => exact key s s' h e
    | ok b =>
      simp only
      have e1 := ih hal hal' h
      obtain ⟨g, hg⟩ := evaluate_history base s
      obtain ⟨g', hg'⟩ := evaluate_history base s'
      have hst : (base.evaluate s').2.std = (base.evaluate s).2.std := by
        rw [hg, hg', C09_reference_fixed, C09_reference_fixed, h]
      cases hev : base.evaluate s with
      | mk x s1 =>
        cases hev' : base.evaluate s' with
        | mk x' s1' =>
          rw [hev, hev'] at e1 hst
          simp only at e1 hst
          subst e1
          cases x' with
          | ok v => rfl
          | error e => exact key s1 s1' hst e

theorem evalPart_congr (d : Option (RealData F)) {s s' : Spectrum F} (hal : Aligned s)
    (hal' : Aligned s') (h : s'.std = s.std) : (evalPart d s').1 = (evalPart d s).1 := by
  cases d with
  | none => rfl
  | some d => exact evaluate_congr d hal hal' h

theorem evalStored_congr (m : Material F) {s s' : Spectrum F} (hal : Aligned s)
    (hal' : Aligned s') (h : s'.std = s.std) : (m.evalStored s').1 = (m.evalStored s).1 := by
  unfold Material.evalStored
  cases m.cplx with
  | some d =>
    simp only [CplxData.evaluate]
    rw [contains_congr h, convertTo_congr h]
  | none =>
    simp only
    have e1 := evalPart_congr m.real hal hal' h
    obtain ⟨g, hg⟩ := evalPart_history m.real s
    obtain ⟨g', hg'⟩ := evalPart_history m.real s'
    cases hx : evalPart m.real s with
    | mk x s1 =>
      cases hx' : evalPart m.real s' with
      | mk x' s1' =>
        rw [hx] at e1 hg
        rw [hx'] at e1 hg'
        simp only at e1 hg hg'
        subst e1
        cases x' with
        | error e => rfl
        | ok v =>
          simp only
          have e2 := evalPart_congr m.imag (s := s1) (s' := s1')
            (by rw [hg]; exact aligned_after hal g) (by rw [hg']; exact aligned_after hal' g')
            (by rw [hg, hg', C09_reference_fixed, C09_reference_fixed, h])
          cases hy : evalPart m.imag s1 with
          | mk y s2 =>
            cases hy' : evalPart m.imag s1' with
            | mk y' s2' =>
              rw [hy, hy'] at e2
              simp only at e2
              subst e2
              cases y' <;> rfl

/-- The permittivity depends only on the wavelengths of the Spectrum object. -/
theorem getPermittivity_congr (m : Material F) {s s' : Spectrum F} (hal : Aligned s)
    (hal' : Aligned s') (h : s'.std = s.std) :
    (m.getPermittivity s').1 = (m.getPermittivity s).1 := by
  by_cases hn : m.name = "nk" ∨ m.name = "eps"
  · rw [getPermittivity_eq m s hn, getPermittivity_eq m s' hn, evalStored_congr m hal hal' h]
  · unfold Material.getPermittivity
    rw [if_pos hn, if_pos hn]

/-- The Spectrum object re-expressed in metres. -/
def inMetres (s : Spectrum F) : Spectrum F :=
  { values := s.std, stype := "wavelength", unit := "m", std := s.std }

omit [SciPy F] in
theorem metres_convertInPlace {s : Spectrum F} (hal : Aligned s) :
    s.convertInPlace "wavelength" "m" = (.ok (), inMetres s) := by
  have hl : lower "wavelength" = "wavelength" := by decide +kernel
  have hv : convertVals "wavelength" "m" s.std = .ok s.std := by
    rcases hal with ⟨x, y, h1, h2⟩ | ⟨xs, ys, h1, h2, h3⟩
    · rw [h2, convertVals_scalar (by decide +kernel)]; simp [toElem]
    · rw [h2, convertVals_array (by decide +kernel)]
      congr 2
      conv_rhs => rw [← List.map_id ys]
      exact List.map_congr_left fun a _ => by simp [toElem]
  unfold Spectrum.convertInPlace Spectrum.convertCore
  simp only [hl, show dictHas spectrumTypes "wavelength" = true by decide +kernel, if_true,
    show standardiseUnit "wavelength" "m" = .ok "m" by decide +kernel, bind, Except.bind, hv]
  rfl

/-- The outcome of the constructor: the permittivities of both constituents at the spectrum, as
separate calls would give them, are mixed and tabulated over the wavelengths in metres. After
success the caller's Spectrum object is expressed in metres. -/
theorem medium_outcome (k : Mixing) {s : Spectrum F} (hal : Aligned s) (m1 m2 : Material F)
    (frac : F) (h0 : PyFloat.lt frac (lit 0) = false) (h1 : PyFloat.lt (lit 1) frac = false) :
    (effectiveMedium k s m1 m2 frac).1 = (do
      let e1 ← (m1.getPermittivity s).1
      let e2 ← (m2.getPermittivity s).1
      let eps ← mixVals k frac e1 e2
      let t ← mediumTable s.std eps
      processTable blankMedium t "eps" []) ∧
    (∀ m, (effectiveMedium k s m1 m2 frac).1 = .ok m →
      (effectiveMedium k s m1 m2 frac).2 = inMetres s) ∧
    (effectiveMedium k s m1 m2 frac).2.std = s.std := by
  obtain ⟨-, ⟨g1, hg1⟩, -, -⟩ := C31_same_wavelengths_partial m1 s
  have hst1 : (m1.getPermittivity s).2.std = s.std := by rw [hg1, C09_reference_fixed]
  have hal1 : Aligned (m1.getPermittivity s).2 := by rw [hg1]; exact aligned_after hal g1
  obtain ⟨-, ⟨g2, hg2⟩, -, -⟩ := C31_same_wavelengths_partial m2 (m1.getPermittivity s).2
  have hst2 : (m2.getPermittivity (m1.getPermittivity s).2).2.std = s.std := by
    rw [hg2, C09_reference_fixed, hst1]
  have hal2 : Aligned (m2.getPermittivity (m1.getPermittivity s).2).2 := by
    rw [hg2]; exact aligned_after hal1 g2
  have hc := getPermittivity_congr m2 hal hal1 hst1
  unfold effectiveMedium
  rw [if_neg (by rw [h0, h1]; simp)]
  cases hx : m1.getPermittivity s with
  | mk x s1 =>
    rw [hx] at hst1 hst2 hal2 hc
    simp only at hst1 hst2 hal2 hc
    cases x with
    | error e => exact ⟨rfl, fun m hm => (by cases hm), hst1⟩
    | ok e1 =>
      simp only
      cases hy : m2.getPermittivity s1 with
      | mk y s2 =>
        rw [hy] at hc hst2 hal2
        simp only at hc hst2 hal2
        rw [← hc]
        cases y with
        | error e => exact ⟨rfl, fun m hm => (by cases hm), hst2⟩
        | ok e2 =>
          simp only [bind, Except.bind]
          cases hmix : mixVals k frac e1 e2 with
          | error e => exact ⟨rfl, fun m hm => (by cases hm), hst2⟩
          | ok eps =>
            simp only
            rw [metres_convertInPlace hal2]
            have hi : inMetres s2 = inMetres s := by unfold inMetres; rw [hst2]
            rw [hi]
            exact ⟨rfl, fun m _ => rfl, rfl⟩

end generic

section ideal
variable [SciPy XR]

/-- Two lists over the same points. -/
noncomputable def pointRows (ys : List ℝ) (g : ℝ → ℝ) : List (ℝ × ℝ) := ys.map (fun y => (y, g y))

theorem exists_min : ∀ (ys : List ℝ), ys ≠ [] → ∃ lo ∈ ys, ∀ y ∈ ys, lo ≤ y
  | [], h => (h rfl).elim
  | [y], _ => ⟨y, by simp, by simp⟩
  | y :: z :: ys, _ => by
    obtain ⟨lo, h1, h2⟩ := exists_min (z :: ys) (by simp)
    rcases le_total y lo with h | h
    · refine ⟨y, by simp, fun x hx => ?_⟩
      rcases List.mem_cons.1 hx with rfl | hx
      · exact le_refl _
      · exact h.trans (h2 x hx)
    · refine ⟨lo, List.mem_cons_of_mem _ h1, fun x hx => ?_⟩
      rcases List.mem_cons.1 hx with rfl | hx
      · exact h
      · exact h2 x hx

theorem exists_max : ∀ (ys : List ℝ), ys ≠ [] → ∃ hi ∈ ys, ∀ y ∈ ys, y ≤ hi := by
  intro ys h
  obtain ⟨lo, h1, h2⟩ := exists_min (ys.map (fun y => -y)) (by simpa using h)
  obtain ⟨z, hz, rfl⟩ := List.mem_map.1 h1
  refine ⟨z, hz, fun y hy => ?_⟩
  have := h2 (-y) (List.mem_map_of_mem hy)
  linarith

/-- The data object made from finite numbers at distinct wavelengths: it covers exactly the
range of the wavelengths, and has the given values at them, for requests in every type and unit
and in every order. -/
theorem table_part (ys : List ℝ) (hne : ys ≠ []) (hnd : ys.Nodup) (g : ℝ → ℝ) :
    ∃ d lo hi, tableData .float (xrows (pointRows ys g)) "wavelength" "m" = .ok d ∧
      MetrePart d [XR.fin lo, XR.fin hi] ∧ lo ∈ ys ∧ hi ∈ ys ∧ (∀ y ∈ ys, lo ≤ y ∧ y ≤ hi) ∧
      ∀ (q : Spectrum XR) (qs : List ℝ), Aligned q → StandsFor q qs → (∀ y ∈ qs, y ∈ ys) →
        ∃ v, (d.evaluate q).1 = .ok v ∧ SameForm v q.values ∧
          v.toList = qs.map (fun y => XR.fin (g y)) := by
  obtain ⟨lo, hlo, hlo'⟩ := exists_min ys hne
  obtain ⟨hi, hhi, hhi'⟩ := exists_max ys hne
  have hmem : ∀ {x : ℝ}, XR.fin x ∈ (xrows (pointRows ys g)).map (fun p : XR × XR => p.1) → x ∈ ys := by
    intro x hx
    simp only [xrows, pointRows, List.map_map, List.mem_map, Function.comp] at hx
    obtain ⟨y, hy, h⟩ := hx
    exact (XR.fin.inj h) ▸ hy
  match hys : ys with
  | [] => exact (hne rfl).elim
  | [y] =>
    have hnew : RealData.newConstant (XR.fin (g y)) (.list .float [XR.fin y, XR.fin y]) "wavelength" "m"
        = .ok (.constant (XR.fin (g y)) (metreSpectrum [XR.fin y, XR.fin y]) "wavelength" "m") := by
      unfold RealData.newConstant
      rw [metreSpectrum_new]
      rfl
    have hp : MetrePart (.constant (XR.fin (g y)) (metreSpectrum [XR.fin y, XR.fin y])
        "wavelength" "m") [XR.fin y, XR.fin y] :=
      .const _ _ (by simp) (by intro x hx; simp at hx; subst hx; rfl)
    refine ⟨_, y, y, hnew, hp, by simp, by simp, by simp, ?_⟩
    intro q qs hal hs hq
    have hw : Within [XR.fin y, XR.fin y] (qs.map XR.fin) := by
      intro z hz
      obtain ⟨w, hw, rfl⟩ := List.mem_map.1 hz
      have : w = y := by simpa using hq w hw
      subst this
      refine ⟨⟨XR.fin w, by simp, ?_⟩, XR.fin w, by simp, ?_⟩ <;> simp
    have hcon := (metre_check hp.spec.2.1 hp.spec.2.2.1 hs).1 hw
    have hconst : ∀ l : List ℝ, (∀ w ∈ l, w ∈ [y]) →
        l.map (fun w => XR.fin (g w)) = l.map (fun _ => XR.fin (g y)) := by
      intro l hl
      apply List.map_congr_left
      intro w hw
      have : w = y := by simpa using hl w hw
      rw [this]
    simp only [RealData.evaluate, hcon, bind, Except.bind, LawfulOne.mul_one]
    rcases hal with ⟨x, z, h1, h2⟩ | ⟨xs, zs, h1, h2, h3⟩
    · rw [h1]
      refine ⟨_, rfl, trivial, ?_⟩
      rcases hs.2 with ⟨w, rfl, hw'⟩ | h
      · rw [hconst _ hq]; rfl
      · rw [h2] at h; cases h
    · rw [h1]
      refine ⟨_, rfl, by simp [SameForm], ?_⟩
      rcases hs.2 with ⟨w, rfl, hw'⟩ | h
      · rw [h2] at hw'; cases hw'
      · rw [h2] at h
        have hz : zs = qs.map XR.fin := by cases h; rfl
        rw [hconst _ hq]
        simp only [Vals.toList]
        rw [List.map_const', List.map_const', h3, hz, List.length_map]
  | y1 :: y2 :: rest =>
    rw [← hys] at hne hnd hlo hlo' hhi hhi' hmem ⊢
    have hrows : tableData .float (xrows (pointRows ys g)) "wavelength" "m" =
        RealData.newInterp .float (xrows (pointRows ys g)) "wavelength" "m" 1 := by
      rw [hys]; rfl
    have hgood : GoodTable 2 (ys.map (fun y => [XR.fin y, XR.fin (g y)])) := by
      refine ⟨by simpa using hne, ?_, ?_, ?_⟩
      · intro r hr
        obtain ⟨y, -, rfl⟩ := List.mem_map.1 hr
        rfl
      · intro r hr
        obtain ⟨y, -, rfl⟩ := List.mem_map.1 hr
        rfl
      · rw [List.pairwise_map]
        refine hnd.imp ?_
        intro a b hab
        show PyFloat.eq (XR.fin a) (XR.fin b) = false
        simpa using hab
    obtain ⟨d, hd⟩ := tableData_ok hgood 1 (t := "wavelength") (u := "m") (c := "m")
      (by decide +kernel)
    have hps : pairsOf (ys.map (fun y => [XR.fin y, XR.fin (g y)])) 1 = xrows (pointRows ys g) := by
      simp only [pairsOf, xrows, pointRows, List.map_map]
      rfl
    rw [hps] at hd
    have hd' := hd
    rw [hrows] at hd'
    obtain ⟨lo', hi', r, g1, g2, g3, g4, g5, g6⟩ := newInterp_ok hd'
    have hr : r = metreSpectrum [lo', hi'] := Except.ok.inj (g3.symm.trans (metreSpectrum_new _))
    have hnn : NoNaN ((xrows (pointRows ys g)).map (fun p : XR × XR => p.1)) := by
      intro x hx
      simp only [xrows, List.map_map, List.mem_map] at hx
      obtain ⟨p, -, rfl⟩ := hx
      rfl
    have hXs : (xrows (pointRows ys g)).map (fun p : XR × XR => p.1) = ys.map XR.fin := by
      simp only [xrows, pointRows, List.map_map]; rfl
    have hne' : ((xrows (pointRows ys g)).map (fun p : XR × XR => p.1)) ≠ [] := by
      rw [hXs]; simpa using hne
    obtain ⟨m1, f1, f2, f3⟩ := npMin_spec (.array .float _) hne' hnn
    obtain ⟨m2, k1, k2, k3⟩ := npMax_spec (.array .float _) hne' hnn
    have a1 : m1 = lo' := Except.ok.inj (f1.symm.trans g1)
    have a2 : m2 = hi' := Except.ok.inj (k1.symm.trans g2)
    simp only [Vals.toList, hXs] at f2 f3 k2 k3
    obtain ⟨x1, hx1, e1⟩ := List.mem_map.1 f2
    obtain ⟨x2, hx2, e2⟩ := List.mem_map.1 k2
    have b1 : x1 = lo := by
      have := f3 _ (List.mem_map_of_mem hlo)
      rw [← e1, XR.lt_fin, decide_eq_false_iff_not, not_lt] at this
      exact le_antisymm this (hlo' _ hx1)
    have b2 : x2 = hi := by
      have := k3 _ (List.mem_map_of_mem hhi)
      rw [← e2, XR.lt_fin, decide_eq_false_iff_not, not_lt] at this
      exact le_antisymm (hhi' _ hx2) this
    have hrange : d.range = metreSpectrum [XR.fin lo, XR.fin hi] := by
      rw [g6, ← b1, ← b2, e1, e2, a1, a2]; exact hr
    have hp : MetrePart d [XR.fin lo, XR.fin hi] := .table _ _ _ _ hd' hrange
    refine ⟨d, lo, hi, hd, hp, hlo, hhi, fun y hy => ⟨hlo' y hy, hhi' y hy⟩, ?_⟩
    intro q qs hal hs hq
    have hw : Within [XR.fin lo, XR.fin hi] (qs.map XR.fin) := by
      intro z hz
      obtain ⟨w, hw, rfl⟩ := List.mem_map.1 hz
      refine ⟨⟨XR.fin lo, by simp, ?_⟩, XR.fin hi, by simp, ?_⟩
      · simpa using hlo' w (hq w hw)
      · simpa using hhi' w (hq w hw)
    obtain ⟨v, hv⟩ := (hp.evaluate hs).2 hw
    have hform := evaluate_form d q hal hv
    rw [show (d.evaluate q).2 = q from evalPart_plain (d := some d) hp.spec.2.2.2 q] at hform
    refine ⟨v, hv, hform, ?_⟩
    obtain ⟨ov, o1, o2⟩ := hs.convert
    have hlen : v.toList.length = qs.length := by
      rw [hform.length, hal.length]
      rcases hs.2 with ⟨w, rfl, hw'⟩ | h
      · rw [hw']; rfl
      · rw [h]; simp [Vals.toList]
    apply List.ext_getElem?
    intro i
    by_cases hi : i < qs.length
    · have hx : ov.toList[i]? = some (XR.fin qs[i]) := by
        rw [o2, List.getElem?_map, List.getElem?_eq_getElem hi]; rfl
      obtain ⟨y, y1, y2⟩ := C14_interpolation _ _ _ d hd' q v ov hv o1 i _ hx
      have hrow : (qs[i], g qs[i]) ∈ pointRows ys g :=
        List.mem_map.2 ⟨qs[i], hq _ (List.getElem_mem hi), rfl⟩
      have := C14_knots _ _ _ d hd' _ hrow y y2
      rw [y1, this, List.getElem?_map, List.getElem?_eq_getElem hi]
      rfl
    · rw [List.getElem?_eq_none (by omega), List.getElem?_eq_none (by rw [List.length_map]; omega)]

end ideal

end Disp
