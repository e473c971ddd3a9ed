import Verif.Props.Interpolation
/-!
# Witnesses: two-row tables in metres and their extrapolations
-/

namespace Disp

/-- The straight line through two points. -/
noncomputable def lineAt (a b ya yb x : ℝ) : ℝ := ya + (yb - ya) * ((x - a) / (b - a))

/-- The data object of the table `[[a, ya], [b, yb]]` in metres. -/
noncomputable def lineData [SciPy XR] (a b ya yb : ℝ) : RealData XR :=
  .interp 1 (xrows [(a, ya), (b, yb)]) (metreSpectrum ([a, b].map XR.fin)) "wavelength" "m"

theorem sort_two {a b ya yb : ℝ} (hab : a < b) : sortRows (xrows [(a, ya), (b, yb)]) =
    [(XR.fin a, XR.fin ya), (XR.fin b, XR.fin yb)] := by
  simp [xrows, sortRows, insertRow, hab]

theorem lineData_new [SciPy XR] {a b ya yb : ℝ} (hab : a < b) :
    RealData.newInterp .float (xrows [(a, ya), (b, yb)]) "wavelength" "m" 1 =
      .ok (lineData a b ya yb) := by
  have h1 : npMin (Vals.array DType.float [XR.fin a, XR.fin b]) = .ok (XR.fin a) := by
    simp [npMin, Vals.toList, npMinList, hab.le]
  have h2 : npMax (Vals.array DType.float [XR.fin a, XR.fin b]) = .ok (XR.fin b) := by
    simp [npMax, Vals.toList, npMaxList, hab]
  have h3 : interpInit 1 (xrows [(a, ya), (b, yb)]) = .ok () := by
    simp only [interpInit, sort_two hab, noDuplicates]
    simp [xrows, hab]
  unfold RealData.newInterp
  rw [h3]
  simp only [xrows, List.map_cons, List.map_nil, h1, h2, metreSpectrum_new, bind, Except.bind]
  rfl

theorem interpLinear_two {a b ya yb : ℝ} (hab : a < b) {x : ℝ} (h1 : a ≤ x) (h2 : x ≤ b) :
    interpLinear (xrows [(a, ya), (b, yb)]) (XR.fin x) = .ok (XR.fin (lineAt a b ya yb x)) := by
  have hd : b - a ≠ 0 := by linarith
  unfold interpLinear
  rw [sort_two hab]
  simp only [List.getLast?_singleton, Option.getD_some, XR.lt_fin, not_lt.2 h1, not_lt.2 h2,
    decide_false, Bool.or_self, Bool.false_eq_true, if_false, evalSegments]
  rw [segment_real (a, ya) (b, yb) hab x]
  congr 2

theorem lineData_evaluate [SciPy XR] {a b ya yb : ℝ} (hab : a < b) (ys : List ℝ) (hy : ys ≠ [])
    (h : ∀ y ∈ ys, a ≤ y ∧ y ≤ b) :
    (lineData a b ya yb).evaluate (metreSpectrum (ys.map XR.fin)) =
      (.ok (.array .float (ys.map (fun y => XR.fin (lineAt a b ya yb y)))),
        metreSpectrum (ys.map XR.fin)) := by
  simp only [lineData, RealData.evaluate]
  rw [metre_contains [a, b] ys (by simp) hy (fun y hym =>
    ⟨⟨a, by simp, (h y hym).1⟩, ⟨b, by simp, (h y hym).2⟩⟩), metreSpectrum_convert]
  simp only [bind, Except.bind, Vals.mapRes]
  have : (ys.map XR.fin).mapM (interpAt 1 (xrows [(a, ya), (b, yb)])) =
      .ok (ys.map (fun y => XR.fin (lineAt a b ya yb y))) := by
    clear hy
    induction ys with
    | nil => rfl
    | cons y ys ih =>
      have hy := h y (by simp)
      rw [List.map_cons, List.mapM_cons, ih (fun z hz => h z (by simp [hz]))]
      simp only [interpAt, if_true, interpLinear_two hab hy.1 hy.2, bind, Except.bind, pure,
        Except.pure, List.map_cons]
  rw [this]

theorem line_outside [SciPy XR] {a b ya yb : ℝ} {y : ℝ} (h : y < a ∧ y < b ∨ a < y ∧ b < y) :
    (lineData a b ya yb).evaluate (metreSpectrum ([y].map XR.fin)) =
      (.error .value, metreSpectrum ([y].map XR.fin)) := by
  simp only [lineData, RealData.evaluate]
  rw [metre_not_contains [a, b] [y] (by simp) (y := y) (by simp)]
  · rfl
  · simp only [List.mem_cons, List.not_mem_nil, or_false, forall_eq_or_imp, forall_eq]
    exact h

/-- Extrapolating such a table beyond its upper end. -/
theorem lineData_extrap [SciPy XR] [SciPyLaws] {a b ya yb e : ℝ} (ha : 0 < a) (hab : a < b)
    (he : b < e) (k : ℕ) (hk : 1 ≤ k) (hk' : k ≤ 5) :
    ∃ spl, RealData.newExtrap (lineData a b ya yb) (metreSpectrum ([e].map XR.fin)) k =
      (.ok (.extrap (lineData a b ya yb) k spl (metreSpectrum ([a, e].map XR.fin))
        "wavelength" "m"), metreSpectrum ([e].map XR.fin)) ∧
      ∀ x ∈ geomReal a b 1000, SciPy.splev spl (XR.fin x) = XR.fin (lineAt a b ya yb x) := by
  have hmin : ∀ b', a < b' → npMin (metreSpectrum ([a, b'].map XR.fin)).values = .ok (XR.fin a) := by
    intro b' hb'
    simp [metreSpectrum, npMin, Vals.toList, npMinList, hb'.le]
  have hmax : ∀ b', a < b' → npMax (metreSpectrum ([a, b'].map XR.fin)).values = .ok (XR.fin b') := by
    intro b' hb'
    simp [metreSpectrum, npMax, Vals.toList, npMaxList, hb']
  have hb : 0 < b := ha.trans hab
  have hae : a < e := hab.trans he
  have hg := SciPyLaws.geom a b 1000 ha hb (by norm_num)
  have hs : RealData.suggestSpectrum (lineData a b ya yb) =
      .ok (metreSpectrum ((geomReal a b 1000).map XR.fin)) := by
    unfold RealData.suggestSpectrum
    rw [show (lineData a b ya yb).range = metreSpectrum ([a, b].map XR.fin) from rfl,
      hmin b hab, hmax b hab]
    simp only [bind, Except.bind, hg]
    exact metreSpectrum_new' _
  have hev := lineData_evaluate (ya := ya) (yb := yb) hab (geomReal a b 1000)
    (List.ne_nil_of_mem (geomReal_first (a := a) (b := b) (by norm_num)))
    (fun y hy => geomReal_mem ha hab.le (by norm_num) hy)
  obtain ⟨spl, h1, h2⟩ := SciPyLaws.spline
    ((geomReal a b 1000).map (fun x => (x, lineAt a b ya yb x))) k hk hk'
    (by rw [List.length_map, geomReal_length]; omega)
    (by
      rw [List.map_map]
      have : ((fun p : ℝ × ℝ => p.1) ∘ fun x => (x, lineAt a b ya yb x)) = id := rfl
      rw [this, List.map_id]
      exact geomReal_pairwise ha hab (by norm_num))
  have hx : extrapolateData (lineData a b ya yb) k = .ok spl := by
    unfold extrapolateData
    rw [hs]
    simp only [bind, Except.bind, hev]
    rw [← h1]
    simp only [List.map_map, Function.comp_def, metreSpectrum, Vals.toList]
  refine ⟨spl, ?_, fun x hx => h2 (x, lineAt a b ya yb x) (List.mem_map.2 ⟨x, hx, rfl⟩)⟩
  have hcip := metre_convertInPlace ([e].map XR.fin)
  have hge : getExtrapSpectrum (lineData a b ya yb).range (metreSpectrum ([e].map XR.fin)) =
      (.ok (metreSpectrum ([a, e].map XR.fin)), metreSpectrum ([e].map XR.fin)) := by
    unfold getExtrapSpectrum
    simp only [lineData, RealData.range]
    rw [show (metreSpectrum ([a, b].map XR.fin)).stype = "wavelength" from rfl,
      show (metreSpectrum ([a, b].map XR.fin)).unit = "m" from rfl, hcip]
    simp only [metreSpectrum, List.map_cons, List.map_nil, List.length_cons, List.length_nil]
    have hval : validateExtrapVal .float (XR.fin e) [XR.fin a, XR.fin b] =
        .ok [XR.fin a, XR.fin e] := by
      simp [validateExtrapVal, pyIdx, bind, Except.bind, he, storeEntry, not_lt.2 hae.le]
    simp only [List.foldlM_cons, List.foldlM_nil, hval, bind, Except.bind, pure, Except.pure]
    have := metreSpectrum_new' [XR.fin a, XR.fin e]
    rw [this]
    simp [metreSpectrum]
  unfold RealData.newExtrap
  rw [hge]
  have hr : extrapRange (lineData a b ya yb) (metreSpectrum ([a, e].map XR.fin)) =
      .ok (metreSpectrum ([a, e].map XR.fin)) := by
    unfold extrapRange
    rw [hmin e hae, hmax e hae]
    have := metreSpectrum_new [XR.fin a, XR.fin e]
    simp only [lineData, RealData.stype, RealData.unit, bind, Except.bind]
    exact this
  simp only [hr, hx, bind, Except.bind]
  rfl

/-- Asking for a value inside the table's range fails, and changes nothing. -/
theorem lineData_extrap_inside [SciPy XR] {a b ya yb e : ℝ} (h1 : a ≤ e) (h2 : e ≤ b) (k : ℕ) :
    RealData.newExtrap (lineData a b ya yb) (metreSpectrum ([e].map XR.fin)) k =
      (.error .value, metreSpectrum ([e].map XR.fin)) := by
  have hcip := metre_convertInPlace ([e].map XR.fin)
  have hge : getExtrapSpectrum (lineData a b ya yb).range (metreSpectrum ([e].map XR.fin)) =
      (.error .value, metreSpectrum ([e].map XR.fin)) := by
    unfold getExtrapSpectrum
    simp only [lineData, RealData.range]
    rw [show (metreSpectrum ([a, b].map XR.fin)).stype = "wavelength" from rfl,
      show (metreSpectrum ([a, b].map XR.fin)).unit = "m" from rfl, hcip]
    simp only [metreSpectrum, List.map_cons, List.map_nil, List.length_cons, List.length_nil]
    have hval : validateExtrapVal .float (XR.fin e) [XR.fin a, XR.fin b] = .error .value := by
      simp [validateExtrapVal, pyIdx, bind, Except.bind, not_lt.2 h1, not_lt.2 h2]
    simp only [List.foldlM_cons, List.foldlM_nil, hval, bind, Except.bind]
    simp
  unfold RealData.newExtrap
  rw [hge]

end Disp
