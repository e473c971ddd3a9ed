import Verif.Spec.Physics
import Verif.Props.SpectrumNames
/-!
# C04 – C08: numerical correctness of conversions

On the ideal arithmetic `XR`, except `C06_agree_partial` (every arithmetic).
-/

namespace Disp

open Spec

/-! ## Auxiliary: conversion of one value -/

section generic
variable {F : Type} [PyFloat F]

/-- `Spectrum(x, t, u).convert_to(t', u')` for a scalar. -/
def convertScalar (t u t' u' : String) (x : F) : Res F := do
  let s ← Spectrum.new (.float x) t u
  match ← s.convertTo t' u' with
  | .scalar y => .ok y
  | .array _ _ => .error .type

/-- `Spectrum(xs, t, u).convert_to(t', u')` for a list of floats. -/
def convertList (t u t' u' : String) (xs : List F) : Res (Vals F) := do
  let s ← Spectrum.new (.list .float xs) t u
  s.convertTo t' u'

theorem new_scalar {t u c : String} (hc : (lower t, lower u, c) ∈ names) (x : F) :
    Spectrum.new (.float x) t u = .ok
      { values := .scalar x, stype := lower t, unit := c,
        std := .scalar (fromElem safeInverseScalar (lower t) c x) } := by
  rw [Spectrum.new_eq, specLookup_ok_iff.2 hc]
  have := convertFrom_scalar (F := F) (names_pairs _ hc) x
  simp only at this
  simp only [Raw.check, bind, Except.bind, this]

theorem new_list {t u c : String} (hc : (lower t, lower u, c) ∈ names) (xs : List F) :
    Spectrum.new (.list .float xs) t u = .ok
      { values := .array .float xs, stype := lower t, unit := c,
        std := .array .float (xs.map (fromElem safeInverseElem (lower t) c)) } := by
  rw [Spectrum.new_eq, specLookup_ok_iff.2 hc]
  have := convertFrom_array (F := F) (names_pairs _ hc) xs
  simp only at this
  simp only [Raw.check, bind, Except.bind, this]

theorem convertScalar_eq {t u c t' u' c' : String} (hc : (lower t, lower u, c) ∈ names)
    (hc' : (lower t', u', c') ∈ names) (x : F) :
    convertScalar t u t' u' x = .ok (toElem safeInverseScalar (lower t') c'
      (fromElem safeInverseScalar (lower t) c x)) := by
  unfold convertScalar
  rw [new_scalar hc]
  simp only [bind, Except.bind]
  rw [Spectrum.convertTo_eq, specLookup_ok_iff.2 hc']
  simp only
  rw [convertVals_scalar (names_pairs _ hc')]

theorem convertList_eq {t u c t' u' c' : String} (hc : (lower t, lower u, c) ∈ names)
    (hc' : (lower t', u', c') ∈ names) (xs : List F) :
    convertList t u t' u' xs = .ok (.array .float (xs.map (fun x =>
      toElem safeInverseElem (lower t') c' (fromElem safeInverseElem (lower t) c x)))) := by
  unfold convertList
  rw [new_list hc]
  simp only [bind, Except.bind]
  rw [Spectrum.convertTo_eq, specLookup_ok_iff.2 hc']
  simp only
  rw [convertVals_array (names_pairs _ hc'), List.map_map]
  rfl

theorem mapM_ok {α β : Type} (f : α → β) (xs : List α) :
    xs.mapM (fun x => (.ok (f x) : Res β)) = .ok (xs.map f) := by
  induction xs with
  | nil => rfl
  | cons x xs ih => rw [List.mapM_cons, ih]; rfl

/-! ## C06: scalars and arrays -/

/-- C06 (full statement, refuted below): converting a list gives the list of the conversions
of its elements. -/
def C06_statement (F : Type) [PyFloat F] : Prop :=
  ∀ (t u c t' u' c' : String) (xs : List F), (lower t, lower u, c) ∈ names →
    (lower t', u', c') ∈ names →
    convertList t u t' u' xs = (xs.mapM (convertScalar t u t' u')).map (Vals.array .float)

/-- NumPy's `isclose(x, 0.0)` says "zero" only for zero. -/
def NotTiny (x : F) : Prop := PyFloat.le (PyFloat.abs x) (lit 1e-8) = PyFloat.eq x (lit 0)

theorem safeInverse_agree {x : F} (h : NotTiny x) : safeInverseElem x = safeInverseScalar x := by
  unfold safeInverseElem safeInverseScalar isCloseZero
  rw [h]

theorem fromElem_agree {t u : String} {x : F} (h : t ≠ "wavelength" → NotTiny x)
    (hp : (t, u) ∈ pairs) :
    fromElem safeInverseElem t u x = fromElem safeInverseScalar t u x := by
  by_cases ht : t = "wavelength"
  · subst ht; simp [fromElem]
  · unfold fromElem
    rw [safeInverse_agree (h ht)]

theorem toElem_agree {t u : String} {x : F}
    (h : t ≠ "wavelength" → t ≠ "wavenumber" → NotTiny x)
    (hk : t = "wavenumber" → NotTiny (x * lit 1e-2)) :
    toElem safeInverseElem t u x = toElem safeInverseScalar t u x := by
  by_cases ht : t = "wavelength"
  · subst ht; simp [toElem]
  · by_cases hk' : t = "wavenumber"
    · subst hk'
      simp only [toElem, String.reduceEq, if_true, if_false]
      rw [safeInverse_agree (hk rfl)]
    · unfold toElem
      rw [safeInverse_agree (h ht hk'), if_neg hk', if_neg hk']

/-- C06, for every arithmetic, where it holds: no value that is inverted on the way lies within
NumPy's `isclose` tolerance 1e-8 of zero without being zero. Missing for the full claim: values
in that interval, which arrays treat as zero (spectrum.py 27). The inverted values are the
given values if the source type is reciprocal, the wavelengths in metres if the target type is
frequency, angular frequency or energy, and a hundredth of these for wavenumbers. -/
theorem C06_agree_partial (t u c t' u' c' : String) (xs : List F)
    (hc : (lower t, lower u, c) ∈ names) (hc' : (lower t', u', c') ∈ names)
    (hsrc : lower t ≠ "wavelength" → ∀ x ∈ xs, NotTiny x)
    (hdst : lower t' ≠ "wavelength" → lower t' ≠ "wavenumber" →
      ∀ x ∈ xs, ∀ y, convertScalar t u "wavelength" "m" x = .ok y → NotTiny y)
    (hdstk : lower t' = "wavenumber" →
      ∀ x ∈ xs, ∀ y, convertScalar t u "wavelength" "m" x = .ok y → NotTiny (y * lit 1e-2)) :
    convertList t u t' u' xs = (xs.mapM (convertScalar t u t' u')).map (Vals.array .float) := by
  rw [convertList_eq hc hc']
  have : xs.mapM (convertScalar t u t' u') = .ok (xs.map (fun x =>
      toElem safeInverseScalar (lower t') c' (fromElem safeInverseScalar (lower t) c x))) := by
    rw [← mapM_ok]
    congr 1
    funext x
    exact convertScalar_eq hc hc' x
  rw [this]
  show _ = Except.ok _
  congr 2
  apply List.map_congr_left
  intro x hx
  have hm : convertScalar t u "wavelength" "m" x =
      .ok (fromElem safeInverseScalar (lower t) c x) := by
    rw [convertScalar_eq hc (by decide +kernel : (lower "wavelength", "m", "m") ∈ names)]
    simp [toElem, show lower "wavelength" = "wavelength" by decide +kernel]
  rw [fromElem_agree (fun h => hsrc h x hx) (names_pairs _ hc)]
  exact toElem_agree (fun h1 h2 => hdst h1 h2 x hx _ hm) (fun h => hdstk h x hx _ hm)

end generic

/-! ## Values of the ideal arithmetic -/

namespace XR

theorem inv_scalar_fin {x : ℝ} (hx : x ≠ 0) : safeInverseScalar (fin x) = fin (1 / x) := by
  simp [safeInverseScalar, hx, div_fin_of_ne]

theorem inv_scalar_zero : safeInverseScalar (fin 0) = pinf := by simp [safeInverseScalar]

theorem inv_scalar_inf : safeInverseScalar pinf = fin 0 := by simp [safeInverseScalar]

theorem inv_elem_tiny {x : ℝ} (hx : |x| ≤ 1 / 10 ^ 8) : safeInverseElem (fin x) = pinf := by
  have : |x| ≤ ((1e-8 : ℚ) : ℝ) := by norm_num at hx ⊢; exact hx
  simp only [safeInverseElem, isCloseZero, abs_fin, lit_eq, le_fin, decide_eq_true_eq, this,
    if_true, inf_eq]

theorem inv_elem_fin {x : ℝ} (hx : 1 / 10 ^ 8 < |x|) : safeInverseElem (fin x) = fin (1 / x) := by
  have h1 : ¬ |x| ≤ ((1e-8 : ℚ) : ℝ) := by norm_num at hx ⊢; exact hx
  have h2 : x ≠ 0 := by rintro rfl; norm_num at hx
  simp only [safeInverseElem, isCloseZero, abs_fin, lit_eq, le_fin, decide_eq_true_eq, h1,
    if_false, inf_eq, eq_fin_pinf, Bool.false_eq_true, Rat.cast_one, div_fin_of_ne _ h2]

theorem inv_elem_inf : safeInverseElem pinf = fin 0 := by
  have : PyFloat.le (pinf : XR) (fin ((1e-8 : ℚ) : ℝ)) = false := le_pinf_fin _
  simp only [safeInverseElem, isCloseZero, abs_pinf, lit_eq, this, eq_pinf_pinf, inf_eq,
    Bool.false_eq_true, if_false, if_true, Rat.cast_zero]

theorem notTiny_of {x : ℝ} (hx : 1 / 10 ^ 8 < x) : NotTiny (fin x) := by
  have h0 : (0 : ℝ) < x := by have : (0 : ℝ) < 1 / 10 ^ 8 := by positivity
                              linarith
  have h1 : ¬ |x| ≤ ((1e-8 : ℚ) : ℝ) := by rw [abs_of_pos h0]; norm_num at hx ⊢; exact hx
  simp only [NotTiny, XR.abs_fin, XR.lit_eq, XR.le_fin, XR.eq_fin, h1, decide_false]
  simp [h0.ne']

end XR

theorem hce_eq : (hce : XR) = XR.fin (h * c / e) := by
  have h1 : (eCharge : XR) = XR.fin e := by
    unfold eCharge; simp [e]; norm_num
  have h2 : (hPlanck : XR) = XR.fin h := by
    unfold hPlanck; simp [h]; norm_num
  have h3 : (cLight : XR) = XR.fin c := by
    unfold cLight; simp [c]
  unfold hce
  rw [h1, h2, h3, XR.mul_fin, XR.div_fin_of_ne]
  unfold e; positivity

theorem cLight_eq : (cLight : XR) = XR.fin c := by unfold cLight; simp [c]

theorem c_pos : (0 : ℝ) < c := by unfold c; positivity
theorem h_pos : (0 : ℝ) < h := by unfold h; positivity
theorem e_pos : (0 : ℝ) < e := by unfold e; positivity
theorem lengthUnit_pos (u : String) : 0 < lengthUnit u := by
  unfold lengthUnit; split_ifs <;> positivity

theorem metres_pos (t u : String) {x : ℝ} (hx : 0 < x) : 0 < metres t u x := by
  have := c_pos; have := h_pos; have := e_pos; have := lengthUnit_pos u
  have := Real.pi_pos
  unfold metres; split_ifs <;> positivity

theorem ofMetres_pos (t u : String) {x : ℝ} (hx : 0 < x) : 0 < ofMetres t u x := by
  have := c_pos; have := h_pos; have := e_pos; have := lengthUnit_pos u
  have := Real.pi_pos
  unfold ofMetres; split_ifs <;> positivity

theorem ofMetres_metres (t u : String) {x : ℝ} (hx : 0 < x) :
    ofMetres t u (metres t u x) = x := by
  have := c_pos; have := h_pos; have := e_pos; have := lengthUnit_pos u
  have := Real.pi_pos
  unfold ofMetres metres; split_ifs <;> field_simp

theorem fromElem_fin {inv : XR → XR} {t u : String} (hp : (t, u) ∈ pairs) {x : ℝ} (hx : 0 < x)
    (hinv : t ≠ "wavelength" → inv (XR.fin x) = XR.fin (1 / x)) :
    fromElem inv t u (XR.fin x) = XR.fin (metres t u x) := by
  rcases pairs_cases hp with ⟨rfl, rfl⟩ | ⟨rfl, rfl⟩ | ⟨rfl, rfl⟩ | ⟨rfl, rfl⟩ | ⟨rfl, rfl⟩ |
    ⟨rfl, rfl⟩ | ⟨rfl, rfl⟩ | ⟨rfl, rfl⟩ | ⟨rfl, rfl⟩
  case inr.inr.inr.inr.inr.inl =>
    simp only [fromElem, if_true, hinv (by decide), cLight_eq, XR.mul_fin, metres]
    congr 1; field_simp
  case inr.inr.inr.inr.inr.inr.inl =>
    simp only [fromElem, if_true, hinv (by decide), hce_eq, XR.mul_fin, metres, String.reduceEq,
      if_false]
    have := e_pos
    congr 1; field_simp
  case inr.inr.inr.inr.inr.inr.inr.inl =>
    simp only [fromElem, if_true, hinv (by decide), cLight_eq, XR.mul_fin, metres,
      String.reduceEq, if_false, XR.lit_eq, XR.pi_eq]
    congr 1; push_cast; field_simp
  case inr.inr.inr.inr.inr.inr.inr.inr =>
    simp only [fromElem, if_true, hinv (by decide), XR.mul_fin, metres,
      String.reduceEq, if_false, XR.lit_eq, XR.pi_eq]
    congr 1; push_cast; field_simp; norm_num
  all_goals
    simp only [fromElem, if_true, XR.mul_fin, metres, String.reduceEq, if_false, XR.lit_eq,
      lengthUnit, mul_one]
    try (congr 1; norm_num)

/-- Rounding to a number of decimals, if one is given. -/
noncomputable def roundOpt : Option ℕ → ℝ → ℝ
  | none, v => v
  | some d, v => XR.roundDec d v

theorem toElem_fin {inv : XR → XR} {t u : String} (hp : (t, u) ∈ pairs) {x : ℝ} (hx : 0 < x)
    (hk : t ≠ "wavenumber")
    (hinv : t ≠ "wavelength" → inv (XR.fin x) = XR.fin (1 / x)) :
    toElem inv t u (XR.fin x) = XR.fin (roundOpt (decimals t u) (ofMetres t u x)) := by
  rcases pairs_cases hp with ⟨rfl, rfl⟩ | ⟨rfl, rfl⟩ | ⟨rfl, rfl⟩ | ⟨rfl, rfl⟩ | ⟨rfl, rfl⟩ |
    ⟨rfl, rfl⟩ | ⟨rfl, rfl⟩ | ⟨rfl, rfl⟩ | ⟨rfl, rfl⟩
  case inr.inr.inr.inr.inr.inl =>
    simp only [toElem, if_true, hinv (by decide), cLight_eq, XR.mul_fin, ofMetres, decimals, roundOpt,
      String.reduceEq, if_false]
    congr 1; field_simp
  case inr.inr.inr.inr.inr.inr.inl =>
    simp only [toElem, if_true, hinv (by decide), hce_eq, XR.mul_fin, ofMetres, String.reduceEq,
      if_false, decimals, roundOpt, XR.round_fin]
    have := e_pos
    congr 2; field_simp
  case inr.inr.inr.inr.inr.inr.inr.inl =>
    simp only [toElem, if_true, hinv (by decide), cLight_eq, XR.mul_fin, ofMetres,
      String.reduceEq, if_false, XR.lit_eq, XR.pi_eq, decimals, roundOpt]
    congr 1; push_cast; field_simp
  case inr.inr.inr.inr.inr.inr.inr.inr => exact absurd rfl hk
  all_goals
    simp only [toElem, if_true, XR.mul_fin, ofMetres, String.reduceEq, if_false, XR.lit_eq,
      lengthUnit, decimals, roundOpt, XR.round_fin, div_one]
    try (congr 2; push_cast; field_simp; norm_num)

theorem rounded_match (o : Option ℕ) (v : ℝ) :
    Rounded o (roundOpt o v) v := by
  cases o with
  | none => rfl
  | some d => exact ⟨⟨_, rfl⟩, XR.roundDec_sub_le d v⟩

/-! ## C04 -/

/-- C04: constructing a Spectrum from a positive value gives the physically corresponding
wavelength in metres, for every documented type and unit. -/
theorem C04_from (t u c : String) (hc : (lower t, lower u, c) ∈ names) (x : ℝ) (hx : 0 < x) :
    convertScalar t u "wavelength" "m" (XR.fin x) = .ok (XR.fin (metres (lower t) c x)) := by
  rw [convertScalar_eq hc (by decide +kernel : (lower "wavelength", "m", "m") ∈ names)]
  simp only [toElem, show lower "wavelength" = "wavelength" by decide +kernel, String.reduceEq,
    if_false]
  rw [fromElem_fin (names_pairs _ hc) hx (fun _ => XR.inv_scalar_fin hx.ne')]

/-- C04 (full statement, refuted below): converting a positive value gives the physically
corresponding value of the target type and unit, rounded as documented. -/
def C04_statement : Prop :=
  ∀ (t u c t' u' c' : String), (lower t, lower u, c) ∈ names → (lower t', u', c') ∈ names →
    ∀ x : ℝ, 0 < x → ∃ y, convertScalar t u t' u' (XR.fin x) = .ok (XR.fin y) ∧
      Rounded (decimals (lower t') c') y (ofMetres (lower t') c' (metres (lower t) c x))

/-- C04 for all targets but wavenumbers. -/
theorem C04_convert_partial (t u c t' u' c' : String) (hc : (lower t, lower u, c) ∈ names)
    (hc' : (lower t', u', c') ∈ names) (hk : lower t' ≠ "wavenumber") (x : ℝ) (hx : 0 < x) :
    ∃ y, convertScalar t u t' u' (XR.fin x) = .ok (XR.fin y) ∧
      Rounded (decimals (lower t') c') y (ofMetres (lower t') c' (metres (lower t) c x)) := by
  rw [convertScalar_eq hc hc',
    fromElem_fin (names_pairs _ hc) hx (fun _ => XR.inv_scalar_fin hx.ne')]
  have hm := metres_pos (lower t) c hx
  rw [toElem_fin (names_pairs _ hc') hm hk (fun _ => XR.inv_scalar_fin hm.ne')]
  exact ⟨_, rfl, rounded_match _ _⟩

/-- C04: converting to a wavenumber gives ten thousand times the correct value. -/
theorem C04_wavenumber_factor (t u c t' : String) (hc : (lower t, lower u, c) ∈ names)
    (hk : lower t' = "wavenumber") (x : ℝ) (hx : 0 < x) :
    convertScalar t u t' "1/cm" (XR.fin x) =
      .ok (XR.fin (10 ^ 4 * ofMetres "wavenumber" "1/cm" (metres (lower t) c x))) := by
  rw [convertScalar_eq hc (c' := "1/cm") (by rw [hk]; decide +kernel), hk,
    fromElem_fin (names_pairs _ hc) hx (fun _ => XR.inv_scalar_fin hx.ne')]
  have hm := metres_pos (lower t) c hx
  have h2 : metres (lower t) c x * ((1e-2 : ℚ) : ℝ) ≠ 0 := by positivity
  simp only [toElem, String.reduceEq, if_true, if_false, XR.lit_eq, XR.mul_fin,
    XR.inv_scalar_fin h2, XR.pi_eq, ofMetres]
  congr 2
  push_cast
  field_simp
  norm_num

/-- C04 is false: one wavenumber (1 per cm) read back as wavenumber is 10000. -/
theorem C04_refuted : ¬ C04_statement := by
  intro hst
  have hn : (lower "wavenumber", lower "1/cm", "1/cm") ∈ names := by decide +kernel
  have hn' : (lower "wavenumber", "1/cm", "1/cm") ∈ names := by decide +kernel
  have hl : lower "wavenumber" = "wavenumber" := by decide +kernel
  obtain ⟨y, h1, h2⟩ := hst _ _ _ _ _ _ hn hn' 1 one_pos
  rw [C04_wavenumber_factor _ _ _ _ hn hl 1 one_pos, hl, Except.ok.injEq, XR.fin_inj] at h1
  rw [hl, ofMetres_metres _ _ one_pos] at h2
  rw [ofMetres_metres _ _ one_pos] at h1
  have h3 : y = 1 := h2
  rw [h3] at h1
  norm_num at h1

/-- Concrete case: 1 eV is the wavelength `hc/e` and the frequency `e/h`. -/
example : convertScalar "energy" "eV" "wavelength" "m" (XR.fin 1) = .ok (XR.fin (h * c / e)) ∧
    ∃ y, convertScalar "energy" "eV" "frequency" "hz" (XR.fin 1) = .ok (XR.fin y) ∧ y = e / h := by
  have hl : lower "energy" = "energy" := by decide +kernel
  have hf : lower "frequency" = "frequency" := by decide +kernel
  constructor
  · rw [C04_from _ _ "ev" (by decide +kernel) 1 one_pos, hl]; simp [metres]
  · obtain ⟨y, h1, h2⟩ := C04_convert_partial "energy" "eV" "ev" "frequency" "hz" "hz"
      (by decide +kernel) (by decide +kernel) (by decide +kernel) 1 one_pos
    refine ⟨y, h1, ?_⟩
    rw [hl, hf] at h2
    have h3 : y = ofMetres "frequency" "hz" (metres "energy" "ev" 1) := h2
    rw [h3]
    have := c_pos; have := h_pos; have := e_pos
    simp [ofMetres, metres]; field_simp

/-- C04 for arrays: the same relation element by element, provided the values that are inverted
exceed NumPy's `isclose` tolerance 1e-8 (see C06). -/
theorem C04_array_partial (t u c t' u' c' : String) (hc : (lower t, lower u, c) ∈ names)
    (hc' : (lower t', u', c') ∈ names) (hk : lower t' ≠ "wavenumber") (xs : List ℝ)
    (hpos : ∀ x ∈ xs, 0 < x)
    (hsrc : lower t ≠ "wavelength" → ∀ x ∈ xs, 1 / 10 ^ 8 < x)
    (hdst : lower t' ≠ "wavelength" → ∀ x ∈ xs, 1 / 10 ^ 8 < metres (lower t) c x) :
    ∃ ys : List ℝ, convertList t u t' u' (xs.map XR.fin) = .ok (.array .float (ys.map XR.fin)) ∧
      List.Forall₂ (fun x y =>
        Rounded (decimals (lower t') c') y (ofMetres (lower t') c' (metres (lower t) c x))) xs ys := by
  refine ⟨xs.map (fun x =>
      roundOpt (decimals (lower t') c') (ofMetres (lower t') c' (metres (lower t) c x))), ?_, ?_⟩
  · rw [convertList_eq hc hc', List.map_map, List.map_map]
    congr 2
    apply List.map_congr_left
    intro x hx
    have hx0 := hpos x hx
    have hm := metres_pos (lower t) c hx0
    simp only [Function.comp]
    rw [fromElem_fin (names_pairs _ hc) hx0 (fun h => XR.inv_elem_fin (by
        rw [abs_of_pos hx0]; exact hsrc h x hx)),
      toElem_fin (names_pairs _ hc') hm hk (fun h => XR.inv_elem_fin (by
        rw [abs_of_pos hm]; exact hdst h x hx))]
  · rw [List.forall₂_map_right_iff]
    exact List.forall₂_same.2 (fun x _ => rounded_match _ _)

/-! ## C05 -/

/-- C05 (full statement, refuted below): converting back to the own type and unit reproduces
the value up to the documented rounding. -/
def C05_statement : Prop :=
  ∀ (t u c : String), (lower t, lower u, c) ∈ names → ∀ x : ℝ, 0 < x →
    ∃ y, convertScalar t u t c (XR.fin x) = .ok (XR.fin y) ∧ Rounded (decimals (lower t) c) y x

theorem canonical_mem {t u c : String} (hc : (lower t, u, c) ∈ names) : (lower t, c, c) ∈ names :=
  pairs_names _ (names_pairs _ hc)

/-- C05 for all types but wavenumber. -/
theorem C05_round_trip_partial (t u c : String) (hc : (lower t, lower u, c) ∈ names)
    (hk : lower t ≠ "wavenumber") (x : ℝ) (hx : 0 < x) :
    ∃ y, convertScalar t u t c (XR.fin x) = .ok (XR.fin y) ∧ Rounded (decimals (lower t) c) y x := by
  obtain ⟨y, h1, h2⟩ := C04_convert_partial t u c t c c hc (canonical_mem hc) hk x hx
  rw [ofMetres_metres _ _ hx] at h2
  exact ⟨y, h1, h2⟩

/-- C05: a wavenumber comes back multiplied by ten thousand. -/
theorem C05_wavenumber (x : ℝ) (hx : 0 < x) :
    convertScalar "wavenumber" "1/cm" "wavenumber" "1/cm" (XR.fin x) =
      .ok (XR.fin (10 ^ 4 * x)) := by
  have hl : lower "wavenumber" = "wavenumber" := by decide +kernel
  rw [C04_wavenumber_factor _ _ "1/cm" _ (by decide +kernel) hl x hx, hl,
    ofMetres_metres _ _ hx]

theorem C05_refuted : ¬ C05_statement := by
  intro hst
  obtain ⟨y, h1, h2⟩ := hst "wavenumber" "1/cm" "1/cm" (by decide +kernel) 1 one_pos
  rw [C05_wavenumber 1 one_pos, Except.ok.injEq, XR.fin_inj] at h1
  rw [show lower "wavenumber" = "wavenumber" by decide +kernel] at h2
  have h3 : y = 1 := h2
  rw [h3] at h1; norm_num at h1

/-- C05 for arrays, with the tolerance condition of C06. -/
theorem C05_array_partial (t u c : String) (hc : (lower t, lower u, c) ∈ names)
    (hk : lower t ≠ "wavenumber") (xs : List ℝ) (hpos : ∀ x ∈ xs, 0 < x)
    (hsrc : lower t ≠ "wavelength" →
      ∀ x ∈ xs, 1 / 10 ^ 8 < x ∧ 1 / 10 ^ 8 < metres (lower t) c x) :
    ∃ ys : List ℝ, convertList t u t c (xs.map XR.fin) = .ok (.array .float (ys.map XR.fin)) ∧
      List.Forall₂ (fun x y => Rounded (decimals (lower t) c) y x) xs ys := by
  obtain ⟨ys, h1, h2⟩ := C04_array_partial t u c t c c hc (canonical_mem hc) hk xs hpos
    (fun h x hx => (hsrc h x hx).1) (fun h x hx => (hsrc h x hx).2)
  refine ⟨ys, h1, ?_⟩
  rw [List.forall₂_iff_zip] at h2 ⊢
  refine ⟨h2.1, fun {a b} hab => ?_⟩
  have := h2.2 hab
  rw [ofMetres_metres _ _ (hpos a (List.of_mem_zip hab).1)] at this
  exact this

/-- Concrete case: 632.8 nm comes back exactly (no more than 12 decimals). -/
example : convertScalar "wavelength" "nm" "wavelength" "nm" (XR.fin 632.8) =
    .ok (XR.fin 632.8) := by
  have hl : lower "wavelength" = "wavelength" := by decide +kernel
  have h0 : (0 : ℝ) < 632.8 := by norm_num
  have hn : ((lower "wavelength", lower "nm", "nm") : String × String × String) ∈ names := by
    decide +kernel
  rw [convertScalar_eq hn (canonical_mem hn),
    fromElem_fin (names_pairs _ hn) h0 (fun _ => XR.inv_scalar_fin h0.ne'),
    toElem_fin (names_pairs _ hn) (metres_pos _ _ h0) (by rw [hl]; decide)
      (fun _ => XR.inv_scalar_fin (metres_pos _ _ h0).ne')]
  simp only [hl, decimals, String.reduceEq, if_true, if_false, roundOpt]
  rw [ofMetres_metres _ _ h0, XR.roundDec_eq_of_int 12 632800000000000 (by norm_num)]

/-! ## C06: refutation and exact extent -/

/-- C06: for wavelengths in metres and the reciprocal types frequency, angular frequency and
energy, array and scalar conversion agree exactly when no wavelength of at most 10 nm is
present. -/
theorem C06_wavelength_iff (t' u' c' : String) (hc' : (lower t', u', c') ∈ names)
    (hr : lower t' = "frequency" ∨ lower t' = "angularfrequency" ∨ lower t' = "energy")
    (xs : List ℝ) (hpos : ∀ x ∈ xs, 0 < x) :
    convertList "wavelength" "m" t' u' (xs.map XR.fin) =
        ((xs.map XR.fin).mapM (convertScalar "wavelength" "m" t' u')).map (Vals.array .float) ↔
      ∀ x ∈ xs, 1 / 10 ^ 8 < x := by
  have hn : ((lower "wavelength", lower "m", "m") : String × String × String) ∈ names := by
    decide +kernel
  have hl : lower "wavelength" = "wavelength" := by decide +kernel
  have hk : lower t' ≠ "wavenumber" := by rcases hr with h | h | h <;> rw [h] <;> decide
  have hw : lower t' ≠ "wavelength" := by rcases hr with h | h | h <;> rw [h] <;> decide
  have hstd : ∀ x : ℝ, fromElem safeInverseScalar (lower "wavelength") "m" (XR.fin x) = XR.fin x := by
    intro x; simp [fromElem, hl]
  have hstd' : ∀ x : ℝ, fromElem safeInverseElem (lower "wavelength") "m" (XR.fin x) = XR.fin x := by
    intro x; simp [fromElem, hl]
  constructor
  · intro heq x hx
    by_contra hle
    rw [convertList_eq hn hc'] at heq
    have : (xs.map XR.fin).mapM (convertScalar "wavelength" "m" t' u') =
        .ok ((xs.map XR.fin).map (fun x =>
          toElem safeInverseScalar (lower t') c'
            (fromElem safeInverseScalar (lower "wavelength") "m" x))) := by
      rw [← mapM_ok]; congr 1; funext x; exact convertScalar_eq hn hc' x
    rw [this] at heq
    have heq' := (Except.ok.inj heq : Vals.array _ _ = Vals.array _ _)
    rw [Vals.array.injEq] at heq'
    have hel := (List.map_inj_left.1 heq'.2) (XR.fin x) (List.mem_map.2 ⟨x, hx, rfl⟩)
    have hx0 := hpos x hx
    have htiny : |x| ≤ 1 / 10 ^ 8 := by rw [abs_of_pos hx0]; exact not_lt.1 hle
    simp only [hstd, hstd'] at hel
    rw [toElem_fin (names_pairs _ hc') hx0 hk (fun _ => XR.inv_scalar_fin hx0.ne')] at hel
    have hc1 := c_pos; have hc2 := h_pos; have hc3 := e_pos; have hpi := Real.pi_pos
    rcases hr with h | h | h <;> rw [h] at hel <;>
      simp only [toElem, String.reduceEq, if_true, if_false, XR.inv_elem_tiny htiny, cLight_eq,
        XR.mul_fin_pinf, XR.lit_eq, XR.pi_eq, XR.mul_fin, hce_eq] at hel
    · rw [XR.signInf_pos hc1] at hel; cases hel
    · rw [XR.signInf_pos (by positivity)] at hel; cases hel
    · rw [XR.signInf_pos (by positivity)] at hel; cases hel
  · intro hall
    refine C06_agree_partial _ _ _ _ _ _ _ hn hc' (fun h => absurd hl h) ?_ (fun h => absurd h hk)
    intro _ _ x hx y hy
    obtain ⟨a, ha, rfl⟩ := List.mem_map.1 hx
    rw [convertScalar_eq hn (canonical_mem hn), hstd] at hy
    simp only [toElem, hl, String.reduceEq, if_false, Except.ok.injEq] at hy
    subst hy
    exact XR.notTiny_of (hall a ha)

/-- C06 is false: a wavelength of 5 nm in an array has infinite energy, as a scalar it has the
energy `hc/(eL)`. -/
theorem C06_refuted : ¬ C06_statement XR := by
  intro hst
  have := (C06_wavelength_iff "energy" "ev" "ev" (by decide +kernel)
    (by right; right; decide +kernel) [5 / 10 ^ 9] (by intro x hx; simp at hx; subst hx; positivity)).1
    (hst "wavelength" "m" "m" "energy" "ev" "ev" _ (by decide +kernel) (by decide +kernel))
  have h2 := this (5 / 10 ^ 9) (by simp)
  norm_num at h2

/-- Concrete case of agreement: an array of visible wavelengths. -/
example : convertList "wavelength" "m" "energy" "ev"
      ([4 / 10 ^ 7, 8 / 10 ^ 7].map XR.fin) =
    (([4 / 10 ^ 7, 8 / 10 ^ 7].map XR.fin).mapM
      (convertScalar "wavelength" "m" "energy" "ev")).map (Vals.array .float) :=
  (C06_wavelength_iff "energy" "ev" "ev" (by decide +kernel)
    (by right; right; decide +kernel) _ (by
      intro x hx; simp at hx; rcases hx with rfl | rfl <;> positivity)).2 (by
      intro x hx; simp at hx; rcases hx with rfl | rfl <;> norm_num)

/-! ## C07: zero, infinity and NaN -/

/-- Not NaN and not negative. -/
def NonNeg : XR → Prop
  | .fin x => 0 ≤ x
  | .pinf => True
  | _ => False

theorem NonNeg.not_nan {x : XR} (h : NonNeg x) : PyFloat.isNaN x = false := by
  cases x <;> first | rfl | cases h

/-- The two reciprocals of the package, on non-negative values. -/
structure GoodInv (inv : XR → XR) : Prop where
  nonneg : ∀ x, NonNeg x → NonNeg (inv x)
  zero : inv (.fin 0) = .pinf
  inf : inv .pinf = .fin 0
  anti : ∀ x y, NonNeg x → NonNeg y → PyFloat.le x y = true → PyFloat.le (inv y) (inv x) = true

theorem goodInv_scalar : GoodInv safeInverseScalar where
  zero := XR.inv_scalar_zero
  inf := XR.inv_scalar_inf
  nonneg x h := by
    cases x with
    | fin x =>
      by_cases h0 : x = 0
      · subst h0; rw [XR.inv_scalar_zero]; trivial
      · rw [XR.inv_scalar_fin h0]; exact one_div_nonneg.2 h
    | pinf => rw [XR.inv_scalar_inf]; exact le_refl (0 : ℝ)
    | ninf => cases h
    | nan => cases h
  anti x y hx hy h := by
    cases x with
    | ninf => cases hx
    | nan => cases hx
    | pinf =>
      cases y with
      | ninf => cases hy
      | nan => cases hy
      | pinf => rw [XR.inv_scalar_inf]; simp
      | fin y => simp at h
    | fin x =>
      have hx' : 0 ≤ x := hx
      cases y with
      | ninf => cases hy
      | nan => cases hy
      | pinf =>
        rw [XR.inv_scalar_inf]
        by_cases h0 : x = 0
        · subst h0; rw [XR.inv_scalar_zero]; simp
        · rw [XR.inv_scalar_fin h0]; simpa using hx'
      | fin y =>
        have hle : x ≤ y := by simpa using h
        by_cases h0 : x = 0
        · subst h0; rw [XR.inv_scalar_zero]
          by_cases h1 : y = 0
          · subst h1; rw [XR.inv_scalar_zero]; simp
          · rw [XR.inv_scalar_fin h1]; simp
        · have hxp : 0 < x := lt_of_le_of_ne hx' (Ne.symm h0)
          have hyp : 0 < y := lt_of_lt_of_le hxp hle
          rw [XR.inv_scalar_fin h0, XR.inv_scalar_fin hyp.ne']
          simp only [XR.le_fin, decide_eq_true_eq]
          exact one_div_le_one_div_of_le hxp hle

theorem goodInv_elem : GoodInv safeInverseElem where
  zero := XR.inv_elem_tiny (by simp)
  inf := XR.inv_elem_inf
  nonneg x h := by
    cases x with
    | fin x =>
      by_cases h0 : |x| ≤ 1 / 10 ^ 8
      · rw [XR.inv_elem_tiny h0]; trivial
      · rw [XR.inv_elem_fin (not_le.1 h0)]; exact one_div_nonneg.2 h
    | pinf => rw [XR.inv_elem_inf]; exact le_refl (0 : ℝ)
    | ninf => cases h
    | nan => cases h
  anti x y hx hy h := by
    cases x with
    | ninf => cases hx
    | nan => cases hx
    | pinf =>
      cases y with
      | ninf => cases hy
      | nan => cases hy
      | pinf => rw [XR.inv_elem_inf]; simp
      | fin y => simp at h
    | fin x =>
      have hx' : 0 ≤ x := hx
      cases y with
      | ninf => cases hy
      | nan => cases hy
      | pinf =>
        rw [XR.inv_elem_inf]
        by_cases h0 : |x| ≤ 1 / 10 ^ 8
        · rw [XR.inv_elem_tiny h0]; simp
        · rw [XR.inv_elem_fin (not_le.1 h0)]; simpa using hx'
      | fin y =>
        have hle : x ≤ y := by simpa using h
        have hy' : 0 ≤ y := hy
        by_cases h0 : |x| ≤ 1 / 10 ^ 8
        · rw [XR.inv_elem_tiny h0]
          by_cases h1 : |y| ≤ 1 / 10 ^ 8
          · rw [XR.inv_elem_tiny h1]; simp
          · rw [XR.inv_elem_fin (not_le.1 h1)]; simp
        · have h0' := not_le.1 h0
          have hxp : 0 < x := by
            rw [abs_of_nonneg hx'] at h0'
            exact lt_trans (by positivity) h0'
          have hyp : 0 < y := lt_of_lt_of_le hxp hle
          have h1 : 1 / 10 ^ 8 < |y| := by
            rw [abs_of_pos hyp]; rw [abs_of_pos hxp] at h0'; linarith
          rw [XR.inv_elem_fin h0', XR.inv_elem_fin h1]
          simp only [XR.le_fin, decide_eq_true_eq]
          exact one_div_le_one_div_of_le hxp hle

theorem NonNeg.mul {k : ℝ} (hk : 0 < k) {x : XR} (h : NonNeg x) : NonNeg (XR.fin k * x) := by
  cases x with
  | fin x => exact mul_nonneg hk.le h
  | pinf => rw [XR.mul_fin_pinf, XR.signInf_pos hk]; trivial
  | ninf => cases h
  | nan => cases h

theorem NonNeg.mul' {k : ℝ} (hk : 0 < k) {x : XR} (h : NonNeg x) : NonNeg (x * XR.fin k) := by
  cases x with
  | fin x => exact mul_nonneg h hk.le
  | pinf => rw [XR.mul_pinf_fin, XR.signInf_pos hk]; trivial
  | ninf => cases h
  | nan => cases h

theorem NonNeg.round (d : ℕ) {x : XR} (h : NonNeg x) : NonNeg (PyFloat.round d x) := by
  cases x with
  | fin x => exact XR.roundDec_nonneg d h
  | pinf => trivial
  | ninf => cases h
  | nan => cases h

theorem twoPi_eq : (lit 2 * PyFloat.pi : XR) = XR.fin (2 * Real.pi) := by simp

theorem twoPiC_eq : (lit 2 * PyFloat.pi * cLight : XR) = XR.fin (2 * Real.pi * c) := by
  rw [twoPi_eq, cLight_eq, XR.mul_fin]

theorem fromElem_nonneg {inv : XR → XR} (hi : GoodInv inv) (t u : String) {x : XR}
    (h : NonNeg x) : NonNeg (fromElem inv t u x) := by
  have hc1 := c_pos; have hc2 := h_pos; have hc3 := e_pos; have hpi := Real.pi_pos
  unfold fromElem
  simp only [cLight_eq, hce_eq, XR.pi_eq, XR.mul_fin, XR.lit_eq]
  split_ifs
  · exact (hi.nonneg x h).mul hc1
  · exact (hi.nonneg x h).mul (by positivity)
  · exact (hi.nonneg x h).mul (by positivity)
  · exact ((hi.nonneg x h).mul (by positivity)).mul' (by positivity)
  · exact h.mul' (by positivity)
  · exact h.mul' (by positivity)
  · exact h.mul' (by positivity)
  · exact h.mul' (by positivity)
  · exact h

theorem toElem_nonneg {inv : XR → XR} (hi : GoodInv inv) (t u : String) {x : XR}
    (h : NonNeg x) : NonNeg (toElem inv t u x) := by
  have hc1 := c_pos; have hc2 := h_pos; have hc3 := e_pos; have hpi := Real.pi_pos
  unfold toElem
  simp only [cLight_eq, hce_eq, XR.pi_eq, XR.mul_fin, XR.lit_eq]
  split_ifs
  · exact (hi.nonneg x h).mul hc1
  · exact ((hi.nonneg x h).mul (by positivity)).round _
  · exact (hi.nonneg x h).mul (by positivity)
  · exact (hi.nonneg _ (h.mul' (by positivity))).mul (by positivity)
  · exact (h.mul' (by positivity)).round _
  · exact (h.mul' (by positivity)).round _
  · exact (h.mul' (by positivity)).round _
  · exact (h.mul' (by positivity)).round _
  · exact h

/-- C07: converting values in [0, inf], as scalar or array, between any types and units, never
gives NaN or a negative value. -/
theorem C07_no_nan (raw : Raw XR) (hraw : FloatInput raw) (t u : String) (s : Spectrum XR)
    (hs : Spectrum.new raw t u = .ok s) (hv : ∀ x ∈ s.values.toList, NonNeg x)
    (hist : List (String × String)) (t' u' : String) (v : Vals XR)
    (hc : (afterConversions s hist).convertTo t' u' = .ok v) : ∀ y ∈ v.toList, NonNeg y := by
  rw [C09_no_drift, Spectrum.convertTo_eq] at hc
  obtain ⟨-, hm, hchk⟩ := C01_stored raw t u s hs
  cases hl : specLookup (lower t') u' with
  | error e => rw [hl] at hc; cases hc
  | ok c' =>
    rw [hl] at hc
    simp only at hc
    have hp' := names_pairs _ (specLookup_ok_iff.1 hl)
    have key : ∀ (r : Raw XR) , raw = r → ∀ y ∈ v.toList, NonNeg y := by
      intro r hr
      cases r with
      | float x =>
        subst hr
        rw [new_scalar hm] at hs
        have hs' := Except.ok.inj hs
        rw [← hs'] at hc hv
        simp only at hc hv
        rw [convertVals_scalar hp', Except.ok.injEq] at hc
        subst hc
        intro y hy
        simp only [Vals.toList, List.mem_singleton] at hy hv
        subst hy
        exact toElem_nonneg goodInv_scalar _ _ (fromElem_nonneg goodInv_scalar _ _ (hv x rfl))
      | list dt xs =>
        subst hr
        cases hraw
        rw [new_list hm] at hs
        have hs' := Except.ok.inj hs
        rw [← hs'] at hc hv
        simp only at hc hv
        rw [convertVals_array hp', Except.ok.injEq] at hc
        subst hc
        intro y hy
        simp only [Vals.toList, List.mem_map] at hy hv
        obtain ⟨a, ⟨b, hb, rfl⟩, rfl⟩ := hy
        exact toElem_nonneg goodInv_elem _ _ (fromElem_nonneg goodInv_elem _ _ (hv b hb))
      | ndarray dt xs =>
        subst hr
        cases hraw
        have hnl : Spectrum.new (.ndarray .float xs) t u = Spectrum.new (.list .float xs) t u := rfl
        rw [hnl, new_list hm] at hs
        have hs' := Except.ok.inj hs
        rw [← hs'] at hc hv
        simp only at hc hv
        rw [convertVals_array hp', Except.ok.injEq] at hc
        subst hc
        intro y hy
        simp only [Vals.toList, List.mem_map] at hy hv
        obtain ⟨a, ⟨b, hb, rfl⟩, rfl⟩ := hy
        exact toElem_nonneg goodInv_elem _ _ (fromElem_nonneg goodInv_elem _ _ (hv b hb))
      | other => subst hr; cases hraw
    exact key raw rfl

theorem fromElem_swap {inv : XR → XR} (hi : GoodInv inv) {t u : String} (hp : (t, u) ∈ pairs) :
    (fromElem inv t u (.fin 0) = if t = "wavelength" then XR.fin 0 else .pinf) ∧
    (fromElem inv t u .pinf = if t = "wavelength" then XR.pinf else .fin 0) := by
  have hc1 := c_pos; have hc2 := h_pos; have hc3 := e_pos; have hpi := Real.pi_pos
  rcases pairs_cases hp with ⟨rfl, rfl⟩ | ⟨rfl, rfl⟩ | ⟨rfl, rfl⟩ | ⟨rfl, rfl⟩ | ⟨rfl, rfl⟩ |
    ⟨rfl, rfl⟩ | ⟨rfl, rfl⟩ | ⟨rfl, rfl⟩ | ⟨rfl, rfl⟩ <;>
  simp only [fromElem, String.reduceEq, if_true, if_false, cLight_eq, hce_eq, XR.pi_eq,
    XR.mul_fin, XR.lit_eq, hi.zero, hi.inf, XR.mul_fin_pinf, zero_mul, XR.mul_pinf_fin, mul_zero,
    and_self, true_and] <;>
  first
    | (rw [XR.signInf_pos (by positivity)]; trivial)
    | (rw [XR.signInf_pos (by positivity), XR.mul_pinf_fin, XR.signInf_pos (by positivity)]
       trivial)
    | (rw [XR.signInf_pos (by positivity)])

theorem toElem_swap {inv : XR → XR} (hi : GoodInv inv) {t u : String} (hp : (t, u) ∈ pairs) :
    (toElem inv t u (.fin 0) = if t = "wavelength" then XR.fin 0 else .pinf) ∧
    (toElem inv t u .pinf = if t = "wavelength" then XR.pinf else .fin 0) := by
  have hc1 := c_pos; have hc2 := h_pos; have hc3 := e_pos; have hpi := Real.pi_pos
  have q : (0 : ℝ) < ((1e-2 : ℚ) : ℝ) := by positivity
  rcases pairs_cases hp with ⟨rfl, rfl⟩ | ⟨rfl, rfl⟩ | ⟨rfl, rfl⟩ | ⟨rfl, rfl⟩ | ⟨rfl, rfl⟩ |
    ⟨rfl, rfl⟩ | ⟨rfl, rfl⟩ | ⟨rfl, rfl⟩ | ⟨rfl, rfl⟩ <;>
  simp only [toElem, String.reduceEq, if_true, if_false, cLight_eq, hce_eq, XR.pi_eq,
    XR.mul_fin, XR.lit_eq, hi.zero, hi.inf, XR.mul_fin_pinf, zero_mul, XR.mul_pinf_fin, mul_zero,
    and_self, true_and, XR.round_fin, XR.roundDec_zero, XR.signInf_pos q] <;>
  first
    | (rw [XR.signInf_pos (by positivity)]; simp [XR.roundDec_zero]; done)
    | (rw [XR.signInf_pos (by positivity)]; rfl)

/-- C07: zero and infinity, as scalar or as array entry, are exchanged by a conversion between
a wavelength and a reciprocal type, and kept by a conversion within one kind. -/
theorem C07_zero_inf (t u c t' u' c' : String) (hc : (lower t, lower u, c) ∈ names)
    (hc' : (lower t', u', c') ∈ names) :
    let same := (lower t = "wavelength" ↔ lower t' = "wavelength")
    (same → convertScalar t u t' u' (XR.fin 0) = .ok (XR.fin 0) ∧
      convertScalar t u t' u' XR.pinf = .ok XR.pinf ∧
      convertList t u t' u' [XR.fin 0, XR.pinf] = .ok (.array .float [XR.fin 0, XR.pinf])) ∧
    (¬ same → convertScalar t u t' u' (XR.fin 0) = .ok XR.pinf ∧
      convertScalar t u t' u' XR.pinf = .ok (XR.fin 0) ∧
      convertList t u t' u' [XR.fin 0, XR.pinf] = .ok (.array .float [XR.pinf, XR.fin 0])) := by
  intro same
  rw [convertScalar_eq hc hc', convertScalar_eq hc hc', convertList_eq hc hc']
  obtain ⟨a1, a2⟩ := fromElem_swap goodInv_scalar (names_pairs _ hc)
  obtain ⟨b1, b2⟩ := toElem_swap goodInv_scalar (names_pairs _ hc')
  obtain ⟨a3, a4⟩ := fromElem_swap goodInv_elem (names_pairs _ hc)
  obtain ⟨b3, b4⟩ := toElem_swap goodInv_elem (names_pairs _ hc')
  simp only at a1 a2 a3 a4 b1 b2 b3 b4
  simp only [List.map_cons, List.map_nil, a1, a2, a3, a4]
  by_cases h1 : lower t = "wavelength" <;> by_cases h2 : lower t' = "wavelength" <;>
    simp only [h1, h2, if_true, if_false] at b1 b2 b3 b4 ⊢ <;>
    simp [same, h1, h2, b1, b2, b3, b4]

/-- Concrete case: the unbounded range [0, inf] eV is [inf, 0] m. -/
example : convertList "energy" "ev" "wavelength" "m" [XR.fin 0, XR.pinf] =
    .ok (.array .float [XR.pinf, XR.fin 0]) :=
  ((C07_zero_inf "energy" "ev" "ev" "wavelength" "m" "m" (by decide +kernel)
    (by decide +kernel)).2 (by decide +kernel)).2.2

/-! ## C08: order -/

theorem le_mul {k : ℝ} (hk : 0 < k) {x y : XR} (hx : NonNeg x) (hy : NonNeg y)
    (h : PyFloat.le x y = true) : PyFloat.le (XR.fin k * x) (XR.fin k * y) = true := by
  cases x with
  | ninf => cases hx
  | nan => cases hx
  | pinf =>
    cases y with
    | ninf => cases hy
    | nan => cases hy
    | pinf => rw [XR.mul_fin_pinf, XR.signInf_pos hk]; simp
    | fin y => simp at h
  | fin x =>
    cases y with
    | ninf => cases hy
    | nan => cases hy
    | pinf => rw [XR.mul_fin_pinf, XR.signInf_pos hk, XR.mul_fin]; simp
    | fin y =>
      simp only [XR.le_fin, decide_eq_true_eq, XR.mul_fin] at h ⊢
      gcongr

theorem mul_comm_fin (k : ℝ) (x : XR) : x * XR.fin k = XR.fin k * x := by
  cases x with
  | fin x => simp [mul_comm]
  | pinf => rfl
  | ninf => rfl
  | nan => rfl

theorem le_mul' {k : ℝ} (hk : 0 < k) {x y : XR} (hx : NonNeg x) (hy : NonNeg y)
    (h : PyFloat.le x y = true) : PyFloat.le (x * XR.fin k) (y * XR.fin k) = true := by
  rw [mul_comm_fin, mul_comm_fin]; exact le_mul hk hx hy h

theorem le_round (d : ℕ) {x y : XR} (hx : NonNeg x) (hy : NonNeg y)
    (h : PyFloat.le x y = true) : PyFloat.le (PyFloat.round d x) (PyFloat.round d y) = true := by
  cases x with
  | ninf => cases hx
  | nan => cases hx
  | pinf =>
    cases y with
    | ninf => cases hy
    | nan => cases hy
    | pinf => simp
    | fin y => simp at h
  | fin x =>
    cases y with
    | ninf => cases hy
    | nan => cases hy
    | pinf => simp
    | fin y =>
      simp only [XR.le_fin, decide_eq_true_eq, XR.round_fin] at h ⊢
      exact XR.roundDec_mono d h

theorem fromElem_order {inv : XR → XR} (hi : GoodInv inv) (t u : String) (hp : (t, u) ∈ pairs)
    {x y : XR} (hx : NonNeg x) (hy : NonNeg y) (h : PyFloat.le x y = true) :
    if t = "wavelength" then PyFloat.le (fromElem inv t u x) (fromElem inv t u y) = true
    else PyFloat.le (fromElem inv t u y) (fromElem inv t u x) = true := by
  have hc1 := c_pos; have hc2 := h_pos; have hc3 := e_pos; have hpi := Real.pi_pos
  have ha := hi.anti x y hx hy h
  have nx := hi.nonneg x hx
  have ny := hi.nonneg y hy
  rcases pairs_cases hp with ⟨rfl, rfl⟩ | ⟨rfl, rfl⟩ | ⟨rfl, rfl⟩ | ⟨rfl, rfl⟩ | ⟨rfl, rfl⟩ |
    ⟨rfl, rfl⟩ | ⟨rfl, rfl⟩ | ⟨rfl, rfl⟩ | ⟨rfl, rfl⟩ <;>
  simp only [fromElem, String.reduceEq, if_true, if_false, cLight_eq, hce_eq, XR.pi_eq,
    XR.mul_fin, XR.lit_eq]
  · exact h
  · exact le_mul' (by positivity) hx hy h
  · exact le_mul' (by positivity) hx hy h
  · exact le_mul' (by positivity) hx hy h
  · exact le_mul' (by positivity) hx hy h
  · exact le_mul (by positivity) ny nx ha
  · exact le_mul (by positivity) ny nx ha
  · exact le_mul (by positivity) ny nx ha
  · exact le_mul' (by positivity) (ny.mul (by positivity)) (nx.mul (by positivity))
      (le_mul (by positivity) ny nx ha)

theorem toElem_order {inv : XR → XR} (hi : GoodInv inv) (t u : String) (hp : (t, u) ∈ pairs)
    {x y : XR} (hx : NonNeg x) (hy : NonNeg y) (h : PyFloat.le x y = true) :
    if t = "wavelength" then PyFloat.le (toElem inv t u x) (toElem inv t u y) = true
    else PyFloat.le (toElem inv t u y) (toElem inv t u x) = true := by
  have hc1 := c_pos; have hc2 := h_pos; have hc3 := e_pos; have hpi := Real.pi_pos
  have ha := hi.anti x y hx hy h
  have nx := hi.nonneg x hx
  have ny := hi.nonneg y hy
  have q : (0 : ℝ) < ((1e-2 : ℚ) : ℝ) := by positivity
  rcases pairs_cases hp with ⟨rfl, rfl⟩ | ⟨rfl, rfl⟩ | ⟨rfl, rfl⟩ | ⟨rfl, rfl⟩ | ⟨rfl, rfl⟩ |
    ⟨rfl, rfl⟩ | ⟨rfl, rfl⟩ | ⟨rfl, rfl⟩ | ⟨rfl, rfl⟩ <;>
  simp only [toElem, String.reduceEq, if_true, if_false, cLight_eq, hce_eq, XR.pi_eq,
    XR.mul_fin, XR.lit_eq]
  · exact h
  · exact le_round _ (hx.mul' (by positivity)) (hy.mul' (by positivity)) (le_mul' (by positivity) hx hy h)
  · exact le_round _ (hx.mul' (by positivity)) (hy.mul' (by positivity)) (le_mul' (by positivity) hx hy h)
  · exact le_round _ (hx.mul' (by positivity)) (hy.mul' (by positivity)) (le_mul' (by positivity) hx hy h)
  · exact le_round _ (hx.mul' (by positivity)) (hy.mul' (by positivity)) (le_mul' (by positivity) hx hy h)
  · exact le_mul (by positivity) ny nx ha
  · exact le_round _ (ny.mul (by positivity)) (nx.mul (by positivity)) (le_mul (by positivity) ny nx ha)
  · exact le_mul (by positivity) ny nx ha
  · exact le_mul (by positivity) (hi.nonneg _ (hy.mul' q)) (hi.nonneg _ (hx.mul' q))
      (hi.anti _ _ (hx.mul' q) (hy.mul' q) (le_mul' q hx hy h))

theorem conv_order {inv : XR → XR} (hi : GoodInv inv) {t u t' u' : String}
    (hp : (t, u) ∈ pairs) (hp' : (t', u') ∈ pairs)
    {x y : XR} (hx : NonNeg x) (hy : NonNeg y) (h : PyFloat.le x y = true) :
    if (t = "wavelength" ↔ t' = "wavelength") then
      PyFloat.le (toElem inv t' u' (fromElem inv t u x)) (toElem inv t' u' (fromElem inv t u y)) = true
    else
      PyFloat.le (toElem inv t' u' (fromElem inv t u y)) (toElem inv t' u' (fromElem inv t u x)) = true := by
  have h1 := fromElem_order hi t u hp hx hy h
  have nx := fromElem_nonneg hi t u hx
  have ny := fromElem_nonneg hi t u hy
  by_cases ht : t = "wavelength"
  · rw [if_pos ht] at h1
    have h2 := toElem_order hi t' u' hp' nx ny h1
    by_cases ht' : t' = "wavelength"
    · rw [if_pos ht'] at h2; rw [if_pos (by simp [ht, ht'])]; exact h2
    · rw [if_neg ht'] at h2; rw [if_neg (by simp [ht, ht'])]; exact h2
  · rw [if_neg ht] at h1
    have h2 := toElem_order hi t' u' hp' ny nx h1
    by_cases ht' : t' = "wavelength"
    · rw [if_pos ht'] at h2; rw [if_neg (by simp [ht, ht'])]; exact h2
    · rw [if_neg ht'] at h2; rw [if_pos (by simp [ht, ht'])]; exact h2

/-- C08 for scalars: on [0, inf] a conversion preserves the order if both types are wavelengths
or both are reciprocal, and reverses it otherwise. -/
theorem C08_order (t u c t' u' c' : String) (hc : (lower t, lower u, c) ∈ names)
    (hc' : (lower t', u', c') ∈ names) (x y : XR) (hx : NonNeg x) (hy : NonNeg y)
    (h : PyFloat.le x y = true) :
    ∃ x' y', convertScalar t u t' u' x = .ok x' ∧ convertScalar t u t' u' y = .ok y' ∧
      if (lower t = "wavelength" ↔ lower t' = "wavelength") then PyFloat.le x' y' = true
      else PyFloat.le y' x' = true := by
  rw [convertScalar_eq hc hc', convertScalar_eq hc hc']
  exact ⟨_, _, rfl, rfl, conv_order goodInv_scalar (names_pairs _ hc) (names_pairs _ hc') hx hy h⟩

/-- C08 for arrays: a non-decreasing list in [0, inf] converts to a non-decreasing list if both
types are of the same kind, to a non-increasing one otherwise; in particular the smallest and
largest entries are images of the end points. -/
theorem C08_sorted (t u c t' u' c' : String) (hc : (lower t, lower u, c) ∈ names)
    (hc' : (lower t', u', c') ∈ names) (xs : List XR) (hpos : ∀ x ∈ xs, NonNeg x)
    (hs : xs.Pairwise (fun x y => PyFloat.le x y = true)) :
    ∃ ys, convertList t u t' u' xs = .ok (.array .float ys) ∧
      if (lower t = "wavelength" ↔ lower t' = "wavelength") then
        ys.Pairwise (fun x y => PyFloat.le x y = true)
      else ys.Pairwise (fun x y => PyFloat.le y x = true) := by
  rw [convertList_eq hc hc']
  refine ⟨_, rfl, ?_⟩
  have hc2 := fun {x y : XR} (hx : NonNeg x) (hy : NonNeg y) (h : PyFloat.le x y = true) =>
    conv_order goodInv_elem (names_pairs _ hc) (names_pairs _ hc') hx hy h
  simp only at hc2
  split_ifs with hsame
  · rw [List.pairwise_map]
    refine hs.imp_of_mem ?_
    intro a b ha hb hab
    have := hc2 (hpos a ha) (hpos b hb) hab
    rw [if_pos hsame] at this; exact this
  · rw [List.pairwise_map]
    refine hs.imp_of_mem ?_
    intro a b ha hb hab
    have := hc2 (hpos a ha) (hpos b hb) hab
    rw [if_neg hsame] at this; exact this

/-- Concrete case: 1 eV < 2 eV, so the wavelength of 2 eV is not larger. -/
example : ∃ x' y', convertScalar "energy" "ev" "wavelength" "nm" (XR.fin 1) = .ok x' ∧
    convertScalar "energy" "ev" "wavelength" "nm" (XR.fin 2) = .ok y' ∧
    PyFloat.le y' x' = true := by
  obtain ⟨a, b, h1, h2, h3⟩ := C08_order "energy" "ev" "ev" "wavelength" "nm" "nm"
    (by decide +kernel) (by decide +kernel) (XR.fin 1) (XR.fin 2)
    (show (0 : ℝ) ≤ 1 by norm_num) (show (0 : ℝ) ≤ 2 by norm_num) (by simp)
  rw [if_neg (by decide +kernel)] at h3
  exact ⟨a, b, h1, h2, h3⟩

end Disp
