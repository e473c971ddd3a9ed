import Verif.Lemmas.Ideal
import Verif.Lemmas.Spectrum
/-!
# C01, C02, C03, C09, C67: names, conversions and histories

Except for the concrete cases, everything here is for every arithmetic `PyFloat F`.
-/

namespace Disp

variable {F : Type} [PyFloat F]

open Spec

/-- The caller passes floats: a float, or a list / tuple / array of floats. -/
def FloatInput : Raw F → Prop
  | .float _ => True
  | .list dt _ => dt = .float
  | .ndarray dt _ => dt = .float
  | .other => False

/-- The caller passes a list / tuple / array of integers. -/
def IntInput : Raw F → Prop
  | .list dt _ => dt = .int
  | .ndarray dt _ => dt = .int
  | _ => False

theorem standardiseValues_float {raw : Raw F} (h : FloatInput raw) {t c : String}
    (hp : (t, c) ∈ pairs) :
    ∃ v w, raw.check = .ok v ∧ standardiseValues t c v = .ok w ∧
      ((∃ x y, v = .scalar x ∧ w = .scalar y) ∨
        ∃ xs ys, v = .array .float xs ∧ w = .array .float ys ∧ xs.length = ys.length) := by
  cases raw with
  | float x =>
    exact ⟨.scalar x, _, rfl, convertFrom_scalar hp x, .inl ⟨_, _, rfl, rfl⟩⟩
  | list dt xs =>
    cases h
    exact ⟨.array .float xs, _, rfl, convertFrom_array hp xs, .inr ⟨_, _, rfl, rfl, by simp⟩⟩
  | ndarray dt xs =>
    cases h
    exact ⟨.array .float xs, _, rfl, convertFrom_array hp xs, .inr ⟨_, _, rfl, rfl, by simp⟩⟩
  | other => cases h

/-! ## C01 -/

/-- C01: a Spectrum of floats can be built exactly with the documented names, ignoring case. -/
theorem C01_accepts_iff (raw : Raw F) (hraw : FloatInput raw) (t u : String) :
    (∃ s, Spectrum.new raw t u = .ok s) ↔ ∃ c, (lower t, lower u, c) ∈ names := by
  rw [Spectrum.new_eq]
  cases h : specLookup (lower t) (lower u) with
  | error e =>
    have := (specLookup_error h).2
    constructor
    · rintro ⟨s, hs⟩; cases hs
    · rintro ⟨c, hc⟩; exact absurd hc (this c)
  | ok c =>
    have hc := specLookup_ok_iff.1 h
    obtain ⟨v, w, h1, h2, -⟩ := standardiseValues_float hraw (names_pairs _ hc)
    constructor
    · intro _; exact ⟨c, hc⟩
    · intro _
      exact ⟨_, by simp only [h1, h2, bind, Except.bind]; rfl⟩

/-- C01: every rejection of a float input is a `ValueError`; an input that is neither a float
nor array-like is always rejected with `ValueError`. -/
theorem C01_rejects_value (raw : Raw F) (hraw : FloatInput raw ∨ raw = .other) (t u : String)
    (e : PyErr) (h : Spectrum.new raw t u = .error e) : e = .value := by
  rw [Spectrum.new_eq] at h
  cases hl : specLookup (lower t) (lower u) with
  | error e' =>
    rw [hl] at h; cases h; exact (specLookup_error hl).1
  | ok c =>
    rw [hl] at h
    rcases hraw with hraw | rfl
    · obtain ⟨v, w, h1, h2, -⟩ :=
        standardiseValues_float hraw (names_pairs _ (specLookup_ok_iff.1 hl))
      simp only [h1, h2, bind, Except.bind] at h
      cases h
    · simp only [Raw.check, bind, Except.bind, Except.error.injEq] at h
      exact h.symm

theorem C01_other_rejected (t u : String) :
    Spectrum.new (.other : Raw F) t u = .error .value := by
  rw [Spectrum.new_eq]
  cases hl : specLookup (lower t) (lower u) with
  | error e' => rw [(specLookup_error hl).1]
  | ok c => rfl

/-- C01: the stored type is the lower-case name, the stored unit the canonical spelling, and
the stored values are the caller's. -/
theorem C01_stored (raw : Raw F) (t u : String) (s : Spectrum F)
    (h : Spectrum.new raw t u = .ok s) :
    s.stype = lower t ∧ (lower t, lower u, s.unit) ∈ names ∧ raw.check = .ok s.values := by
  rw [Spectrum.new_eq] at h
  cases hl : specLookup (lower t) (lower u) with
  | error e' => rw [hl] at h; cases h
  | ok c =>
    rw [hl] at h
    cases hv : raw.check with
    | error e => simp only [hv, bind, Except.bind] at h; cases h
    | ok v =>
      cases hw : standardiseValues (lower t) c v with
      | error e => simp only [hv, hw, bind, Except.bind] at h; cases h
      | ok w =>
        simp only [hv, hw, bind, Except.bind, Except.ok.injEq] at h
        subst h
        exact ⟨rfl, specLookup_ok_iff.1 hl, rfl⟩

/-- C01: the canonical unit does not depend on the order in which the unit table and its alias
sets are traversed: any table that relates the same aliases to the same units gives the same
result, for every type and every name. -/
theorem C01_order_independent (table : List (String × List String))
    (htable : ∀ c a, (∃ l, (c, l) ∈ table ∧ a ∈ l) ↔ ∃ l, (c, l) ∈ unitTypes ∧ a ∈ l)
    (t u : String) (ht : dictHas spectrumTypes t = true) :
    standardiseUnitIn table t u = standardiseUnit t u := by
  obtain ⟨units, hg, -⟩ := dictGet_ok_of_has _ _ ht
  unfold standardiseUnit
  rw [standardiseUnitIn_eq _ _ _ _ hg, standardiseUnitIn_eq _ _ _ _ hg]
  suffices h : tableUnit table units u = tableUnit unitTypes units u by rw [h]
  have huniq : ∀ p ∈ unitTypes, ∀ q ∈ unitTypes, ∀ a, a ∈ p.2 → a ∈ q.2 → p.1 = q.1 := by
    have : ∀ p ∈ unitTypes, ∀ q ∈ unitTypes, ∀ a ∈ p.2, a ∈ q.2 → p.1 = q.1 := by
      decide +kernel
    exact fun p hp q hq a ha hb => this p hp q hq a ha hb
  unfold tableUnit
  cases h1 : table.find? (fun p => p.2.contains u && units.contains p.1) with
  | none =>
    cases h2 : unitTypes.find? (fun p => p.2.contains u && units.contains p.1) with
    | none => rfl
    | some q =>
      have hq := List.find?_some h2
      have hqm := List.mem_of_find?_eq_some h2
      simp only [Bool.and_eq_true, List.contains_iff_mem] at hq
      obtain ⟨l, hl, hul⟩ := (htable q.1 u).2 ⟨q.2, hqm, hq.1⟩
      rw [List.find?_eq_none] at h1
      exact absurd (by simp [hul, hq.2]) (h1 _ hl)
  | some p =>
    have hp := List.find?_some h1
    have hpm := List.mem_of_find?_eq_some h1
    simp only [Bool.and_eq_true, List.contains_iff_mem] at hp
    obtain ⟨l, hl, hul⟩ := (htable p.1 u).1 ⟨p.2, hpm, hp.1⟩
    cases h2 : unitTypes.find? (fun p => p.2.contains u && units.contains p.1) with
    | none =>
      rw [List.find?_eq_none] at h2
      exact absurd (by simp [hul, hp.2]) (h2 _ hl)
    | some q =>
      have hq := List.find?_some h2
      have hqm := List.mem_of_find?_eq_some h2
      simp only [Bool.and_eq_true, List.contains_iff_mem] at hq
      simp only [Option.map_some]
      rw [huniq _ hl _ hqm u hul hq.1]

/-- C01: standardising a standardised unit changes nothing. -/
theorem C01_idempotent (t u c : String) (ht : dictHas spectrumTypes t = true)
    (h : standardiseUnit t u = .ok c) : standardiseUnit t c = .ok c := by
  rw [standardiseUnit_ok_iff ht] at h ⊢
  exact pairs_names _ (names_pairs _ h)

theorem toLower_toLower (c : Char) : c.toLower.toLower = c.toLower := by
  by_cases h : c.val ≥ 'A'.val ∧ c.val ≤ 'Z'.val
  · have e : c.toLower.val.toNat = c.val.toNat + 32 := by
      have h2 : c.val.toNat ≤ 90 := h.2
      have h3 : (('a'.val - 'A'.val : UInt32)).toNat = 32 := by decide
      unfold Char.toLower
      rw [dif_pos h]
      show (c.val + ('a'.val - 'A'.val)).toNat = _
      rw [UInt32.toNat_add, h3]
      omega
    generalize c.toLower = d at e
    have h1 : (65 : Nat) ≤ c.val.toNat := h.1
    unfold Char.toLower
    rw [dif_neg]
    intro h'
    have h4 : d.val.toNat ≤ 90 := h'.2
    omega
  · have : c.toLower = c := by unfold Char.toLower; rw [dif_neg h]
    rw [this, this]

theorem lower_lower (s : String) : lower (lower s) = lower s := by
  unfold lower
  simp only [String.toList_ofList, List.map_map]
  congr 1
  exact List.map_congr_left (fun c _ => toLower_toLower c)

/-- C01: the case of the names is irrelevant. -/
theorem C01_case_insensitive (raw : Raw F) (t u t' u' : String)
    (ht : lower t = lower t') (hu : lower u = lower u') :
    Spectrum.new raw t u = Spectrum.new raw t' u' := by
  rw [Spectrum.new_eq, Spectrum.new_eq, ht, hu]

/-- Concrete case: `Spectrum(532.0, 'Wavelength', 'NanoMetre')`. -/
example : ∃ s, Spectrum.new (.float (XR.fin 532)) "Wavelength" "NanoMetre" = .ok s ∧
    s.stype = "wavelength" ∧ s.unit = "nm" := by
  obtain ⟨s, hs⟩ := (C01_accepts_iff (.float (XR.fin 532)) trivial "Wavelength" "NanoMetre").2
    ⟨"nm", by decide +kernel⟩
  obtain ⟨h1, h2, -⟩ := C01_stored _ _ _ _ hs
  refine ⟨s, hs, by rw [h1]; decide +kernel, ?_⟩
  exact names_functional _ h2 ("wavelength", "nanometre", "nm") (by decide +kernel)
    (show lower "Wavelength" = "wavelength" by decide +kernel)
    (show lower "NanoMetre" = "nanometre" by decide +kernel)

/-- Concrete case: the reversed unit table satisfies the hypothesis of
`C01_order_independent`. -/
example : standardiseUnitIn unitTypes.reverse "wavelength" "angstrom" = .ok "a" := by
  rw [C01_order_independent _ (by intro c a; simp [List.mem_reverse]) _ _ (by decide +kernel)]
  decide +kernel

/-! ## C09: histories of in-place conversions -/

/-- The object after a sequence of `convert_to(..., in_place=True)` calls, some of which may
raise (and are caught by the caller). -/
def afterConversions (s : Spectrum F) (hist : List (String × String)) : Spectrum F :=
  hist.foldl (fun s p => (s.convertInPlace p.1 p.2).2) s

theorem convertInPlace_std (s : Spectrum F) (t u : String) :
    (s.convertInPlace t u).2.std = s.std := by
  unfold Spectrum.convertInPlace
  split <;> rfl

/-- C09: the wavelength reference survives every history. -/
theorem C09_reference_fixed (s : Spectrum F) (hist : List (String × String)) :
    (afterConversions s hist).std = s.std := by
  unfold afterConversions
  induction hist generalizing s with
  | nil => rfl
  | cons p hist ih => rw [List.foldl_cons, ih, convertInPlace_std]

/-- C09: after any history, every conversion gives what the original object would have given
(including its exception). -/
theorem C09_no_drift (s : Spectrum F) (hist : List (String × String)) (t u : String) :
    (afterConversions s hist).convertTo t u = s.convertTo t u := by
  rw [Spectrum.convertTo_eq, Spectrum.convertTo_eq, C09_reference_fixed]

/-- C09: an in-place conversion after any history gives the object exactly the values the
original would have been converted to, together with the standardised names. -/
theorem C09_in_place (s : Spectrum F) (hist : List (String × String)) (t u : String)
    (v : Vals F) (h : s.convertTo t u = .ok v) :
    ∃ c, (lower t, u, c) ∈ names ∧
      (afterConversions s (hist ++ [(t, u)])) =
        { values := v, stype := lower t, unit := c, std := s.std } := by
  have hd := C09_reference_fixed s hist
  unfold afterConversions at hd ⊢
  rw [List.foldl_append, List.foldl_cons, List.foldl_nil]
  generalize hist.foldl (fun s p => (s.convertInPlace p.1 p.2).2) s = s' at hd
  rw [Spectrum.convertTo_eq] at h
  unfold Spectrum.convertInPlace
  simp only
  rw [Spectrum.convertCore_eq, hd]
  cases hl : specLookup (lower t) u with
  | error e => rw [hl] at h; cases h
  | ok c =>
    rw [hl] at h
    simp only at h
    refine ⟨c, specLookup_ok_iff.1 hl, ?_⟩
    simp only [h, bind, Except.bind]

/-- C09: a failing in-place conversion leaves the object unchanged, and in-place conversion
fails exactly when the ordinary one does. -/
theorem C09_failure_unchanged (s : Spectrum F) (t u : String) (e : PyErr) :
    (s.convertInPlace t u).1 = .error e ↔
      s.convertTo t u = .error e := by
  unfold Spectrum.convertInPlace Spectrum.convertTo
  cases h : s.convertCore t u with
  | error e' => simp [bind, Except.bind]
  | ok p => simp [bind, Except.bind]

theorem C09_failure_frame (s : Spectrum F) (t u : String) (e : PyErr)
    (h : s.convertTo t u = .error e) : (s.convertInPlace t u).2 = s := by
  rw [← C09_failure_unchanged] at h
  revert h
  unfold Spectrum.convertInPlace
  cases h : s.convertCore t u with
  | error e' => simp
  | ok p => simp

/-! ## C02 -/

/-- C02: for a Spectrum built from floats, after any history of in-place conversions, a
conversion succeeds exactly for the documented type (in any case) and unit names, and raises
`ValueError` for all others. -/
theorem C02_convert_iff (raw : Raw F) (hraw : FloatInput raw) (t u : String) (s : Spectrum F)
    (hs : Spectrum.new raw t u = .ok s) (hist : List (String × String)) (t' u' : String) :
    ((∃ v, (afterConversions s hist).convertTo t' u' = .ok v) ↔
      ∃ c, (lower t', u', c) ∈ names) ∧
    ∀ e, (afterConversions s hist).convertTo t' u' = .error e → e = .value := by
  rw [C09_no_drift, Spectrum.convertTo_eq]
  rw [Spectrum.new_eq] at hs
  cases hl : specLookup (lower t) (lower u) with
  | error e => rw [hl] at hs; cases hs
  | ok c =>
    rw [hl] at hs
    obtain ⟨v, w, h1, h2, h3⟩ :=
      standardiseValues_float hraw (names_pairs _ (specLookup_ok_iff.1 hl))
    simp only [h1, h2, bind, Except.bind, Except.ok.injEq] at hs
    subst hs
    cases hl' : specLookup (lower t') u' with
    | error e =>
      obtain ⟨he, hn⟩ := specLookup_error hl'
      subst he
      refine ⟨⟨?_, ?_⟩, ?_⟩
      · rintro ⟨v, hv⟩; cases hv
      · rintro ⟨c, hc⟩; exact absurd hc (hn c)
      · intro e he; cases he; rfl
    | ok c' =>
      have hc' := specLookup_ok_iff.1 hl'
      have hp' := names_pairs _ hc'
      rcases h3 with ⟨x, y, rfl, rfl⟩ | ⟨xs, ys, rfl, rfl, -⟩
      · simp only
        rw [show convertVals (lower t') c' (.scalar y) = _ from convertVals_scalar hp' y]
        exact ⟨⟨fun _ => ⟨_, hc'⟩, fun _ => ⟨_, rfl⟩⟩, by intro e he; cases he⟩
      · simp only
        rw [show convertVals (lower t') c' (.array .float ys) = _ from convertVals_array hp' ys]
        exact ⟨⟨fun _ => ⟨_, hc'⟩, fun _ => ⟨_, rfl⟩⟩, by intro e he; cases he⟩

/-- C02: a conversion keeps scalars scalars and arrays arrays of the same length. -/
theorem C02_shape (raw : Raw F) (hraw : FloatInput raw) (t u : String) (s : Spectrum F)
    (hs : Spectrum.new raw t u = .ok s) (t' u' : String) (v : Vals F)
    (hv : s.convertTo t' u' = .ok v) :
    v.isArray = s.values.isArray ∧ v.toList.length = s.values.toList.length := by
  rw [Spectrum.new_eq] at hs
  cases hl : specLookup (lower t) (lower u) with
  | error e => rw [hl] at hs; cases hs
  | ok c =>
    rw [hl] at hs
    obtain ⟨v, w, h1, h2, h3⟩ :=
      standardiseValues_float hraw (names_pairs _ (specLookup_ok_iff.1 hl))
    simp only [h1, h2, bind, Except.bind, Except.ok.injEq] at hs
    subst hs
    rw [Spectrum.convertTo_eq] at hv
    cases hl' : specLookup (lower t') u' with
    | error e => rw [hl'] at hv; cases hv
    | ok c' =>
      rw [hl'] at hv
      have hp' := names_pairs _ (specLookup_ok_iff.1 hl')
      rcases h3 with ⟨x, y, rfl, rfl⟩ | ⟨xs, ys, rfl, rfl, hlen⟩
      · simp only at hv
        rw [convertVals_scalar hp' y, Except.ok.injEq] at hv
        subst hv; exact ⟨rfl, rfl⟩
      · simp only at hv
        rw [convertVals_array hp' ys, Except.ok.injEq] at hv
        subst hv; exact ⟨rfl, by simp [Vals.toList, hlen]⟩

/-- Concrete case: 2.5 eV, converted in place to `'Wavelength'`/`'angstrom'` and to the
invalid unit `'Nm'`, can still be converted to frequency. -/
example : ∃ s : Spectrum XR, Spectrum.new (.float (XR.fin 2.5)) "energy" "eV" = .ok s ∧
    ∃ v, (afterConversions s [("Wavelength", "angstrom"), ("wavelength", "Nm")]).convertTo
      "frequency" "hertz" = .ok v := by
  obtain ⟨s, hs⟩ := (C01_accepts_iff (.float (XR.fin 2.5)) trivial "energy" "eV").2
    ⟨"ev", by decide +kernel⟩
  exact ⟨s, hs, (C02_convert_iff (.float (XR.fin 2.5)) trivial _ _ s hs _ _ _).1.2 ⟨"hz", by decide +kernel⟩⟩

/-! ## C03: spelling of units -/

/-- C03 (full statement, refuted below): every unit spelling accepted by the constructor is
accepted by `convert_to`. -/
def C03_statement (F : Type) [PyFloat F] : Prop :=
  ∀ (raw : Raw F) (t u : String) (s : Spectrum F), FloatInput raw →
    Spectrum.new raw t u = .ok s → ∃ v, s.convertTo t u = .ok v

/-- C03: a spelling accepted by the constructor is accepted by `convert_to` exactly when it is
already in lower case. What is missing for the full claim: `convert_to` does not lower the
unit (spectrum.py 305). -/
theorem C03_spelling_partial (raw : Raw F) (hraw : FloatInput raw) (t u : String)
    (s : Spectrum F) (hs : Spectrum.new raw t u = .ok s) :
    (∃ v, s.convertTo t u = .ok v) ↔ lower u = u := by
  have h := (C02_convert_iff raw hraw t u s hs [] t u).1
  rw [show afterConversions s [] = s from rfl] at h
  rw [h]
  obtain ⟨-, hm, -⟩ := C01_stored raw t u s hs
  constructor
  · rintro ⟨c, hc⟩; exact (names_lower _ hc).2
  · intro hu; rw [hu] at hm; exact ⟨_, hm⟩

/-- C03 is false for every arithmetic: `Spectrum(x, 'wavelength', 'NM')` exists but cannot be
converted to `'NM'`. -/
theorem C03_refuted : ¬ C03_statement F := by
  intro h
  have hx : FloatInput (.float (lit 1) : Raw F) := trivial
  obtain ⟨s, hs⟩ := (C01_accepts_iff (.float (lit 1) : Raw F) hx "wavelength" "NM").2
    ⟨"nm", by decide +kernel⟩
  have := (C03_spelling_partial _ hx _ _ s hs).1 (h _ _ _ s hx hs)
  exact absurd this (by decide +kernel)

/-- Concrete case for the positive direction: `'nanometre'`. -/
example (s : Spectrum XR) (hs : Spectrum.new (.float (XR.fin 1)) "wavelength" "nanometre" = .ok s) :
    ∃ v, s.convertTo "wavelength" "nanometre" = .ok v :=
  (C03_spelling_partial (.float (XR.fin 1)) trivial _ _ s hs).2 (by decide +kernel)

/-! ## C67: integer arrays -/

/-- The same numbers passed as floats. -/
def asFloats : Raw F → Raw F
  | .list _ xs => .list .float xs
  | .ndarray _ xs => .ndarray .float xs
  | r => r

/-- C67 (full statement, refuted below): a Spectrum of integers can be built and converted
whenever the same numbers can as floats, with the same values. -/
def C67_statement (F : Type) [PyFloat F] : Prop :=
  ∀ (raw : Raw F) (t u : String) (s : Spectrum F), IntInput raw →
    Spectrum.new (asFloats raw) t u = .ok s →
    ∃ s', Spectrum.new raw t u = .ok s' ∧
      ∀ t' u' v, s.convertTo t' u' = .ok v → ∃ v', s'.convertTo t' u' = .ok v' ∧
        v'.toList = v.toList

/-- C67: integers for any type other than wavelength are always rejected, and with
`OverflowError` if the names are valid. -/
theorem C67_nonwavelength_overflow (raw : Raw F) (hraw : IntInput raw) (t u c : String)
    (hc : (lower t, lower u, c) ∈ names) (ht : lower t ≠ "wavelength") :
    Spectrum.new raw t u = .error .overflow := by
  rw [Spectrum.new_eq, specLookup_ok_iff.2 hc]
  have hp := names_pairs _ hc
  simp only at hp
  have key : ∀ xs : List F, standardiseValues (lower t) c (.array .int xs) = .error .overflow := by
    intro xs
    rcases pairs_cases hp with ⟨h, _⟩ | ⟨h, _⟩ | ⟨h, _⟩ | ⟨h, _⟩ | ⟨h, _⟩ |
      ⟨h, rfl⟩ | ⟨h, rfl⟩ | ⟨h, rfl⟩ | ⟨h, rfl⟩ <;>
    first
      | exact absurd h ht
      | (rw [h]; simp [standardiseValues, convertFrom, dictHas, spectrumTypes,
          frequencyToStandard, energyToStandard, angFreqToStandard, wavenumberToStandard,
          safeInverse, bind, Except.bind])
  cases raw with
  | list dt xs => cases hraw; simp only [Raw.check, bind, Except.bind, key]
  | ndarray dt xs => cases hraw; simp only [Raw.check, bind, Except.bind, key]
  | float x => cases hraw
  | other => cases hraw

/-- C67 is false for every arithmetic. -/
theorem C67_refuted : ¬ C67_statement F := by
  intro h
  have hi : IntInput (.list .int [lit 1, lit 2] : Raw F) := rfl
  obtain ⟨s, hs⟩ := (C01_accepts_iff (.list .float [lit 1, lit 2] : Raw F) rfl "energy" "ev").2
    ⟨"ev", by decide +kernel⟩
  obtain ⟨s', hs', -⟩ := h _ _ _ s hi hs
  rw [C67_nonwavelength_overflow _ hi _ _ "ev" (by decide +kernel) (by decide +kernel)] at hs'
  cases hs'

/-- C67, the part that holds: integer wavelengths can be built, and converting them to any
wavelength unit gives the values the floats would have given. Missing: reciprocal types, where
the code raises `OverflowError` (`C67_nonwavelength_overflow`, `C67_metre_overflow`). -/
theorem C67_wavelength_partial (raw : Raw F) (hraw : IntInput raw) (t u : String)
    (s : Spectrum F) (hs : Spectrum.new (asFloats raw) t u = .ok s)
    (ht : lower t = "wavelength") :
    ∃ s', Spectrum.new raw t u = .ok s' ∧ ∀ t' u' v, lower t' = "wavelength" →
      s.convertTo t' u' = .ok v → ∃ v', s'.convertTo t' u' = .ok v' ∧ v'.toList = v.toList := by
  obtain ⟨xs, hxs, hxs'⟩ : ∃ xs, raw.check = .ok (.array .int xs) ∧
      (asFloats raw).check = .ok (.array .float xs) := by
    cases raw with
    | list dt xs => cases hraw; exact ⟨xs, rfl, rfl⟩
    | ndarray dt xs => cases hraw; exact ⟨xs, rfl, rfl⟩
    | float x => cases hraw
    | other => cases hraw
  rw [Spectrum.new_eq] at hs ⊢
  cases hl : specLookup (lower t) (lower u) with
  | error e => rw [hl] at hs; cases hs
  | ok c =>
    rw [hl] at hs
    have hc := specLookup_ok_iff.1 hl
    have hp := names_pairs _ hc
    simp only [ht] at hp
    -- the integer standard representation has the same entries
    obtain ⟨dt, w, h1, h2⟩ : ∃ dt w, standardiseValues (lower t) c (.array .int xs) =
        .ok (.array dt w) ∧ standardiseValues (lower t) c (.array .float xs) =
        .ok (.array .float w) := by
      rw [ht]
      rcases pairs_cases hp with ⟨_, rfl⟩ | ⟨_, rfl⟩ | ⟨_, rfl⟩ | ⟨_, rfl⟩ | ⟨_, rfl⟩ |
        ⟨h, _⟩ | ⟨h, _⟩ | ⟨h, _⟩ | ⟨h, _⟩ <;>
      first
        | exact absurd h (by decide)
        | simp [standardiseValues, convertFrom, dictHas, spectrumTypes, wavelengthToStandard,
            Vals.map]
    simp only [hxs', h2, bind, Except.bind, Except.ok.injEq] at hs
    subst hs
    refine ⟨{ values := .array .int xs, stype := lower t, unit := c, std := .array dt w },
      by simp only [hxs, h1, bind, Except.bind], ?_⟩
    intro t' u' v ht' hv
    rw [Spectrum.convertTo_eq] at hv ⊢
    cases hl' : specLookup (lower t') u' with
    | error e => rw [hl'] at hv; cases hv
    | ok c' =>
      rw [hl'] at hv
      simp only at hv ⊢
      have hp' := names_pairs _ (specLookup_ok_iff.1 hl')
      simp only at hp'
      rw [convertVals_array hp', Except.ok.injEq] at hv
      subst hv
      rw [ht'] at hp' ⊢
      rcases pairs_cases hp' with ⟨_, rfl⟩ | ⟨_, rfl⟩ | ⟨_, rfl⟩ | ⟨_, rfl⟩ | ⟨_, rfl⟩ |
        ⟨h, _⟩ | ⟨h, _⟩ | ⟨h, _⟩ | ⟨h, _⟩ <;>
      first
        | exact absurd h (by decide)
        | (refine ⟨_, by simp only [convertVals, toWavelength, String.reduceEq, if_true,
            if_false, Vals.map]; rfl, ?_⟩
           simp only [Vals.toList]
           first
             | rfl
             | exact (List.map_id w).symm.trans (List.map_congr_left (fun a _ => by simp [toElem])))

/-- C67: even an integer array of metres cannot be converted to frequency or energy. -/
theorem C67_metre_overflow (xs : List F) (s : Spectrum F)
    (hs : Spectrum.new (.list .int xs) "wavelength" "m" = .ok s) :
    s.convertTo "energy" "ev" = .error .overflow ∧
      s.convertTo "frequency" "hz" = .error .overflow := by
  rw [Spectrum.new_eq, show specLookup (lower "wavelength") (lower "m") = .ok "m" by
    decide +kernel] at hs
  simp only [Raw.check, bind, Except.bind, standardiseValues,
    show lower "wavelength" = "wavelength" by decide +kernel, not_true_eq_false, and_self,
    if_false, Except.ok.injEq] at hs
  subst hs
  rw [Spectrum.convertTo_eq, Spectrum.convertTo_eq,
    show specLookup (lower "energy") "ev" = .ok "ev" by decide +kernel,
    show specLookup (lower "frequency") "hz" = .ok "hz" by decide +kernel]
  simp [convertVals, show lower "energy" = "energy" by decide +kernel,
    show lower "frequency" = "frequency" by decide +kernel, toEnergy, toFrequency, safeInverse,
    bind, Except.bind]

/-- Concrete case for `C67_wavelength_partial`: `Spectrum([400, 800], unit='nm')`. -/
example : ∃ s, Spectrum.new (.list .int [XR.fin 400, XR.fin 800]) "wavelength" "nm" = .ok s := by
  obtain ⟨s, hs⟩ := (C01_accepts_iff (.list .float [XR.fin 400, XR.fin 800]) rfl
    "wavelength" "nm").2 ⟨"nm", by decide +kernel⟩
  obtain ⟨s', hs', -⟩ := C67_wavelength_partial (.list .int [XR.fin 400, XR.fin 800]) rfl
    "wavelength" "nm" s hs (by decide +kernel)
  exact ⟨s', hs'⟩

end Disp
