import Verif.Lemmas.MinMax
import Verif.Props.SpectrumPhysics
/-!
# C10, C11: `Spectrum.contains`
-/

namespace Disp

open Spec

section generic
variable {F : Type} [PyFloat F] [LawfulCmp F]

/-- Every entry of `ys` lies between two entries of `xs`. -/
def Within (xs ys : List F) : Prop :=
  ∀ y ∈ ys, (∃ a ∈ xs, PyFloat.le a y = true) ∧ (∃ b ∈ xs, PyFloat.le y b = true)

/-- C10 (full statement, refuted below): `contains` answers True exactly for spectra within the
range and raises `ValueError` for the others. -/
def C10_statement (F : Type) [PyFloat F] : Prop :=
  ∀ (self other : Spectrum F) (ov : Vals F), self.values.toList ≠ [] →
    other.convertTo self.stype self.unit = .ok ov → ov.toList ≠ [] →
    (Within self.values.toList ov.toList → self.contains other = .ok true) ∧
    (¬ Within self.values.toList ov.toList → self.contains other = .error .value)

theorem contains_spec (self other : Spectrum F) (ov : Vals F)
    (hself : self.values.toList ≠ []) (hov : other.convertTo self.stype self.unit = .ok ov)
    (hne : ov.toList ≠ []) (hn1 : NoNaN self.values.toList) (hn2 : NoNaN ov.toList) :
    self.contains other = (if ∃ y ∈ ov.toList, (∀ a ∈ self.values.toList, PyFloat.lt y a = true) ∨
        (∀ b ∈ self.values.toList, PyFloat.lt b y = true)
      then (match dictGet displayNames self.unit with
        | .ok _ => .error .value
        | .error e => .error e)
      else .ok true) := by
  classical
  obtain ⟨omin, ho1, ho2, ho3⟩ := npMin_spec ov hne hn2
  obtain ⟨omax, hp1, hp2, hp3⟩ := npMax_spec ov hne hn2
  obtain ⟨smin, hs1, hs2, hs3⟩ := npMin_spec self.values hself hn1
  obtain ⟨smax, ht1, ht2, ht3⟩ := npMax_spec self.values hself hn1
  unfold Spectrum.contains
  rw [hov]
  simp only [bind, Except.bind, ho1, hp1, hs1, ht1]
  have key : (PyFloat.lt omin smin || PyFloat.lt smax omax) = true ↔
      ∃ y ∈ ov.toList, (∀ a ∈ self.values.toList, PyFloat.lt y a = true) ∨
        (∀ b ∈ self.values.toList, PyFloat.lt b y = true) := by
    rw [Bool.or_eq_true]
    constructor
    · rintro (h | h)
      · refine ⟨omin, ho2, Or.inl fun a ha => ?_⟩
        rcases LawfulCmp.lt_cotrans omin a smin (hn1 a ha) h with h' | h'
        · exact h'
        · rw [hs3 a ha] at h'; cases h'
      · refine ⟨omax, hp2, Or.inr fun a ha => ?_⟩
        rcases LawfulCmp.lt_cotrans smax a omax (hn1 a ha) h with h' | h'
        · rw [ht3 a ha] at h'; cases h'
        · exact h'
    · rintro ⟨y, hy, h | h⟩
      · left
        have := h smin hs2
        rcases LawfulCmp.lt_cotrans y omin smin (hn2 omin ho2) this with h' | h'
        · rw [ho3 y hy] at h'; cases h'
        · exact h'
      · right
        have := h smax ht2
        rcases LawfulCmp.lt_cotrans smax omax y (hn2 omax hp2) this with h' | h'
        · exact h'
        · rw [hp3 y hy] at h'; cases h'
  by_cases hk : (PyFloat.lt omin smin || PyFloat.lt smax omax) = true
  · rw [if_pos hk, if_pos (key.1 hk)]
    cases dictGet displayNames self.unit <;> rfl
  · rw [if_neg hk, if_neg (fun h => hk (key.2 h))]

theorem within_iff {xs ys : List F} (hne : xs ≠ []) (h1 : NoNaN xs) (h2 : NoNaN ys) :
    Within xs ys ↔ ¬ ∃ y ∈ ys, (∀ a ∈ xs, PyFloat.lt y a = true) ∨
        (∀ b ∈ xs, PyFloat.lt b y = true) := by
  constructor
  · rintro h ⟨y, hy, h' | h'⟩
    · obtain ⟨a, ha, hle⟩ := (h y hy).1
      rw [LawfulCmp.le_eq_not_lt _ _ (h1 a ha) (h2 y hy), h' a ha] at hle
      cases hle
    · obtain ⟨a, ha, hle⟩ := (h y hy).2
      rw [LawfulCmp.le_eq_not_lt _ _ (h2 y hy) (h1 a ha), h' a ha] at hle
      cases hle
  · intro h y hy
    refine ⟨?_, ?_⟩
    · by_contra hno
      apply h
      refine ⟨y, hy, Or.inl fun a ha => ?_⟩
      by_contra hlt
      apply hno
      refine ⟨a, ha, ?_⟩
      rw [LawfulCmp.le_eq_not_lt _ _ (h1 a ha) (h2 y hy), eq_false_of_ne_true hlt]; rfl
    · by_contra hno
      apply h
      refine ⟨y, hy, Or.inr fun a ha => ?_⟩
      by_contra hlt
      apply hno
      refine ⟨a, ha, ?_⟩
      rw [LawfulCmp.le_eq_not_lt _ _ (h2 y hy) (h1 a ha), eq_false_of_ne_true hlt]; rfl

/-- C10 for NaN-free values and a range that is not in centimetres, for every arithmetic with
IEEE comparisons: `contains` returns True exactly when every value lies within the range, and
raises `ValueError` otherwise. Missing for the full claim: NaN values (accepted) and ranges in
centimetres (wrong exception), see `C10_refuted` and `C10_cm_key_error`. -/
theorem C10_contains_partial (self other : Spectrum F) (ov : Vals F)
    (hself : self.values.toList ≠ []) (hov : other.convertTo self.stype self.unit = .ok ov)
    (hne : ov.toList ≠ []) (hn1 : NoNaN self.values.toList) (hn2 : NoNaN ov.toList)
    (hu : self.unit ∈ pairs.map (·.2)) (hcm : self.unit ≠ "cm") :
    (Within self.values.toList ov.toList → self.contains other = .ok true) ∧
    (¬ Within self.values.toList ov.toList → self.contains other = .error .value) := by
  rw [contains_spec self other ov hself hov hne hn1 hn2, within_iff hself hn1 hn2]
  refine ⟨fun h => if_neg h, fun h => ?_⟩
  rw [if_pos (Classical.not_not.1 h)]
  have : ∀ u ∈ pairs.map (·.2), u ≠ "cm" → (dictGet displayNames u).isOk = true := by
    decide +kernel
  have h3 := this _ hu hcm
  cases hd : dictGet displayNames self.unit with
  | ok _ => rfl
  | error e => rw [hd] at h3; cases h3

/-- C10, the deviation for centimetres: an out-of-range request raises `KeyError`. -/
theorem C10_cm_key_error (self other : Spectrum F) (ov : Vals F)
    (hself : self.values.toList ≠ []) (hov : other.convertTo self.stype self.unit = .ok ov)
    (hne : ov.toList ≠ []) (hn1 : NoNaN self.values.toList) (hn2 : NoNaN ov.toList)
    (hcm : self.unit = "cm") (hout : ¬ Within self.values.toList ov.toList) :
    self.contains other = .error .key := by
  rw [contains_spec self other ov hself hov hne hn1 hn2]
  rw [within_iff hself hn1 hn2, Classical.not_not] at hout
  rw [if_pos hout, hcm]
  have : dictGet displayNames "cm" = .error .key := by decide +kernel
  rw [this]

/-- C10, never silently accepts, whatever the unit: if `contains` returns, the values are
within the range. -/
theorem C10_sound (self other : Spectrum F) (b : Bool) (hself : NoNaN self.values.toList)
    (hb : self.contains other = .ok b) : b = true ∧ ∃ ov,
      other.convertTo self.stype self.unit = .ok ov ∧
      (NoNaN ov.toList → ov.toList ≠ [] ∧ self.values.toList ≠ [] ∧
        Within self.values.toList ov.toList) := by
  cases hov : other.convertTo self.stype self.unit with
  | error e => rw [Spectrum.contains, hov] at hb; cases hb
  | ok ov =>
    have hne : ov.toList ≠ [] := by
      intro h
      simp [Spectrum.contains, hov, npMin, h, bind, Except.bind] at hb
    have hns : self.values.toList ≠ [] := by
      intro h
      cases hvo : ov.toList with
      | nil => exact hne hvo
      | cons x xs => simp [Spectrum.contains, hov, npMin, npMax, h, hvo, bind, Except.bind] at hb
    refine ⟨?_, ov, rfl, fun hn => ⟨hne, hns, ?_⟩⟩
    · unfold Spectrum.contains at hb
      rw [hov] at hb
      simp only [bind, Except.bind] at hb
      cases h1 : npMin ov with
      | error e => rw [h1] at hb; cases hb
      | ok a =>
        cases h2 : npMax ov with
        | error e => rw [h1, h2] at hb; cases hb
        | ok a' =>
          cases h3 : npMin self.values with
          | error e => rw [h1, h2, h3] at hb; cases hb
          | ok b' =>
            cases h4 : npMax self.values with
            | error e => rw [h1, h2, h3, h4] at hb; cases hb
            | ok b'' =>
              rw [h1, h2, h3, h4] at hb
              simp only at hb
              split at hb
              · cases hd : dictGet displayNames self.unit <;> rw [hd] at hb <;> cases hb
              · cases hb; rfl
    · rw [contains_spec self other ov hns hov hne hself hn] at hb
      rw [within_iff hns hself hn]
      intro h
      rw [if_pos h] at hb
      cases hd : dictGet displayNames self.unit <;> rw [hd] at hb <;> cases hb

end generic

theorem noNaN_fin (xs : List ℝ) : NoNaN (xs.map XR.fin) := by
  intro x hx
  obtain ⟨a, -, rfl⟩ := List.mem_map.1 hx
  rfl

/-- A wavelength spectrum in metres with the given values. -/
def metreSpectrum (xs : List XR) : Spectrum XR :=
  { values := .array .float xs, stype := "wavelength", unit := "m", std := .array .float xs }

theorem metreSpectrum_new (xs : List XR) :
    Spectrum.new (.list .float xs) "wavelength" "m" = .ok (metreSpectrum xs) := by
  have hl : lower "wavelength" = "wavelength" := by decide +kernel
  rw [new_list (c := "m") (by decide +kernel), hl]
  have : List.map (fromElem safeInverseElem "wavelength" "m") xs = xs :=
    List.map_id'' (fun x => by simp [fromElem]) xs
  simp [metreSpectrum, this]

theorem metreSpectrum_convert (xs : List XR) :
    (metreSpectrum xs).convertTo "wavelength" "m" = .ok (.array .float xs) := by
  have hl : lower "wavelength" = "wavelength" := by decide +kernel
  rw [Spectrum.convertTo_eq, hl, show specLookup "wavelength" "m" = .ok "m" by decide +kernel]
  simp only [metreSpectrum]
  rw [convertVals_array (by decide +kernel)]
  have : List.map (toElem safeInverseElem "wavelength" "m") xs = xs :=
    List.map_id'' (fun x => by simp [toElem]) xs
  rw [this]

/-- C10 is false: a NaN is reported as contained in [1 m, 2 m], and so is an array of a NaN
and a value far outside. -/
theorem C10_refuted : ¬ C10_statement XR := by
  intro hst
  have h := (hst (metreSpectrum [XR.fin 1, XR.fin 2]) (metreSpectrum [XR.nan, XR.fin 100])
    (.array .float [XR.nan, XR.fin 100]) (by simp [metreSpectrum, Vals.toList])
    (metreSpectrum_convert _) (by simp [Vals.toList])).2 (by
      intro hw
      have h1 := (hw XR.nan (by simp [Vals.toList])).1
      obtain ⟨a, -, ha⟩ := h1
      rw [LawfulCmp.le_nan_right _ _ (by rfl)] at ha
      cases ha)
  have h2 : (metreSpectrum [XR.fin 1, XR.fin 2]).contains (metreSpectrum [XR.nan, XR.fin 100]) =
      .ok true := by
    unfold Spectrum.contains
    rw [show (metreSpectrum [XR.fin 1, XR.fin 2]).stype = "wavelength" from rfl,
      show (metreSpectrum [XR.fin 1, XR.fin 2]).unit = "m" from rfl, metreSpectrum_convert]
    simp [bind, Except.bind, npMin, npMax, Vals.toList, npMinList, npMaxList, metreSpectrum]
  rw [h2] at h
  cases h

/-- Concrete cases: 1.5 m is in [1 m, 2 m], 3 m is not. -/
example :
    (metreSpectrum [XR.fin 1, XR.fin 2]).contains (metreSpectrum [XR.fin 1.5]) = .ok true ∧
    (metreSpectrum [XR.fin 1, XR.fin 2]).contains (metreSpectrum [XR.fin 3]) = .error .value := by
  have n1 : NoNaN [XR.fin 1, XR.fin 2] := noNaN_fin [1, 2]
  have hd : ("m" : String) ∈ pairs.map (·.2) := by decide +kernel
  refine ⟨(C10_contains_partial (metreSpectrum [XR.fin 1, XR.fin 2]) (metreSpectrum [XR.fin 1.5])
    (.array .float [XR.fin 1.5]) (by simp [metreSpectrum, Vals.toList])
    (metreSpectrum_convert _) (by simp [Vals.toList]) n1 (noNaN_fin [1.5]) hd
    (show "m" ≠ "cm" by decide)).1 ?_,
    (C10_contains_partial (metreSpectrum [XR.fin 1, XR.fin 2]) (metreSpectrum [XR.fin 3])
    (.array .float [XR.fin 3]) (by simp [metreSpectrum, Vals.toList])
    (metreSpectrum_convert _) (by simp [Vals.toList]) n1 (noNaN_fin [3]) hd
    (show "m" ≠ "cm" by decide)).2 ?_⟩
  · simp [Within, metreSpectrum, Vals.toList]; norm_num
  · simp [Within, metreSpectrum, Vals.toList]; norm_num

/-! ## C11 -/

/-- C11 (full statement, refuted below). -/
def C11_statement : Prop :=
  ∀ (t u : String) (x : ℝ) (s : Spectrum XR), 0 < x →
    Spectrum.new (.float (XR.fin x)) t u = .ok s → s.contains s = .ok true

/-- `x` has at most the number of decimals to which conversions round. -/
def OnGrid : Option ℕ → ℝ → Prop
  | none, _ => True
  | some d, x => ∃ m : ℤ, x = m / 10 ^ d

theorem rounded_of_grid {o : Option ℕ} {x : ℝ} (h : OnGrid o x) : roundOpt o x = x := by
  cases o with
  | none => rfl
  | some d => obtain ⟨m, rfl⟩ := h; exact XR.roundDec_grid d m

theorem within_self (xs : List ℝ) : Within (xs.map XR.fin) (xs.map XR.fin) := by
  intro y hy
  obtain ⟨a, -, rfl⟩ := List.mem_map.1 hy
  exact ⟨⟨_, hy, by simp⟩, ⟨_, hy, by simp⟩⟩

theorem contains_of_same {s : Spectrum XR} {xs : List ℝ} (hne : xs ≠ [])
    (hv : s.values.toList = xs.map XR.fin) {ov : Vals XR}
    (hc : s.convertTo s.stype s.unit = .ok ov) (ho : ov.toList = xs.map XR.fin) :
    s.contains s = .ok true := by
  have h1 : s.values.toList ≠ [] := by rw [hv]; simpa using hne
  have h2 : ov.toList ≠ [] := by rw [ho]; simpa using hne
  have n1 : NoNaN s.values.toList := by rw [hv]; exact noNaN_fin xs
  have n2 : NoNaN ov.toList := by rw [ho]; exact noNaN_fin xs
  rw [contains_spec s s ov h1 hc h2 n1 n2]
  have := within_self xs
  rw [if_neg]
  rw [← within_iff h1 n1 n2, hv, ho]
  exact this

/-- C11 for scalars: a positive value with at most as many decimals as conversions keep is
contained in its own spectrum, for all types but wavenumber. -/
theorem C11_scalar_partial (t u c : String) (hc : (lower t, lower u, c) ∈ names)
    (hk : lower t ≠ "wavenumber") (x : ℝ) (hx : 0 < x) (hg : OnGrid (decimals (lower t) c) x)
    (s : Spectrum XR) (hs : Spectrum.new (.float (XR.fin x)) t u = .ok s) :
    s.contains s = .ok true := by
  rw [new_scalar hc, Except.ok.injEq] at hs
  subst hs
  refine contains_of_same (xs := [x]) (by simp) rfl (ov := .scalar (XR.fin x)) ?_ rfl
  have hl : lower (lower t) = lower t := (names_lower _ hc).1
  rw [Spectrum.convertTo_eq]
  simp only [hl]
  rw [specLookup_ok_iff.2 (canonical_mem hc)]
  simp only
  rw [convertVals_scalar (names_pairs _ hc), Except.ok.injEq, Vals.scalar.injEq,
    fromElem_fin (names_pairs _ hc) hx (fun _ => XR.inv_scalar_fin hx.ne')]
  have hm := metres_pos (lower t) c hx
  rw [toElem_fin (names_pairs _ hc) hm hk (fun _ => XR.inv_scalar_fin hm.ne'),
    ofMetres_metres _ _ hx, rounded_of_grid hg]

/-- C11 for arrays, with the additional tolerance condition of C06 for reciprocal types. -/
theorem C11_array_partial (t u c : String) (hc : (lower t, lower u, c) ∈ names)
    (hk : lower t ≠ "wavenumber") (xs : List ℝ) (hne : xs ≠ []) (hpos : ∀ x ∈ xs, 0 < x)
    (hg : ∀ x ∈ xs, OnGrid (decimals (lower t) c) x)
    (hsrc : lower t ≠ "wavelength" →
      ∀ x ∈ xs, 1 / 10 ^ 8 < x ∧ 1 / 10 ^ 8 < metres (lower t) c x)
    (s : Spectrum XR) (hs : Spectrum.new (.list .float (xs.map XR.fin)) t u = .ok s) :
    s.contains s = .ok true := by
  rw [new_list hc, Except.ok.injEq] at hs
  subst hs
  refine contains_of_same (xs := xs) hne rfl (ov := .array .float (xs.map XR.fin)) ?_ rfl
  have hl : lower (lower t) = lower t := (names_lower _ hc).1
  rw [Spectrum.convertTo_eq]
  simp only [hl]
  rw [specLookup_ok_iff.2 (canonical_mem hc)]
  simp only
  rw [convertVals_array (names_pairs _ hc), Except.ok.injEq, Vals.array.injEq]
  refine ⟨rfl, ?_⟩
  rw [List.map_map, List.map_map]
  apply List.map_congr_left
  intro x hx
  have h0 := hpos x hx
  have hm := metres_pos (lower t) c h0
  simp only [Function.comp]
  rw [fromElem_fin (names_pairs _ hc) h0 (fun h => XR.inv_elem_fin (by
      rw [abs_of_pos h0]; exact (hsrc h x hx).1)),
    toElem_fin (names_pairs _ hc) hm hk (fun h => XR.inv_elem_fin (by
      rw [abs_of_pos hm]; exact (hsrc h x hx).2)),
    ofMetres_metres _ _ h0, rounded_of_grid (hg x hx)]

/-- C11: no single wavenumber is contained in its own spectrum. -/
theorem C11_wavenumber_never (x : ℝ) (hx : 0 < x) :
    ∃ s, Spectrum.new (.float (XR.fin x)) "wavenumber" "1/cm" = .ok s ∧
      s.contains s = .error .value := by
  have hl : lower "wavenumber" = "wavenumber" := by decide +kernel
  have hn : ((lower "wavenumber", lower "1/cm", "1/cm") : String × String × String) ∈ names := by
    decide +kernel
  obtain ⟨s, hs⟩ : ∃ s, Spectrum.new (.float (XR.fin x)) "wavenumber" "1/cm" = .ok s :=
    ⟨_, new_scalar hn _⟩
  refine ⟨s, hs, ?_⟩
  have hconv := C05_wavenumber x hx
  unfold convertScalar at hconv
  rw [hs] at hconv
  simp only [bind, Except.bind] at hconv
  rw [new_scalar hn, Except.ok.injEq] at hs
  have hv : s.values = .scalar (XR.fin x) := by rw [← hs]
  have hst : s.stype = "wavenumber" := by rw [← hs, hl]
  have hu : s.unit = "1/cm" := by rw [← hs]
  cases hct : s.convertTo "wavenumber" "1/cm" with
  | error e => rw [hct] at hconv; cases hconv
  | ok ov =>
    rw [hct] at hconv
    cases ov with
    | array d l => cases hconv
    | scalar y =>
      simp only [Except.ok.injEq] at hconv
      subst hconv
      refine (C10_contains_partial s s (.scalar (XR.fin (10 ^ 4 * x))) (by simp [hv, Vals.toList])
        (by rw [hst, hu, hct]) (by simp [Vals.toList]) (by simp [hv, Vals.toList, NoNaN])
        (by simp [Vals.toList, NoNaN]) (by rw [hu]; decide +kernel) (by rw [hu]; decide)).2 ?_
      rw [hv]
      intro hw
      obtain ⟨-, b, hb, hle⟩ := hw (XR.fin (10 ^ 4 * x)) (by simp [Vals.toList])
      simp only [Vals.toList, List.mem_singleton] at hb
      subst hb
      simp only [XR.le_fin, decide_eq_true_eq] at hle
      nlinarith

/-- C11 is false. -/
theorem C11_refuted : ¬ C11_statement := by
  intro hst
  obtain ⟨s, h1, h2⟩ := C11_wavenumber_never 1 one_pos
  have := hst _ _ 1 s one_pos h1
  rw [h2] at this
  cases this

/-- C11 is also false for energies with more than nine decimals: 0.4e-9 eV is rounded to 0 by
the conversion to eV and is then below its own range. -/
theorem C11_energy_refuted :
    ∃ s, Spectrum.new (.float (XR.fin (4 / 10 ^ 10))) "energy" "ev" = .ok s ∧
      s.contains s = .error .value := by
  have hl : lower "energy" = "energy" := by decide +kernel
  have hn : ((lower "energy", lower "ev", "ev") : String × String × String) ∈ names := by
    decide +kernel
  have hx : (0 : ℝ) < 4 / 10 ^ 10 := by positivity
  refine ⟨_, new_scalar hn _, ?_⟩
  rw [fromElem_fin (names_pairs _ hn) hx (fun _ => XR.inv_scalar_fin hx.ne')]
  have hm := metres_pos (lower "energy") "ev" hx
  refine (C10_contains_partial _ _ (.scalar (XR.fin 0)) (by simp [Vals.toList]) ?_
    (by simp [Vals.toList]) (by simp [Vals.toList, NoNaN]) (by simp [Vals.toList, NoNaN])
    (by decide +kernel) (by decide)).2 ?_
  · rw [Spectrum.convertTo_eq]
    simp only [hl]
    rw [show specLookup "energy" "ev" = .ok "ev" by decide +kernel]
    simp only
    rw [hl] at hm
    rw [convertVals_scalar (by decide +kernel),
      toElem_fin (by decide +kernel) hm (by decide) (fun _ => XR.inv_scalar_fin hm.ne'),
      ofMetres_metres _ _ hx]
    simp only [decimals, if_true, roundOpt]
    rw [XR.roundDec_eq_of_near 9 0 (by norm_num)]
    simp
  · intro hw
    obtain ⟨⟨a, ha, hle⟩, -⟩ := hw (XR.fin 0) (by simp [Vals.toList])
    simp only [Vals.toList, List.mem_singleton] at ha
    subst ha
    simp only [XR.le_fin, decide_eq_true_eq] at hle
    linarith

/-- Concrete case: the range [400, 800] nm contains itself. -/
example : ∃ s, Spectrum.new (.list .float ([400, 800].map XR.fin)) "Wavelength" "nm" = .ok s ∧
    s.contains s = .ok true := by
  have hl : lower "Wavelength" = "wavelength" := by decide +kernel
  have hn : ((lower "Wavelength", lower "nm", "nm") : String × String × String) ∈ names := by
    decide +kernel
  refine ⟨_, new_list hn _, C11_array_partial "Wavelength" "nm" "nm" hn (by rw [hl]; decide)
    [400, 800] (by simp) (by intro x hx; simp at hx; rcases hx with rfl | rfl <;> norm_num) ?_
    (fun h => absurd hl h) _ (new_list hn _)⟩
  intro x hx
  simp only [hl, decimals, String.reduceEq, if_true, if_false, OnGrid]
  simp at hx
  rcases hx with rfl | rfl
  · exact ⟨400 * 10 ^ 12, by norm_num⟩
  · exact ⟨800 * 10 ^ 12, by norm_num⟩

end Disp
