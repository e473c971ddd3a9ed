import Verif.Model.Spectrum
import Verif.Spec.Names
/-!
# Lemmas about the spectrum model
-/

namespace Disp

variable {F : Type} [PyFloat F]

open Spec

/-! ### Names -/

theorem dictHas_iff {α : Type} (d : List (String × α)) (x : String) :
    dictHas d x = true ↔ ∃ v, (x, v) ∈ d := by
  unfold dictHas
  rw [List.any_eq_true]
  constructor
  · rintro ⟨⟨k, v⟩, hm, he⟩
    have : k = x := of_decide_eq_true he
    exact ⟨v, this ▸ hm⟩
  · rintro ⟨v, hm⟩; exact ⟨(x, v), hm, by simp⟩

theorem dictGet_ok_of_has {α : Type} (d : List (String × α)) (x : String)
    (h : dictHas d x = true) : ∃ v, dictGet d x = .ok v ∧ (x, v) ∈ d := by
  induction d with
  | nil => simp [dictHas] at h
  | cons p d ih =>
    obtain ⟨k, v⟩ := p
    unfold dictGet
    by_cases hk : k = x
    · subst hk; exact ⟨v, by simp, by simp⟩
    · have : dictHas d x = true := by
        simpa [dictHas, hk] using h
      obtain ⟨w, h1, h2⟩ := ih this
      exact ⟨w, by simp [hk, h1], by simp [h2]⟩

theorem dictGet_mem {α : Type} {d : List (String × α)} {x : String} {v : α}
    (h : dictGet d x = .ok v) : (x, v) ∈ d := by
  induction d with
  | nil => simp [dictGet] at h
  | cons p d ih =>
    obtain ⟨k, w⟩ := p
    unfold dictGet at h
    by_cases hk : k = x
    · subst hk; simp at h; subst h; simp
    · simp [hk] at h; simp [ih h]

theorem dictGet_error {α : Type} {d : List (String × α)} {x : String} {e : PyErr}
    (h : dictGet d x = .error e) : e = .key ∧ dictHas d x = false := by
  induction d with
  | nil => simp [dictGet] at h; simp [h, dictHas]
  | cons p d ih =>
    obtain ⟨k, w⟩ := p
    unfold dictGet at h
    by_cases hk : k = x
    · simp [hk] at h
    · simp [hk] at h
      obtain ⟨h1, h2⟩ := ih h
      exact ⟨h1, by simpa [dictHas, hk] using h2⟩

theorem type_cases {t : String} (h : dictHas spectrumTypes t = true) :
    t = "wavelength" ∨ t = "frequency" ∨ t = "energy" ∨ t = "angularfrequency" ∨
      t = "wavenumber" := by
  simp only [dictHas, spectrumTypes, List.any_cons, List.any_nil, Bool.or_eq_true,
    decide_eq_true_eq, Bool.or_false] at h
  rcases h with h | h | h | h | h <;> simp [← h]

/-- The unit that a table assigns to a name for a given type. -/
def tableUnit (table : List (String × List String)) (units : List String) (unit : String) :
    Option String :=
  (table.find? (fun p => p.2.contains unit && units.contains p.1)).map (·.1)

theorem findUnit_eq (table : List (String × List String)) (t u : String) (units : List String)
    (h : dictGet spectrumTypes t = .ok units) :
    findUnit table t u = .ok (tableUnit table units u) := by
  induction table with
  | nil => rfl
  | cons p rest ih =>
    obtain ⟨c, l⟩ := p
    unfold findUnit tableUnit
    rw [List.find?_cons]
    by_cases h1 : l.contains u = true
    · by_cases h2 : units.contains c = true
      · simp only [h1, h2, Bool.and_self, if_true, h, bind, Except.bind, Option.map_some]
      · have h2' : units.contains c = false := by simpa using h2
        simp only [h1, h2', Bool.true_and, if_true, h, bind, Except.bind]
        rw [if_neg (by simp), ih]; rfl
    · have h1' : l.contains u = false := by simpa using h1
      simp only [h1', Bool.false_and]
      rw [if_neg (by simp), ih]; rfl

theorem standardiseUnitIn_eq (table : List (String × List String)) (t u : String)
    (units : List String) (h : dictGet spectrumTypes t = .ok units) :
    standardiseUnitIn table t u =
      match tableUnit table units u with
      | some c => .ok c
      | none => .error .value := by
  unfold standardiseUnitIn
  rw [findUnit_eq table t u units h, h]
  cases tableUnit table units u <;> rfl

/-- All unit names of the specification. -/
def allNames : List String := names.map (fun p => p.2.1)

/-- Lookup in the specification's table. -/
def specLookup (t u : String) : Res String :=
  match names.find? (fun p => p.1 == t && p.2.1 == u) with
  | some p => .ok p.2.2
  | none => .error .value

instance {ε α : Type} [DecidableEq ε] [DecidableEq α] : DecidableEq (Except ε α)
  | .ok a, .ok b => if h : a = b then isTrue (by rw [h]) else isFalse (by simp [h])
  | .error a, .error b => if h : a = b then isTrue (by rw [h]) else isFalse (by simp [h])
  | .ok _, .error _ => isFalse (by simp)
  | .error _, .ok _ => isFalse (by simp)

theorem lookup_known : ∀ t ∈ spectrumTypes.map (·.1), ∀ u ∈ allNames,
    standardiseUnit t u = specLookup t u := by decide +kernel

theorem aliases_known : ∀ p ∈ unitTypes, ∀ a ∈ p.2, a ∈ allNames := by decide +kernel

theorem names_functional : ∀ p ∈ names, ∀ q ∈ names, p.1 = q.1 → p.2.1 = q.2.1 →
    p.2.2 = q.2.2 := by decide +kernel

theorem standardiseUnit_eq_spec (t u : String) (ht : dictHas spectrumTypes t = true) :
    standardiseUnit t u = specLookup t u := by
  by_cases hu : u ∈ allNames
  · obtain ⟨v, hv⟩ := (dictHas_iff _ _).1 ht
    exact lookup_known t (List.mem_map.2 ⟨(t, v), hv, rfl⟩) u hu
  · obtain ⟨units, hg, -⟩ := dictGet_ok_of_has _ _ ht
    unfold standardiseUnit
    rw [standardiseUnitIn_eq _ _ _ _ hg]
    have h1 : tableUnit unitTypes units u = none := by
      unfold tableUnit
      rw [Option.map_eq_none_iff, List.find?_eq_none]
      intro p hp hc
      rw [Bool.and_eq_true] at hc
      have : u ∈ p.2 := by simpa using hc.1
      exact hu (aliases_known p hp u this)
    have h2 : names.find? (fun p => p.1 == t && p.2.1 == u) = none := by
      rw [List.find?_eq_none]
      intro p hp hc
      rw [Bool.and_eq_true] at hc
      have : p.2.1 = u := by simpa using hc.2
      exact hu (List.mem_map.2 ⟨p, hp, this⟩)
    unfold specLookup
    rw [h1, h2]

theorem specLookup_ok_iff {t u c : String} : specLookup t u = .ok c ↔ (t, u, c) ∈ names := by
  unfold specLookup
  constructor
  · intro h
    cases hf : names.find? (fun p => p.1 == t && p.2.1 == u) with
    | none => rw [hf] at h; simp at h
    | some p =>
      rw [hf] at h
      have h1 := List.find?_some hf
      have h2 := List.mem_of_find?_eq_some hf
      obtain ⟨a, b, d⟩ := p
      simp only [Bool.and_eq_true, beq_iff_eq] at h1
      simp only [Except.ok.injEq] at h
      rw [← h1.1, ← h1.2, ← h]; exact h2
  · intro h
    cases hf : names.find? (fun p => p.1 == t && p.2.1 == u) with
    | none =>
      rw [List.find?_eq_none] at hf
      exact absurd (by simp) (hf _ h)
    | some p =>
      have h1 := List.find?_some hf
      have h2 := List.mem_of_find?_eq_some hf
      simp only [Bool.and_eq_true, beq_iff_eq] at h1
      simp only [Except.ok.injEq]
      exact names_functional _ h2 _ h h1.1 h1.2

theorem standardiseUnit_ok_iff {t u c : String} (ht : dictHas spectrumTypes t = true) :
    standardiseUnit t u = .ok c ↔ (t, u, c) ∈ names := by
  rw [standardiseUnit_eq_spec t u ht, specLookup_ok_iff]

theorem standardiseUnit_cases (t u : String) (ht : dictHas spectrumTypes t = true) :
    (∃ c, standardiseUnit t u = .ok c ∧ (t, u, c) ∈ names) ∨
      (standardiseUnit t u = .error .value ∧ ∀ c, (t, u, c) ∉ names) := by
  rw [standardiseUnit_eq_spec t u ht]
  cases h : specLookup t u with
  | ok c => exact .inl ⟨c, rfl, specLookup_ok_iff.1 h⟩
  | error e =>
    right
    constructor
    · unfold specLookup at h
      split at h
      · cases h
      · exact h.symm
    · intro c hc
      rw [specLookup_ok_iff.2 hc] at h; cases h

theorem names_type : ∀ p ∈ names, dictHas spectrumTypes p.1 = true := by decide +kernel

theorem names_pairs : ∀ p ∈ names, (p.1, p.2.2) ∈ pairs := by decide +kernel

theorem pairs_names : ∀ p ∈ pairs, (p.1, p.2, p.2) ∈ names := by decide +kernel

theorem names_lower : ∀ p ∈ names, lower p.1 = p.1 ∧ lower p.2.1 = p.2.1 := by decide +kernel

/-! ### Elementwise form of the conversions -/

/-- Conversion of one value to metres, given the reciprocal to use. -/
def fromElem (inv : F → F) (t u : String) (x : F) : F :=
  if t = "frequency" then cLight * inv x
  else if t = "energy" then hce * inv x
  else if t = "angularfrequency" then lit 2 * PyFloat.pi * cLight * inv x
  else if t = "wavenumber" then lit 2 * PyFloat.pi * inv x * lit 1e-2
  else if u = "nm" then x * lit 1e-9
  else if u = "cm" then x * lit 1e-2
  else if u = "um" then x * lit 1e-6
  else if u = "a" then x * lit 1e-10
  else x

/-- Conversion of one value from metres, given the reciprocal to use. -/
def toElem (inv : F → F) (t u : String) (x : F) : F :=
  if t = "frequency" then cLight * inv x
  else if t = "energy" then PyFloat.round 9 (hce * inv x)
  else if t = "angularfrequency" then lit 2 * PyFloat.pi * cLight * inv x
  else if t = "wavenumber" then lit 2 * PyFloat.pi * inv (x * lit 1e-2)
  else if u = "cm" then PyFloat.round 5 (x * lit 1e2)
  else if u = "nm" then PyFloat.round 12 (x * lit 1e9)
  else if u = "um" then PyFloat.round 9 (x * lit 1e6)
  else if u = "a" then PyFloat.round 13 (x * lit 1e10)
  else x

theorem pairs_cases {t u : String} (h : (t, u) ∈ pairs) :
    (t = "wavelength" ∧ u = "m") ∨ (t = "wavelength" ∧ u = "cm") ∨
    (t = "wavelength" ∧ u = "um") ∨ (t = "wavelength" ∧ u = "nm") ∨
    (t = "wavelength" ∧ u = "a") ∨ (t = "frequency" ∧ u = "hz") ∨
    (t = "energy" ∧ u = "ev") ∨ (t = "angularfrequency" ∧ u = "1/s") ∨
    (t = "wavenumber" ∧ u = "1/cm") := by
  simpa only [pairs, List.mem_cons, Prod.mk.injEq, List.not_mem_nil, or_false] using h

theorem convertVals_scalar {t u : String} (h : (t, u) ∈ pairs) (x : F) :
    convertVals t u (.scalar x) = .ok (.scalar (toElem safeInverseScalar t u x)) := by
  rcases pairs_cases h with ⟨rfl, rfl⟩ | ⟨rfl, rfl⟩ | ⟨rfl, rfl⟩ | ⟨rfl, rfl⟩ | ⟨rfl, rfl⟩ |
    ⟨rfl, rfl⟩ | ⟨rfl, rfl⟩ | ⟨rfl, rfl⟩ | ⟨rfl, rfl⟩ <;>
  simp only [convertVals, toWavelength, toFrequency, toEnergy, toAngFreq, toWavenumber, toElem,
    String.reduceEq, if_true, if_false, Vals.map] <;> rfl

theorem convertVals_array {t u : String} (h : (t, u) ∈ pairs) (xs : List F) :
    convertVals t u (.array .float xs) =
      .ok (.array .float (xs.map (toElem safeInverseElem t u))) := by
  rcases pairs_cases h with ⟨rfl, rfl⟩ | ⟨rfl, rfl⟩ | ⟨rfl, rfl⟩ | ⟨rfl, rfl⟩ | ⟨rfl, rfl⟩ |
    ⟨rfl, rfl⟩ | ⟨rfl, rfl⟩ | ⟨rfl, rfl⟩ | ⟨rfl, rfl⟩ <;>
  simp only [convertVals, toWavelength, toFrequency, toEnergy, toAngFreq, toWavenumber,
    String.reduceEq, if_true, if_false, Vals.map, safeInverse, bind, Except.bind, List.map_map] <;>
  (congr 2
   try exact (List.map_id xs).symm.trans (List.map_congr_left (fun a _ => by simp [toElem])))

theorem convertFrom_scalar {t u : String} (h : (t, u) ∈ pairs) (x : F) :
    standardiseValues t u (.scalar x) = .ok (.scalar (fromElem safeInverseScalar t u x)) := by
  rcases pairs_cases h with ⟨rfl, rfl⟩ | ⟨rfl, rfl⟩ | ⟨rfl, rfl⟩ | ⟨rfl, rfl⟩ | ⟨rfl, rfl⟩ |
    ⟨rfl, rfl⟩ | ⟨rfl, rfl⟩ | ⟨rfl, rfl⟩ | ⟨rfl, rfl⟩ <;>
  simp [standardiseValues, convertFrom, wavelengthToStandard, frequencyToStandard,
    energyToStandard, angFreqToStandard, wavenumberToStandard, fromElem, Vals.map,
    dictHas, spectrumTypes, safeInverse, bind, Except.bind]

theorem convertFrom_array {t u : String} (h : (t, u) ∈ pairs) (xs : List F) :
    standardiseValues t u (.array .float xs) =
      .ok (.array .float (xs.map (fromElem safeInverseElem t u))) := by
  rcases pairs_cases h with ⟨rfl, rfl⟩ | ⟨rfl, rfl⟩ | ⟨rfl, rfl⟩ | ⟨rfl, rfl⟩ | ⟨rfl, rfl⟩ |
    ⟨rfl, rfl⟩ | ⟨rfl, rfl⟩ | ⟨rfl, rfl⟩ | ⟨rfl, rfl⟩ <;>
  simp [standardiseValues, convertFrom, wavelengthToStandard, frequencyToStandard,
    energyToStandard, angFreqToStandard, wavenumberToStandard, fromElem, Vals.map,
    dictHas, spectrumTypes, safeInverse, bind, Except.bind]
  exact (List.map_id xs).symm.trans (List.map_congr_left (fun a _ => by simp [fromElem]))

/-- What the constructor does, in one equation. -/
theorem Spectrum.new_eq (raw : Raw F) (t u : String) :
    Spectrum.new raw t u =
      match specLookup (lower t) (lower u) with
      | .error e => .error e
      | .ok c => (do
        let v ← raw.check
        let std ← standardiseValues (lower t) c v
        .ok { values := v, stype := lower t, unit := c, std := std }) := by
  unfold Spectrum.new
  by_cases ht : dictHas spectrumTypes (lower t) = true
  · simp only [ht, if_true]
    rw [standardiseUnit_eq_spec _ _ ht]
    cases specLookup (lower t) (lower u) <;> rfl
  · simp only [ht]
    have : specLookup (lower t) (lower u) = .error .value := by
      cases h : specLookup (lower t) (lower u) with
      | ok c => exact absurd (names_type _ (specLookup_ok_iff.1 h)) ht
      | error e =>
        unfold specLookup at h
        split at h
        · cases h
        · exact h.symm
    rw [this]; rfl

/-- What a conversion does, in one equation. -/
theorem Spectrum.convertCore_eq (s : Spectrum F) (t u : String) :
    s.convertCore t u =
      match specLookup (lower t) u with
      | .error e => .error e
      | .ok c => (do
        let v ← convertVals (lower t) c s.std
        .ok (lower t, c, v)) := by
  unfold Spectrum.convertCore
  by_cases ht : dictHas spectrumTypes (lower t) = true
  · simp only [ht, if_true]
    rw [standardiseUnit_eq_spec _ _ ht]
    cases specLookup (lower t) u <;> rfl
  · simp only [ht]
    have : specLookup (lower t) u = .error .value := by
      cases h : specLookup (lower t) u with
      | ok c => exact absurd (names_type _ (specLookup_ok_iff.1 h)) ht
      | error e =>
        unfold specLookup at h
        split at h
        · cases h
        · exact h.symm
    rw [this]; rfl

theorem specLookup_error {t u : String} {e : PyErr} (h : specLookup t u = .error e) :
    e = .value ∧ ∀ c, (t, u, c) ∉ names := by
  constructor
  · unfold specLookup at h
    split at h
    · cases h
    · cases h; rfl
  · intro c hc
    rw [specLookup_ok_iff.2 hc] at h; cases h

theorem Spectrum.convertTo_eq (s : Spectrum F) (t u : String) :
    s.convertTo t u =
      match specLookup (lower t) u with
      | .error e => .error e
      | .ok c => convertVals (lower t) c s.std := by
  unfold Spectrum.convertTo
  rw [Spectrum.convertCore_eq]
  cases specLookup (lower t) u with
  | error e => rfl
  | ok c =>
    show (Except.bind (Except.bind (convertVals (lower t) c s.std) _) _) =
      convertVals (lower t) c s.std
    cases convertVals (lower t) c s.std <;> rfl

end Disp
