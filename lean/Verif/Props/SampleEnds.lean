import Verif.Props.MaterialRange

/-!
# C33: the ends of the sample spectrum, whatever the rounding of the geometric sequence
-/

namespace Disp

open Spec

section generic
variable {F : Type} [PyFloat F] [LawfulCmp F]

omit [LawfulCmp F] in
/-- Arrays of floats are stored as they are given. -/
theorem new_values {vs : List F} {t u : String} {s : Spectrum F}
    (hs : Spectrum.new (.ndarray .float vs) t u = .ok s) : s.values = .array .float vs := by
  unfold Spectrum.new at hs
  simp only [Raw.check, bind, Except.bind] at hs
  split at hs
  · cases h1 : standardiseUnit (lower t) (lower u) with
    | error e => rw [h1] at hs; cases hs
    | ok u' =>
      rw [h1] at hs
      simp only at hs
      cases h2 : standardiseValues (lower t) u' (.array .float vs) with
      | error e => rw [h2] at hs; cases hs
      | ok w => rw [h2] at hs; cases hs; rfl
  · cases hs

theorem clampEnds_two (lo hi : F) (hle : PyFloat.lt hi lo = false) (x z : F) (mid : List F) :
    ∃ x' z', clampEnds lo hi (x :: (mid ++ [z])) = x' :: (mid ++ [z']) ∧
      PyFloat.lt x' lo = false ∧ PyFloat.lt hi z' = false ∧
      (PyFloat.lt x lo = false → x' = x) ∧ (PyFloat.lt hi z = false → z' = z) := by
  have hlast : ∀ y : F, (y :: (mid ++ [z])).getLast? = some z := fun y => by
    rw [← List.cons_append, List.getLast?_append]; rfl
  have hdrop : ∀ y : F, (y :: (mid ++ [z])).dropLast = y :: mid := fun y => by
    rw [← List.cons_append, List.dropLast_append_of_ne_nil (by simp)]; simp
  refine ⟨if PyFloat.lt x lo then lo else x, if PyFloat.lt hi z then hi else z, ?_, ?_, ?_, ?_, ?_⟩
  · unfold clampEnds
    simp only [hlast, hdrop]
    by_cases h : PyFloat.lt hi z = true
    · simp [h]
    · simp [h]
  · by_cases h : PyFloat.lt x lo = true
    · simp only [h, if_true]; exact LawfulCmp.lt_irrefl _
    · simpa [h] using h
  · by_cases h : PyFloat.lt hi z = true
    · simp only [h, if_true]; exact LawfulCmp.lt_irrefl _
    · simpa [h] using h
  · intro h; simp [h]
  · intro h; simp [h]

/-- C33, every arithmetic and whatever sequence of two or more numbers `np.geomspace` returns: the
first value of the sample spectrum is not below the lower end of the range, the last not above the
upper end, and all others are those of the sequence. Missing for the full claim: see
`C33_units_partial`. -/
theorem C33_ends_partial [SciPy F] (m : Material F) {dt : DType} {lo hi : F}
    (hr : m.maxRange = .ok (.array dt [lo, hi])) (hle : PyFloat.lt hi lo = false)
    (h0 : PyFloat.eq lo (lit 0) = false) (h1 : PyFloat.eq hi PyFloat.inf = false) {x z : F}
    {mid : List F} (hg : SciPy.geomspace lo hi 1000 = .ok (x :: (mid ++ [z]))) {s : Spectrum F}
    (hs : m.sampleSpectrum = .ok s) :
    ∃ x' z', s.values = .array .float (x' :: (mid ++ [z'])) ∧ PyFloat.lt x' lo = false ∧
      PyFloat.lt hi z' = false ∧ (PyFloat.lt x lo = false → x' = x) ∧
      (PyFloat.lt hi z = false → z' = z) := by
  obtain ⟨x', z', hc, h2⟩ := clampEnds_two lo hi hle x z mid
  refine ⟨x', z', ?_, h2⟩
  unfold Material.sampleSpectrum at hs
  rw [hr] at hs
  have p0 : pyIdx (Vals.array dt [lo, hi]).toList 0 = .ok lo := rfl
  have p1 : pyIdx (Vals.array dt [lo, hi]).toList 1 = .ok hi := rfl
  simp only [bind, Except.bind, p0, p1, h0, h1, Bool.or_self, Bool.false_eq_true, if_false, hg,
    hc] at hs
  exact new_values hs

end generic

/-- Concrete case (a material with the range 2 m to 4 m is in `MaterialRange`): a sequence that
leaves the range at both ends by rounding is put back. -/
example : clampEnds (XR.fin 2) (XR.fin 4) [XR.fin 1.9, XR.fin 3, XR.fin 4.1] =
    [XR.fin 2, XR.fin 3, XR.fin 4] := by
  unfold clampEnds
  have h1 : PyFloat.lt (XR.fin 1.9) (XR.fin 2) = true := by rw [XR.lt_fin]; norm_num
  have h2 : PyFloat.lt (XR.fin 4) (XR.fin 4.1) = true := by rw [XR.lt_fin]; norm_num
  simp [h1, h2]

end Disp
