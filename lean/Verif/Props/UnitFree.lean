import Verif.Props.MediumBuild

/-!
# The answer does not depend on the unit of the question (C103)
-/

namespace Disp

open Spec

section generic
variable {F : Type} [PyFloat F] [SciPy F]

/-- What happens to a Spectrum object between two questions: it is converted in place, or handed to
a material. -/
inductive Spec.SpectrumUse (F : Type) [SciPy F]
  | convert (stype unit : String)
  | index (m : Material F)
  | permittivity (m : Material F)

/-- The object afterwards, whether or not the calls raise. -/
def Spec.used (s : Spectrum F) : SpectrumUse F → Spectrum F
  | .convert t u => (s.convertInPlace t u).2
  | .index m => (m.getNk s).2
  | .permittivity m => (m.getPermittivity s).2

theorem used_history (s : Spectrum F) (us : List (SpectrumUse F)) :
    ∃ hist, us.foldl used s = afterConversions s hist := by
  induction us generalizing s with
  | nil => exact ⟨[], rfl⟩
  | cons x us ih =>
    have h1 : ∃ hist, used s x = afterConversions s hist := by
      cases x with
      | convert t u => exact ⟨[(t, u)], rfl⟩
      | index m => exact ⟨[], rfl⟩
      | permittivity m => exact (C31_same_wavelengths_partial m s).2.1
    obtain ⟨h, e⟩ := h1
    obtain ⟨h', e'⟩ := ih (used s x)
    refine ⟨h ++ h', ?_⟩
    rw [List.foldl_cons, e', e, afterConversions, afterConversions, afterConversions, List.foldl_append]

/-- C103, every arithmetic: however often a Spectrum object was converted in place or used with any
materials before, a material returns for it the permittivity (or raises the exception) that it
would have returned for the new object. -/
theorem C103_used (m : Material F) {raw : Raw F} (hraw : FloatInput raw) {t u : String}
    {s : Spectrum F} (hs : Spectrum.new raw t u = .ok s) (us : List (SpectrumUse F)) :
    (m.getPermittivity (us.foldl used s)).1 = m.getPermittivityRaw raw t u := by
  have hal := aligned_new hraw hs
  obtain ⟨hist, e⟩ := used_history s us
  rw [e, getPermittivity_congr m hal (aligned_after hal hist) (C09_reference_fixed s hist)]
  unfold Material.getPermittivityRaw
  rw [hs]
  rfl

/-- Questions with the same wavelengths in metres get the same answer. -/
theorem same_answer (m : Material F) {raw raw' : Raw F} (hraw : FloatInput raw)
    (hraw' : FloatInput raw') {t u t' u' : String} {s s' : Spectrum F}
    (hs : Spectrum.new raw t u = .ok s) (hs' : Spectrum.new raw' t' u' = .ok s')
    (h : s'.std = s.std) :
    m.getNkRaw raw t u = m.getNkRaw raw' t' u' ∧
    m.getPermittivityRaw raw t u = m.getPermittivityRaw raw' t' u' := by
  have hal := aligned_new hraw hs
  have hal' := aligned_new hraw' hs'
  constructor
  · unfold Material.getNkRaw Material.nkCore
    simp only [hs, hs', bind, Except.bind, evalStored_congr m hal hal' h]
  · unfold Material.getPermittivityRaw
    simp only [hs, hs', bind, Except.bind, getPermittivity_congr m hal hal' h]

end generic

section ideal
variable [SciPy XR]

/-- C103, single values: numbers of any types and units that denote the same wavelength get the
same refractive index and the same permittivity, or the same exception. -/
theorem C103_scalar (m : Material XR) {t u c t' u' c' : String} (hc : (lower t, lower u, c) ∈ names)
    (hc' : (lower t', lower u', c') ∈ names) {x x' : ℝ} (hx : 0 < x) (hx' : 0 < x')
    (h : metres (lower t) c x = metres (lower t') c' x') :
    m.getNkRaw (.float (XR.fin x)) t u = m.getNkRaw (.float (XR.fin x')) t' u' ∧
    m.getPermittivityRaw (.float (XR.fin x)) t u = m.getPermittivityRaw (.float (XR.fin x')) t' u' := by
  refine same_answer m (by trivial) (by trivial) (new_scalar hc _) (new_scalar hc' _) ?_
  simp only
  rw [fromElem_fin (names_pairs _ hc) hx (fun _ => XR.inv_scalar_fin hx.ne'),
    fromElem_fin (names_pairs _ hc') hx' (fun _ => XR.inv_scalar_fin hx'.ne'), h]

/-- C103, lists of values; frequencies, energies and wavenumbers above 1e-8. -/
theorem C103_list (m : Material XR) {t u c t' u' c' : String} (hc : (lower t, lower u, c) ∈ names)
    (hc' : (lower t', lower u', c') ∈ names) {xs xs' : List ℝ}
    (hx : ∀ x ∈ xs, 0 < x ∧ (lower t ≠ "wavelength" → 1 / 10 ^ 8 < x))
    (hx' : ∀ x ∈ xs', 0 < x ∧ (lower t' ≠ "wavelength" → 1 / 10 ^ 8 < x))
    (h : xs.map (metres (lower t) c) = xs'.map (metres (lower t') c')) :
    m.getNkRaw (.list .float (xs.map XR.fin)) t u = m.getNkRaw (.list .float (xs'.map XR.fin)) t' u' ∧
    m.getPermittivityRaw (.list .float (xs.map XR.fin)) t u =
      m.getPermittivityRaw (.list .float (xs'.map XR.fin)) t' u' := by
  have key : ∀ {t u c : String}, (lower t, lower u, c) ∈ names → ∀ {xs : List ℝ},
      (∀ x ∈ xs, 0 < x ∧ (lower t ≠ "wavelength" → 1 / 10 ^ 8 < x)) →
      (xs.map XR.fin).map (fromElem safeInverseElem (lower t) c) =
        (xs.map (metres (lower t) c)).map XR.fin := by
    intro t u c hc xs hx
    rw [List.map_map, List.map_map]
    refine List.map_congr_left fun x hm => ?_
    obtain ⟨h0, h1⟩ := hx x hm
    exact fromElem_fin (names_pairs _ hc) h0 (fun ht => XR.inv_elem_fin (by
      rw [abs_of_pos h0]; exact h1 ht))
  refine same_answer m (by trivial) (by trivial) (new_list hc _) (new_list hc' _) ?_
  simp only
  rw [key hc hx, key hc' hx', h]

/-- Concrete case: 500 nm, 0.5 um and the frequency c/(500 nm) in Hz. -/
example (m : Material XR) :
    m.getNkRaw (.float (XR.fin 500)) "Wavelength" "nm" =
      m.getNkRaw (.float (XR.fin 0.5)) "wavelength" "Micrometer" ∧
    m.getNkRaw (.float (XR.fin 500)) "Wavelength" "nm" =
      m.getNkRaw (.float (XR.fin 599584916000000)) "frequency" "Hz" := by
  have e1 : lower "Wavelength" = "wavelength" := by decide +kernel
  have e2 : lower "frequency" = "frequency" := by decide +kernel
  have e3 : lower "wavelength" = "wavelength" := by decide +kernel
  constructor
  · refine (C103_scalar m (c := "nm") (c' := "um") (by decide +kernel) (by decide +kernel)
      (by norm_num) (by norm_num) ?_).1
    rw [e1, e3]
    simp [metres, lengthUnit]
    norm_num
  · refine (C103_scalar m (c := "nm") (c' := "hz") (by decide +kernel) (by decide +kernel)
      (by norm_num) (by norm_num) ?_).1
    rw [e1, e2]
    simp [metres, lengthUnit, c]
    norm_num

end ideal

end Disp
