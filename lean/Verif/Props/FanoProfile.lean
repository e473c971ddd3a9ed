import Verif.Props.Formulas
/-!
# The Fano profile (C140)
-/

namespace Disp

open Spec

namespace Spec

/-- The Fano profile of the reduced energy `ε`, relative to its maximum. -/
noncomputable def fanoProfile (q ε : ℝ) : ℝ := (q + ε) ^ 2 / ((1 + q ^ 2) * (1 + ε ^ 2))

end Spec

theorem fanoProfile_range (q ε : ℝ) : 0 ≤ fanoProfile q ε ∧ fanoProfile q ε ≤ 1 := by
  unfold fanoProfile
  refine ⟨by positivity, ?_⟩
  rw [div_le_one (by positivity)]
  nlinarith [sq_nonneg (q * ε - 1)]

theorem fanoProfile_zero (q ε : ℝ) : fanoProfile q ε = 0 ↔ ε = -q := by
  unfold fanoProfile
  have : (1 + q ^ 2) * (1 + ε ^ 2) ≠ 0 := by positivity
  rw [div_eq_zero_iff, or_iff_left this, sq_eq_zero_iff]
  constructor <;> intro h <;> linarith

theorem fanoProfile_one (q ε : ℝ) : fanoProfile q ε = 1 ↔ q * ε = 1 := by
  unfold fanoProfile
  have : (1 + q ^ 2) * (1 + ε ^ 2) ≠ 0 := by positivity
  rw [div_eq_one_iff_eq this]
  constructor
  · intro h
    have h1 : (q * ε - 1) ^ 2 = 0 := by linarith [h]
    have := pow_eq_zero_iff (two_ne_zero) |>.1 h1
    linarith
  · intro h
    have h1 : (q * ε - 1) ^ 2 = 0 := by rw [h]; ring
    linarith [h1]

/-- The formula of the Fano model is the profile. -/
theorem fano_at (q er g e : ℝ) (hg : g ≠ 0) (rest : List XR) :
    Formula.at .fano (XR.fin q :: XR.fin er :: XR.fin g :: rest) (XR.fin e)
      = .ok (XR.fin (fanoProfile q (2 * (e - er) / g))) := by
  have h1 : (1 + q ^ 2 : ℝ) ≠ 0 := by positivity
  have h2 : ((2 * (e - er) / g) ^ 2 + 1 : ℝ) ≠ 0 := by positivity
  show fanoAt _ _ = _
  unfold fanoAt
  simp only [pyIdx, List.getElem?_cons_zero, List.getElem?_cons_succ, bind, Except.bind,
    XR.lit_eq, XR.sub_fin, XR.mul_fin]
  simp only [XR.div_fin_of_ne _ hg, XR.sqF_fin, XR.add_fin]
  push_cast
  rw [XR.div_fin_of_ne _ h1, XR.mul_fin, XR.div_fin_of_ne _ h2]
  congr 2
  unfold fanoProfile
  have h3 : (1 + (2 * (e - er) / g) ^ 2 : ℝ) ≠ 0 := by positivity
  rw [add_comm ((2 * (e - er) / g) ^ 2) 1, add_comm q]
  field_simp

/-- C140: a Fano model over energies can be made of any range; at each energy it reports a number
from 0 to 1, namely the profile; 0 at the one energy `er - q g / 2`, and 1 at the one energy
`er + g / (2 q)`. -/
theorem C140_values [SciPy XR] (q er g : ℝ) (hg : g ≠ 0) (raw : Raw XR) (t u : String)
    (d : RealData XR)
    (hd : RealData.newModel .fano [XR.fin q, XR.fin er, XR.fin g] raw t u = .ok d)
    (s : Spectrum XR) (v : Vals XR) (hv : (d.evaluate s).1 = .ok v) :
    ∃ es, s.convertTo t u = .ok es ∧ v.toList.length = es.toList.length ∧
      ∀ (i : ℕ) (e : ℝ), es.toList[i]? = some (XR.fin e) →
        ∃ y : ℝ, v.toList[i]? = some (XR.fin y) ∧ y = fanoProfile q (2 * (e - er) / g) ∧
          0 ≤ y ∧ y ≤ 1 ∧ (y = 0 ↔ e = er - q * g / 2) ∧
          (q ≠ 0 → (y = 1 ↔ e = er + g / (2 * q))) := by
  obtain ⟨es, h1, h2, h3⟩ := C17_evaluate .fano _ raw t u d hd s v hv
  refine ⟨es, h1, h2, fun i e he => ?_⟩
  obtain ⟨n, hn, hat⟩ := h3 i _ he
  rw [fano_at q er g e hg []] at hat
  cases hat
  refine ⟨_, hn, rfl, (fanoProfile_range _ _).1, (fanoProfile_range _ _).2, ?_, fun hq => ?_⟩
  · rw [fanoProfile_zero]
    constructor
    · intro h
      field_simp at h
      linarith
    · rintro rfl
      field_simp
      ring
  · rw [fanoProfile_one]
    constructor
    · intro h
      field_simp at h ⊢
      linarith
    · rintro rfl
      field_simp
      ring

/-- Parameter 2, resonance at 3, width 1/2: the profile is 4/5 at the resonance, 0 at 2.5, and 1 at
3.125. -/
example : Formula.at .fano [XR.fin 2, XR.fin 3, XR.fin (1 / 2)] (XR.fin 3) = .ok (XR.fin (4 / 5)) ∧
    Formula.at .fano [XR.fin 2, XR.fin 3, XR.fin (1 / 2)] (XR.fin (5 / 2)) = .ok (XR.fin 0) ∧
    Formula.at .fano [XR.fin 2, XR.fin 3, XR.fin (1 / 2)] (XR.fin (25 / 8)) = .ok (XR.fin 1) := by
  rw [fano_at _ _ _ _ (by norm_num), fano_at _ _ _ _ (by norm_num), fano_at _ _ _ _ (by norm_num)]
  norm_num [fanoProfile]

section metres

variable {F : Type} [PyFloat F]

/-- Wavelengths in metres. -/
def overMetres (xs : List F) : Spectrum F :=
  { values := .array .float xs, stype := "wavelength", unit := "m", std := .array .float xs }

theorem overMetres_new (xs : List F) :
    Spectrum.new (.list .float xs) "wavelength" "m" = .ok (overMetres xs) := by
  have hl : lower "wavelength" = "wavelength" := by decide +kernel
  rw [new_list (c := "m") (by decide +kernel), hl]
  have : fromElem (F := F) safeInverseElem "wavelength" "m" = id := by
    funext x; simp [fromElem]
  simp [overMetres, this]

theorem overMetres_convert (xs : List F) :
    (overMetres xs).convertTo "wavelength" "m" = .ok (.array .float xs) := by
  have hl : lower "wavelength" = "wavelength" := by decide +kernel
  rw [Spectrum.convertTo_eq, hl, show specLookup "wavelength" "m" = .ok "m" by decide +kernel]
  simp only [overMetres]
  rw [convertVals_array (by decide +kernel)]
  have : toElem (F := F) safeInverseElem "wavelength" "m" = id := by
    funext x; simp [toElem]
  simp [this]

theorem overMetres_contains {x : F} (hx : PyFloat.lt x x = false) :
    (overMetres [x]).contains (overMetres [x]) = .ok true := by
  unfold Spectrum.contains
  simp only [show (overMetres [x]).stype = "wavelength" from rfl,
    show (overMetres [x]).unit = "m" from rfl, overMetres_convert, bind, Except.bind]
  simp only [overMetres, npMin, npMax, npMinList, npMaxList, Vals.toList, List.foldl_nil]
  rw [hx]
  rfl

/-- A model over one wavelength can be evaluated there. -/
theorem overMetres_evaluate [SciPy F] {k : Formula} {p : List F} {x y : F}
    (hk : validateSpectrumType (F := F) k.required "wavelength" "m" = .ok ())
    (hx : PyFloat.lt x x = false) (hy : k.at p x = .ok y) :
    ∃ d, RealData.newModel k p (.list .float [x]) "wavelength" "m" = .ok d ∧
      (d.evaluate (overMetres [x])).1 = .ok (.array .float [y]) := by
  refine ⟨.model k p (overMetres [x]) "wavelength" "m", ?_, ?_⟩
  · unfold RealData.newModel
    simp only [overMetres_new, bind, Except.bind, hk]
  · unfold RealData.evaluate
    simp only [overMetres_contains hx, overMetres_convert, bind, Except.bind, Vals.mapRes,
      List.mapM_cons, List.mapM_nil, hy, pure, Except.pure]

end metres

/-- A model that can be evaluated. -/
example [SciPy XR] : ∃ d s v, RealData.newModel .fano [XR.fin 2, XR.fin 3, XR.fin (1 / 2)]
      (.list .float [XR.fin 3]) "wavelength" "m" = .ok d ∧
    Spectrum.new (.list .float [XR.fin 3]) "wavelength" "m" = .ok s ∧ (d.evaluate s).1 = .ok v := by
  obtain ⟨d, h1, h2⟩ := overMetres_evaluate (k := .fano) (x := XR.fin 3) rfl
    (by show XR.lt _ _ = false; simp [XR.lt]) (fano_at 2 3 (1 / 2) 3 (by norm_num) [])
  exact ⟨d, _, _, h1, overMetres_new _, h2⟩

end Disp
