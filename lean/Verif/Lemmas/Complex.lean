import Mathlib.Analysis.Complex.Basic
import Verif.Lemmas.Ideal
/-!
# Complex arithmetic of the ideal instance against Mathlib's `ℂ`
-/

namespace Disp

/-- A complex number as the ideal arithmetic represents it. -/
noncomputable def toCx (z : ℂ) : Cx XR := ⟨XR.fin z.re, XR.fin z.im⟩

namespace Cx

theorem toCx_inj {z w : ℂ} : toCx z = toCx w ↔ z = w := by
  constructor
  · intro h
    have h1 : (XR.fin z.re) = XR.fin w.re := congrArg Cx.re h
    have h2 : (XR.fin z.im) = XR.fin w.im := congrArg Cx.im h
    exact Complex.ext (XR.fin_inj.1 h1) (XR.fin_inj.1 h2)
  · rintro rfl; rfl

theorem ofReal_toCx (x : ℝ) : (ofReal (XR.fin x) : Cx XR) = toCx (x : ℂ) := by
  simp [ofReal, toCx]

theorem I_toCx : (I : Cx XR) = toCx Complex.I := by
  simp [I, toCx]

theorem add_toCx (z w : ℂ) : (toCx z + toCx w : Cx XR) = toCx (z + w) := rfl

theorem sub_toCx (z w : ℂ) : (toCx z - toCx w : Cx XR) = toCx (z - w) := by
  show (⟨XR.fin z.re - XR.fin w.re, XR.fin z.im - XR.fin w.im⟩ : Cx XR) = _
  simp [toCx]

theorem mul_toCx (z w : ℂ) : (toCx z * toCx w : Cx XR) = toCx (z * w) := by
  show (⟨XR.fin z.re * XR.fin w.re - XR.fin z.im * XR.fin w.im,
    XR.fin z.re * XR.fin w.im + XR.fin z.im * XR.fin w.re⟩ : Cx XR) = _
  simp [toCx]

theorem sq_toCx (z : ℂ) : Cx.sq (toCx z) = toCx (z ^ 2) := by
  rw [pow_two]; exact mul_toCx z z

theorem conj_toCx (z : ℂ) : Cx.conj (toCx z) = toCx ((starRingEnd ℂ) z) := rfl

theorem div_toCx (z w : ℂ) (hw : w ≠ 0) : (toCx z / toCx w : Cx XR) = toCx (z / w) := by
  have hn : w.re ^ 2 + w.im ^ 2 ≠ 0 := by
    intro h
    apply hw
    apply Complex.ext
    · show w.re = 0; nlinarith [sq_nonneg w.re, sq_nonneg w.im]
    · show w.im = 0; nlinarith [sq_nonneg w.re, sq_nonneg w.im]
  show (if w.re ^ 2 + w.im ^ 2 = 0 then (⟨XR.signInf z.re, XR.signInf z.im⟩ : Cx XR)
    else ⟨XR.fin ((z.re * w.re + z.im * w.im) / (w.re ^ 2 + w.im ^ 2)),
      XR.fin ((z.im * w.re - z.re * w.im) / (w.re ^ 2 + w.im ^ 2))⟩) = _
  rw [if_neg hn]
  unfold toCx
  have hs : Complex.normSq w = w.re ^ 2 + w.im ^ 2 := by rw [Complex.normSq_apply]; ring
  rw [Complex.div_re, Complex.div_im, hs]
  congr 2
  · ring
  · ring

theorem div_zero_toCx (z : ℂ) :
    (toCx z / toCx 0 : Cx XR) = ⟨XR.signInf z.re, XR.signInf z.im⟩ := by
  show (if (0 : ℝ) ^ 2 + (0 : ℝ) ^ 2 = 0 then (⟨XR.signInf z.re, XR.signInf z.im⟩ : Cx XR) else _) = _
  rw [if_pos (by norm_num)]

end Cx
end Disp
