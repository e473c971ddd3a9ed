import Mathlib.Analysis.SpecialFunctions.ImproperIntegrals
import Mathlib.Analysis.SpecialFunctions.Log.Deriv
import Mathlib.Analysis.SpecialFunctions.Trigonometric.ArctanDeriv
import Mathlib.MeasureTheory.Integral.IntervalIntegral.FundThmCalculus
import Verif.Lemmas.TaucLorentz
/-!
# Principal values for a damped oscillator

The integral of `x² / (((w² - x²)² + g² x²) (x² - e²))` from zero to infinity.
-/

namespace Disp
open MeasureTheory Filter Topology Set Spec

namespace Osc

variable {w g e : ℝ}

/-- The denominator of the imaginary part. -/
noncomputable def den (w g x : ℝ) : ℝ := (w ^ 2 - x ^ 2) ^ 2 + g ^ 2 * x ^ 2

theorem den_pos (hg : 0 < g) {x : ℝ} (hx : 0 < x) : 0 < den w g x := by
  unfold den; positivity

/-- The integrand in the variable `x + w² / x`, continued as a constant below `2 w`. -/
noncomputable def kern (w g t : ℝ) : ℝ := 1 / (max t (2 * w) ^ 2 - 4 * w ^ 2 + g ^ 2)

theorem kern_den (hw : 0 ≤ w) (hg : 0 < g) (t : ℝ) :
    0 < max t (2 * w) ^ 2 - 4 * w ^ 2 + g ^ 2 := by
  have h : 2 * w ≤ max t (2 * w) := le_max_right _ _
  nlinarith [sq_nonneg (max t (2 * w) - 2 * w)]

theorem kern_continuous (hw : 0 ≤ w) (hg : 0 < g) : Continuous (kern w g) := by
  unfold kern
  refine continuous_const.div ?_ (fun t => (kern_den hw hg t).ne')
  exact (((continuous_id.max continuous_const).pow 2).sub continuous_const).add continuous_const

theorem kern_integrable (hw : 0 ≤ w) (hg : 0 < g) : IntegrableOn (kern w g) (Ioi (2 * w)) := by
  have h1 : Integrable (fun t : ℝ => (1 + t ^ 2)⁻¹) := integrable_inv_one_add_sq
  have h2 : Integrable (fun t : ℝ => (1 + ((t - 2 * w) / g) ^ 2)⁻¹) := by
    have := (h1.comp_div hg.ne').comp_sub_right (2 * w)
    exact this
  have h3 := (h2.const_mul (1 / g ^ 2)).integrableOn (s := Ioi (2 * w))
  refine h3.mono' (kern_continuous hw hg).aestronglyMeasurable ?_
  refine (ae_restrict_iff' measurableSet_Ioi).2 (Eventually.of_forall (fun t ht => ?_))
  have hk := kern_den hw hg t
  rw [Real.norm_of_nonneg (by unfold kern; positivity)]
  unfold kern
  have ht' : 2 * w < t := ht
  rw [max_eq_left ht'.le] at hk ⊢
  have : 1 / g ^ 2 * (1 + ((t - 2 * w) / g) ^ 2)⁻¹ = 1 / (g ^ 2 + (t - 2 * w) ^ 2) := by
    have h4 : 1 + ((t - 2 * w) / g) ^ 2 = (g ^ 2 + (t - 2 * w) ^ 2) / g ^ 2 := by field_simp
    rw [h4]
    field_simp
  rw [this]
  apply one_div_le_one_div_of_le (by positivity)
  nlinarith [mul_nonneg hw (sub_nonneg.2 ht'.le)]

/-- The antiderivative of `kern`. -/
noncomputable def prim (w g s : ℝ) : ℝ := ∫ t in (2 * w)..s, kern w g t

theorem prim_deriv (hw : 0 ≤ w) (hg : 0 < g) (s : ℝ) : HasDerivAt (prim w g) (kern w g s) s :=
  intervalIntegral.integral_hasDerivAt_right ((kern_continuous hw hg).intervalIntegrable _ _)
    ((kern_continuous hw hg).stronglyMeasurableAtFilter _ _) (kern_continuous hw hg).continuousAt

theorem prim_top (hw : 0 ≤ w) (hg : 0 < g) :
    Tendsto (prim w g) atTop (𝓝 (∫ t in Ioi (2 * w), kern w g t)) :=
  intervalIntegral_tendsto_integral_Ioi _ (kern_integrable hw hg) tendsto_id

/-- The antiderivative of the integrand, times the denominator at the singularity. -/
noncomputable def anti (w g e x : ℝ) : ℝ :=
  e / 2 * (Real.log (x - e) - Real.log (x + e)) +
    (w ^ 2 - e ^ 2) / 2 * (1 / g * Real.arctan ((x ^ 2 - w ^ 2) / (g * x))) -
    (w ^ 2 + e ^ 2) / 2 * prim w g (x + w ^ 2 / x)

theorem sum_ge {x : ℝ} (hx : 0 < x) : 2 * w ≤ x + w ^ 2 / x := by
  have : x + w ^ 2 / x - 2 * w = (x - w) ^ 2 / x := by field_simp; ring
  have h2 : 0 ≤ (x - w) ^ 2 / x := by positivity
  linarith

theorem kern_sum (hw : 0 ≤ w) (hg : 0 < g) {x : ℝ} (hx : 0 < x) :
    kern w g (x + w ^ 2 / x) = x ^ 2 / den w g x := by
  have hd := (den_pos (w := w) hg hx).ne'
  have hk := (kern_den hw hg (x + w ^ 2 / x)).ne'
  unfold kern
  rw [max_eq_left (sum_ge hx)] at hk ⊢
  rw [div_eq_div_iff hk hd]
  unfold den
  field_simp
  ring

theorem atan_part_deriv (hg : 0 < g) {x : ℝ} (hx : 0 < x) :
    HasDerivAt (fun x => 1 / g * Real.arctan ((x ^ 2 - w ^ 2) / (g * x)))
      ((x ^ 2 + w ^ 2) / den w g x) x := by
  have h1 : HasDerivAt (fun x => (x ^ 2 - w ^ 2) / (g * x))
      (((2 * x) * (g * x) - (x ^ 2 - w ^ 2) * g) / (g * x) ^ 2) x := by
    have a := ((hasDerivAt_id x).pow 2).sub_const (w ^ 2)
    have b := (hasDerivAt_id x).const_mul g
    have := a.div b (by simp; exact ⟨hg.ne', hx.ne'⟩)
    refine HasDerivAt.congr_deriv (f := fun x => (x ^ 2 - w ^ 2) / (g * x)) this ?_
    simp
  have h2 := (h1.arctan).const_mul (1 / g)
  refine HasDerivAt.congr_deriv
    (f := fun x => 1 / g * Real.arctan ((x ^ 2 - w ^ 2) / (g * x))) h2 ?_
  have hd := (den_pos (w := w) hg hx).ne'
  have : 1 + ((x ^ 2 - w ^ 2) / (g * x)) ^ 2 = den w g x / (g * x) ^ 2 := by
    unfold den; field_simp; ring
  rw [this]
  field_simp
  ring

theorem anti_deriv (hw : 0 ≤ w) (hg : 0 < g) (he : 0 < e) {x : ℝ} (hx : 0 < x) (hxe : x ≠ e) :
    HasDerivAt (anti w g e) (den w g e * (x ^ 2 / (den w g x * (x ^ 2 - e ^ 2)))) x := by
  have hne := sub_ne_zero.2 hxe
  have hpl : x + e ≠ 0 := by positivity
  have l1 : HasDerivAt (fun x => Real.log (x - e)) (1 / (x - e)) x :=
    ((hasDerivAt_id x).sub_const e).log hne
  have l2 : HasDerivAt (fun x => Real.log (x + e)) (1 / (x + e)) x :=
    ((hasDerivAt_id x).add_const e).log hpl
  have s1 : HasDerivAt (fun x => x + w ^ 2 / x) (1 - w ^ 2 / x ^ 2) x := by
    have := (hasDerivAt_id x).add ((hasDerivAt_inv hx.ne').const_mul (w ^ 2))
    refine HasDerivAt.congr_deriv (f := fun x => x + w ^ 2 / x) ?_
      (show 1 + w ^ 2 * (-(x ^ 2)⁻¹) = _ by field_simp; ring)
    exact this
  have g1 := (prim_deriv hw hg (x + w ^ 2 / x)).comp x s1
  rw [kern_sum hw hg hx] at g1
  have := (((l1.sub l2).const_mul (e / 2)).add
    ((atan_part_deriv (w := w) hg hx).const_mul ((w ^ 2 - e ^ 2) / 2))).sub
    (g1.const_mul ((w ^ 2 + e ^ 2) / 2))
  refine HasDerivAt.congr_deriv (f := anti w g e) this ?_
  have hd := (den_pos (w := w) hg hx).ne'
  have e1 : x ^ 2 - e ^ 2 = (x - e) * (x + e) := by ring
  rw [e1]
  field_simp
  unfold den
  ring

theorem log_zero (e : ℝ) (he : 0 < e) :
    Tendsto (fun x => Real.log (x - e) - Real.log (x + e)) (𝓝[>] 0) (𝓝 0) := by
  have h : ContinuousAt (fun x => Real.log (x - e) - Real.log (x + e)) 0 :=
    ((continuousAt_id.sub continuousAt_const).log (by simp; exact he.ne')).sub
      ((continuousAt_id.add continuousAt_const).log (by simp; exact he.ne'))
  have := h.tendsto
  simp only [zero_sub, zero_add, Real.log_neg_eq_log, sub_self] at this
  exact this.mono_left nhdsWithin_le_nhds

theorem log_top (e : ℝ) :
    Tendsto (fun x => Real.log (x - e) - Real.log (x + e)) atTop (𝓝 0) := by
  have := (TL.log_lin (-e)).sub (TL.log_lin e)
  rw [sub_self] at this
  refine this.congr (fun x => ?_)
  rw [← sub_eq_add_neg]; ring

theorem log_window (he : 0 < e) :
    Tendsto (fun d => (Real.log (e - d - e) - Real.log (e - d + e)) -
      (Real.log (e + d - e) - Real.log (e + d + e))) (𝓝[>] 0) (𝓝 0) := by
  have h : ContinuousAt (fun d => Real.log (e + d + e) - Real.log (e - d + e)) 0 :=
    (((continuousAt_const.add continuousAt_id).add continuousAt_const).log
      (by simp; linarith)).sub
      (((continuousAt_const.sub continuousAt_id).add continuousAt_const).log (by simp; linarith))
  have := h.tendsto
  simp only [add_zero, sub_zero, sub_self] at this
  refine (this.mono_left nhdsWithin_le_nhds).congr (fun d => ?_)
  have e1 : e - d - e = -d := by ring
  have e2 : e + d - e = d := by ring
  rw [e1, e2, Real.log_neg_eq_log]
  ring

theorem window_minus (e : ℝ) : Tendsto (fun d : ℝ => e - d) (𝓝[>] 0) (𝓝 e) := by
  have : Tendsto (fun d : ℝ => e - d) (𝓝 0) (𝓝 (e - 0)) := tendsto_const_nhds.sub tendsto_id
  rw [sub_zero] at this
  exact this.mono_left nhdsWithin_le_nhds

theorem window_plus (e : ℝ) : Tendsto (fun d : ℝ => e + d) (𝓝[>] 0) (𝓝 e) := by
  have : Tendsto (fun d : ℝ => e + d) (𝓝 0) (𝓝 (e + 0)) := tendsto_const_nhds.add tendsto_id
  rw [add_zero] at this
  exact this.mono_left nhdsWithin_le_nhds

theorem inv_zero : Tendsto (fun x : ℝ => x⁻¹) (𝓝[>] 0) atTop := tendsto_inv_nhdsGT_zero

theorem id_zero : Tendsto (fun x : ℝ => x) (𝓝[>] 0) (𝓝 0) := tendsto_id.mono_left nhdsWithin_le_nhds

/-- The integral for an oscillator with a resonance. -/
theorem pv (hw : 0 < w) (hg : 0 < g) (he : 0 < e) :
    PrincipalValue (fun x => x ^ 2 / (den w g x * (x ^ 2 - e ^ 2))) e
      ((w ^ 2 - e ^ 2) / (2 * g * den w g e) * Real.pi) := by
  have hz := den_pos (w := w) hg he
  set L := ∫ t in Ioi (2 * w), kern w g t with hL
  have s0 : Tendsto (fun x => x + w ^ 2 / x) (𝓝[>] 0) atTop := by
    have := inv_zero.const_mul_atTop (show 0 < w ^ 2 by positivity)
    exact id_zero.add_atTop this
  have sT : Tendsto (fun x => x + w ^ 2 / x) atTop atTop := by
    have h : Tendsto (fun x : ℝ => w ^ 2 / x) atTop (𝓝 0) := tendsto_const_nhds.div_atTop tendsto_id
    exact (tendsto_id (α := ℝ) (x := atTop)).atTop_add h
  have a0 : Tendsto (fun x => (x ^ 2 - w ^ 2) / (g * x)) (𝓝[>] 0) atBot := by
    have h1 := (id_zero.div_const g)
    have h2 := inv_zero.const_mul_atTop (show 0 < w ^ 2 / g by positivity)
    have h3 := h1.add_atBot (tendsto_neg_atTop_atBot.comp h2)
    refine h3.congr' ?_
    filter_upwards [self_mem_nhdsWithin] with x hx
    have hx' : x ≠ 0 := (show 0 < x from hx).ne'
    simp only [Function.comp]
    field_simp
    ring
  have aT : Tendsto (fun x => (x ^ 2 - w ^ 2) / (g * x)) atTop atTop := by
    have h1 := (tendsto_id (α := ℝ) (x := atTop)).atTop_div_const hg
    have h2 : Tendsto (fun x : ℝ => -(w ^ 2 / g / x)) atTop (𝓝 (-0)) :=
      (tendsto_const_nhds.div_atTop tendsto_id).neg
    refine (h1.atTop_add h2).congr' ?_
    filter_upwards [eventually_gt_atTop 0] with x hx
    simp only [id]
    field_simp
    ring
  have hf := pv_of_antideriv (a := 0) (e := e)
    (f := fun x => den w g e * (x ^ 2 / (den w g x * (x ^ 2 - e ^ 2))))
    (F := anti w g e)
    (l := e / 2 * 0 + (w ^ 2 - e ^ 2) / 2 * (1 / g * (Real.pi / 2)) - (w ^ 2 + e ^ 2) / 2 * L)
    (F0 := e / 2 * 0 + (w ^ 2 - e ^ 2) / 2 * (1 / g * -(Real.pi / 2)) - (w ^ 2 + e ^ 2) / 2 * L)
    le_rfl he he.ne' (fun x h1 h2 => absurd h1 (not_lt.2 h2))
    (fun x hx hxe => anti_deriv hw.le hg he hx hxe)
    (fun x hx hxe => by
      have hd := den_pos (w := w) hg hx
      have hxe' := sub_ne_zero.2 hxe
      have hp : 0 < x + e := by positivity
      have e1 : x ^ 2 - e ^ 2 = (x + e) * (x - e) := by ring
      have : den w g e * (x ^ 2 / (den w g x * (x ^ 2 - e ^ 2))) * (x - e) =
          den w g e * (x ^ 2 / (den w g x * (x + e))) := by
        rw [e1]; field_simp
      rw [this]
      positivity)
    (((log_zero e he).const_mul _ |>.add
      ((((Real.tendsto_arctan_atBot.mono_right nhdsWithin_le_nhds).comp a0).const_mul _).const_mul
        _)).sub (((prim_top hw.le hg).comp s0).const_mul _))
    (((log_top e).const_mul _ |>.add
      ((((Real.tendsto_arctan_atTop.mono_right nhdsWithin_le_nhds).comp aT).const_mul _).const_mul
        _)).sub (((prim_top hw.le hg).comp sT).const_mul _))
    (fun _ => by
      set H := fun x => (w ^ 2 - e ^ 2) / 2 * (1 / g * Real.arctan ((x ^ 2 - w ^ 2) / (g * x))) -
        (w ^ 2 + e ^ 2) / 2 * prim w g (x + w ^ 2 / x) with hH
      have hHc : ContinuousAt H e := by
        have c1 := (atan_part_deriv (w := w) hg he).continuousAt
        have c2 : ContinuousAt (fun x => x + w ^ 2 / x) e :=
          continuousAt_id.add (continuousAt_const.div continuousAt_id he.ne')
        have c3 : ContinuousAt (prim w g) (e + w ^ 2 / e) := (prim_deriv hw.le hg _).continuousAt
        have c4 : ContinuousAt (fun x => prim w g (x + w ^ 2 / x)) e :=
          ContinuousAt.comp (f := fun x => x + w ^ 2 / x) c3 c2
        exact (continuousAt_const.mul c1).sub (continuousAt_const.mul c4)
      have h1 := (log_window he).const_mul (e / 2)
      have h2 := (hHc.tendsto.comp (window_minus e)).sub (hHc.tendsto.comp (window_plus e))
      have := h1.add h2
      rw [sub_self, mul_zero, add_zero] at this
      refine this.congr (fun d => ?_)
      simp only [hH, Function.comp, anti]
      ring)
  have hm := pv_mul (1 / den w g e) hf
  have hv : 1 / den w g e * (e / 2 * 0 + (w ^ 2 - e ^ 2) / 2 * (1 / g * (Real.pi / 2)) -
      (w ^ 2 + e ^ 2) / 2 * L - (e / 2 * 0 + (w ^ 2 - e ^ 2) / 2 * (1 / g * -(Real.pi / 2)) -
      (w ^ 2 + e ^ 2) / 2 * L)) = (w ^ 2 - e ^ 2) / (2 * g * den w g e) * Real.pi := by
    field_simp; ring
  rw [hv] at hm
  refine pv_congr hm (fun x _ _ => ?_)
  field_simp

/-- The integral for free carriers. -/
theorem pv_free (hg : 0 < g) (he : 0 < e) :
    PrincipalValue (fun x => 1 / ((x ^ 2 + g ^ 2) * (x ^ 2 - e ^ 2))) e
      (-(Real.pi / (2 * g * (e ^ 2 + g ^ 2)))) := by
  have hz : 0 < e ^ 2 + g ^ 2 := by positivity
  have hat : ∀ x, HasDerivAt (fun x => 1 / g * Real.arctan (x / g)) (1 / (x ^ 2 + g ^ 2)) x := by
    intro x
    have := (((hasDerivAt_id x).div_const g).arctan).const_mul (1 / g)
    refine HasDerivAt.congr_deriv (f := fun x => 1 / g * Real.arctan (x / g)) this ?_
    simp only [id]
    have : 1 + (x / g) ^ 2 = (x ^ 2 + g ^ 2) / g ^ 2 := by field_simp; ring
    rw [this]
    have : x ^ 2 + g ^ 2 ≠ 0 := by positivity
    field_simp
  have hf := pv_of_antideriv (a := 0) (e := e)
    (f := fun x => (e ^ 2 + g ^ 2) * (1 / ((x ^ 2 + g ^ 2) * (x ^ 2 - e ^ 2))))
    (F := fun x => 1 / (2 * e) * (Real.log (x - e) - Real.log (x + e)) -
      1 / g * Real.arctan (x / g))
    (l := 1 / (2 * e) * 0 - 1 / g * (Real.pi / 2))
    (F0 := 1 / (2 * e) * 0 - 1 / g * Real.arctan (0 / g))
    le_rfl he he.ne' (fun x h1 h2 => absurd h1 (not_lt.2 h2))
    (fun x hx hxe => by
      have hne := sub_ne_zero.2 hxe
      have hpl : x + e ≠ 0 := by positivity
      have l1 : HasDerivAt (fun x => Real.log (x - e)) (1 / (x - e)) x :=
        ((hasDerivAt_id x).sub_const e).log hne
      have l2 : HasDerivAt (fun x => Real.log (x + e)) (1 / (x + e)) x :=
        ((hasDerivAt_id x).add_const e).log hpl
      refine HasDerivAt.congr_deriv (((l1.sub l2).const_mul (1 / (2 * e))).sub (hat x)) ?_
      have e1 : x ^ 2 - e ^ 2 = (x - e) * (x + e) := by ring
      have : x ^ 2 + g ^ 2 ≠ 0 := by positivity
      rw [e1]
      field_simp
      ring)
    (fun x hx hxe => by
      have hxe' := sub_ne_zero.2 hxe
      have hp : 0 < x + e := by positivity
      have e1 : x ^ 2 - e ^ 2 = (x + e) * (x - e) := by ring
      have : (e ^ 2 + g ^ 2) * (1 / ((x ^ 2 + g ^ 2) * (x ^ 2 - e ^ 2))) * (x - e) =
          (e ^ 2 + g ^ 2) * (1 / ((x ^ 2 + g ^ 2) * (x + e))) := by
        rw [e1]; field_simp
      rw [this]
      positivity)
    ((((log_zero e he).const_mul _)).sub
      ((hat 0).continuousAt.tendsto.mono_left nhdsWithin_le_nhds))
    ((((log_top e).const_mul _)).sub
      (((Real.tendsto_arctan_atTop.mono_right nhdsWithin_le_nhds).comp
        (tendsto_id.atTop_div_const hg)).const_mul _))
    (fun _ => by
      have h1 := (log_window he).const_mul (1 / (2 * e))
      have h2 := ((hat e).continuousAt.tendsto.comp (window_plus e)).sub
        ((hat e).continuousAt.tendsto.comp (window_minus e))
      have := h1.add h2
      rw [sub_self, mul_zero, add_zero] at this
      refine this.congr (fun d => ?_)
      simp only [Function.comp]
      ring)
  have hm := pv_mul (1 / (e ^ 2 + g ^ 2)) hf
  have hv : 1 / (e ^ 2 + g ^ 2) * (1 / (2 * e) * 0 - 1 / g * (Real.pi / 2) -
      (1 / (2 * e) * 0 - 1 / g * Real.arctan (0 / g))) =
      -(Real.pi / (2 * g * (e ^ 2 + g ^ 2))) := by
    rw [zero_div, Real.arctan_zero]
    field_simp
    ring
  rw [hv] at hm
  refine pv_congr hm (fun x _ _ => ?_)
  field_simp

end Osc
end Disp
