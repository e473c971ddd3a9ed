import Verif.Props.Causality

/-!
# Sum rules of the metals (C105)
-/

namespace Disp
open MeasureTheory Filter Topology Set Spec

namespace Osc
variable {w g : ℝ}

theorem sum_zero (hw : 0 < w) : Tendsto (fun x => x + w ^ 2 / x) (𝓝[>] 0) atTop := by
  have := inv_zero.const_mul_atTop (show 0 < w ^ 2 by positivity)
  exact id_zero.add_atTop this

theorem sum_top : Tendsto (fun x => x + w ^ 2 / x) atTop atTop := by
  have h : Tendsto (fun x : ℝ => w ^ 2 / x) atTop (𝓝 0) := tendsto_const_nhds.div_atTop tendsto_id
  exact (tendsto_id (α := ℝ) (x := atTop)).atTop_add h

theorem ratio_zero (hw : 0 < w) (hg : 0 < g) :
    Tendsto (fun x => (x ^ 2 - w ^ 2) / (g * x)) (𝓝[>] 0) atBot := by
  have h1 := (id_zero.div_const g)
  have h2 := inv_zero.const_mul_atTop (show 0 < w ^ 2 / g by positivity)
  have h3 := h1.add_atBot (tendsto_neg_atTop_atBot.comp h2)
  refine h3.congr' ?_
  filter_upwards [self_mem_nhdsWithin] with x hx
  have hx' : x ≠ 0 := (show 0 < x from hx).ne'
  simp only [Function.comp]
  field_simp
  ring

theorem ratio_top (hg : 0 < g) : Tendsto (fun x => (x ^ 2 - w ^ 2) / (g * x)) atTop atTop := by
  have h1 := (tendsto_id (α := ℝ) (x := atTop)).atTop_div_const hg
  have h2 : Tendsto (fun x : ℝ => -(w ^ 2 / g / x)) atTop (𝓝 (-0)) :=
    (tendsto_const_nhds.div_atTop tendsto_id).neg
  refine (h1.atTop_add h2).congr' ?_
  filter_upwards [eventually_gt_atTop 0] with x hx
  simp only [id]
  field_simp
  ring

theorem arctan_ratio_zero (hw : 0 < w) (hg : 0 < g) :
    Tendsto (fun x => 1 / g * Real.arctan ((x ^ 2 - w ^ 2) / (g * x))) (𝓝[>] 0)
      (𝓝 (1 / g * -(Real.pi / 2))) :=
  ((Real.tendsto_arctan_atBot.mono_right nhdsWithin_le_nhds).comp (ratio_zero hw hg)).const_mul _

theorem arctan_ratio_top (hg : 0 < g) :
    Tendsto (fun x => 1 / g * Real.arctan ((x ^ 2 - w ^ 2) / (g * x))) atTop
      (𝓝 (1 / g * (Real.pi / 2))) :=
  ((Real.tendsto_arctan_atTop.mono_right nhdsWithin_le_nhds).comp (ratio_top hg)).const_mul _

theorem prim_sum_deriv (hw : 0 ≤ w) (hg : 0 < g) {x : ℝ} (hx : 0 < x) :
    HasDerivAt (fun x => prim w g (x + w ^ 2 / x)) ((x ^ 2 - w ^ 2) / den w g x) x := by
  have s1 : HasDerivAt (fun x => x + w ^ 2 / x) (1 - w ^ 2 / x ^ 2) x := by
    have := (hasDerivAt_id x).add ((hasDerivAt_inv hx.ne').const_mul (w ^ 2))
    refine HasDerivAt.congr_deriv (f := fun x => x + w ^ 2 / x) ?_
      (show 1 + w ^ 2 * (-(x ^ 2)⁻¹) = _ by field_simp; ring)
    exact this
  have g1 := (prim_deriv hw hg (x + w ^ 2 / x)).comp x s1
  rw [kern_sum hw hg hx] at g1
  refine HasDerivAt.congr_deriv (f := fun x => prim w g (x + w ^ 2 / x)) g1 ?_
  have hd := (den_pos (w := w) hg hx).ne'
  field_simp

/-- The absorption of an oscillator. -/
theorem fsum (hw : 0 < w) (hg : 0 < g) :
    IntegrableOn (fun x => x ^ 2 / den w g x) (Ioi 0) ∧
      ∫ x in Ioi 0, x ^ 2 / den w g x = Real.pi / (2 * g) := by
  set L := ∫ t in Ioi (2 * w), kern w g t with hL
  have h := ioi_of_antideriv (b := 0) (f := fun x => x ^ 2 / den w g x)
    (F := fun x => (1 / g * Real.arctan ((x ^ 2 - w ^ 2) / (g * x)) + prim w g (x + w ^ 2 / x)) / 2)
    (F0 := (1 / g * -(Real.pi / 2) + L) / 2) (l := (1 / g * (Real.pi / 2) + L) / 2)
    (fun x hx => by
      refine HasDerivAt.congr_deriv (((atan_part_deriv (w := w) hg hx).add
        (prim_sum_deriv hw.le hg hx)).div_const 2) ?_
      ring)
    (fun x hx => by have := den_pos (w := w) hg hx; positivity)
    (((arctan_ratio_zero hw hg).add ((prim_top hw.le hg).comp (sum_zero hw))).div_const 2)
    (((arctan_ratio_top hg).add ((prim_top hw.le hg).comp sum_top)).div_const 2)
  refine ⟨h.1, h.2.trans ?_⟩
  field_simp
  ring

/-- The absorption of free carriers. -/
theorem fsum_free (hg : 0 < g) :
    IntegrableOn (fun x => 1 / (x ^ 2 + g ^ 2)) (Ioi 0) ∧
      ∫ x in Ioi 0, 1 / (x ^ 2 + g ^ 2) = Real.pi / (2 * g) := by
  have hat : ∀ x, HasDerivAt (fun x => 1 / g * Real.arctan (x / g)) (1 / (x ^ 2 + g ^ 2)) x := by
    intro x
    have := (((hasDerivAt_id x).div_const g).arctan).const_mul (1 / g)
    refine HasDerivAt.congr_deriv (f := fun x => 1 / g * Real.arctan (x / g)) this ?_
    simp only [id]
    have : 1 + (x / g) ^ 2 = (x ^ 2 + g ^ 2) / g ^ 2 := by field_simp; ring
    rw [this]
    have : x ^ 2 + g ^ 2 ≠ 0 := by positivity
    field_simp
  have h := ioi_of_antideriv (b := 0) (f := fun x => 1 / (x ^ 2 + g ^ 2))
    (F := fun x => 1 / g * Real.arctan (x / g)) (F0 := 1 / g * Real.arctan (0 / g))
    (l := 1 / g * (Real.pi / 2)) (fun x _ => hat x) (fun x _ => by positivity)
    ((hat 0).continuousAt.tendsto.mono_left nhdsWithin_le_nhds)
    (((Real.tendsto_arctan_atTop.mono_right nhdsWithin_le_nhds).comp
        (tendsto_id.atTop_div_const hg)).const_mul _)
  refine ⟨h.1, h.2.trans ?_⟩
  rw [zero_div, Real.arctan_zero]
  field_simp
  ring

/-- The dispersion of an oscillator averages to nothing. -/
theorem inertial (hw : 0 < w) (hg : 0 < g) :
    IntegrableOn (fun x => (w ^ 2 - x ^ 2) / den w g x) (Ioi 0) ∧
      ∫ x in Ioi 0, (w ^ 2 - x ^ 2) / den w g x = 0 := by
  have hi := ioi_of_antideriv (b := 0) (f := fun x => (x ^ 2 + w ^ 2) / den w g x)
    (F := fun x => 1 / g * Real.arctan ((x ^ 2 - w ^ 2) / (g * x)))
    (fun x hx => atan_part_deriv hg hx)
    (fun x hx => by have := den_pos (w := w) hg hx; positivity)
    (arctan_ratio_zero hw hg) (arctan_ratio_top hg)
  have hj := Integrable.sub (Integrable.const_mul (fsum hw hg).1 2) hi.1
  have hint : IntegrableOn (fun x => (x ^ 2 - w ^ 2) / den w g x) (Ioi 0) := by
    refine hj.congr (Eventually.of_forall fun x => ?_)
    simp only [Pi.sub_apply]
    ring
  have key : ∫ x in Ioi 0, (x ^ 2 - w ^ 2) / den w g x = 0 := by
    have e1 : ∫ x in Ioi 0, (2 * (x ^ 2 / den w g x) - (x ^ 2 + w ^ 2) / den w g x) = 0 := by
      rw [integral_sub (Integrable.const_mul (fsum hw hg).1 2) hi.1, integral_const_mul, (fsum hw hg).2, hi.2]
      field_simp
      ring
    refine Eq.trans ?_ e1
    exact setIntegral_congr_fun (f := fun x => (x ^ 2 - w ^ 2) / den w g x) measurableSet_Ioi
      (fun x _ => by simp only; ring)
  have e2 : ∀ x, (w ^ 2 - x ^ 2) / den w g x = -((x ^ 2 - w ^ 2) / den w g x) := fun x => by ring
  simp only [e2]
  exact ⟨hint.neg, by rw [integral_neg, key, neg_zero]⟩

end Osc

/-- Parameters of a metal with a positive width, and the total strength of its absorption. -/
inductive Spec.Metal : EpsFormula → List XR → ℝ → Prop
  | drude {wp g : ℝ} {rest} (hg : 0 < g) : Metal .drude (.fin wp :: .fin g :: rest) (wp ^ 2)
  | drudeLorentz {wp S w0 g : ℝ} {rest} (hg : 0 < g) :
      Metal .drudeLorentz (.fin wp :: .fin S :: .fin w0 :: .fin g :: rest) (S * wp ^ 2)

/-- C105: the imaginary parts that a model returns at all positive energies obey the f-sum rule:
the integral of the energy times the imaginary part is `π/2` times the strength, whatever the
resonance and the width. -/
theorem C105_absorption {k : EpsFormula} {p : List XR} {T : ℝ} (hp : Metal k p T) (im : ℝ → ℝ)
    (hv : ∀ e, 0 < e → ∃ x, k.at p (.fin e) = .ok ⟨x, .fin (im e)⟩) :
    IntegrableOn (fun e => e * im e) (Ioi 0) ∧ ∫ e in Ioi 0, e * im e = Real.pi / 2 * T := by
  have fin_ : ∀ {c : ℝ} {f : ℝ → ℝ} {v : ℝ}, (∀ e, 0 < e → e * im e = c * f e) →
      IntegrableOn f (Ioi 0) → ∫ e in Ioi 0, f e = v →
      IntegrableOn (fun e => e * im e) (Ioi 0) ∧ ∫ e in Ioi 0, e * im e = c * v := by
    intro c f v h h1 h2
    constructor
    · exact IntegrableOn.congr_fun (Integrable.const_mul h1 c) (fun e he => (h e he).symm) measurableSet_Ioi
    · rw [setIntegral_congr_fun measurableSet_Ioi (fun e he => h e he), integral_const_mul, h2]
  cases hp with
  | @drude wp g rest hg =>
    have := fin_ (c := wp ^ 2 * g) (f := fun x => 1 / (x ^ 2 + g ^ 2)) (fun e he => by
      obtain ⟨x, hx⟩ := hv e he
      rw [drude_at wp g e rest he, drude_parts wp g e he] at hx
      have hx := XR.fin.inj (congrArg Cx.im (Except.ok.inj hx))
      rw [← hx]
      have h2 : e ^ 2 + g ^ 2 ≠ 0 := by positivity
      field_simp) (Osc.fsum_free hg).1 (Osc.fsum_free hg).2
    refine ⟨this.1, this.2.trans ?_⟩
    field_simp
  | @drudeLorentz wp S w g rest hg =>
    have him : ∀ e, 0 < e → im e = S * wp ^ 2 * g * e / Osc.den w g e := by
      intro e he
      obtain ⟨x, hx⟩ := hv e he
      rw [drudeLorentz_at wp S w g e rest he (.inl hg), drudeLorentz_parts wp S w g e hg he] at hx
      exact (XR.fin.inj (congrArg Cx.im (Except.ok.inj hx))).symm
    by_cases hw : w = 0
    · subst hw
      have := fin_ (c := S * wp ^ 2 * g) (f := fun x => 1 / (x ^ 2 + g ^ 2)) (fun e he => by
        have h2 : e ^ 2 + g ^ 2 ≠ 0 := by positivity
        have h3 : Osc.den 0 g e = e ^ 2 * (e ^ 2 + g ^ 2) := by unfold Osc.den; ring
        rw [him e he, h3]
        field_simp) (Osc.fsum_free hg).1 (Osc.fsum_free hg).2
      refine ⟨this.1, this.2.trans ?_⟩
      field_simp
    · have hab : ∀ x, Osc.den |w| g x = Osc.den w g x := fun x => by unfold Osc.den; rw [sq_abs]
      have hf := Osc.fsum (abs_pos.2 hw) hg
      simp only [hab] at hf
      have := fin_ (c := S * wp ^ 2 * g) (f := fun x => x ^ 2 / Osc.den w g x) (fun e he => by
        rw [him e he]
        ring) hf.1 hf.2
      refine ⟨this.1, this.2.trans ?_⟩
      field_simp

/-- C105: the real part of the Drude-Lorentz model with a resonance averages to one over all
energies (the inertial sum rule), and at low energies tends to the static value
`1 + S ωp²/ω0²`. -/
theorem C105_dispersion {wp S w g : ℝ} {rest : List XR} (hw : w ≠ 0) (hg : 0 < g) (re : ℝ → ℝ)
    (hv : ∀ e, 0 < e → ∃ y, EpsFormula.at .drudeLorentz (.fin wp :: .fin S :: .fin w :: .fin g :: rest)
      (.fin e) = .ok ⟨.fin (re e), y⟩) :
    IntegrableOn (fun e => re e - 1) (Ioi 0) ∧ ∫ e in Ioi 0, (re e - 1) = 0 ∧
      Tendsto re (𝓝[>] 0) (𝓝 (1 + S * wp ^ 2 / w ^ 2)) := by
  have hab : ∀ x, Osc.den |w| g x = Osc.den w g x := fun x => by unfold Osc.den; rw [sq_abs]
  have hi := Osc.inertial (abs_pos.2 hw) hg
  simp only [hab, sq_abs] at hi
  have hre : ∀ e, 0 < e → re e = 1 + S * wp ^ 2 * (w ^ 2 - e ^ 2) / Osc.den w g e := by
    intro e he
    obtain ⟨x, hx⟩ := hv e he
    rw [drudeLorentz_at wp S w g e rest he (.inl hg), drudeLorentz_parts wp S w g e hg he] at hx
    exact (XR.fin.inj (congrArg Cx.re (Except.ok.inj hx))).symm
  have hre' : ∀ e ∈ Ioi (0 : ℝ), re e - 1 = S * wp ^ 2 * ((w ^ 2 - e ^ 2) / Osc.den w g e) := by
    intro e he
    rw [hre e he]
    ring
  refine ⟨IntegrableOn.congr_fun (Integrable.const_mul hi.1 _) (fun e he => (hre' e he).symm) measurableSet_Ioi, ?_, ?_⟩
  · rw [setIntegral_congr_fun measurableSet_Ioi hre', integral_const_mul, hi.2, mul_zero]
  · have hc : ContinuousAt (fun e : ℝ => 1 + S * wp ^ 2 * (w ^ 2 - e ^ 2) / Osc.den w g e) 0 := by
      unfold Osc.den
      refine ContinuousAt.add continuousAt_const (ContinuousAt.div (by fun_prop) (by fun_prop) ?_)
      have : w ^ 2 ≠ 0 := pow_ne_zero 2 hw
      simpa using this
    have := hc.tendsto.mono_left (nhdsWithin_le_nhds (s := Ioi 0))
    have e0 : S * wp ^ 2 * (w ^ 2 - 0 ^ 2) / Osc.den w g 0 = S * wp ^ 2 / w ^ 2 := by
      unfold Osc.den
      field_simp
      ring
    rw [e0] at this
    refine this.congr' ?_
    filter_upwards [self_mem_nhdsWithin] with e he
    exact (hre e he).symm

/-- C105 for the objects: one pair of functions gives all evaluations of a model and obeys the sum
rule. -/
theorem C105_evaluate {k : EpsFormula} {p : List XR} {T : ℝ} (hp : Metal k p T) (raw : Raw XR)
    (t u : String) (d : CplxData XR) (hd : CplxData.new k p raw t u = .ok d) :
    ∃ re im : ℝ → ℝ, ∫ e in Ioi 0, e * im e = Real.pi / 2 * T ∧
      ∀ (s : Spectrum XR) (es : Vals XR) (zs : CVals XR), d.evaluate s = .ok zs →
        s.convertTo t u = .ok es → ∀ rs : List ℝ, es.toList = rs.map .fin → (∀ e ∈ rs, 0 < e) →
          zs.toList = rs.map (fun e => ⟨.fin (re e), .fin (im e)⟩) := by
  have hc : CausalParams k p 1 ∅ := by
    cases hp with
    | drude hg => exact .drude hg
    | drudeLorentz hg => exact .drudeLorentz hg
  obtain ⟨re, im, hv, hk⟩ := C88_formula hc
  refine ⟨re, im, (C105_absorption hp im hv).2, fun s es zs h1 h2 rs h3 h4 => ?_⟩
  exact CplxData.evaluate_values (gap := ∅) (fun e he hg => (hk e he hg).1) hd s es zs h1 h2 rs h3
    (fun e he => ⟨h4 e he, Set.notMem_empty e⟩)

/-- Concrete case: silver (Drude, plasma energy 9.01 eV, width 0.018 eV). -/
example : Metal .drude [.fin 9.01, .fin 0.018] (9.01 ^ 2) := .drude (by norm_num)

end Disp
