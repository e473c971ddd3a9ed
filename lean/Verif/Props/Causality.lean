import Verif.Props.Permittivity
import Verif.Lemmas.Lorentz
/-!
# C88, C89: permittivity models obey the relation of Kramers and Kronig
-/

namespace Disp
open MeasureTheory Filter Topology Set Spec

namespace TL

variable {a al e0 c eg einf e : ℝ}

theorem denominator (hal : al ^ 2 = 4 * e0 ^ 2 - c ^ 2) (x : ℝ) :
    quad al e0 x * quad (-al) e0 x = (x ^ 2 - e0 ^ 2) ^ 2 + c ^ 2 * x ^ 2 := by
  have h : c ^ 2 = 4 * e0 ^ 2 - al ^ 2 := by linarith
  rw [h]; unfold quad; ring

/-- The integral of Kramers and Kronig for the Tauc-Lorentz imaginary part. -/
theorem pv (hal0 : al ≠ 0) (h0 : e0 ≠ 0) (hc : 0 < c) (hal : al ^ 2 = 4 * e0 ^ 2 - c ^ 2)
    (hg : 0 ≤ eg) (he : 0 < e) (heg : e ≠ eg) :
    PrincipalValue (fun x => x * taucLorentzIm a e0 c eg x / (x ^ 2 - e ^ 2)) e
      (a * e0 * c / (quad al e0 e * quad (-al) e0 e) *
        (coefAtan al e0 eg e / c * Real.pi - anti al e0 c eg e eg)) := by
  have hal' : (-al) ^ 2 = 4 * e0 ^ 2 - c ^ 2 := by rw [neg_sq, hal]
  have hz : 0 < quad al e0 e * quad (-al) e0 e := mul_pos (quad_pos hc.ne' hal e) (quad_pos hc.ne' hal' e)
  set ζ := quad al e0 e * quad (-al) e0 e with hζ
  have hf := pv_of_antideriv (a := eg) (e := e)
    (f := fun x => if x ≤ eg then 0 else ζ *
      ((x - eg) ^ 2 / (quad al e0 x * quad (-al) e0 x * (x ^ 2 - e ^ 2))))
    (F := anti al e0 c eg e) (l := coefAtan al e0 eg e / c * Real.pi)
    (F0 := anti al e0 c eg e eg) hg he heg (fun x _ hx => if_pos hx)
    (fun x hx hxe => by
      simp only [if_neg (not_le.2 hx)]
      exact anti_deriv hal0 h0 hc.ne' hal he.ne' (sub_ne_zero.2 hxe) (by linarith))
    (fun x hx hxe => by
      simp only [if_neg (not_le.2 hx)]
      have hx0 : 0 < x + e := by linarith
      have hq := mul_pos (quad_pos hc.ne' hal x) (quad_pos hc.ne' hal' x)
      have hxe' := sub_ne_zero.2 hxe
      have : ζ * ((x - eg) ^ 2 / (quad al e0 x * quad (-al) e0 x * (x ^ 2 - e ^ 2))) * (x - e) =
          ζ * ((x - eg) ^ 2 / (quad al e0 x * quad (-al) e0 x * (x + e))) := by
        have e1 : x ^ 2 - e ^ 2 = (x + e) * (x - e) := by ring
        rw [e1]; field_simp
      rw [this]
      positivity)
    ((anti_deriv hal0 h0 hc.ne' hal he.ne' (sub_ne_zero.2 heg.symm)
      (by linarith)).continuousAt.tendsto.mono_left nhdsWithin_le_nhds)
    (anti_top he.ne' hc)
    (fun _ => by
      have hq1 := quad_pos hc.ne' hal e
      have hq2 := quad_pos hc.ne' hal' e
      have c1 : ContinuousAt (quad al e0) e := (quad_deriv al e0 e).continuousAt
      have c2 : ContinuousAt (quad (-al) e0) e := (quad_deriv (-al) e0 e).continuousAt
      have c3 := (arctan_deriv hc.ne' hal e).continuousAt
      have c4 := (arctan_deriv hc.ne' hal' e).continuousAt
      have c5 : ContinuousAt (fun x => Real.log (x + e)) e :=
        (continuousAt_id.add continuousAt_const).log (by simp; linarith)
      have hH : ContinuousAt (fun x => anti al e0 c eg e x -
          (e - eg) ^ 2 / (2 * e) * Real.log (x - e)) e := by
        have : (fun x => anti al e0 c eg e x - (e - eg) ^ 2 / (2 * e) * Real.log (x - e)) =
          fun x => -(e + eg) ^ 2 / (2 * e) * Real.log (x + e) +
            ((eg / 2 - coefLog al e0 eg e / (2 * al)) * Real.log (quad al e0 x) +
              (coefAtan al e0 eg e / c - 2 * (eg * shift al e0 e / al) / c) *
                Real.arctan ((2 * x + al) / c)) +
            ((eg / 2 + coefLog al e0 eg e / (2 * al)) * Real.log (quad (-al) e0 x) +
              (coefAtan al e0 eg e / c + 2 * (eg * shift al e0 e / al) / c) *
                Real.arctan ((2 * x + -al) / c)) := by
          funext x; unfold anti; ring
        rw [this]
        exact ((continuousAt_const.mul c5).add ((continuousAt_const.mul (c1.log hq1.ne')).add
          (continuousAt_const.mul c3))).add ((continuousAt_const.mul (c2.log hq2.ne')).add
          (continuousAt_const.mul c4))
      set H := fun x => anti al e0 c eg e x - (e - eg) ^ 2 / (2 * e) * Real.log (x - e) with hHd
      have t1 : Tendsto (fun d : ℝ => e - d) (𝓝[>] 0) (𝓝 e) := by
        have : Tendsto (fun d : ℝ => e - d) (𝓝 0) (𝓝 (e - 0)) := tendsto_const_nhds.sub tendsto_id
        rw [sub_zero] at this
        exact this.mono_left nhdsWithin_le_nhds
      have t2 : Tendsto (fun d : ℝ => e + d) (𝓝[>] 0) (𝓝 e) := by
        have : Tendsto (fun d : ℝ => e + d) (𝓝 0) (𝓝 (e + 0)) := tendsto_const_nhds.add tendsto_id
        rw [add_zero] at this
        exact this.mono_left nhdsWithin_le_nhds
      have := (hH.tendsto.comp t1).sub (hH.tendsto.comp t2)
      rw [sub_self] at this
      refine this.congr (fun d => ?_)
      simp only [hHd, Function.comp]
      have e1 : e - d - e = -d := by ring
      have e2 : e + d - e = d := by ring
      rw [e1, e2, Real.log_neg_eq_log]
      ring)
  have hm := pv_mul (a * e0 * c / ζ) hf
  refine pv_congr hm (fun x hx hxe => ?_)
  unfold taucLorentzIm
  rw [denominator hal]
  rcases lt_trichotomy x eg with h | h | h
  · rw [if_pos h.le, if_pos h]; simp
  · rw [if_pos h.le, if_neg (by simp [h])]; simp [h]
  · rw [if_neg (not_le.2 h), if_neg (not_lt.2 h.le)]
    have hz' := hz.ne'
    have hq := (mul_pos (quad_pos hc.ne' hal x) (quad_pos hc.ne' hal' x)).ne'
    rw [denominator hal] at hq
    have hne : x ^ 2 - e ^ 2 ≠ 0 := by
      have e1 : x ^ 2 - e ^ 2 = (x + e) * (x - e) := by ring
      rw [e1]; exact mul_ne_zero (by linarith) (sub_ne_zero.2 hxe)
    field_simp

theorem log_fin {x : ℝ} (h : 0 < x) : (PyFloat.log (XR.fin x) : XR) = XR.fin (Real.log x) := by
  show (if x < 0 then XR.nan else if x = 0 then XR.ninf else XR.fin (Real.log x)) = _
  rw [if_neg (not_lt.2 h.le), if_neg h.ne']

theorem atan_fin (x : ℝ) : (PyFloat.atan (XR.fin x) : XR) = XR.fin (Real.arctan x) := rfl

theorem atan2_fin {x : ℝ} (h : 0 < x) (y : ℝ) :
    (PyFloat.atan2 (XR.fin y) (XR.fin x) : XR) = XR.fin (Real.arctan (y / x)) := by
  show XR.fin (Complex.arg ⟨x, y⟩) = _
  congr 1
  have h1 := Complex.tan_arg ⟨x, y⟩
  have h2 : |Complex.arg ⟨x, y⟩| < Real.pi / 2 := Complex.abs_arg_lt_pi_div_two_iff.2 (.inl h)
  rw [abs_lt] at h2
  rw [← Real.arctan_tan h2.1 h2.2, h1]

/-- The real part of the model, by the antiderivative. -/
theorem real_part (h0 : e0 ≠ 0) (hc : 0 < c) (hc2 : c ^ 2 ≤ 2 * e0 ^ 2) (hg : 0 ≤ eg) (he : 0 < e)
    (heg : e ≠ eg) (hal : al = Real.sqrt (4 * e0 ^ 2 - c ^ 2)) :
    tlReal (XR.fin e) (XR.fin a) (XR.fin e0) (XR.fin c) (XR.fin eg) (XR.fin einf) =
      XR.fin (einf + 2 / Real.pi * (a * e0 * c / (quad al e0 e * quad (-al) e0 e) *
        (coefAtan al e0 eg e / c * Real.pi - anti al e0 c eg e eg))) := by
  have hpos0 : 0 < e0 ^ 2 := by positivity
  have hpos : 0 < 4 * e0 ^ 2 - c ^ 2 := by linarith
  have hal0 : 0 < al := by rw [hal]; exact Real.sqrt_pos.2 hpos
  have hsq : al ^ 2 = 4 * e0 ^ 2 - c ^ 2 := by rw [hal]; exact Real.sq_sqrt hpos.le
  have hsq' : (-al) ^ 2 = 4 * e0 ^ 2 - c ^ 2 := by rw [neg_sq, hsq]
  have hgam : 0 ≤ e0 ^ 2 - 1 / 2 * c ^ 2 := by linarith
  have hG : Real.sqrt (e0 ^ 2 - 1 / 2 * c ^ 2) ^ 2 = e0 ^ 2 - 1 / 2 * c ^ 2 := Real.sq_sqrt hgam
  have q1 := quad_pos hc.ne' hsq eg
  have q2 := quad_pos hc.ne' hsq' eg
  have q3 := quad_pos hc.ne' hsq e
  have q4 := quad_pos hc.ne' hsq' e
  have hz := mul_pos q3 q4
  have hzeta : (e ^ 2 - (e0 ^ 2 - 1 / 2 * c ^ 2)) ^ 2 + 1 / 4 * al ^ 2 * c ^ 2 =
      quad al e0 e * quad (-al) e0 e := by
    rw [denominator hsq, hsq]; ring
  unfold tlReal
  simp only [XR.lit_eq, XR.sqF_fin, XR.sub_fin, XR.mul_fin, XR.add_fin, XR.pi_eq, XR.neg_fin,
    XR.abs_fin]
  have k1 : ((0.5 : ℚ) : ℝ) = 1 / 2 := by norm_num
  have k2 : ((0.25 : ℚ) : ℝ) = 1 / 4 := by norm_num
  have k3 : ((3 : ℚ) : ℝ) = 3 := by norm_num
  have k4 : ((4 : ℚ) : ℝ) = 4 := by norm_num
  have k5 : ((2 : ℚ) : ℝ) = 2 := by norm_num
  have k6 : ((-2 : ℚ) : ℝ) = -2 := by norm_num
  have k7 : ((-1 : ℚ) : ℝ) = -1 := by norm_num
  have s1 : (PyFloat.sqrt (XR.fin (4 * e0 ^ 2 - c ^ 2)) : XR) = XR.fin al := by
    rw [XR.sqrt_fin_nonneg hpos.le, hal]
  have hD : 0 < (e0 ^ 2 - eg ^ 2) ^ 2 + eg ^ 2 * c ^ 2 := by
    have := mul_pos q1 q2
    rw [denominator hsq] at this
    nlinarith
  simp only [k1, k2, k3, k4, k5, k6, k7, s1, XR.sqrt_fin_nonneg hgam, XR.sqrt_fin_nonneg hD.le,
    XR.sqF_fin, XR.sub_fin, XR.mul_fin, XR.add_fin, hG, hzeta]
  have p1 : e0 ^ 2 + eg ^ 2 + al * eg = quad al e0 eg := by unfold quad; ring
  have p2 : e0 ^ 2 + eg ^ 2 - al * eg = quad (-al) e0 eg := by unfold quad; ring
  have hpi := Real.pi_pos
  have hee : 0 < e + eg := by linarith
  have hab : 0 < |e - eg| := abs_pos.2 (sub_ne_zero.2 heg)
  rw [p1, p2]
  rw [XR.div_fin_of_ne _ (show Real.pi * (quad al e0 e * quad (-al) e0 e) * al * e0 ≠ 0 by positivity),
    XR.div_fin_of_ne _ q2.ne', XR.div_fin_of_ne _
      (show Real.pi * (quad al e0 e * quad (-al) e0 e) * e0 ≠ 0 by positivity),
    XR.div_fin_of_ne _ hc.ne', XR.div_fin_of_ne _ hc.ne',
    XR.div_fin_of_ne _ (show Real.pi * (quad al e0 e * quad (-al) e0 e) * al ≠ 0 by positivity),
    XR.div_fin_of_ne _ (show Real.pi * (quad al e0 e * quad (-al) e0 e) ≠ 0 by positivity),
    XR.div_fin_of_ne _ he.ne', XR.div_fin_of_ne _ hee.ne',
    XR.div_fin_of_ne _ (show Real.pi * (quad al e0 e * quad (-al) e0 e) ≠ 0 by positivity),
    XR.div_fin_of_ne _ (Real.sqrt_pos.2 hD).ne', log_fin (div_pos q1 q2), log_fin (div_pos hab hee),
    log_fin (div_pos (mul_pos hab hee) (Real.sqrt_pos.2 hD)), atan_fin, atan_fin, atan2_fin hc,
    atan2_fin hc]
  simp only [XR.sub_fin, XR.mul_fin, XR.add_fin]
  congr 1
  have a1 : Real.arctan ((al - 2 * eg) / c) = -Real.arctan ((2 * eg + -al) / c) := by
    rw [← Real.arctan_neg]; congr 1; ring
  have a2 : Real.arctan ((-2 * eg + al) / c) = -Real.arctan ((2 * eg + -al) / c) := by
    rw [← Real.arctan_neg]; congr 1; ring
  have a3 : Real.arctan ((al + 2 * eg) / c) = Real.arctan ((2 * eg + al) / c) := by
    congr 1; ring
  have l1 : Real.log |e - eg| = Real.log (eg - e) := by rw [Real.log_abs, ← Real.log_neg_eq_log]; congr 1; ring
  have l2 : Real.log (e + eg) = Real.log (eg + e) := by rw [add_comm]
  have l3 : Real.log (Real.sqrt ((e0 ^ 2 - eg ^ 2) ^ 2 + eg ^ 2 * c ^ 2)) =
      (Real.log (quad al e0 eg) + Real.log (quad (-al) e0 eg)) / 2 := by
    have : (e0 ^ 2 - eg ^ 2) ^ 2 + eg ^ 2 * c ^ 2 = quad al e0 eg * quad (-al) e0 eg := by
      rw [denominator hsq]; ring
    rw [this, Real.log_sqrt (mul_pos q1 q2).le, Real.log_mul q1.ne' q2.ne']
  rw [Real.log_div q1.ne' q2.ne', Real.log_div hab.ne' hee.ne',
    Real.log_div (mul_pos hab hee).ne' (Real.sqrt_pos.2 hD).ne', Real.log_mul hab.ne' hee.ne',
    l1, l2, l3, a1, a2, a3]
  have c1 : coefAtan al e0 eg e =
      -((e ^ 2 - e0 ^ 2) * (e0 ^ 2 + eg ^ 2) + eg ^ 2 * c ^ 2) / (2 * e0 ^ 2) := by
    unfold coefAtan; rw [hsq]; ring
  have c2 : coefLog al e0 eg e = ((eg ^ 2 - e0 ^ 2) * e ^ 2 + eg ^ 2 * c ^ 2 -
      e0 ^ 2 * (e0 ^ 2 + 3 * eg ^ 2)) / (2 * e0 ^ 2) := by
    unfold coefLog; rw [hsq]; ring
  have c3 : shift al e0 e = e ^ 2 - (e0 ^ 2 - 1 / 2 * c ^ 2) := by
    unfold shift; rw [hsq]; ring
  unfold anti
  rw [c1, c2, c3]
  have := q3.ne'
  have := q4.ne'
  have := hpi.ne'
  have := hal0.ne'
  have := hc.ne'
  field_simp
  ring

end TL

/-- Parameters for which a permittivity model is causal, with the limit of the permittivity at
high energies and the energies at which no value is computed. -/
inductive CausalParams : EpsFormula → List XR → ℝ → Set ℝ → Prop
  | drude {wp g : ℝ} {rest} (hg : 0 < g) :
      CausalParams .drude (.fin wp :: .fin g :: rest) 1 ∅
  | drudeLorentz {wp S w0 g : ℝ} {rest} (hg : 0 < g) :
      CausalParams .drudeLorentz (.fin wp :: .fin S :: .fin w0 :: .fin g :: rest) 1 ∅
  | taucLorentz {a e0 c eg einf : ℝ} {rest} (h0 : e0 ≠ 0) (hc : 0 < c) (hc2 : c ^ 2 ≤ 2 * e0 ^ 2)
      (hg : 0 ≤ eg) : CausalParams .taucLorentz
        (.fin a :: .fin e0 :: .fin c :: .fin eg :: .fin einf :: rest) einf {eg}

theorem drude_parts (wp g e : ℝ) (he : 0 < e) :
    toCx (1 - (wp : ℂ) ^ 2 / ((e : ℂ) ^ 2 + Complex.I * g * e)) =
      ⟨XR.fin (1 - wp ^ 2 / (e ^ 2 + g ^ 2)), XR.fin (wp ^ 2 * g / (e * (e ^ 2 + g ^ 2)))⟩ := by
  have hden : (e : ℂ) ^ 2 + Complex.I * g * e = damped (e ^ 2) g e := by
    unfold damped; push_cast; ring
  have h1 : ((wp : ℂ) ^ 2).re = wp ^ 2 := by norm_cast
  have h2 : ((wp : ℂ) ^ 2).im = 0 := by norm_cast
  have hn : Complex.normSq (damped (e ^ 2) g e) = e ^ 2 * (e ^ 2 + g ^ 2) := by
    rw [Complex.normSq_apply, damped_re, damped_im]; ring
  have hp : e ^ 2 + g ^ 2 ≠ 0 := by positivity
  rw [hden]
  unfold toCx
  congr 2
  · rw [Complex.sub_re, Complex.div_re, damped_re, damped_im, h1, h2, hn]
    simp only [Complex.one_re]
    field_simp
    ring
  · rw [Complex.sub_im, Complex.div_im, damped_re, damped_im, h1, h2, hn]
    simp only [Complex.one_im]
    field_simp
    ring

theorem drudeLorentz_parts (wp S w g e : ℝ) (hg : 0 < g) (he : 0 < e) :
    toCx (1 + (starRingEnd ℂ) ((S * wp ^ 2 : ℂ) /
        ((w : ℂ) ^ 2 - (e : ℂ) ^ 2 + Complex.I * g * e))) =
      ⟨XR.fin (1 + S * wp ^ 2 * (w ^ 2 - e ^ 2) / Osc.den w g e),
        XR.fin (S * wp ^ 2 * g * e / Osc.den w g e)⟩ := by
  have hden : (w : ℂ) ^ 2 - (e : ℂ) ^ 2 + Complex.I * g * e = damped (w ^ 2 - e ^ 2) g e := by
    unfold damped; push_cast; ring
  have h1 : ((S : ℂ) * (wp : ℂ) ^ 2).re = S * wp ^ 2 := by norm_cast
  have h2 : ((S : ℂ) * (wp : ℂ) ^ 2).im = 0 := by norm_cast
  have hn : Complex.normSq (damped (w ^ 2 - e ^ 2) g e) = Osc.den w g e := by
    rw [Complex.normSq_apply, damped_re, damped_im]; unfold Osc.den; ring
  have hp := (Osc.den_pos (w := w) hg he).ne'
  rw [hden]
  unfold toCx
  congr 2
  · rw [Complex.add_re, Complex.conj_re, Complex.div_re, damped_re, damped_im, h1, h2, hn]
    simp only [Complex.one_re]
    field_simp
    ring
  · rw [Complex.add_im, Complex.conj_im, Complex.div_im, damped_re, damped_im, h1, h2, hn]
    simp only [Complex.one_im]
    field_simp
    ring

/-- The value of the Tauc-Lorentz model from its real part. -/
theorem TL.at_of_real {a e0 c eg einf e : ℝ} (rest : List XR) (hc : 0 < c) (he : 0 < e) {r : XR}
    (hr : tlReal (XR.fin e) (XR.fin a) (XR.fin e0) (XR.fin c) (XR.fin eg) (XR.fin einf) = r) :
    EpsFormula.at .taucLorentz (XR.fin a :: XR.fin e0 :: XR.fin c :: XR.fin eg :: XR.fin einf ::
      rest) (XR.fin e) = .ok ⟨r + XR.fin 0, XR.fin (taucLorentzIm a e0 c eg e)⟩ := by
  show Except.ok (Cx.ofReal (tlReal (XR.fin e) (XR.fin a) (XR.fin e0) (XR.fin c) (XR.fin eg)
    (XR.fin einf)) + Cx.I * Cx.ofReal (tlImag (XR.fin e) (XR.fin a) (XR.fin e0) (XR.fin c)
      (XR.fin eg))) = _
  rw [hr, tlImag_fin a e0 c eg e he (.inr (.inl hc))]
  show Except.ok (⟨_ + (lit 0 * XR.fin _ - lit 1 * lit 0),
    lit 0 + (lit 0 * lit 0 + lit 1 * XR.fin _)⟩ : Cx XR) = _
  congr 2
  · simp
    rfl
  · simp

/-- C88: the permittivities that a model returns are the values of two real functions, and at
every positive energy the real part is the limit at high energies plus the principal value that
the relation of Kramers and Kronig assigns to the imaginary part. -/
theorem C88_formula {k : EpsFormula} {p : List XR} {einf : ℝ} {gap : Set ℝ}
    (hp : CausalParams k p einf gap) :
    ∃ re im : ℝ → ℝ,
      (∀ e, 0 < e → ∃ x, k.at p (XR.fin e) = .ok ⟨x, XR.fin (im e)⟩) ∧
      ∀ e, 0 < e → e ∉ gap → k.at p (XR.fin e) = .ok ⟨XR.fin (re e), XR.fin (im e)⟩ ∧
        KramersKronig re im einf e := by
  cases hp with
  | @drude wp g rest hg =>
    have hv : ∀ e, 0 < e → EpsFormula.at .drude (XR.fin wp :: XR.fin g :: rest) (XR.fin e) =
        .ok ⟨XR.fin (1 - wp ^ 2 / (e ^ 2 + g ^ 2)), XR.fin (wp ^ 2 * g / (e * (e ^ 2 + g ^ 2)))⟩ :=
      fun e he => by rw [drude_at wp g e rest he, drude_parts wp g e he]
    refine ⟨fun e => 1 - wp ^ 2 / (e ^ 2 + g ^ 2), fun e => wp ^ 2 * g / (e * (e ^ 2 + g ^ 2)),
      fun e he => ⟨_, hv e he⟩, fun e he _ => ⟨hv e he, _,
        pv_congr (pv_mul (wp ^ 2 * g) (Osc.pv_free hg he)) (fun x hx hxe => ?_), ?_⟩⟩
    · have h1 : x ^ 2 - e ^ 2 ≠ 0 := by
        have e1 : x ^ 2 - e ^ 2 = (x + e) * (x - e) := by ring
        rw [e1]; exact mul_ne_zero (by positivity) (sub_ne_zero.2 hxe)
      have h2 : x ^ 2 + g ^ 2 ≠ 0 := by positivity
      field_simp
    · have h2 : e ^ 2 + g ^ 2 ≠ 0 := by positivity
      have := Real.pi_ne_zero
      field_simp
      ring
  | @drudeLorentz wp S w g rest hg =>
    have hv : ∀ e, 0 < e → EpsFormula.at .drudeLorentz
        (XR.fin wp :: XR.fin S :: XR.fin w :: XR.fin g :: rest) (XR.fin e) =
        .ok ⟨XR.fin (1 + S * wp ^ 2 * (w ^ 2 - e ^ 2) / Osc.den w g e),
          XR.fin (S * wp ^ 2 * g * e / Osc.den w g e)⟩ :=
      fun e he => by
        rw [drudeLorentz_at wp S w g e rest he (.inl hg), drudeLorentz_parts wp S w g e hg he]
    have hpi := Real.pi_ne_zero
    refine ⟨fun e => 1 + S * wp ^ 2 * (w ^ 2 - e ^ 2) / Osc.den w g e,
      fun e => S * wp ^ 2 * g * e / Osc.den w g e,
      fun e he => ⟨_, hv e he⟩, fun e he _ => ⟨hv e he, ?_⟩⟩
    have hne : ∀ x, 0 < x → x ≠ e → x ^ 2 - e ^ 2 ≠ 0 := by
      intro x hx hxe
      have e1 : x ^ 2 - e ^ 2 = (x + e) * (x - e) := by ring
      rw [e1]; exact mul_ne_zero (by positivity) (sub_ne_zero.2 hxe)
    have hd := (Osc.den_pos (w := w) hg he).ne'
    by_cases hw : w = 0
    · subst hw
      refine ⟨_, pv_congr (pv_mul (S * wp ^ 2 * g) (Osc.pv_free hg he)) (fun x hx hxe => ?_), ?_⟩
      · have h1 := hne x hx hxe
        have h2 : x ^ 2 + g ^ 2 ≠ 0 := by positivity
        have h3 : Osc.den 0 g x = x ^ 2 * (x ^ 2 + g ^ 2) := by unfold Osc.den; ring
        simp only [h3]
        field_simp
      · have h2 : e ^ 2 + g ^ 2 ≠ 0 := by positivity
        have h3 : Osc.den 0 g e = e ^ 2 * (e ^ 2 + g ^ 2) := by unfold Osc.den; ring
        simp only [h3]
        field_simp
        ring
    · have hab : ∀ x, Osc.den |w| g x = Osc.den w g x := fun x => by unfold Osc.den; rw [sq_abs]
      have := Osc.pv (abs_pos.2 hw) hg he
      simp only [hab, sq_abs] at this
      refine ⟨_, pv_congr (pv_mul (S * wp ^ 2 * g) this) (fun x hx hxe => ?_), ?_⟩
      · have h1 := hne x hx hxe
        have h2 := (Osc.den_pos (w := w) hg hx).ne'
        field_simp
      · field_simp
  | @taucLorentz a e0 c eg einf rest h0 hc hc2 hg =>
    have hpos : 0 < 4 * e0 ^ 2 - c ^ 2 := by
      have : 0 < e0 ^ 2 := by positivity
      linarith
    have hsq : Real.sqrt (4 * e0 ^ 2 - c ^ 2) ^ 2 = 4 * e0 ^ 2 - c ^ 2 := Real.sq_sqrt hpos.le
    set al := Real.sqrt (4 * e0 ^ 2 - c ^ 2) with hal
    have hal0 : al ≠ 0 := (Real.sqrt_pos.2 hpos).ne'
    refine ⟨fun e => einf + 2 / Real.pi * (a * e0 * c / (TL.quad al e0 e * TL.quad (-al) e0 e) *
        (TL.coefAtan al e0 eg e / c * Real.pi - TL.anti al e0 c eg e eg)),
      taucLorentzIm a e0 c eg, fun e he => ⟨_, TL.at_of_real rest hc he rfl⟩, fun e he hgap => ⟨?_, _,
        TL.pv hal0 h0 hc hsq hg he hgap, rfl⟩⟩
    rw [TL.at_of_real rest hc he (TL.real_part h0 hc hc2 hg he hgap hal), XR.add_fin, add_zero]

/-- What an object returns, from what its formula gives at one energy. -/
theorem CplxData.evaluate_values {k : EpsFormula} {p : List XR} {gap : Set ℝ} {re im : ℝ → ℝ}
    (hk : ∀ e, 0 < e → e ∉ gap → k.at p (XR.fin e) = .ok ⟨XR.fin (re e), XR.fin (im e)⟩)
    {raw : Raw XR} {t u : String} {d : CplxData XR} (hd : CplxData.new k p raw t u = .ok d)
    (s : Spectrum XR) (es : Vals XR) (zs : CVals XR) (hz : d.evaluate s = .ok zs)
    (hw : s.convertTo t u = .ok es) (rs : List ℝ) (hrs : es.toList = rs.map .fin)
    (hpos : ∀ e ∈ rs, 0 < e ∧ e ∉ gap) :
    zs.toList = rs.map (fun e => ⟨.fin (re e), .fin (im e)⟩) := by
  have hd' : d.kind = k ∧ d.params = p ∧ d.stype = t ∧ d.unit = u := by
    unfold CplxData.new at hd
    simp only [Bind.bind, Except.bind] at hd
    cases hr : Spectrum.new raw t u with
    | error e => rw [hr] at hd; cases hd
    | ok r =>
      rw [hr] at hd
      simp only at hd
      cases hval : validateSpectrumType (F := XR) (some ("energy", "ev")) t u with
      | error e => rw [hval] at hd; cases hd
      | ok _ => rw [hval] at hd; cases hd; exact ⟨rfl, rfl, rfl, rfl⟩
  obtain ⟨rfl, rfl, rfl, rfl⟩ := hd'
  have hmap : ∀ rs : List ℝ, (∀ e ∈ rs, 0 < e ∧ e ∉ gap) →
      (rs.map XR.fin).mapM (d.kind.at d.params) =
        .ok (rs.map (fun e => (⟨.fin (re e), .fin (im e)⟩ : Cx XR))) := by
    intro rs
    induction rs with
    | nil => intro _; rfl
    | cons r rs ih =>
      intro h
      have h1 := hk r (h r (by simp)).1 (h r (by simp)).2
      rw [List.map_cons, List.mapM_cons, h1, ih (fun e he => h e (by simp [he]))]
      rfl
  simp only [CplxData.evaluate, Bind.bind, Except.bind] at hz
  cases hc : d.range.contains s with
  | error e => rw [hc] at hz; cases hz
  | ok b =>
    rw [hc] at hz
    simp only at hz
    rw [hw] at hz
    cases es with
    | scalar x =>
      simp only [Vals.toList] at hrs
      cases rs with
      | nil => cases hrs
      | cons r rs =>
        cases rs with
        | cons r' rs => cases hrs
        | nil =>
          cases hrs
          simp only [hk r (hpos r (by simp)).1 (hpos r (by simp)).2] at hz
          split at hz
          · cases hz
          · cases hz; rfl
    | array dt xs =>
      simp only [Vals.toList] at hrs
      subst hrs
      simp only [hmap rs hpos] at hz
      cases hz
      rfl

/-- C88 for the objects: one relation for all evaluations of a model, whatever the spectrum. -/
theorem C88_evaluate {k : EpsFormula} {p : List XR} {einf : ℝ} {gap : Set ℝ}
    (hp : CausalParams k p einf gap) (raw : Raw XR) (t u : String) (d : CplxData XR)
    (hd : CplxData.new k p raw t u = .ok d) :
    ∃ re im : ℝ → ℝ, (∀ e, 0 < e → e ∉ gap → KramersKronig re im einf e) ∧
      ∀ (s : Spectrum XR) (es : Vals XR) (zs : CVals XR), d.evaluate s = .ok zs →
        s.convertTo t u = .ok es → ∀ rs : List ℝ, es.toList = rs.map .fin →
        (∀ e ∈ rs, 0 < e ∧ e ∉ gap) →
          zs.toList = rs.map (fun e => ⟨.fin (re e), .fin (im e)⟩) := by
  obtain ⟨re, im, -, hk⟩ := C88_formula hp
  exact ⟨re, im, fun e he hg => (hk e he hg).2,
    CplxData.evaluate_values (fun e he hg => (hk e he hg).1) hd⟩

/-! ## C89: where the models return finite values -/

/-- Parameters of a lossy medium: every strength, energy and width is positive, a gap may be
zero. -/
inductive LossyParams : EpsFormula → List XR → Prop
  | drude {wp g : ℝ} {rest} (hw : 0 < wp) (hg : 0 < g) :
      LossyParams .drude (.fin wp :: .fin g :: rest)
  | drudeLorentz {wp S w0 g : ℝ} {rest} (hw : 0 < wp) (hS : 0 < S) (h0 : 0 < w0) (hg : 0 < g) :
      LossyParams .drudeLorentz (.fin wp :: .fin S :: .fin w0 :: .fin g :: rest)
  | taucLorentz {a e0 c eg einf : ℝ} {rest} (ha : 0 < a) (h0 : 0 < e0) (hc : 0 < c) (hg : 0 ≤ eg) :
      LossyParams .taucLorentz (.fin a :: .fin e0 :: .fin c :: .fin eg :: .fin einf :: rest)

/-- C89 as stated: the permittivity of a lossy medium is a finite number at every positive
energy. -/
def C89_statement : Prop :=
  ∀ (k : EpsFormula) (p : List XR), LossyParams k p → ∀ e : ℝ, 0 < e →
    ∃ x y : ℝ, k.at p (XR.fin e) = .ok ⟨.fin x, .fin y⟩

theorem XR.add_nan_left (x : XR) : (XR.nan + x : XR) = .nan := by cases x <;> rfl
theorem XR.add_nan_right (x : XR) : (x + XR.nan : XR) = .nan := by cases x <;> rfl
theorem XR.mul_nan_left (x : XR) : (XR.nan * x : XR) = .nan := by cases x <;> rfl
theorem XR.mul_nan_right (x : XR) : (x * XR.nan : XR) = .nan := by cases x <;> rfl
theorem XR.div_nan_left (x : XR) : (XR.nan / x : XR) = .nan := by cases x <;> rfl
theorem XR.div_nan_right (x : XR) : (x / XR.nan : XR) = .nan := by cases x <;> rfl
theorem XR.sub_nan_left (x : XR) : (XR.nan - x : XR) = .nan := by cases x <;> rfl
theorem XR.sub_nan_right (x : XR) : (x - XR.nan : XR) = .nan := by cases x <;> rfl

/-- A width above `√2` times the peak energy makes the real part NaN at every energy. -/
theorem TL.real_wide {a e0 c eg einf e : ℝ} (h : 2 * e0 ^ 2 < c ^ 2) :
    tlReal (XR.fin e) (XR.fin a) (XR.fin e0) (XR.fin c) (XR.fin eg) (XR.fin einf) = .nan := by
  have hs : (PyFloat.sqrt (sqF (XR.fin e0) - lit 0.5 * sqF (XR.fin c)) : XR) = .nan := by
    rw [XR.sqF_fin, XR.sqF_fin, XR.lit_eq, XR.mul_fin, XR.sub_fin]
    show (if _ < 0 then XR.nan else _) = _
    rw [if_pos]
    push_cast
    linarith
  have hq : (sqF XR.nan : XR) = .nan := by
    show (if ((2 : ℚ) : ℝ) = 0 then XR.fin 1 else XR.nan) = _
    rw [if_neg (by norm_num)]
  unfold tlReal
  simp only [hs, hq, XR.sub_nan_right, XR.add_nan_left, XR.mul_nan_left, XR.mul_nan_right,
    XR.div_nan_right, XR.add_nan_right]

/-- At the gap the real part is NaN: two infinities of opposite sign are added. -/
theorem TL.real_gap {a e0 c eg einf : ℝ} (ha : 0 < a) (h0 : 0 < e0) (hc : 0 < c)
    (hc2 : c ^ 2 ≤ 2 * e0 ^ 2) (hg : 0 < eg) :
    tlReal (XR.fin eg) (XR.fin a) (XR.fin e0) (XR.fin c) (XR.fin eg) (XR.fin einf) = .nan := by
  have hpos0 : 0 < e0 ^ 2 := by positivity
  have hpos : 0 < 4 * e0 ^ 2 - c ^ 2 := by linarith
  have hgam : 0 ≤ e0 ^ 2 - 1 / 2 * c ^ 2 := by linarith
  have hG : Real.sqrt (e0 ^ 2 - 1 / 2 * c ^ 2) ^ 2 = e0 ^ 2 - 1 / 2 * c ^ 2 := Real.sq_sqrt hgam
  have hsq : Real.sqrt (4 * e0 ^ 2 - c ^ 2) ^ 2 = 4 * e0 ^ 2 - c ^ 2 := Real.sq_sqrt hpos.le
  have hsq' : (-Real.sqrt (4 * e0 ^ 2 - c ^ 2)) ^ 2 = 4 * e0 ^ 2 - c ^ 2 := by rw [neg_sq, hsq]
  have hal0 : 0 < Real.sqrt (4 * e0 ^ 2 - c ^ 2) := Real.sqrt_pos.2 hpos
  set al := Real.sqrt (4 * e0 ^ 2 - c ^ 2) with hal
  have q1 := TL.quad_pos hc.ne' hsq eg
  have q2 := TL.quad_pos hc.ne' hsq' eg
  have hz := mul_pos q1 q2
  have hzeta : (eg ^ 2 - (e0 ^ 2 - 1 / 2 * c ^ 2)) ^ 2 + 1 / 4 * al ^ 2 * c ^ 2 =
      TL.quad al e0 eg * TL.quad (-al) e0 eg := by
    rw [TL.denominator hsq, hsq]; ring
  have k1 : ((0.5 : ℚ) : ℝ) = 1 / 2 := by norm_num
  have k2 : ((0.25 : ℚ) : ℝ) = 1 / 4 := by norm_num
  have k4 : ((4 : ℚ) : ℝ) = 4 := by norm_num
  have k5 : ((2 : ℚ) : ℝ) = 2 := by norm_num
  have s1 : (PyFloat.sqrt (XR.fin (4 * e0 ^ 2 - c ^ 2)) : XR) = XR.fin al := by
    rw [XR.sqrt_fin_nonneg hpos.le]
  have hD : 0 < (e0 ^ 2 - eg ^ 2) ^ 2 + eg ^ 2 * c ^ 2 := by positivity
  have hpi := Real.pi_pos
  have p1 : e0 ^ 2 + eg ^ 2 + al * eg = TL.quad al e0 eg := by unfold TL.quad; ring
  have p2 : e0 ^ 2 + eg ^ 2 - al * eg = TL.quad (-al) e0 eg := by unfold TL.quad; ring
  have hlog : (PyFloat.log (XR.fin 0) : XR) = .ninf := by
    show (if (0 : ℝ) < 0 then XR.nan else if (0 : ℝ) = 0 then XR.ninf else _) = _
    rw [if_neg (lt_irrefl _), if_pos rfl]
  have mneg : ∀ x : ℝ, x < 0 → (XR.fin x * XR.ninf : XR) = .pinf := by
    intro x hx
    show XR.signInf (-x) = _
    unfold XR.signInf
    rw [if_pos (by linarith)]
  have mpos : ∀ x : ℝ, 0 < x → (XR.fin x * XR.ninf : XR) = .ninf := by
    intro x hx
    show XR.signInf (-x) = _
    unfold XR.signInf
    rw [if_neg (by linarith), if_pos (by linarith)]
  unfold tlReal
  simp only [XR.lit_eq, XR.sqF_fin, XR.sub_fin, XR.mul_fin, XR.add_fin, XR.pi_eq, XR.neg_fin,
    XR.abs_fin, k1, k2, k4, k5, s1, XR.sqrt_fin_nonneg hgam, XR.sqrt_fin_nonneg hD.le, hG, hzeta,
    p1, p2, sub_self, abs_zero, zero_mul]
  rw [XR.div_fin_of_ne _ (show Real.pi * (TL.quad al e0 eg * TL.quad (-al) e0 eg) * al * e0 ≠ 0 by
      positivity),
    XR.div_fin_of_ne _ q2.ne', XR.div_fin_of_ne _
      (show Real.pi * (TL.quad al e0 eg * TL.quad (-al) e0 eg) * e0 ≠ 0 by positivity),
    XR.div_fin_of_ne _ hc.ne', XR.div_fin_of_ne _ hc.ne',
    XR.div_fin_of_ne _ (show Real.pi * (TL.quad al e0 eg * TL.quad (-al) e0 eg) * al ≠ 0 by
      positivity),
    XR.div_fin_of_ne _ (show Real.pi * (TL.quad al e0 eg * TL.quad (-al) e0 eg) ≠ 0 by positivity),
    XR.div_fin_of_ne _ hg.ne', XR.div_fin_of_ne _ (show eg + eg ≠ 0 by positivity),
    XR.div_fin_of_ne _ (show Real.pi * (TL.quad al e0 eg * TL.quad (-al) e0 eg) ≠ 0 by positivity),
    XR.div_fin_of_ne _ (Real.sqrt_pos.2 hD).ne', zero_div, zero_div, hlog,
    TL.log_fin (div_pos q1 q2), TL.atan_fin, TL.atan_fin, TL.atan2_fin hc, TL.atan2_fin hc]
  simp only [XR.sub_fin, XR.mul_fin, XR.add_fin]
  rw [mneg, mpos]
  · rfl
  · positivity
  · have : 0 < a * e0 * c / (Real.pi * (TL.quad al e0 eg * TL.quad (-al) e0 eg)) *
      ((eg ^ 2 + eg ^ 2) / eg) := by positivity
    have e1 : -a * e0 * c / (Real.pi * (TL.quad al e0 eg * TL.quad (-al) e0 eg)) *
      ((eg ^ 2 + eg ^ 2) / eg) = -(a * e0 * c / (Real.pi * (TL.quad al e0 eg *
        TL.quad (-al) e0 eg)) * ((eg ^ 2 + eg ^ 2) / eg)) := by ring
    rw [e1]
    linarith

/-- The Drude and Drude-Lorentz models return finite numbers, also for negative strengths. -/
theorem C89_metals_partial :
    (∀ (wp g : ℝ) (rest : List XR) (e : ℝ), 0 < e → ∃ x y : ℝ,
      EpsFormula.at .drude (XR.fin wp :: XR.fin g :: rest) (XR.fin e) = .ok ⟨.fin x, .fin y⟩) ∧
    ∀ (wp S w0 g : ℝ) (rest : List XR) (e : ℝ), 0 < e → (0 < g ∨ e ^ 2 ≠ w0 ^ 2) → ∃ x y : ℝ,
      EpsFormula.at .drudeLorentz (XR.fin wp :: XR.fin S :: XR.fin w0 :: XR.fin g :: rest)
        (XR.fin e) = .ok ⟨.fin x, .fin y⟩ :=
  ⟨fun wp g rest e he => ⟨_, _, drude_at wp g e rest he⟩,
    fun wp S w0 g rest e he hr => ⟨_, _, drudeLorentz_at wp S w0 g e rest he hr⟩⟩

/-- The Tauc-Lorentz model returns a finite number exactly when the energy is not the gap and the
width is at most `√2` times the peak energy; otherwise the real part is NaN. -/
theorem C89_taucLorentz_partial {a e0 c eg einf e : ℝ} (rest : List XR) (ha : 0 < a) (h0 : 0 < e0)
    (hc : 0 < c) (hg : 0 ≤ eg) (he : 0 < e) :
    ((e ≠ eg ∧ c ≤ Real.sqrt 2 * e0) → ∃ x y : ℝ, EpsFormula.at .taucLorentz
      (XR.fin a :: XR.fin e0 :: XR.fin c :: XR.fin eg :: XR.fin einf :: rest) (XR.fin e) =
        .ok ⟨.fin x, .fin y⟩) ∧
    (¬ (e ≠ eg ∧ c ≤ Real.sqrt 2 * e0) → ∃ y : ℝ, EpsFormula.at .taucLorentz
      (XR.fin a :: XR.fin e0 :: XR.fin c :: XR.fin eg :: XR.fin einf :: rest) (XR.fin e) =
        .ok ⟨.nan, .fin y⟩) := by
  have hw : c ≤ Real.sqrt 2 * e0 ↔ c ^ 2 ≤ 2 * e0 ^ 2 := by
    rw [← sq_le_sq₀ hc.le (by positivity), mul_pow, Real.sq_sqrt zero_le_two]
  rw [hw]
  constructor
  · rintro ⟨h1, h2⟩
    obtain ⟨re, im, -, h⟩ := C88_formula (CausalParams.taucLorentz (a := a) (einf := einf)
      (rest := rest) h0.ne' hc h2 hg)
    exact ⟨_, _, (h e he h1).1⟩
  · intro h
    refine ⟨taucLorentzIm a e0 c eg e, ?_⟩
    have hn : tlReal (XR.fin e) (XR.fin a) (XR.fin e0) (XR.fin c) (XR.fin eg) (XR.fin einf) =
        .nan := by
      by_cases h2 : c ^ 2 ≤ 2 * e0 ^ 2
      · have h1 : e = eg := by
          by_contra h1
          exact h ⟨h1, h2⟩
        subst h1
        exact TL.real_gap ha h0 hc h2 he
      · exact TL.real_wide (not_le.1 h2)
    rw [TL.at_of_real rest hc he hn]
    rfl

/-- C89 fails: at its gap of 1 eV a Tauc-Lorentz model returns NaN. -/
theorem C89_refuted : ¬ C89_statement := by
  intro h
  obtain ⟨x, y, h1⟩ := h .taucLorentz _ (.taucLorentz (a := 10) (e0 := 3) (c := 1) (eg := 1)
    (einf := 1) (rest := []) (by norm_num) (by norm_num) one_pos zero_le_one) 1 one_pos
  obtain ⟨y', h2⟩ := (C89_taucLorentz_partial (a := 10) (e0 := 3) (c := 1) (eg := 1) (einf := 1)
    (e := 1) [] (by norm_num) (by norm_num) one_pos zero_le_one one_pos).2 (by simp)
  rw [h1] at h2
  cases h2

/-- Concrete case: a medium of amorphous silicon, with a gap of 1.2 eV. -/
example : CausalParams .taucLorentz [.fin 122, .fin 3.45, .fin 2.54, .fin 1.2, .fin 1.15] 1.15
    {1.2} := .taucLorentz (by norm_num) (by norm_num) (by norm_num) (by norm_num)

/-- Concrete case: gold-like Drude parameters at 2 eV. -/
example : ∃ re im : ℝ → ℝ, EpsFormula.at .drude [.fin 9, .fin 0.05] (XR.fin 2) =
    .ok ⟨.fin (re 2), .fin (im 2)⟩ ∧ KramersKronig re im 1 2 := by
  obtain ⟨re, im, -, h⟩ := C88_formula (CausalParams.drude (wp := 9) (g := 0.05) (rest := [])
    (by norm_num))
  exact ⟨re, im, h 2 two_pos (by simp)⟩

/-- Concrete case: a width of 5 eV and a peak at 3 eV are too wide. -/
example : ∃ y : ℝ, EpsFormula.at .taucLorentz [.fin 1, .fin 3, .fin 5, .fin 1, .fin 1]
    (XR.fin 2) = .ok ⟨.nan, .fin y⟩ :=
  (C89_taucLorentz_partial [] one_pos (by norm_num) (by norm_num) zero_le_one two_pos).2 (by
    rintro ⟨-, h⟩
    have : Real.sqrt 2 < 1.5 := by
      rw [Real.sqrt_lt' (by norm_num)]; norm_num
    linarith)

end Disp
