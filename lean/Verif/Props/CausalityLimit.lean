import Verif.Props.Causality
/-!
# C88: the limit of the permittivity at high energies
-/

namespace Disp
open MeasureTheory Filter Topology Set Spec

theorem inv_top (k : ℝ) {n : ℕ} (hn : n ≠ 0) : Tendsto (fun e : ℝ => k / e ^ n) atTop (𝓝 0) :=
  tendsto_const_nhds.div_atTop (tendsto_pow_atTop hn)

theorem log_div_top : Tendsto (fun e : ℝ => Real.log e / e) atTop (𝓝 0) :=
  Real.isLittleO_log_id_atTop.tendsto_div_nhds_zero

theorem log_shift_top (k : ℝ) : Tendsto (fun e : ℝ => Real.log (e + k) / e) atTop (𝓝 0) := by
  have h1 := (TL.log_lin k).div_atTop tendsto_id
  have h2 := h1.add log_div_top
  rw [add_zero] at h2
  refine h2.congr (fun e => ?_)
  simp only [id]
  ring

/-- A quadratic polynomial is small against a cubic one. -/
theorem quadratic_top (a b : ℝ) : Tendsto (fun e : ℝ => (a * e ^ 2 + b) / e ^ 3) atTop (𝓝 0) := by
  have h := (inv_top a one_ne_zero).add (inv_top b (n := 3) (by norm_num))
  rw [add_zero] at h
  refine h.congr' ?_
  filter_upwards [eventually_gt_atTop 0] with e he
  field_simp

theorem log_cubic_top (k : ℝ) :
    Tendsto (fun e : ℝ => (e + k) ^ 2 / (2 * e) * Real.log (e + k) / e ^ 3) atTop (𝓝 0) := by
  have h1 : Tendsto (fun e : ℝ => 1 + k / e ^ 1) atTop (𝓝 (1 + 0)) :=
    tendsto_const_nhds.add (inv_top k one_ne_zero)
  have h2 := (((h1.pow 2).mul (log_shift_top k)).mul (inv_top (1 / 2) one_ne_zero))
  simp only [mul_zero] at h2
  refine h2.congr' ?_
  filter_upwards [eventually_gt_atTop 0] with e he
  field_simp

theorem zeta_top {e0 c : ℝ} :
    Tendsto (fun e : ℝ => e ^ 3 / ((e ^ 2 - e0 ^ 2) ^ 2 + c ^ 2 * e ^ 2)) atTop (𝓝 0) := by
  have h1 : Tendsto (fun e : ℝ => (1 - e0 ^ 2 / e ^ 2) ^ 2 + c ^ 2 / e ^ 2) atTop (𝓝 ((1 - 0) ^ 2 + 0)) :=
    ((tendsto_const_nhds.sub (inv_top _ two_ne_zero)).pow 2).add (inv_top _ two_ne_zero)
  have h2 := (inv_top 1 one_ne_zero).div h1 (by norm_num)
  simp only [zero_div] at h2
  refine h2.congr' ?_
  filter_upwards [eventually_gt_atTop 0] with e he
  simp only [Pi.div_apply]
  have : (1 - e0 ^ 2 / e ^ 2) ^ 2 + c ^ 2 / e ^ 2 = ((e ^ 2 - e0 ^ 2) ^ 2 + c ^ 2 * e ^ 2) / e ^ 4 := by
    field_simp
  rw [this]
  field_simp

theorem TL.limit_re {a al e0 c eg einf : ℝ} (hsq : al ^ 2 = 4 * e0 ^ 2 - c ^ 2) :
    Tendsto (fun e => einf + 2 / Real.pi * (a * e0 * c / (TL.quad al e0 e * TL.quad (-al) e0 e) *
        (TL.coefAtan al e0 eg e / c * Real.pi - TL.anti al e0 c eg e eg))) atTop (𝓝 einf) := by
  have cA : ∀ k : ℝ, Tendsto (fun e => k * (TL.coefAtan al e0 eg e / e ^ 3)) atTop (𝓝 0) := by
    intro k
    have h := (quadratic_top (-(e0 ^ 2 + eg ^ 2) / (2 * e0 ^ 2))
      ((e0 ^ 2 * (e0 ^ 2 + eg ^ 2) - eg ^ 2 * (4 * e0 ^ 2 - al ^ 2)) / (2 * e0 ^ 2))).const_mul k
    rw [mul_zero] at h
    refine h.congr (fun e => ?_)
    unfold TL.coefAtan; ring
  have cL : ∀ k : ℝ, Tendsto (fun e => k * (TL.coefLog al e0 eg e / e ^ 3)) atTop (𝓝 0) := by
    intro k
    have h := (quadratic_top ((eg ^ 2 - e0 ^ 2) / (2 * e0 ^ 2))
      ((eg ^ 2 * (4 * e0 ^ 2 - al ^ 2) - e0 ^ 2 * (e0 ^ 2 + 3 * eg ^ 2)) / (2 * e0 ^ 2))).const_mul k
    rw [mul_zero] at h
    refine h.congr (fun e => ?_)
    unfold TL.coefLog; ring
  have cS : ∀ k : ℝ, Tendsto (fun e => k * (TL.shift al e0 e / e ^ 3)) atTop (𝓝 0) := by
    intro k
    have h := (quadratic_top 1 (-(al ^ 2 / 2 - e0 ^ 2))).const_mul k
    rw [mul_zero] at h
    refine h.congr (fun e => ?_)
    unfold TL.shift; ring
  have cK : ∀ k : ℝ, Tendsto (fun e : ℝ => k / e ^ 3) atTop (𝓝 0) := fun k => inv_top k (by norm_num)
  set l1 := Real.log (TL.quad al e0 eg)
  set l2 := Real.log (TL.quad (-al) e0 eg)
  set t1 := Real.arctan ((2 * eg + al) / c)
  set t2 := Real.arctan ((2 * eg + -al) / c)
  have hsum := (((((cA (Real.pi / c - t1 / c - t2 / c)).sub (log_cubic_top (-eg))).add
    (log_cubic_top eg)).sub (cK (eg / 2 * (l1 + l2)))).add
    (cL ((l1 - l2) / (2 * al)))).add (cS (2 * eg / al / c * (t1 - t2)))
  simp only [sub_zero, add_zero] at hsum
  have hall := (((zeta_top (e0 := e0) (c := c)).const_mul (2 / Real.pi * (a * e0 * c))).mul
    hsum).const_add einf
  simp only [mul_zero, add_zero] at hall
  refine hall.congr' ?_
  filter_upwards [eventually_gt_atTop 0] with e he
  rw [TL.denominator hsq]
  have hl : Real.log (eg - e) = Real.log (e + -eg) := by
    rw [← Real.log_neg_eq_log]; congr 1; ring
  have hl2 : Real.log (eg + e) = Real.log (e + eg) := by rw [add_comm]
  unfold TL.anti
  rw [hl, hl2]
  have e3 : e ^ 3 ≠ 0 := by positivity
  have hmul : ∀ z u v : ℝ, u = v / e ^ 3 → e ^ 3 / z * u = v / z := by
    intro z u v h
    rw [h]; field_simp
  have key := hmul ((e ^ 2 - e0 ^ 2) ^ 2 + c ^ 2 * e ^ 2) _
    (TL.coefAtan al e0 eg e / c * Real.pi - (
      (e - eg) ^ 2 / (2 * e) * Real.log (e + -eg) + -(e + eg) ^ 2 / (2 * e) * Real.log (e + eg) +
    ((eg / 2 - TL.coefLog al e0 eg e / (2 * al)) * l1 +
      (TL.coefAtan al e0 eg e / c - 2 * (eg * TL.shift al e0 e / al) / c) * t1) +
    ((eg / 2 + TL.coefLog al e0 eg e / (2 * al)) * l2 +
      (TL.coefAtan al e0 eg e / c + 2 * (eg * TL.shift al e0 e / al) / c) * t2)))
    (show (Real.pi / c - t1 / c - t2 / c) * (TL.coefAtan al e0 eg e / e ^ 3) -
      (e + -eg) ^ 2 / (2 * e) * Real.log (e + -eg) / e ^ 3 +
      (e + eg) ^ 2 / (2 * e) * Real.log (e + eg) / e ^ 3 - eg / 2 * (l1 + l2) / e ^ 3 +
      (l1 - l2) / (2 * al) * (TL.coefLog al e0 eg e / e ^ 3) +
      2 * eg / al / c * (t1 - t2) * (TL.shift al e0 e / e ^ 3) = _ by ring)
  rw [mul_assoc (2 / Real.pi * (a * e0 * c)), key]
  ring

theorem TL.limit_im {a e0 c eg : ℝ} : Tendsto (taucLorentzIm a e0 c eg) atTop (𝓝 0) := by
  have h1 : Tendsto (fun e : ℝ => (1 - eg / e ^ 1) ^ 2) atTop (𝓝 ((1 - 0) ^ 2)) :=
    (tendsto_const_nhds.sub (inv_top _ one_ne_zero)).pow 2
  have h2 := (((zeta_top (e0 := e0) (c := c)).mul h1).mul (inv_top (a * e0 * c) (n := 2) two_ne_zero))
  simp only [mul_zero] at h2
  refine h2.congr' ?_
  filter_upwards [eventually_gt_atTop 0, eventually_gt_atTop eg] with e he hg
  unfold taucLorentzIm
  rw [if_neg (not_lt.2 hg.le)]
  field_simp

/-- C88: at high energies the permittivity tends to the value `einf` of the relation of Kramers
and Kronig: 1 for the metals, the last parameter of the Tauc-Lorentz model. -/
theorem C88_limit {k : EpsFormula} {p : List XR} {einf : ℝ} {gap : Set ℝ}
    (hp : CausalParams k p einf gap) (re im : ℝ → ℝ)
    (hv : ∀ e, 0 < e → e ∉ gap → k.at p (XR.fin e) = .ok ⟨XR.fin (re e), XR.fin (im e)⟩) :
    Tendsto re atTop (𝓝 einf) ∧ Tendsto im atTop (𝓝 0) := by
  have val : ∀ {e : ℝ} {x y x' y' : ℝ}, k.at p (XR.fin e) = .ok ⟨XR.fin x, XR.fin y⟩ →
      k.at p (XR.fin e) = .ok ⟨XR.fin x', XR.fin y'⟩ → x = x' ∧ y = y' := by
    intro e x y x' y' h1 h2
    rw [h1] at h2
    cases h2
    exact ⟨rfl, rfl⟩
  cases hp with
  | @drude wp g rest hg =>
    have hval : ∀ e, 0 < e → 1 - wp ^ 2 / (e ^ 2 + g ^ 2) = re e ∧
        wp ^ 2 * g / (e * (e ^ 2 + g ^ 2)) = im e := fun e he =>
      val (by rw [drude_at wp g e rest he, drude_parts wp g e he]) (hv e he (by simp))
    have hq : Tendsto (fun e : ℝ => e ^ 2 + g ^ 2) atTop atTop :=
      tendsto_atTop_add_const_right _ _ (tendsto_pow_atTop two_ne_zero)
    constructor
    · have h : Tendsto (fun e : ℝ => 1 - wp ^ 2 / (e ^ 2 + g ^ 2)) atTop (𝓝 (1 - 0)) :=
        tendsto_const_nhds.sub (tendsto_const_nhds.div_atTop hq)
      rw [sub_zero] at h
      refine h.congr' ?_
      filter_upwards [eventually_gt_atTop 0] with e he using (hval e he).1
    · have h : Tendsto (fun e : ℝ => wp ^ 2 * g / (e * (e ^ 2 + g ^ 2))) atTop (𝓝 0) :=
        tendsto_const_nhds.div_atTop (tendsto_id.atTop_mul_atTop₀ hq)
      refine h.congr' ?_
      filter_upwards [eventually_gt_atTop 0] with e he using (hval e he).2
  | @drudeLorentz wp S w g rest hg =>
    have hval : ∀ e, 0 < e → 1 + S * wp ^ 2 * (w ^ 2 - e ^ 2) / Osc.den w g e = re e ∧
        S * wp ^ 2 * g * e / Osc.den w g e = im e := fun e he =>
      val (by rw [drudeLorentz_at wp S w g e rest he (.inl hg), drudeLorentz_parts wp S w g e hg he])
        (hv e he (by simp))
    have hz := zeta_top (e0 := w) (c := g)
    have hden : ∀ e, (e ^ 2 - w ^ 2) ^ 2 + g ^ 2 * e ^ 2 = Osc.den w g e := by
      intro e; unfold Osc.den; ring
    simp only [hden] at hz
    constructor
    · have h := ((hz.mul (quadratic_top (-(S * wp ^ 2)) (S * wp ^ 2 * w ^ 2))).const_add 1)
      simp only [mul_zero, add_zero] at h
      refine h.congr' ?_
      filter_upwards [eventually_gt_atTop 0] with e he
      rw [← (hval e he).1]
      have := (Osc.den_pos (w := w) hg he).ne'
      field_simp
      ring
    · have h := hz.mul (inv_top (S * wp ^ 2 * g) (n := 2) two_ne_zero)
      simp only [mul_zero] at h
      refine h.congr' ?_
      filter_upwards [eventually_gt_atTop 0] with e he
      rw [← (hval e he).2]
      have := (Osc.den_pos (w := w) hg he).ne'
      field_simp
  | @taucLorentz a e0 c eg einf rest h0 hc hc2 hg =>
    have hpos : 0 < 4 * e0 ^ 2 - c ^ 2 := by
      have : 0 < e0 ^ 2 := by positivity
      linarith
    have hsq : Real.sqrt (4 * e0 ^ 2 - c ^ 2) ^ 2 = 4 * e0 ^ 2 - c ^ 2 := Real.sq_sqrt hpos.le
    have hval : ∀ e, 0 < e → e ≠ eg → _ := fun e he hne =>
      val (by rw [TL.at_of_real rest hc he (TL.real_part h0 hc hc2 hg he hne rfl), XR.add_fin,
        add_zero]) (hv e he hne)
    constructor
    · refine (TL.limit_re (a := a) (eg := eg) (einf := einf) hsq).congr' ?_
      filter_upwards [eventually_gt_atTop 0, eventually_gt_atTop eg] with e he hne
        using (hval e he hne.ne').1
    · refine (TL.limit_im (a := a) (e0 := e0) (c := c) (eg := eg)).congr' ?_
      filter_upwards [eventually_gt_atTop 0, eventually_gt_atTop eg] with e he hne
        using (hval e he hne.ne').2

/-- Concrete case: the functions exist for a Tauc-Lorentz model with a gap of 1.2 eV. -/
example : ∃ re im : ℝ → ℝ, Tendsto re atTop (𝓝 1.15) ∧ Tendsto im atTop (𝓝 0) ∧
    ∀ e, 0 < e → e ≠ 1.2 → EpsFormula.at .taucLorentz
      [.fin 122, .fin 3.45, .fin 2.54, .fin 1.2, .fin 1.15] (XR.fin e) =
        .ok ⟨XR.fin (re e), XR.fin (im e)⟩ := by
  have hp : CausalParams .taucLorentz [.fin 122, .fin 3.45, .fin 2.54, .fin 1.2, .fin 1.15] 1.15
    {1.2} := .taucLorentz (by norm_num) (by norm_num) (by norm_num) (by norm_num)
  obtain ⟨re, im, -, h⟩ := C88_formula hp
  obtain ⟨h1, h2⟩ := C88_limit hp re im (fun e he hg => (h e he hg).1)
  exact ⟨re, im, h1, h2, fun e he hg => (h e he hg).1⟩

end Disp
