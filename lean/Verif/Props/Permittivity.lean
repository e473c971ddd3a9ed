import Verif.Lemmas.Complex
import Verif.Props.Formulas
/-!
# C20: passivity of the permittivity models
-/

namespace Disp

/-- The denominator shared by the Drude and Drude-Lorentz models. -/
noncomputable def damped (x g e : ℝ) : ℂ := (x : ℂ) + Complex.I * g * e

theorem damped_re (x g e : ℝ) : (damped x g e).re = x := by simp [damped]
theorem damped_im (x g e : ℝ) : (damped x g e).im = g * e := by simp [damped]

theorem damped_ne (x g e : ℝ) (h : x ≠ 0 ∨ g * e ≠ 0) : damped x g e ≠ 0 := by
  intro h0
  rcases h with h | h
  · exact h (by rw [← damped_re x g e, h0]; rfl)
  · exact h (by rw [← damped_im x g e, h0]; rfl)

theorem damped_toCx (x g e : ℝ) :
    (Cx.ofReal (XR.fin x) + Cx.I * Cx.ofReal (XR.fin g) * Cx.ofReal (XR.fin e) : Cx XR) =
      toCx (damped x g e) := by
  rw [Cx.ofReal_toCx, Cx.ofReal_toCx, Cx.ofReal_toCx, Cx.I_toCx, Cx.mul_toCx, Cx.mul_toCx,
    Cx.add_toCx]
  rfl

/-- The value of the Drude model. -/
theorem drude_at (wp g e : ℝ) (rest : List XR) (he : 0 < e) :
    EpsFormula.at .drude (XR.fin wp :: XR.fin g :: rest) (XR.fin e) =
        .ok (toCx (1 - (wp : ℂ) ^ 2 / ((e : ℂ) ^ 2 + Complex.I * g * e))) := by
  have hden : (e : ℂ) ^ 2 + Complex.I * g * e = damped (e ^ 2) g e := by
    unfold damped; push_cast; ring
  rw [hden]
  have hne : damped (e ^ 2) g e ≠ 0 := damped_ne _ _ _ (Or.inl (by positivity))
  show Except.ok (Cx.ofReal (lit 1) - Cx.ofReal (sqF (XR.fin wp)) /
    (Cx.ofReal (sqF (XR.fin e)) + Cx.I * Cx.ofReal (XR.fin g) * Cx.ofReal (XR.fin e))) = _
  rw [XR.sqF_fin, XR.sqF_fin, damped_toCx, Cx.ofReal_toCx, Cx.div_toCx _ _ hne, XR.lit_eq,
    Cx.ofReal_toCx, Cx.sub_toCx]
  push_cast
  rfl

/-- C20: the Drude permittivity is `1 - wp²/(E² + i g E)`, and its imaginary part is not
negative, for every plasma frequency, every loss `g >= 0` and every energy `E > 0`. -/
theorem C20_drude (wp g e : ℝ) (rest : List XR) (hg : 0 ≤ g) (he : 0 < e) :
    EpsFormula.at .drude (XR.fin wp :: XR.fin g :: rest) (XR.fin e) =
        .ok (toCx (1 - (wp : ℂ) ^ 2 / ((e : ℂ) ^ 2 + Complex.I * g * e))) ∧
      0 ≤ (1 - (wp : ℂ) ^ 2 / ((e : ℂ) ^ 2 + Complex.I * g * e)).im := by
  have hden : (e : ℂ) ^ 2 + Complex.I * g * e = damped (e ^ 2) g e := by
    unfold damped; push_cast; ring
  refine ⟨drude_at wp g e rest he, ?_⟩
  · rw [hden, Complex.sub_im, Complex.div_im, damped_re, damped_im]
    have h1 : ((wp : ℂ) ^ 2).re = wp ^ 2 := by norm_cast
    have h2 : ((wp : ℂ) ^ 2).im = 0 := by norm_cast
    rw [h1, h2]
    have hn := Complex.normSq_nonneg (damped (e ^ 2) g e)
    have : 0 ≤ wp ^ 2 * (g * e) / Complex.normSq (damped (e ^ 2) g e) := by positivity
    simp only [Complex.one_im, zero_mul, zero_div]
    linarith

/-- The value of the Drude-Lorentz model away from an undamped resonance. -/
theorem drudeLorentz_at (wp S w0 g e : ℝ) (rest : List XR) (he : 0 < e)
    (hres : 0 < g ∨ e ^ 2 ≠ w0 ^ 2) :
    EpsFormula.at .drudeLorentz (XR.fin wp :: XR.fin S :: XR.fin w0 :: XR.fin g :: rest)
        (XR.fin e) =
      .ok (toCx (1 + (starRingEnd ℂ) ((S * wp ^ 2 : ℂ) /
        ((w0 : ℂ) ^ 2 - (e : ℂ) ^ 2 + Complex.I * g * e)))) := by
  have hden : (w0 : ℂ) ^ 2 - (e : ℂ) ^ 2 + Complex.I * g * e = damped (w0 ^ 2 - e ^ 2) g e := by
    unfold damped; push_cast; ring
  rw [hden]
  have hne : damped (w0 ^ 2 - e ^ 2) g e ≠ 0 := by
    refine damped_ne _ _ _ ?_
    rcases hres with h | h
    · exact Or.inr (by positivity)
    · exact Or.inl (sub_ne_zero.2 (Ne.symm h))
  show Except.ok (Cx.ofReal (lit 1) + Cx.conj (Cx.ofReal (XR.fin S * sqF (XR.fin wp)) /
    (Cx.ofReal (sqF (XR.fin w0) - sqF (XR.fin e)) +
      Cx.I * Cx.ofReal (XR.fin g) * Cx.ofReal (XR.fin e)))) = _
  rw [XR.sqF_fin, XR.sqF_fin, XR.sqF_fin, XR.mul_fin, XR.sub_fin, damped_toCx, Cx.ofReal_toCx,
    Cx.div_toCx _ _ hne, XR.lit_eq, Cx.ofReal_toCx, Cx.conj_toCx, Cx.add_toCx]
  push_cast
  rfl

/-- C20: the Drude-Lorentz permittivity is `1 + conj(S wp²/(E0² - E² + i g E))`, and its
imaginary part is not negative, away from an undamped resonance. -/
theorem C20_drudeLorentz (wp S w0 g e : ℝ) (rest : List XR) (hS : 0 ≤ S) (hg : 0 ≤ g)
    (he : 0 < e) (hres : 0 < g ∨ e ^ 2 ≠ w0 ^ 2) :
    EpsFormula.at .drudeLorentz (XR.fin wp :: XR.fin S :: XR.fin w0 :: XR.fin g :: rest)
        (XR.fin e) =
      .ok (toCx (1 + (starRingEnd ℂ) ((S * wp ^ 2 : ℂ) /
        ((w0 : ℂ) ^ 2 - (e : ℂ) ^ 2 + Complex.I * g * e)))) ∧
    0 ≤ (1 + (starRingEnd ℂ) ((S * wp ^ 2 : ℂ) /
        ((w0 : ℂ) ^ 2 - (e : ℂ) ^ 2 + Complex.I * g * e))).im := by
  have hden : (w0 : ℂ) ^ 2 - (e : ℂ) ^ 2 + Complex.I * g * e = damped (w0 ^ 2 - e ^ 2) g e := by
    unfold damped; push_cast; ring
  refine ⟨drudeLorentz_at wp S w0 g e rest he hres, ?_⟩
  · rw [hden, Complex.add_im, Complex.conj_im, Complex.div_im, damped_re, damped_im]
    have h1 : ((S : ℂ) * (wp : ℂ) ^ 2).re = S * wp ^ 2 := by norm_cast
    have h2 : ((S : ℂ) * (wp : ℂ) ^ 2).im = 0 := by norm_cast
    rw [h1, h2]
    have hn := Complex.normSq_nonneg (damped (w0 ^ 2 - e ^ 2) g e)
    have : 0 ≤ S * wp ^ 2 * (g * e) / Complex.normSq (damped (w0 ^ 2 - e ^ 2) g e) := by
      positivity
    simp only [Complex.one_im, zero_mul, zero_div]
    linarith

/-- At an undamped resonance the Drude-Lorentz model returns an infinite real part and NaN as imaginary
part. -/
theorem C20_drudeLorentz_pole (wp S w0 : ℝ) (rest : List XR) (h : 0 < S * wp ^ 2) :
    EpsFormula.at .drudeLorentz (XR.fin wp :: XR.fin S :: XR.fin w0 :: XR.fin 0 :: rest)
      (XR.fin w0) = .ok ⟨XR.pinf, XR.nan⟩ := by
  show Except.ok (Cx.ofReal (lit 1) + Cx.conj (Cx.ofReal (XR.fin S * sqF (XR.fin wp)) /
    (Cx.ofReal (sqF (XR.fin w0) - sqF (XR.fin w0)) +
      Cx.I * Cx.ofReal (XR.fin 0) * Cx.ofReal (XR.fin w0)))) = _
  rw [XR.sqF_fin, XR.sqF_fin, XR.mul_fin, XR.sub_fin, damped_toCx, Cx.ofReal_toCx]
  have : damped (w0 ^ 2 - w0 ^ 2) 0 w0 = 0 := by simp [damped]
  rw [this, Cx.div_zero_toCx, Complex.ofReal_re, Complex.ofReal_im]
  have h1 : XR.signInf (S * wp ^ 2) = XR.pinf := if_pos h
  have h2 : XR.signInf 0 = XR.nan := by simp [XR.signInf]
  rw [h1, h2]
  rfl

/-- C20: a Drude model is the Drude-Lorentz model with unit pole strength and zero resonance,
for all real parameters and all energies but zero, where the infinities have different signs. -/
theorem C20_drude_is_drudeLorentz (wp g e : ℝ) (he : e ≠ 0) :
    EpsFormula.at .drude [XR.fin wp, XR.fin g] (XR.fin e) =
      EpsFormula.at .drudeLorentz [XR.fin wp, XR.fin 1, XR.fin 0, XR.fin g] (XR.fin e) := by
  show Except.ok (Cx.ofReal (lit 1) - Cx.ofReal (sqF (XR.fin wp)) /
      (Cx.ofReal (sqF (XR.fin e)) + Cx.I * Cx.ofReal (XR.fin g) * Cx.ofReal (XR.fin e))) =
    Except.ok (Cx.ofReal (lit 1) + Cx.conj (Cx.ofReal (XR.fin 1 * sqF (XR.fin wp)) /
      (Cx.ofReal (sqF (XR.fin 0) - sqF (XR.fin e)) +
        Cx.I * Cx.ofReal (XR.fin g) * Cx.ofReal (XR.fin e))))
  rw [XR.sqF_fin, XR.sqF_fin, XR.sqF_fin, XR.mul_fin, XR.sub_fin, damped_toCx, damped_toCx,
    Cx.ofReal_toCx, Cx.ofReal_toCx, XR.lit_eq, Cx.ofReal_toCx]
  have hpos : 0 < e ^ 2 := by positivity
  have h1 : damped (e ^ 2) g e ≠ 0 := damped_ne _ _ _ (Or.inl hpos.ne')
  have h2 : damped (0 ^ 2 - e ^ 2) g e ≠ 0 := damped_ne _ _ _ (Or.inl (by
    have : (0 : ℝ) ^ 2 - e ^ 2 = -e ^ 2 := by ring
    rw [this]; exact neg_ne_zero.2 hpos.ne'))
  rw [Cx.div_toCx _ _ h1, Cx.div_toCx _ _ h2, Cx.conj_toCx, Cx.sub_toCx, Cx.add_toCx]
  congr 2
  have hc : (starRingEnd ℂ) (damped (0 ^ 2 - e ^ 2) g e) = -damped (e ^ 2) g e := by
    apply Complex.ext
    · rw [Complex.conj_re, Complex.neg_re, damped_re, damped_re]; ring
    · rw [Complex.conj_im, Complex.neg_im, damped_im, damped_im]
  rw [map_div₀, hc, Complex.conj_ofReal, div_neg, one_mul, sub_eq_add_neg]

/-- The Tauc-Lorentz imaginary part `A E0 C (E - Eg)² / (((E² - E0²)² + C² E²) E)` above the
gap, zero below. -/
noncomputable def taucLorentzIm (a e0 c eg e : ℝ) : ℝ :=
  if e < eg then 0
  else a * e0 * c * (e - eg) ^ 2 / ((e ^ 2 - e0 ^ 2) ^ 2 + c ^ 2 * e ^ 2) / e

/-- The imaginary part of the Tauc-Lorentz model away from an undamped resonance. -/
theorem tlImag_fin (a e0 c eg e : ℝ) (he : 0 < e) (hres : e < eg ∨ 0 < c ∨ e ^ 2 ≠ e0 ^ 2) :
    tlImag (XR.fin e) (XR.fin a) (XR.fin e0) (XR.fin c) (XR.fin eg) =
      XR.fin (taucLorentzIm a e0 c eg e) := by
  unfold tlImag taucLorentzIm
  simp only [XR.le_fin, XR.lt_fin, decide_eq_true_eq]
  by_cases hlt : e < eg
  · rw [if_neg (not_le.2 hlt), if_pos hlt, if_pos hlt, XR.lit_eq]
    norm_num
  · rw [if_pos (not_lt.1 hlt), if_neg hlt]
    have hden : (e ^ 2 - e0 ^ 2) ^ 2 + c ^ 2 * e ^ 2 ≠ 0 := by
      rcases hres with h | h | h
      · exact absurd h hlt
      · have : 0 < c ^ 2 * e ^ 2 := by positivity
        nlinarith [sq_nonneg (e ^ 2 - e0 ^ 2)]
      · have h1 : 0 < (e ^ 2 - e0 ^ 2) ^ 2 := by
          have := sub_ne_zero.2 h
          positivity
        nlinarith [mul_nonneg (sq_nonneg c) (sq_nonneg e)]
    simp only [XR.lit_eq, XR.sub_fin, XR.sqF_fin, XR.mul_fin, XR.add_fin]
    rw [XR.div_fin_of_ne _ he.ne']
    simp only [XR.mul_fin]
    rw [XR.div_fin_of_ne _ hden]
    congr 1
    push_cast
    field_simp

/-- C20: the imaginary part of the Tauc-Lorentz model, above and below the gap, away from an
undamped resonance; it is not negative. The real part may be anything. -/
theorem C20_taucLorentz (a e0 c eg einf e : ℝ) (rest : List XR) (ha : 0 ≤ a) (h0 : 0 ≤ e0)
    (hc : 0 ≤ c) (he : 0 < e) (hres : e < eg ∨ 0 < c ∨ e ^ 2 ≠ e0 ^ 2) :
    (∃ x, EpsFormula.at .taucLorentz (XR.fin a :: XR.fin e0 :: XR.fin c :: XR.fin eg ::
        XR.fin einf :: rest) (XR.fin e) = .ok ⟨x, XR.fin (taucLorentzIm a e0 c eg e)⟩) ∧
      0 ≤ taucLorentzIm a e0 c eg e ∧ (e < eg → taucLorentzIm a e0 c eg e = 0) := by
  have himag := tlImag_fin a e0 c eg e he hres
  refine ⟨⟨tlReal (XR.fin e) (XR.fin a) (XR.fin e0) (XR.fin c) (XR.fin eg) (XR.fin einf) +
      (lit 0 * (XR.fin (taucLorentzIm a e0 c eg e)) - lit 1 * lit 0), ?_⟩, ?_, ?_⟩
  · show Except.ok (Cx.ofReal (tlReal (XR.fin e) (XR.fin a) (XR.fin e0) (XR.fin c) (XR.fin eg)
      (XR.fin einf)) + Cx.I * Cx.ofReal (tlImag (XR.fin e) (XR.fin a) (XR.fin e0) (XR.fin c)
        (XR.fin eg))) = _
    rw [himag]
    show Except.ok (⟨_ + _, lit 0 + (lit 0 * lit 0 + lit 1 * XR.fin _)⟩ : Cx XR) = _
    congr 2
    simp
  · unfold taucLorentzIm
    split_ifs
    · exact le_rfl
    · positivity
  · intro h
    unfold taucLorentzIm
    rw [if_pos h]

/-- Parameters for which a permittivity model describes a passive medium without undamped
resonances. -/
inductive PassiveParams : EpsFormula → List XR → Prop
  | drude {wp g : ℝ} {rest} (hg : 0 ≤ g) : PassiveParams .drude (.fin wp :: .fin g :: rest)
  | drudeLorentz {wp S w0 g : ℝ} {rest} (hS : 0 ≤ S) (hg : 0 < g) :
      PassiveParams .drudeLorentz (.fin wp :: .fin S :: .fin w0 :: .fin g :: rest)
  | taucLorentz {a e0 c eg einf : ℝ} {rest} (ha : 0 ≤ a) (h0 : 0 ≤ e0) (hc : 0 < c) :
      PassiveParams .taucLorentz (.fin a :: .fin e0 :: .fin c :: .fin eg :: .fin einf :: rest)

/-- The values of a complex evaluation as a list. -/
def CVals.toList {F : Type} : CVals F → List (Cx F)
  | .scalar z => [z]
  | .array zs => zs

/-- C20 for the objects: every permittivity returned by a passive model has a non-negative
imaginary part, provided the requested values, converted to the model's unit (eV, see C19), are positive
and finite. -/
theorem C20_passive (k : EpsFormula) (p : List XR) (hp : PassiveParams k p) (raw : Raw XR)
    (t u : String) (d : CplxData XR) (hd : CplxData.new k p raw t u = .ok d) (s : Spectrum XR)
    (zs : CVals XR) (hz : d.evaluate s = .ok zs)
    (hpos : ∀ ws, s.convertTo t u = .ok ws → ∀ w ∈ ws.toList, ∃ e : ℝ, 0 < e ∧ w = .fin e) :
    ∀ z ∈ zs.toList, ∃ y : ℝ, z.im = .fin y ∧ 0 ≤ y := by
  have key : ∀ e : ℝ, 0 < e → ∀ z, k.at p (XR.fin e) = .ok z → ∃ y : ℝ, z.im = .fin y ∧ 0 ≤ y := by
    intro e he z hz
    cases hp with
    | drude hg =>
      obtain ⟨h1, h2⟩ := C20_drude _ _ e _ hg he
      rw [h1] at hz
      cases hz
      exact ⟨_, rfl, h2⟩
    | drudeLorentz hS hg =>
      obtain ⟨h1, h2⟩ := C20_drudeLorentz _ _ _ _ e _ hS hg.le he (Or.inl hg)
      rw [h1] at hz
      cases hz
      exact ⟨_, rfl, h2⟩
    | taucLorentz ha h0 hc =>
      obtain ⟨⟨x, h1⟩, h2, -⟩ := C20_taucLorentz _ _ _ _ _ e _ ha h0 hc.le he (Or.inr (Or.inl hc))
      rw [h1] at hz
      cases hz
      exact ⟨_, rfl, h2⟩
  unfold CplxData.new at hd
  simp only [bind, Except.bind] at hd
  cases hr : Spectrum.new raw t u with
  | error e => rw [hr] at hd; cases hd
  | ok r =>
    rw [hr] at hd
    simp only at hd
    cases hval : validateSpectrumType (F := XR) (some ("energy", "ev")) t u with
    | error e => rw [hval] at hd; cases hd
    | ok _ =>
      rw [hval] at hd
      have hd' : d = { kind := k, params := p, range := r, stype := t, unit := u } := by
        cases hd; rfl
      subst hd'
      simp only [CplxData.evaluate, bind, Except.bind] at hz
      cases hc : r.contains s with
      | error e => rw [hc] at hz; cases hz
      | ok b =>
        rw [hc] at hz
        simp only at hz
        cases hw : s.convertTo t u with
        | error e => rw [hw] at hz; cases hz
        | ok ws =>
          rw [hw] at hz
          have hpos' := hpos ws hw
          cases ws with
          | scalar x =>
            obtain ⟨e, he, rfl⟩ := hpos' x (by simp [Vals.toList])
            simp only at hz
            cases hx : k.at p (XR.fin e) with
            | error e' => rw [hx] at hz; cases hz
            | ok z =>
              rw [hx] at hz
              simp only at hz
              split at hz
              · cases hz
              · cases hz
                intro z' hz'
                simp only [CVals.toList, List.mem_singleton] at hz'
                subst hz'
                exact key e he _ hx
          | array dt xs =>
            simp only at hz
            cases hx : xs.mapM (k.at p) with
            | error e => rw [hx] at hz; cases hz
            | ok ys =>
              rw [hx] at hz
              cases hz
              obtain ⟨h1, h2⟩ := mapM_getElem _ _ _ hx
              intro z hz
              simp only [CVals.toList] at hz
              obtain ⟨i, hi⟩ := List.mem_iff_getElem?.1 hz
              have hlt : i < xs.length := by
                rw [h1]
                by_contra hcon
                rw [List.getElem?_eq_none (by omega)] at hi
                cases hi
              obtain ⟨y, h3, h4⟩ := h2 i xs[i] (by simp [hlt])
              rw [hi] at h4
              obtain rfl := Option.some.inj h4
              obtain ⟨e, he, hxe⟩ := hpos' xs[i] (by simp [Vals.toList])
              rw [hxe] at h3
              exact key e he _ h3

/-- Concrete case: gold-like Drude parameters. -/
example : PassiveParams .drude [.fin 9, .fin 0.05] := .drude (by norm_num)

/-- Concrete case: wp = 2, no loss, at 1 eV: 1 - 4 = -3. -/
example : EpsFormula.at .drude [XR.fin 2, XR.fin 0] (XR.fin 1) = .ok (toCx (-3)) := by
  rw [(C20_drude 2 0 1 [] le_rfl one_pos).1]
  congr 2
  push_cast
  norm_num

/-- Concrete case: Tauc-Lorentz of unit parameters below its gap of 2 eV. -/
example : ∃ x, EpsFormula.at .taucLorentz [.fin 1, .fin 1, .fin 1, .fin 2, .fin 1] (XR.fin 1) =
    .ok ⟨x, .fin 0⟩ := by
  obtain ⟨⟨x, h1⟩, -, h3⟩ := C20_taucLorentz 1 1 1 2 1 1 [] zero_le_one zero_le_one zero_le_one
    one_pos (Or.inl (by norm_num))
  exact ⟨x, by rw [h1, h3 (by norm_num)]⟩

end Disp
