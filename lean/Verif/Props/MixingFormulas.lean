import Mathlib.Tactic.LinearCombination
import Mathlib.Tactic.Linarith
import Verif.Model.EffectiveMedium
import Verif.Props.MaterialEval
/-!
# The mixing formulas of effective media against complex arithmetic
-/

namespace Disp

/-! ## The formulas on finite numbers -/

theorem neg_toCx (z : ℂ) : Cx.neg (toCx z) = toCx (-z) := rfl

theorem rmul_toCx (x : ℝ) (z : ℂ) : rmul (XR.fin x) (toCx z) = toCx ((x : ℂ) * z) := by
  unfold rmul
  rw [Cx.ofReal_toCx, Cx.mul_toCx]

theorem lit_fin (q : ℚ) : (lit q : XR) = XR.fin (q : ℝ) := rfl

theorem simpleMix_toCx (f : ℝ) (z w : ℂ) :
    simpleMix (XR.fin f) (toCx z) (toCx w) = toCx (z * (1 - f) + w * f) := by
  unfold simpleMix
  rw [lit_fin, XR.sub_fin, Cx.ofReal_toCx, Cx.ofReal_toCx, Cx.mul_toCx, Cx.mul_toCx, Cx.add_toCx]
  push_cast
  rfl

theorem mgUp_toCx (f : ℝ) (z w : ℂ) :
    mgUp (XR.fin f) (toCx z) (toCx w) = toCx (2 * (1 - f) * z + (1 + 2 * f) * w) := by
  unfold mgUp
  rw [lit_fin, lit_fin, XR.sub_fin, XR.mul_fin, XR.mul_fin, XR.add_fin, rmul_toCx, rmul_toCx,
    Cx.add_toCx]
  push_cast
  rfl

theorem mgDown_toCx (f : ℝ) (z w : ℂ) :
    mgDown (XR.fin f) (toCx z) (toCx w) = toCx ((2 + f) * z + (1 - f) * w) := by
  unfold mgDown
  rw [lit_fin, lit_fin, XR.sub_fin, XR.add_fin, rmul_toCx, rmul_toCx, Cx.add_toCx]
  push_cast
  rfl

theorem mgMix_toCx (f : ℝ) (z w : ℂ) (h : (2 + f) * z + (1 - f) * w ≠ 0) :
    mgMix (XR.fin f) (toCx z) (toCx w) =
      toCx (z * (2 * (1 - f) * z + (1 + 2 * f) * w) / ((2 + f) * z + (1 - f) * w)) := by
  unfold mgMix
  rw [mgUp_toCx, mgDown_toCx, Cx.mul_toCx, Cx.div_toCx _ _ h]

/-- A vanishing denominator gives infinities or NaN. -/
theorem mgMix_singular (f : ℝ) (z w : ℂ) (h : (2 + f) * z + (1 - f) * w = 0) :
    (∀ x, (mgMix (XR.fin f) (toCx z) (toCx w)).re ≠ XR.fin x) ∧
      ∀ x, (mgMix (XR.fin f) (toCx z) (toCx w)).im ≠ XR.fin x := by
  have hs : ∀ r x : ℝ, XR.signInf r ≠ XR.fin x := by
    intro r x
    unfold XR.signInf
    split_ifs <;> simp
  unfold mgMix
  rw [mgUp_toCx, mgDown_toCx, Cx.mul_toCx, h, Cx.div_zero_toCx]
  exact ⟨fun x => hs _ x, fun x => hs _ x⟩

theorem brugQ_toCx (b a : ℂ) : brugQ (toCx b) (toCx a) = toCx (-(a * b) / 2) := by
  unfold brugQ
  rw [lit_fin, rmul_toCx, Cx.mul_toCx]
  congr 1
  push_cast
  ring

theorem brugP_toCx (f : ℝ) (b a : ℂ) : brugP (XR.fin f) (toCx b) (toCx a) =
    toCx ((f * (b - 2 * a) + (1 - f) * (a - 2 * b)) / 2) := by
  unfold brugP
  rw [lit_fin, lit_fin, lit_fin, XR.sub_fin, rmul_toCx, rmul_toCx, Cx.sub_toCx, Cx.sub_toCx,
    rmul_toCx, rmul_toCx, Cx.add_toCx, rmul_toCx]
  congr 1
  push_cast
  ring

/-- The two solutions of the code are the two roots of the quadratic equation, the first the one
of larger real part. -/
theorem brug_toCx (f : ℝ) (b a : ℂ) : ∃ e1 e2 : ℂ,
    brug1 (XR.fin f) (toCx b) (toCx a) = toCx e1 ∧ brug2 (XR.fin f) (toCx b) (toCx a) = toCx e2 ∧
    e1 + e2 = (f * (2 * a - b) + (1 - f) * (2 * b - a)) / 2 ∧ e1 * e2 = -(a * b) / 2 ∧
    e2.re ≤ e1.re := by
  set p : ℂ := (f * (b - 2 * a) + (1 - f) * (a - 2 * b)) / 2 with hp
  obtain ⟨w, hw1, hw2, hw3, -⟩ := csqrt_toCx ((p / 2) ^ 2 - -(a * b) / 2)
  have hroot : brugRoot (XR.fin f) (toCx b) (toCx a) = toCx w := by
    unfold brugRoot
    rw [brugP_toCx, brugQ_toCx, lit_fin, rmul_toCx, Cx.sq_toCx, Cx.sub_toCx, ← hw1]
    congr 2
    rw [hp]
    push_cast
    ring
  have hhalf : Cx.neg (brugP (XR.fin f) (toCx b) (toCx a)) * Cx.ofReal (lit 0.5) =
      toCx (-p / 2) := by
    rw [brugP_toCx, neg_toCx, lit_fin, Cx.ofReal_toCx, Cx.mul_toCx]
    congr 1
    rw [hp]
    push_cast
    ring
  refine ⟨-p / 2 + w, -p / 2 - w, ?_, ?_, ?_, ?_, ?_⟩
  · unfold brug1
    rw [hhalf, hroot, Cx.add_toCx]
  · unfold brug2
    rw [hhalf, hroot, Cx.sub_toCx]
  · rw [hp]; ring
  · linear_combination -hw2
  · rw [Complex.add_re, Complex.sub_re]
    linarith

/-! ## Existence of a physical solution -/

/-- The form that decides where the roots lie is not negative. -/
theorem brug_form (a1 a2 b1 b2 u v : ℝ) (ha : 0 ≤ a2) (hb : 0 ≤ b2) (huv : u + v = 1 / 2)
    (hu : u ≤ 1) (hv : v ≤ 1) :
    0 ≤ (a1 * b2 + a2 * b1) ^ 2 / 4 + (u * a1 + v * b1) * (u * a2 + v * b2) * (a1 * b2 + a2 * b1) / 2
      - (a1 * b1 - a2 * b2) * (u * a2 + v * b2) ^ 2 / 2 := by
  have hu' : u = 1 / 2 - v := by linarith
  set k := (1 - v) * (1 + 2 * v) with hk
  have hk0 : 0 ≤ k := mul_nonneg (by linarith) (by linarith)
  -- the value as a quadratic form in `a1` and `b1`
  have key : (a1 * b2 + a2 * b1) ^ 2 / 4 +
      (u * a1 + v * b1) * (u * a2 + v * b2) * (a1 * b2 + a2 * b1) / 2
      - (a1 * b1 - a2 * b2) * (u * a2 + v * b2) ^ 2 / 2 =
      (b2 * (b2 * k + 2 * u ^ 2 * a2) * a1 ^ 2 + 2 * (a2 * b2) * (a1 * b1)
        + a2 * (a2 * k + 2 * v ^ 2 * b2) * b1 ^ 2) / 4
      + a2 * b2 * (u * a2 + v * b2) ^ 2 / 2 := by
    rw [hk, hu']; ring
  rw [key]
  have hA : 0 ≤ b2 * (b2 * k + 2 * u ^ 2 * a2) := by positivity
  have hC : 0 ≤ a2 * (a2 * k + 2 * v ^ 2 * b2) := by positivity
  have hAC : (a2 * b2) ^ 2 ≤ b2 * (b2 * k + 2 * u ^ 2 * a2) * (a2 * (a2 * k + 2 * v ^ 2 * b2)) := by
    have : b2 * (b2 * k + 2 * u ^ 2 * a2) * (a2 * (a2 * k + 2 * v ^ 2 * b2)) - (a2 * b2) ^ 2 =
        a2 * b2 * (2 * k * (v * b2 + u * a2) ^ 2) := by
      rw [hk, hu']; ring
    have h2 : 0 ≤ a2 * b2 * (2 * k * (v * b2 + u * a2) ^ 2) := by positivity
    linarith
  have hform : 0 ≤ b2 * (b2 * k + 2 * u ^ 2 * a2) * a1 ^ 2 + 2 * (a2 * b2) * (a1 * b1)
      + a2 * (a2 * k + 2 * v ^ 2 * b2) * b1 ^ 2 := by
    set A := b2 * (b2 * k + 2 * u ^ 2 * a2)
    set C := a2 * (a2 * k + 2 * v ^ 2 * b2)
    set B := a2 * b2 with hB
    have hB0 : 0 ≤ B := mul_nonneg ha hb
    rcases hA.eq_or_lt with h | h
    · rw [← h] at hAC ⊢
      have hB' : B = 0 := by nlinarith
      rw [hB']
      have := mul_nonneg hC (sq_nonneg b1)
      linarith
    · have h1 : 0 ≤ A * (A * a1 ^ 2 + 2 * B * (a1 * b1) + C * b1 ^ 2) := by
        have h2 : A * (A * a1 ^ 2 + 2 * B * (a1 * b1) + C * b1 ^ 2) =
            (A * a1 + B * b1) ^ 2 + (A * C - B ^ 2) * b1 ^ 2 := by ring
        rw [h2]
        have := mul_nonneg (sub_nonneg.2 hAC) (sq_nonneg b1)
        nlinarith [sq_nonneg (A * a1 + B * b1)]
      exact nonneg_of_mul_nonneg_right h1 h
  have h3 : 0 ≤ a2 * b2 * (u * a2 + v * b2) ^ 2 / 2 := by positivity
  linarith

/-- Of two numbers with the sum and the product of the Bruggeman equation, the imaginary parts do not
have the same sign if the constituents have no gain. -/
theorem brug_opposite (f : ℝ) (hf0 : 0 ≤ f) (hf1 : f ≤ 1) (a b e1 e2 : ℂ) (ha : 0 ≤ a.im)
    (hb : 0 ≤ b.im) (hsum : e1 + e2 = (f * (2 * a - b) + (1 - f) * (2 * b - a)) / 2)
    (hprod : e1 * e2 = -(a * b) / 2) : e1.im * e2.im ≤ 0 := by
  by_contra hcon
  rw [not_le] at hcon
  set u : ℝ := (3 * f - 1) / 2 with hu
  set v : ℝ := (2 - 3 * f) / 2 with hv
  have hs : e1 + e2 = u * a + v * b := by
    rw [hsum, hu, hv]; push_cast; ring
  have s1 : e1.re + e2.re = u * a.re + v * b.re := by
    have := congrArg Complex.re hs
    simpa using this
  have s2 : e1.im + e2.im = u * a.im + v * b.im := by
    have := congrArg Complex.im hs
    simpa using this
  have hp' : e1 * e2 = ((-1 / 2 : ℝ) : ℂ) * (a * b) := by
    rw [hprod]; push_cast; ring
  have q1 : e1.re * e2.re - e1.im * e2.im = -1 / 2 * (a.re * b.re - a.im * b.im) := by
    have := congrArg Complex.re hp'
    rw [Complex.re_ofReal_mul] at this
    simpa using this
  have q2 : e1.re * e2.im + e1.im * e2.re = -1 / 2 * (a.re * b.im + a.im * b.re) := by
    have := congrArg Complex.im hp'
    rw [Complex.im_ofReal_mul] at this
    simpa using this
  have hD : (a.re * b.im + a.im * b.re) ^ 2 / 4 +
      (u * a.re + v * b.re) * (u * a.im + v * b.im) * (a.re * b.im + a.im * b.re) / 2
      - (a.re * b.re - a.im * b.im) * (u * a.im + v * b.im) ^ 2 / 2 =
      -(e1.im * e2.im) * ((e1.re - e2.re) ^ 2 + (e1.im + e2.im) ^ 2) := by
    have q1' : a.re * b.re - a.im * b.im = -2 * (e1.re * e2.re - e1.im * e2.im) := by linarith
    have q2' : a.re * b.im + a.im * b.re = -2 * (e1.re * e2.im + e1.im * e2.re) := by linarith
    rw [q1', q2', ← s1, ← s2]
    ring
  have hneg : -(e1.im * e2.im) * ((e1.re - e2.re) ^ 2 + (e1.im + e2.im) ^ 2) < 0 := by
    have h4 : 0 < (e1.re - e2.re) ^ 2 + (e1.im + e2.im) ^ 2 := by
      nlinarith [sq_nonneg (e1.re - e2.re), sq_nonneg e1.im, sq_nonneg e2.im]
    nlinarith
  have huv : u + v = 1 / 2 := by rw [hu, hv]; ring
  have := brug_form a.re a.im b.re b.im u v ha hb huv (by rw [hu]; linarith) (by rw [hv]; linarith)
  rw [hD] at this
  linarith

/-- Of two numbers with the sum and the product of the Bruggeman equation, at least one lies in
the closed upper half plane if the constituents do. -/
theorem brug_physical (f : ℝ) (hf0 : 0 ≤ f) (hf1 : f ≤ 1) (a b e1 e2 : ℂ) (ha : 0 ≤ a.im)
    (hb : 0 ≤ b.im) (hsum : e1 + e2 = (f * (2 * a - b) + (1 - f) * (2 * b - a)) / 2)
    (hprod : e1 * e2 = -(a * b) / 2) : 0 ≤ e1.im ∨ 0 ≤ e2.im := by
  by_contra hcon
  rw [not_or, not_le, not_le] at hcon
  have := mul_pos_of_neg_of_neg hcon.1 hcon.2
  linarith [brug_opposite f hf0 hf1 a b e1 e2 ha hb hsum hprod]

/-- The self-consistency equation of Bruggeman for inclusions `a` of fraction `f` in `b`, without
denominators. -/
def BruggemanEq (f : ℝ) (b a e : ℂ) : Prop :=
  f * (a - e) * (b + 2 * e) + (1 - f) * (b - e) * (a + 2 * e) = 0

/-- Both numbers with that sum and product solve the equation. -/
theorem brug_solves {f : ℝ} {b a e1 e2 : ℂ}
    (hsum : e1 + e2 = (f * (2 * a - b) + (1 - f) * (2 * b - a)) / 2)
    (hprod : e1 * e2 = -(a * b) / 2) : BruggemanEq f b a e1 ∧ BruggemanEq f b a e2 := by
  unfold BruggemanEq
  constructor
  · linear_combination (-2 * e1) * hsum + 2 * hprod
  · linear_combination (-2 * e2) * hsum + 2 * hprod

/-- The chosen solution: a root of the Bruggeman equation in the closed upper half plane. -/
theorem brugMix_spec (f : ℝ) (hf0 : 0 ≤ f) (hf1 : f ≤ 1) (b a : ℂ) (hb : 0 ≤ b.im) (ha : 0 ≤ a.im) :
    ∃ e : ℂ, brugMix (XR.fin f) (toCx b) (toCx a) = toCx e ∧ 0 ≤ e.im ∧ BruggemanEq f b a e := by
  obtain ⟨e1, e2, h1, h2, hs, hp, -⟩ := brug_toCx f b a
  obtain ⟨g1, g2⟩ := brug_solves hs hp
  have h0 : (lit 0 : XR) = XR.fin 0 := by show XR.fin _ = _; norm_num
  have le_iff : ∀ e : ℂ, PyFloat.le (lit 0) (toCx e).im = true ↔ 0 ≤ e.im := by
    intro e
    rw [h0]
    show PyFloat.le (XR.fin 0) (XR.fin e.im) = true ↔ _
    rw [XR.le_fin, decide_eq_true_eq]
  unfold brugMix
  rw [h1, h2]
  by_cases c1 : 0 ≤ e1.im
  · rw [if_pos ((le_iff e1).2 c1)]
    exact ⟨e1, rfl, c1, g1⟩
  · have c2 : 0 ≤ e2.im := (brug_physical f hf0 hf1 a b e1 e2 ha hb hs hp).resolve_left c1
    rw [if_neg (fun h => c1 ((le_iff e1).1 h)), if_pos ((le_iff e2).2 c2)]
    exact ⟨e2, rfl, c2, g2⟩

/-- Without inclusions the roots are the host and minus half the inclusion. The host is chosen if
the inclusion absorbs, or if the host has the larger real part. -/
theorem brugMix_zero (b a : ℂ) (hb : 0 ≤ b.im)
    (h : 0 < a.im ∨ -(a.re / 2) < b.re) : brugMix (XR.fin 0) (toCx b) (toCx a) = toCx b := by
  obtain ⟨e1, e2, h1, h2, hs, hp, hre⟩ := brug_toCx 0 b a
  have h0 : (lit 0 : XR) = XR.fin 0 := by show XR.fin _ = _; norm_num
  have le_iff : ∀ e : ℂ, PyFloat.le (lit 0) (toCx e).im = true ↔ 0 ≤ e.im := by
    intro e
    rw [h0]
    show PyFloat.le (XR.fin 0) (XR.fin e.im) = true ↔ _
    rw [XR.le_fin, decide_eq_true_eq]
  have hs' : e1 + e2 = b - a / 2 := by rw [hs]; push_cast; ring
  have hroot : (e1 - b) * (e1 + a / 2) = 0 := by
    linear_combination e1 * hs' - hp
  have ha2 : (a / 2).im = a.im / 2 := by
    rw [show a / 2 = ((1 / 2 : ℝ) : ℂ) * a by push_cast; ring, Complex.im_ofReal_mul]; ring
  have ha2r : (a / 2).re = a.re / 2 := by
    rw [show a / 2 = ((1 / 2 : ℝ) : ℂ) * a by push_cast; ring, Complex.re_ofReal_mul]; ring
  unfold brugMix
  rw [h1, h2]
  rcases mul_eq_zero.1 hroot with hr | hr
  · have e1b : e1 = b := by linear_combination hr
    rw [e1b, if_pos ((le_iff b).2 hb)]
  · have e1a : e1 = -(a / 2) := by linear_combination hr
    have e2b : e2 = b := by rw [e1a] at hs'; linear_combination hs'
    rcases h with h | h
    · have : ¬ 0 ≤ e1.im := by
        rw [e1a, Complex.neg_im, ha2]; linarith
      rw [if_neg (fun h => this ((le_iff e1).1 h)), e2b, if_pos ((le_iff b).2 hb)]
    · rw [e1a, e2b, Complex.neg_re, ha2r] at hre
      linarith

/-- Pure inclusions: the same with exchanged roles. -/
theorem brugMix_swap (f : ℝ) (b a : ℂ) :
    brugMix (XR.fin f) (toCx b) (toCx a) = brugMix (XR.fin (1 - f)) (toCx a) (toCx b) := by
  have hP : brugP (XR.fin f) (toCx b) (toCx a) = brugP (XR.fin (1 - f)) (toCx a) (toCx b) := by
    rw [brugP_toCx, brugP_toCx]
    congr 1
    push_cast
    ring
  have hQ : brugQ (toCx b) (toCx a) = brugQ (toCx a) (toCx b) := by
    rw [brugQ_toCx, brugQ_toCx, mul_comm]
  unfold brugMix brug1 brug2 brugRoot
  rw [hP, hQ]

end Disp
