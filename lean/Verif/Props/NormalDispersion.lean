import Mathlib.Topology.Algebra.Order.LiminfLimsup
import Mathlib.Analysis.SpecialFunctions.Pow.Asymptotics
import Verif.Props.Formulas

/-!
# Normal dispersion (C104)

Where a transparent material has no resonance its refractive index falls as the wavelength grows.
-/

namespace Disp

open Spec

/-- All wavelengths of the window lie on one side of the point `r`. -/
def Spec.OneSide (W : Set ℝ) (r : ℝ) : Prop := (∀ w ∈ W, r < w) ∨ ∀ w ∈ W, w < r

/-- Formula, coefficients and window of wavelengths of a transparent material: strengths are not
negative and no resonance lies in the window. -/
inductive Spec.Transparent : Formula → List XR → Set ℝ → Prop
  | sellmeier {c : ℝ} {ps : List (ℝ × ℝ)} {W} (hB : ∀ p ∈ ps, 0 ≤ p.1)
      (hC : ∀ p ∈ ps, OneSide W |p.2|) : Transparent .sellmeier (finList (c :: flat2 ps)) W
  | sellmeier2 {c : ℝ} {ps : List (ℝ × ℝ)} {W} (hB : ∀ p ∈ ps, 0 ≤ p.1 ∧ 0 ≤ p.2)
      (hC : ∀ p ∈ ps, OneSide W (Real.sqrt p.2)) :
      Transparent .sellmeier2 (finList (c :: flat2 ps)) W
  | polynomial {c : ℝ} {ps : List (ℝ × ℝ)} {W} (hB : ∀ p ∈ ps, 0 ≤ p.1 ∧ p.2 ≤ 0) :
      Transparent .polynomial (finList (c :: flat2 ps)) W
  | cauchy {c : ℝ} {ps : List (ℝ × ℝ)} {W} (hB : ∀ p ∈ ps, 0 ≤ p.1 ∧ p.2 ≤ 0) :
      Transparent .cauchy (finList (c :: flat2 ps)) W
  | gases {c : ℝ} {ps : List (ℝ × ℝ)} {W} (hB : ∀ p ∈ ps, 0 ≤ p.1 ∧ 0 < p.2)
      (hC : ∀ p ∈ ps, OneSide W (1 / Real.sqrt p.2)) : Transparent .gases (finList (c :: flat2 ps)) W

theorem sum2_le {f g : ℝ → ℝ → ℝ} {ps : List (ℝ × ℝ)} (h : ∀ p ∈ ps, f p.1 p.2 ≤ g p.1 p.2) :
    sum2 f ps ≤ sum2 g ps := by
  unfold sum2
  exact List.sum_le_sum h

/-- A resonance term falls on either side of the resonance. -/
theorem resonance_falls {B R a b : ℝ} (hB : 0 ≤ B) (hR : 0 ≤ R) (hab : a ≤ b)
    (h : (R < a) ∨ b < R) : B * b / (b - R) ≤ B * a / (a - R) := by
  have key : b / (b - R) ≤ a / (a - R) := by
    rcases h with h | h
    · rw [div_le_div_iff₀ (by linarith) (by linarith)]
      nlinarith
    · rw [← neg_div_neg_eq b, ← neg_div_neg_eq a, div_le_div_iff₀ (by linarith) (by linarith)]
      nlinarith
  have := mul_le_mul_of_nonneg_left key hB
  rwa [← mul_div_assoc, ← mul_div_assoc] at this

theorem OneSide.sq {W : Set ℝ} {r a b : ℝ} (h : OneSide W r) (hr : 0 ≤ r) (ha : a ∈ W) (hb : b ∈ W)
    (ha0 : 0 < a) (hb0 : 0 < b) : r ^ 2 < a ^ 2 ∨ b ^ 2 < r ^ 2 := by
  rcases h with h | h
  · exact .inl (pow_lt_pow_left₀ (h a ha) hr two_ne_zero)
  · exact .inr (pow_lt_pow_left₀ (h b hb) hb0.le two_ne_zero)

theorem OneSide.sq_ne {W : Set ℝ} {r a : ℝ} (h : OneSide W r) (hr : 0 ≤ r) (ha : a ∈ W)
    (ha0 : 0 < a) : a ^ 2 - r ^ 2 ≠ 0 := by
  rcases OneSide.sq h hr ha ha ha0 ha0 with h | h
  · exact (sub_pos.2 h).ne'
  · exact (sub_neg.2 h).ne

/-- What the formulas return, as one falling function. -/
theorem transparent_values {k : Formula} {p : List XR} {W : Set ℝ} (h : Transparent k p W)
    (hW : ∀ w ∈ W, 0 < w) :
    ∃ q : ℝ → ℝ, AntitoneOn q W ∧
      ((∀ w ∈ W, k.at p (.fin w) = .ok (rootOrNaN (q w))) ∨
        ∀ w ∈ W, k.at p (.fin w) = .ok (.fin (q w))) := by
  cases h with
  | @sellmeier c ps _ hB hC =>
    refine ⟨fun w => 1 + c + sum2 (fun B C => B * w ^ 2 / (w ^ 2 - C ^ 2)) ps, ?_, .inl ?_⟩
    · intro a ha b hb hab
      have ha0 := hW a ha
      refine add_le_add le_rfl (sum2_le fun p hp => ?_)
      refine resonance_falls (hB p hp) (sq_nonneg _) (pow_le_pow_left₀ ha0.le hab 2) ?_
      rw [← sq_abs p.2]
      exact OneSide.sq (hC p hp) (abs_nonneg _) ha hb ha0 (hW b hb)
    · intro w hw
      refine C17_sellmeier c ps w fun p hp => ?_
      rw [← sq_abs p.2]
      exact OneSide.sq_ne (hC p hp) (abs_nonneg _) hw (hW w hw)
  | @sellmeier2 c ps _ hB hC =>
    refine ⟨fun w => 1 + c + sum2 (fun B C => B * w ^ 2 / (w ^ 2 - C)) ps, ?_, .inl ?_⟩
    · intro a ha b hb hab
      have ha0 := hW a ha
      refine add_le_add le_rfl (sum2_le fun p hp => ?_)
      refine resonance_falls (hB p hp).1 (hB p hp).2 (pow_le_pow_left₀ ha0.le hab 2) ?_
      rw [← Real.sq_sqrt (hB p hp).2]
      exact OneSide.sq (hC p hp) (Real.sqrt_nonneg _) ha hb ha0 (hW b hb)
    · intro w hw
      refine C17_sellmeier2 c ps w fun p hp => ?_
      rw [← Real.sq_sqrt (hB p hp).2]
      exact OneSide.sq_ne (hC p hp) (Real.sqrt_nonneg _) hw (hW w hw)
  | @polynomial c ps _ hB =>
    refine ⟨fun w => c + sum2 (fun A P => A * w ^ P) ps, ?_, .inl fun w hw => C17_polynomial c ps w (hW w hw)⟩
    intro a ha b hb hab
    refine add_le_add le_rfl (sum2_le fun p hp => ?_)
    exact mul_le_mul_of_nonneg_left (Real.rpow_le_rpow_of_nonpos (hW a ha) hab (hB p hp).2) (hB p hp).1
  | @cauchy c ps _ hB =>
    refine ⟨fun w => c + sum2 (fun A P => A * w ^ P) ps, ?_, .inr fun w hw => C17_cauchy c ps w (hW w hw)⟩
    intro a ha b hb hab
    refine add_le_add le_rfl (sum2_le fun p hp => ?_)
    exact mul_le_mul_of_nonneg_left (Real.rpow_le_rpow_of_nonpos (hW a ha) hab (hB p hp).2) (hB p hp).1
  | @gases c ps _ hB hC =>
    have side : ∀ p ∈ ps, ∀ a ∈ W, ∀ b ∈ W, 1 / a ^ 2 < p.2 ∨ p.2 < 1 / b ^ 2 := by
      intro p hp a ha b hb
      have h2 := (hB p hp).2
      have hs : (1 / Real.sqrt p.2) ^ 2 = 1 / p.2 := by rw [div_pow, one_pow, Real.sq_sqrt h2.le]
      have := OneSide.sq (hC p hp) (by positivity) ha hb (hW a ha) (hW b hb)
      rw [hs] at this
      have pa : 0 < a ^ 2 := by have := hW a ha; positivity
      have pb : 0 < b ^ 2 := by have := hW b hb; positivity
      rcases this with h | h
      · exact .inl (by rw [div_lt_iff₀ h2] at h; rw [div_lt_iff₀ pa]; linarith)
      · exact .inr (by rw [lt_div_iff₀ h2] at h; rw [lt_div_iff₀ pb]; linarith)
    refine ⟨fun w => 1 + c + sum2 (fun B C => B / (C - 1 / w ^ 2)) ps, ?_, .inr fun w hw =>
      C17_gases c ps w (hW w hw) fun p hp => ?_⟩
    · intro a ha b hb hab
      have ha0 := hW a ha
      refine add_le_add le_rfl (sum2_le fun p hp => ?_)
      have hinv : 1 / b ^ 2 ≤ 1 / a ^ 2 :=
        one_div_le_one_div_of_le (by positivity) (pow_le_pow_left₀ ha0.le hab 2)
      rcases side p hp a ha b hb with h | h
      · exact div_le_div_of_nonneg_left (hB p hp).1 (by linarith) (by linarith)
      · rw [← neg_le_neg_iff, ← div_neg, ← div_neg]
        exact div_le_div_of_nonneg_left (hB p hp).1 (by linarith) (by linarith)
    · rcases side p hp w hw w hw with h | h
      · exact (sub_pos.2 h).ne'
      · exact (sub_neg.2 h).ne

/-- C104: of two wavelengths of the window, the longer one never has the larger index. If the
longer one has a real index, so has the shorter one. -/
theorem C104_formula {k : Formula} {p : List XR} {W : Set ℝ} (h : Transparent k p W)
    (hW : ∀ w ∈ W, 0 < w) {a b : ℝ} (ha : a ∈ W) (hb : b ∈ W) (hab : a ≤ b) {n : ℝ}
    (hn : k.at p (.fin b) = .ok (.fin n)) : ∃ n', k.at p (.fin a) = .ok (.fin n') ∧ n ≤ n' := by
  obtain ⟨q, hq, hv | hv⟩ := transparent_values h hW
  · rw [hv b hb] at hn
    have hle := hq ha hb hab
    unfold rootOrNaN at hn
    split at hn
    · cases hn
    · rename_i h0
      cases hn
      refine ⟨Real.sqrt (q a), ?_, Real.sqrt_le_sqrt hle⟩
      rw [hv a ha, rootOrNaN, if_neg (by linarith)]
  · rw [hv b hb] at hn
    cases hn
    exact ⟨_, hv a ha, hq ha hb hab⟩

/-- C104 for the objects: whatever the spectrum and its unit, among the returned indices that of
the longer wavelength is never the larger. -/
theorem C104_evaluate [SciPy XR] {k : Formula} {p : List XR} {W : Set ℝ} (h : Transparent k p W)
    (hW : ∀ w ∈ W, 0 < w) (raw : Raw XR) (t u : String) (d : RealData XR)
    (hd : RealData.newModel k p raw t u = .ok d) (s : Spectrum XR) (v ws : Vals XR)
    (hv : (d.evaluate s).1 = .ok v) (hw : s.convertTo t u = .ok ws) (i j : ℕ) (a b n : ℝ)
    (ha : a ∈ W) (hb : b ∈ W) (hab : a ≤ b) (hi : ws.toList[i]? = some (.fin a))
    (hj : ws.toList[j]? = some (.fin b)) (hn : v.toList[j]? = some (.fin n)) :
    ∃ n', v.toList[i]? = some (.fin n') ∧ n ≤ n' := by
  obtain ⟨ws', hw', -, hat⟩ := C17_evaluate k p raw t u d hd s v hv
  rw [hw] at hw'
  cases hw'
  obtain ⟨x, hx, hx'⟩ := hat i _ hi
  obtain ⟨y, hy, hy'⟩ := hat j _ hj
  rw [hn] at hy
  cases hy
  obtain ⟨n', h1, h2⟩ := C104_formula h hW ha hb hab hy'
  rw [hx'] at h1
  cases h1
  exact ⟨n', hx, h2⟩

/-- C104, beyond all resonances of the Sellmeier formula: the index is a real number, at least that
of the long-wavelength limit, which is at least one. -/
theorem C104_beyond {c : ℝ} {ps : List (ℝ × ℝ)} (hc : 0 ≤ c) (hB : ∀ p ∈ ps, 0 ≤ p.1) {w : ℝ}
    (hw : 0 < w) (hC : ∀ p ∈ ps, |p.2| < w) :
    ∃ n, Formula.at .sellmeier (finList (c :: flat2 ps)) (.fin w) = .ok (.fin n) ∧
      Real.sqrt (1 + c + (ps.map (·.1)).sum) ≤ n ∧ 1 ≤ n := by
  have hsq : ∀ p ∈ ps, 0 < w ^ 2 - p.2 ^ 2 := fun p hp => by
    rw [← sq_abs p.2, sub_pos]
    exact pow_lt_pow_left₀ (hC p hp) (abs_nonneg _) two_ne_zero
  have h1 : (ps.map (·.1)).sum ≤ sum2 (fun B C => B * w ^ 2 / (w ^ 2 - C ^ 2)) ps := by
    refine List.sum_le_sum fun p hp => ?_
    rw [le_div_iff₀ (hsq p hp)]
    nlinarith [hB p hp, sq_nonneg p.2, mul_nonneg (hB p hp) (sq_nonneg p.2)]
  have h2 : 0 ≤ (ps.map (·.1)).sum := List.sum_nonneg (by
    intro x hx
    obtain ⟨p, hp, rfl⟩ := List.mem_map.1 hx
    exact hB p hp)
  refine ⟨Real.sqrt (1 + c + sum2 (fun B C => B * w ^ 2 / (w ^ 2 - C ^ 2)) ps), ?_, ?_, ?_⟩
  · rw [C17_sellmeier c ps w fun p hp => (hsq p hp).ne', rootOrNaN, if_neg (by linarith)]
  · exact Real.sqrt_le_sqrt (by linarith)
  · rw [Real.one_le_sqrt]
    linarith

open Filter Topology in
/-- C104, the long-wavelength limit of the Sellmeier formula. -/
theorem C104_limit {c : ℝ} {ps : List (ℝ × ℝ)} (hc : 0 ≤ c) (hB : ∀ p ∈ ps, 0 ≤ p.1) :
    ∃ n : ℝ → ℝ, (∀ᶠ w in atTop, Formula.at .sellmeier (finList (c :: flat2 ps)) (.fin w) = .ok (.fin (n w))) ∧
      Tendsto n atTop (𝓝 (Real.sqrt (1 + c + (ps.map (·.1)).sum))) := by
  refine ⟨fun w => Real.sqrt (1 + c + sum2 (fun B C => B * w ^ 2 / (w ^ 2 - C ^ 2)) ps), ?_, ?_⟩
  · have hall : ∀ᶠ w : ℝ in atTop, ∀ p ∈ ps, |p.2| < w := by
      clear hB
      induction ps with
      | nil => simp
      | cons p ps ih =>
        filter_upwards [ih, eventually_gt_atTop |p.2|] with w h1 h2 q hq
        rcases List.mem_cons.1 hq with rfl | hq
        · exact h2
        · exact h1 q hq
    filter_upwards [hall, eventually_gt_atTop 0] with w h1 h0
    obtain ⟨n, hn, -, h1n⟩ := C104_beyond hc hB h0 h1
    have hs := C17_sellmeier c ps w fun p hp => (by
      rw [← sq_abs p.2, ne_eq, sub_eq_zero]
      exact (pow_lt_pow_left₀ (h1 p hp) (abs_nonneg _) two_ne_zero).ne')
    rw [hs]
    rw [hs] at hn
    unfold rootOrNaN at hn ⊢
    split at hn
    · cases hn
    · rename_i hneg
      rw [if_neg hneg]
  · refine (Real.continuous_sqrt.tendsto _).comp (tendsto_const_nhds.add ?_)
    clear hB
    induction ps with
    | nil => simp [sum2]
    | cons p ps ih =>
      have h1 : Tendsto (fun w : ℝ => p.1 * w ^ 2 / (w ^ 2 - p.2 ^ 2)) atTop (𝓝 p.1) := by
        have e : Tendsto (fun w : ℝ => p.2 ^ 2 / w ^ 2) atTop (𝓝 0) :=
          tendsto_const_nhds.div_atTop (tendsto_pow_atTop two_ne_zero)
        have := (tendsto_const_nhds (x := p.1)).div ((tendsto_const_nhds (x := (1 : ℝ))).sub e)
          (by norm_num)
        rw [sub_zero, div_one] at this
        refine this.congr' ?_
        filter_upwards [eventually_gt_atTop 0] with w hw
        simp only [Pi.div_apply]
        have hw2 : w ^ 2 ≠ 0 := by positivity
        rw [one_sub_div hw2, ← div_mul, mul_comm, mul_comm p.1, div_eq_mul_inv, div_eq_mul_inv]
        try ring
      have := h1.add ih
      simpa [sum2] using this

/-- Concrete case: BK7 between its resonances at 0.1414 and 10.18 um has a falling index. -/
example : Transparent .sellmeier (finList [0, 1.03961212, 0.0774641, 0.231792344, 0.141484679,
      1.01046945, 10.1765]) (Set.Icc 0.3 2.5) :=
  .sellmeier (c := 0) (ps := [(1.03961212, 0.0774641), (0.231792344, 0.141484679), (1.01046945, 10.1765)])
    (by
      intro p hp
      simp only [List.mem_cons, List.not_mem_nil, or_false] at hp
      rcases hp with rfl | rfl | rfl <;> norm_num)
    (by
      intro p hp
      simp only [List.mem_cons, List.not_mem_nil, or_false] at hp
      rcases hp with rfl | rfl | rfl
      · refine .inl fun w hw => ?_
        rw [abs_of_pos (by norm_num)]
        have := hw.1
        norm_num at this ⊢
        linarith
      · refine .inl fun w hw => ?_
        rw [abs_of_pos (by norm_num)]
        have := hw.1
        norm_num at this ⊢
        linarith
      · refine .inr fun w hw => ?_
        rw [abs_of_pos (by norm_num)]
        have := hw.2
        norm_num at this ⊢
        linarith)

end Disp
