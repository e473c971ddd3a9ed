import Verif.Lemmas.RootRounding
/-!
# Rounding errors of sums of any length and of resonant terms
-/

namespace Disp

noncomputable section

/-- The unit roundoff. -/
def ur : ℝ := 1 / 2 ^ 53

theorem ur_pos : 0 < ur := by unfold ur; positivity

theorem ur_small : ur ≤ 1 / 2 ^ 53 := le_rfl

/-- Rounding a number that is zero or of a safe magnitude. -/
theorem Dbl.rnd_rel {x : ℝ} (h : x = 0 ∨ Mag 280 |x|) :
    ∃ z, (Dbl.rnd (.fin x)).val = .fin z ∧ |z - x| ≤ ur * |x| := by
  rcases h with rfl | h
  · exact ⟨0, Dbl.rnd_double ⟨0, 0, by norm_num, by norm_num, by norm_num, by simp⟩, by simp⟩
  obtain ⟨h1, h2⟩ := h.safe (by norm_num)
  have hr := nearest_rel (le_trans (zpow_le_zpow_right₀ (by norm_num) (by norm_num)) h1)
  refine ⟨nearest x, Dbl.rnd_fin ?_, hr.trans (le_of_eq (by unfold ur; ring))⟩
  have h3 := abs_add_le (nearest x - x) x
  rw [sub_add_cancel] at h3
  have h4 : |x| / 2 ^ 53 ≤ |x| := div_le_self (abs_nonneg _) (by norm_num)
  have h5 : |nearest x| ≤ 2 * |x| := by linarith
  calc |nearest x| ≤ 2 * 2 ^ 1000 := h5.trans (mul_le_mul_of_nonneg_left h2 (by norm_num))
    _ < 2 ^ 1024 := by rw [← pow_succ']; exact pow_lt_pow_right₀ (by norm_num) (by norm_num)

/-- The growth of the relative error in a sum of `n` terms with relative error `e`. -/
def growth (e : ℝ) (n : ℕ) : ℝ := (1 + ur) ^ n * (1 + e) - 1

theorem growth_ge {e : ℝ} (he : 0 ≤ e) (n : ℕ) : e ≤ growth e n := by
  unfold growth
  have : 1 ≤ (1 + ur) ^ n := one_le_pow₀ (by linarith [ur_pos])
  nlinarith

theorem growth_mono {e : ℝ} (he : 0 ≤ e) {m n : ℕ} (h : m ≤ n) : growth e m ≤ growth e n := by
  unfold growth
  have : (1 + ur) ^ m ≤ (1 + ur) ^ n := pow_le_pow_right₀ (by linarith [ur_pos]) h
  nlinarith

/-- One addition. -/
theorem growth_step {e s S t T z A : ℝ} {n : ℕ} (he : 0 ≤ e) (h1 : |S - s| ≤ growth e n * A)
    (h2 : |s| ≤ A) (h3 : |T - t| ≤ e * |t|) (h4 : |z - (S + T)| ≤ ur * |S + T|) :
    |z - (s + t)| ≤ growth e (n + 1) * (A + |t|) := by
  have hu := ur_pos
  have h5 : |(S + T) - (s + t)| ≤ growth e n * A + growth e n * |t| := by
    calc |(S + T) - (s + t)| = |(S - s) + (T - t)| := by ring_nf
      _ ≤ |S - s| + |T - t| := abs_add_le _ _
      _ ≤ growth e n * A + growth e n * |t| := add_le_add h1
          (h3.trans (mul_le_mul_of_nonneg_right (growth_ge he n) (abs_nonneg t)))
  have h6 : |s + t| ≤ A + |t| := (abs_add_le _ _).trans (by linarith)
  have h7 : |S + T| ≤ (growth e n + 1) * (A + |t|) := by
    have := abs_add_le ((S + T) - (s + t)) (s + t)
    rw [sub_add_cancel] at this
    linarith
  have h8 : |z - (s + t)| ≤ |z - (S + T)| + |(S + T) - (s + t)| := by
    have := abs_add_le (z - (S + T)) ((S + T) - (s + t))
    rwa [sub_add_sub_cancel] at this
  have h9 : ur * |S + T| ≤ ur * ((growth e n + 1) * (A + |t|)) := mul_le_mul_of_nonneg_left h7 hu.le
  have h10 : growth e (n + 1) * (A + |t|) =
      ur * ((growth e n + 1) * (A + |t|)) + growth e n * (A + |t|) := by
    unfold growth; rw [pow_succ]; ring
  rw [h10]
  linarith

/-- A sum of doubles, of any length. -/
theorem sum_err {e : ℝ} (he : 0 ≤ e) : ∀ (ts : List (Dbl × ℝ)) (init : Dbl) (s S A : ℝ) (k : ℕ),
    init.val = .fin S → |S - s| ≤ growth e k * A → |s| ≤ A →
    (∀ p ∈ ts, ∃ T, p.1.val = .fin T ∧ |T - p.2| ≤ e * |p.2|) → growth e (k + ts.length) ≤ 1 →
    A + (ts.map fun p => |p.2|).sum ≤ 10 ^ 150 →
    ∃ z, (ts.foldl (fun acc p => acc + p.1) init).val = .fin z ∧
      |z - (s + (ts.map fun p => p.2).sum)| ≤
        growth e (k + ts.length) * (A + (ts.map fun p => |p.2|).sum) := by
  intro ts
  induction ts with
  | nil =>
    intro init s S A k h1 h2 h3 h4 h5 h6
    exact ⟨S, h1, by simpa using h2⟩
  | cons p ts ih =>
    intro init s S A k h1 h2 h3 h4 h5 h6
    obtain ⟨T, hT, hT'⟩ := h4 p (by simp)
    have h0 : 0 ≤ (ts.map fun p => |p.2|).sum := List.sum_nonneg (by
      intro x hx
      obtain ⟨q, -, rfl⟩ := List.mem_map.1 hx
      exact abs_nonneg _)
    simp only [List.map_cons, List.sum_cons] at h6
    have hA : 0 ≤ A := (abs_nonneg s).trans h3
    have hg : growth e k ≤ 1 := (growth_mono he (by omega)).trans h5
    have he1 : e ≤ 1 := (growth_ge he _).trans h5
    have hge : 0 ≤ growth e k := he.trans (growth_ge he _)
    have bS : |S| ≤ 10 ^ 200 := by
      have := abs_add_le (S - s) s
      rw [sub_add_cancel] at this
      have : growth e k * A ≤ 1 * A := mul_le_mul_of_nonneg_right hg hA
      have := abs_nonneg p.2
      linarith [show 2 * (10 : ℝ) ^ 150 ≤ 10 ^ 200 by norm_num]
    have bT : |T| ≤ 10 ^ 200 := by
      have := abs_add_le (T - p.2) p.2
      rw [sub_add_cancel] at this
      have : e * |p.2| ≤ 1 * |p.2| := mul_le_mul_of_nonneg_right he1 (abs_nonneg _)
      linarith [show 2 * (10 : ℝ) ^ 150 ≤ 10 ^ 200 by norm_num]
    obtain ⟨z, z1, z2⟩ := Dbl.add_err h1 hT bS bT
    have z3 := growth_step he h2 h3 hT' (z2.trans (le_of_eq (by unfold ur; ring)))
    obtain ⟨y, y1, y2⟩ := ih (init + p.1) (s + p.2) z (A + |p.2|) (k + 1) z1 z3
      ((abs_add_le _ _).trans (by linarith)) (fun q hq => h4 q (by simp [hq]))
      (by rw [show k + 1 + ts.length = k + (p :: ts).length by simp; omega]; exact h5) (by linarith)
    refine ⟨y, y1, ?_⟩
    rw [show k + (p :: ts).length = k + 1 + ts.length by simp; omega]
    simp only [List.map_cons, List.sum_cons, ← add_assoc]
    exact y2

/-- The growth for sums of moderate length. -/
theorem growth_le {K : ℝ} {n : ℕ} (hK0 : 0 ≤ K) (hK : K ≤ 2 ^ 20) (hn : n ≤ 2 ^ 20) :
    growth ((K + 8) * ur) n ≤ (n + K + 10) * ur := by
  have hu := ur_pos
  have hN : (n : ℝ) ≤ 2 ^ 20 := by exact_mod_cast hn
  have hn0 : (0 : ℝ) ≤ n := Nat.cast_nonneg n
  have h1 : (1 + ur) ^ n ≤ 1 + (n + 1) * ur := by
    have h := Real.add_one_le_exp ur
    have h2 : (1 + ur) ^ n ≤ Real.exp (n * ur) := by
      rw [Real.exp_nat_mul]
      exact pow_le_pow_left₀ (by linarith) (by linarith) n
    have hsm : n * ur ≤ 1 / 2 ^ 33 := by
      unfold ur
      rw [mul_one_div, div_le_div_iff₀ (by positivity) (by positivity)]
      nlinarith
    have h3 : Real.exp (n * ur) ≤ 1 + n * ur + (n * ur) ^ 2 := by
      have := Real.abs_exp_sub_one_sub_id_le (x := n * ur) (by
        rw [abs_of_nonneg (by positivity)]; linarith [show (1 : ℝ) / 2 ^ 33 ≤ 1 by norm_num])
      linarith [(abs_le.1 this).2]
    have h4 : (n * ur) ^ 2 ≤ ur := by
      have : (n : ℝ) * n * ur ≤ 1 := by
        unfold ur
        rw [mul_one_div, div_le_one (by positivity)]
        nlinarith
      nlinarith
    linarith
  unfold growth
  have h5 : (1 + ur) ^ n * (1 + (K + 8) * ur) ≤ (1 + (n + 1) * ur) * (1 + (K + 8) * ur) :=
    mul_le_mul_of_nonneg_right h1 (by positivity)
  have h6 : (n + 1) * (K + 8) * ur ≤ 1 := by
    unfold ur
    rw [mul_one_div, div_le_one (by positivity)]
    nlinarith
  nlinarith

theorem Mag.of_bounds {k : ℕ} {x y : ℝ} (h : Mag k x) (h1 : x / 10 ≤ y) (h2 : y ≤ 10 * x) :
    Mag (k + 1) y where
  low := by
    refine le_trans ?_ h1
    rw [pow_succ, mul_inv, ← div_eq_mul_inv]
    exact div_le_div_of_nonneg_right h.low (by norm_num)
  high := by
    refine h2.trans ?_
    rw [pow_succ, mul_comm]
    exact mul_le_mul_of_nonneg_right h.high (by norm_num)

/-- Quotients of approximations. -/
theorem quotient_err {p d P D K : ℝ} (hK0 : 0 ≤ K) (hK : K ≤ 2 ^ 20) (hd : d ≠ 0)
    (hP : |P - p| ≤ 3 * ur * |p|) (hD : |D - d| ≤ (K + 2) * ur * |d|) :
    |d| / 2 ≤ |D| ∧ |D| ≤ 2 * |d| ∧ |P / D - p / d| ≤ (K + 6) * ur * |p / d| := by
  have hu := ur_pos
  have hd0 : 0 < |d| := abs_pos.2 hd
  have hb : (K + 2) * ur ≤ 1 / 2 ^ 30 := by
    unfold ur
    rw [mul_one_div, div_le_div_iff₀ (by positivity) (by positivity)]
    nlinarith
  have hsm : (K + 2) * ur * |d| ≤ 1 / 2 ^ 30 * |d| := mul_le_mul_of_nonneg_right hb hd0.le
  have hlo : (1 - (K + 2) * ur) * |d| ≤ |D| := by
    have := abs_add_le (d - D) D
    rw [sub_add_cancel, abs_sub_comm] at this
    linarith
  have hhi : |D| ≤ 2 * |d| := by
    have := abs_add_le (D - d) d
    rw [sub_add_cancel] at this
    linarith
  have hlo' : |d| / 2 ≤ |D| := by linarith
  have hD0 : 0 < |D| := by linarith
  have hDne : D ≠ 0 := abs_pos.1 hD0
  refine ⟨hlo', hhi, ?_⟩
  have e : P / D - p / d = ((P - p) * d - p * (D - d)) / (D * d) := by
    field_simp; ring
  rw [e, abs_div, abs_div, abs_mul D d, div_le_iff₀ (by positivity)]
  have e2 : (K + 6) * ur * (|p| / |d|) * (|D| * |d|) = ur * |p| * ((K + 6) * |D|) := by
    field_simp
  have h1 : |(P - p) * d - p * (D - d)| ≤ ur * |p| * ((K + 5) * |d|) := by
    refine (abs_sub _ _).trans ?_
    rw [abs_mul, abs_mul]
    have a1 := mul_le_mul_of_nonneg_right hP hd0.le
    have a2 := mul_le_mul_of_nonneg_left hD (abs_nonneg p)
    linarith
  have h2 : (K + 5) * |d| ≤ (K + 6) * |D| := by
    have h3 : (K + 6) * ((K + 2) * ur) ≤ 1 := by
      unfold ur
      rw [mul_one_div, mul_div_assoc', div_le_one (by positivity)]
      nlinarith
    have h4 := mul_le_mul_of_nonneg_left hlo (show 0 ≤ K + 6 by linarith)
    have h5 := mul_le_mul_of_nonneg_right h3 hd0.le
    linarith
  rw [e2]
  exact h1.trans (mul_le_mul_of_nonneg_left h2 (by positivity))

/-- A term with a resonance. -/
theorem resonant_err {p x y P X Y K : ℝ} {a b c : Dbl} (ha : a.val = .fin P) (hb : b.val = .fin X)
    (hc : c.val = .fin Y) (hP : |P - p| ≤ 3 * ur * |p|) (hX : |X - x| ≤ ur * |x|)
    (hY : |Y - y| ≤ ur * |y|) (hres : |x| + |y| ≤ K * |x - y|) (hK0 : 0 ≤ K) (hK : K ≤ 2 ^ 20)
    (hp : p = 0 ∨ Mag 150 |p|) (hd : Mag 100 |x - y|) (hx : |x| ≤ 10 ^ 100) (hy : |y| ≤ 10 ^ 100) :
    ∃ z, (a / (b - c)).val = .fin z ∧ |z - p / (x - y)| ≤ (K + 8) * ur * |p / (x - y)| := by
  have hu := ur_pos
  have hu1 : ur ≤ 1 := by unfold ur; norm_num
  have hdne : x - y ≠ 0 := abs_pos.1 hd.pos
  have big : ∀ {r R : ℝ}, |R - r| ≤ ur * |r| → |r| ≤ 10 ^ 100 → |R| ≤ 10 ^ 200 := by
    intro r R h1 h2
    have := abs_add_le (R - r) r
    rw [sub_add_cancel] at this
    have := mul_le_mul_of_nonneg_right hu1 (abs_nonneg r)
    linarith [show 2 * (10 : ℝ) ^ 100 ≤ 10 ^ 200 by norm_num]
  obtain ⟨D, hD, hD'⟩ := Dbl.sub_err hb hc (big hX hx) (big hY hy)
  have hdiff : |(X - Y) - (x - y)| ≤ K * ur * |x - y| := by
    calc |(X - Y) - (x - y)| = |(X - x) - (Y - y)| := by ring_nf
      _ ≤ |X - x| + |Y - y| := abs_sub _ _
      _ ≤ ur * (|x| + |y|) := by linarith
      _ ≤ ur * (K * |x - y|) := mul_le_mul_of_nonneg_left hres hu.le
      _ = K * ur * |x - y| := by ring
  have hKu : K * ur ≤ 1 := by
    unfold ur
    rw [mul_one_div, div_le_one (by positivity)]
    linarith [show (2 : ℝ) ^ 20 ≤ 2 ^ 53 by norm_num]
  have hDd : |D - (x - y)| ≤ (K + 2) * ur * |x - y| := by
    have h1 := abs_add_le (D - (X - Y)) ((X - Y) - (x - y))
    rw [sub_add_sub_cancel] at h1
    have h2 := abs_add_le ((X - Y) - (x - y)) (x - y)
    rw [sub_add_cancel] at h2
    have h3 : |X - Y| / 2 ^ 53 = ur * |X - Y| := by unfold ur; ring
    have h4 : K * ur * |x - y| ≤ 1 * |x - y| := mul_le_mul_of_nonneg_right hKu (abs_nonneg _)
    have h5 : ur * |X - Y| ≤ ur * (2 * |x - y|) := mul_le_mul_of_nonneg_left (by linarith) hu.le
    linarith
  obtain ⟨q1, q2, q3⟩ := quotient_err hK0 hK hdne hP hDd
  have hD0 : D ≠ 0 := by
    intro h
    rw [h, abs_zero] at q1
    linarith [hd.pos]
  have hval : (a / (b - c)).val = (Dbl.rnd (.fin (P / D))).val := by
    rw [Dbl.val_div, ha, hD, XR.div_fin_of_ne _ hD0]
  have hm : P / D = 0 ∨ Mag 280 |P / D| := by
    rcases hp with rfl | hp
    · left
      have : P = 0 := by simpa using hP
      rw [this, zero_div]
    · right
      have hpd := hp.div hd
      rw [← abs_div] at hpd
      have hsm : (K + 6) * ur ≤ 1 / 2 := by
        unfold ur
        rw [mul_one_div, div_le_div_iff₀ (by positivity) (by positivity)]
        nlinarith
      have h1 := mul_le_mul_of_nonneg_right hsm (abs_nonneg (p / (x - y)))
      have h2 := abs_add_le (P / D - p / (x - y)) (p / (x - y))
      rw [sub_add_cancel] at h2
      have h3 := abs_add_le (p / (x - y) - P / D) (P / D)
      rw [sub_add_cancel, abs_sub_comm] at h3
      exact (hpd.of_bounds (by linarith) (by linarith)).mono (by norm_num)
  obtain ⟨z, z1, z2⟩ := Dbl.rnd_rel hm
  refine ⟨z, hval.trans z1, ?_⟩
  have h1 := abs_add_le (z - P / D) (P / D - p / (x - y))
  rw [sub_add_sub_cancel] at h1
  have h2 := abs_add_le (P / D - p / (x - y)) (p / (x - y))
  rw [sub_add_cancel] at h2
  have hsm : (K + 6) * ur ≤ 1 := by
    unfold ur
    rw [mul_one_div, div_le_one (by positivity)]
    nlinarith
  have h3 := mul_le_mul_of_nonneg_right hsm (abs_nonneg (p / (x - y)))
  have h4 : ur * |P / D| ≤ ur * (2 * |p / (x - y)|) := mul_le_mul_of_nonneg_left (by linarith) hu.le
  linarith

/-- The root of a sum. -/
theorem sqrt_sum_err {r R A m : ℝ} {a : Dbl} (ha : a.val = .fin R) (hr : 0 < r) (hA : r ≤ A)
    (hA' : A ≤ 2 ^ 20 * r) (hAm : A ≤ 10 ^ 150) (hA1 : 1 ≤ 10 ^ 100 * A) (hm : 0 ≤ m)
    (hm' : m ≤ 2 ^ 22) (h : |R - r| ≤ m * ur * A) :
    ∃ z, (PyFloat.sqrt a : Dbl).val = .fin z ∧
      |z - Real.sqrt r| ≤ (m + 2) * ur * (A / Real.sqrt r) := by
  have hu := ur_pos
  have hs := Real.sqrt_pos.2 hr
  have hss := Real.mul_self_sqrt hr.le
  have hE : m * ur * A ≤ r / 2 := by
    have h1 : m * ur * A ≤ m * ur * (2 ^ 20 * r) := mul_le_mul_of_nonneg_left hA' (by positivity)
    have h2 : m * ur * 2 ^ 20 ≤ 1 / 2 := by
      unfold ur
      rw [mul_one_div, div_mul_eq_mul_div, div_le_div_iff₀ (by positivity) (by positivity)]
      nlinarith
    nlinarith
  obtain ⟨b1, b2⟩ := abs_le.1 h
  have hR : r / 2 ≤ R := by linarith
  have hR0 : 0 < R := by linarith
  have hR2 : R ≤ 2 * r := by linarith
  have hmag : Mag 280 |Real.sqrt R| := by
    have hmr : Mag 150 r := by
      constructor
      · have : (1 : ℝ) ≤ 10 ^ 100 * (2 ^ 20 * r) := hA1.trans (mul_le_mul_of_nonneg_left hA' (by positivity))
        rw [inv_le_iff_one_le_mul₀ (by positivity)]
        have h2 : (10 : ℝ) ^ 100 * 2 ^ 20 ≤ 10 ^ 150 := by norm_num
        have h3 := mul_le_mul_of_nonneg_right h2 hr.le
        linarith
      · linarith
    have := (hmr.of_bounds (y := R) (by linarith) (by linarith)).sqrt
    rw [abs_of_nonneg (Real.sqrt_nonneg _)]
    exact this.mono (by norm_num)
  obtain ⟨z, z1, z2⟩ := Dbl.rnd_rel (Or.inr hmag)
  refine ⟨z, ?_, ?_⟩
  · show (Dbl.rnd (PyFloat.sqrt a.val)).val = _
    rw [ha, show (PyFloat.sqrt (XR.fin R) : XR) = if R < 0 then XR.nan else XR.fin (Real.sqrt R) from
      rfl, if_neg (not_lt.2 hR0.le)]
    exact z1
  · have hsR := Real.sqrt_nonneg R
    have hssR := Real.mul_self_sqrt hR0.le
    have h1 : |Real.sqrt R - Real.sqrt r| ≤ m * ur * A / Real.sqrt r := by
      rw [le_div_iff₀ hs]
      have e : (Real.sqrt R - Real.sqrt r) * (Real.sqrt R + Real.sqrt r) = R - r := by
        linear_combination hssR - hss
      have e2 : |Real.sqrt R - Real.sqrt r| * (Real.sqrt R + Real.sqrt r) = |R - r| := by
        rw [← e, abs_mul, abs_of_pos (by linarith : 0 < Real.sqrt R + Real.sqrt r)]
      have := mul_nonneg (abs_nonneg (Real.sqrt R - Real.sqrt r)) hsR
      linarith
    have h2 : Real.sqrt R ≤ 2 * Real.sqrt r := by
      rw [Real.sqrt_le_left (by positivity)]
      nlinarith
    have h3 := abs_add_le (z - Real.sqrt R) (Real.sqrt R - Real.sqrt r)
    rw [sub_add_sub_cancel] at h3
    rw [abs_of_nonneg hsR] at z2
    have h4 : Real.sqrt r ≤ A / Real.sqrt r := by rw [le_div_iff₀ hs, hss]; exact hA
    have h5 : ur * Real.sqrt R ≤ ur * (2 * (A / Real.sqrt r)) :=
      mul_le_mul_of_nonneg_left (by linarith) hu.le
    have h6 : m * ur * A / Real.sqrt r = m * ur * (A / Real.sqrt r) := by ring
    linarith

end

end Disp
