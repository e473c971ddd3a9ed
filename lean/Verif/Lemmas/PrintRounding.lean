import Verif.Props.NumpyText
/-!
# Decimal rounding of doubles

Rounding to eight decimals or nine significant digits, followed by rounding to a double.
-/

namespace Disp

noncomputable section

theorem nearest_neg (x : ℝ) : nearest (-x) = -nearest x := by
  unfold nearest ulpExp
  rw [abs_neg, neg_div, rint_neg]
  push_cast
  ring

theorem roundDec_neg (d : ℕ) (x : ℝ) : XR.roundDec d (-x) = -XR.roundDec d x := by
  unfold XR.roundDec
  rw [neg_mul, rint_neg]
  push_cast
  ring

/-- A number that is as coarse as the last place is not moved by eight decimals. -/
theorem drift_coarse {t : ℝ} {m e : ℤ} (he : -26 ≤ e) (h1 : (2 : ℝ) ^ 52 ≤ m) (h2 : (m : ℝ) ≤ 2 ^ 53)
    (ht : t = m * 2 ^ e) : nearest (XR.roundDec 8 t) = t := by
  have hp := two_zpow_pos e
  have hint : ∀ n : ℕ, e + n ≥ 0 → XR.roundDec 8 ((2 : ℝ) ^ (e + n)) = 2 ^ (e + n) := by
    intro n hn
    obtain ⟨k, hk⟩ := Int.eq_ofNat_of_zero_le hn
    refine XR.roundDec_eq_of_int 8 (2 ^ k * 10 ^ 8) ?_
    rw [hk]
    push_cast
    rw [zpow_natCast]
    norm_num
  have e52 : (2 : ℝ) ^ (e + 52) = 2 ^ 52 * 2 ^ e := by
    rw [zpow_add₀ (by norm_num), mul_comm]; norm_cast
  have e53 : (2 : ℝ) ^ (e + 53) = 2 ^ 53 * 2 ^ e := by
    rw [zpow_add₀ (by norm_num), mul_comm]; norm_cast
  rcases eq_or_lt_of_le h1 with h1 | h1
  · have ht' : t = 2 ^ (e + 52) := by rw [ht, e52, ← h1]
    have := hint 52 (by omega)
    rw [ht', show e + 52 = e + (52 : ℕ) by norm_num, this, show e + ((52 : ℕ) : ℤ) = e + 52 by norm_num]
    rw [nearest_eq (2 ^ 52) e (by omega) le_rfl (zpow_lt_zpow_right₀ (by norm_num) (by omega)) (by
      rw [e52, mul_div_assoc, div_self hp.ne']; norm_num), e52]
    norm_num
  rcases eq_or_lt_of_le h2 with h2 | h2
  · have ht' : t = 2 ^ (e + 53) := by rw [ht, e53, ← h2]
    have := hint 53 (by omega)
    rw [ht', show e + 53 = e + (53 : ℕ) by norm_num, this, show e + ((53 : ℕ) : ℤ) = e + 1 + 52 by push_cast; ring]
    have e1 : (2 : ℝ) ^ (e + 1 + 52) = 2 ^ 52 * 2 ^ (e + 1) := by
      rw [zpow_add₀ (by norm_num) (e + 1), mul_comm]; norm_cast
    rw [nearest_eq (2 ^ 52) (e + 1) (by omega) le_rfl
      (zpow_lt_zpow_right₀ (by norm_num) (by omega)) (by
      rw [e1, mul_div_assoc, div_self (two_zpow_pos _).ne']; norm_num), e1]
    norm_num
  · have m1 : (2 : ℝ) ^ 52 + 1 ≤ m := by
      have : (2 : ℤ) ^ 52 < m := by exact_mod_cast h1
      have : (2 : ℤ) ^ 52 + 1 ≤ m := this
      exact_mod_cast this
    have m2 : (m : ℝ) ≤ 2 ^ 53 - 1 := by
      have : m < (2 : ℤ) ^ 53 := by exact_mod_cast h2
      have : m ≤ (2 : ℤ) ^ 53 - 1 := by omega
      exact_mod_cast this
    have hs := XR.roundDec_sub_le 8 t
    have hu : (1 : ℝ) / 2 / 10 ^ 8 < 2 ^ e / 2 := by
      have : (2 : ℝ) ^ (-26 : ℤ) ≤ 2 ^ e := zpow_le_zpow_right₀ (by norm_num) he
      have h26 : (2 : ℝ) ^ (-26 : ℤ) = 1 / 2 ^ 26 := by
        rw [zpow_neg, one_div]; norm_cast
      rw [h26] at this
      norm_num at this ⊢
      linarith
    rw [abs_le] at hs
    have a1 : 2 ^ 52 * (2 : ℝ) ^ e + 2 ^ e ≤ t := by
      have := mul_le_mul_of_nonneg_right m1 hp.le
      rw [ht]; linarith
    have a2 : t ≤ 2 ^ 53 * (2 : ℝ) ^ e - 2 ^ e := by
      have := mul_le_mul_of_nonneg_right m2 hp.le
      rw [ht]; linarith
    rw [nearest_eq m e (by omega) (by rw [e52]; linarith) (by rw [e53]; linarith) ?_, ht]
    have : XR.roundDec 8 t / 2 ^ e - m = (XR.roundDec 8 t - t) / 2 ^ e := by
      rw [sub_div, ht, mul_div_assoc, div_self hp.ne', mul_one]
    rw [this, abs_div, abs_of_pos hp, div_lt_iff₀ hp, abs_lt]
    constructor <;> linarith

/-- The double nearest to a number with eight decimals is written with these decimals, or denotes
itself. -/
theorem drift_decimals (k : ℤ) :
    nearest (XR.roundDec 8 (nearest (k / 10 ^ 8))) = nearest (k / 10 ^ 8) := by
  wlog hk : 0 ≤ k generalizing k
  · have := this (-k) (by omega)
    push_cast at this
    rw [neg_div, nearest_neg, roundDec_neg, nearest_neg] at this
    exact neg_injective this
  rcases eq_or_lt_of_le hk with rfl | hk
  · simp [nearest_zero, XR.roundDec_zero]
  have ht : (0 : ℝ) < k / 10 ^ 8 := by
    have : (0 : ℝ) < k := by exact_mod_cast hk
    positivity
  generalize htt : (k / 10 ^ 8 : ℝ) = t at ht ⊢
  by_cases hc : |nearest t * 10 ^ 8 - k| < 1 / 2
  · rw [XR.roundDec_eq_of_near 8 k hc, htt]
  have herr := nearest_err t
  have h1 : (1 : ℝ) ≤ 2 ^ ulpExp t * 10 ^ 8 := by
    have e : nearest t * 10 ^ 8 - k = (nearest t - t) * 10 ^ 8 := by
      rw [← htt]; field_simp
    rw [e, abs_mul, abs_of_pos (by positivity : (0 : ℝ) < 10 ^ 8)] at hc
    have := mul_le_mul_of_nonneg_right herr (by positivity : (0 : ℝ) ≤ 10 ^ 8)
    linarith
  have hE : -26 ≤ ulpExp t := by
    by_contra hlt
    have : (2 : ℝ) ^ ulpExp t ≤ 2 ^ (-27 : ℤ) := zpow_le_zpow_right₀ (by norm_num) (by omega)
    have h27 : (2 : ℝ) ^ (-27 : ℤ) = 1 / 2 ^ 27 := by
      rw [zpow_neg, one_div]; norm_cast
    rw [h27] at this
    have := mul_le_mul_of_nonneg_right this (by positivity : (0 : ℝ) ≤ 10 ^ 8)
    norm_num at this h1
    linarith
  have hL : ulpExp t = Int.log 2 |t| - 52 := by
    unfold ulpExp at hE ⊢
    rcases le_total (Int.log 2 |t| - 52) (-1074) with h | h
    · rw [max_eq_right h] at hE; omega
    · exact max_eq_left h
  have hp := two_zpow_pos (ulpExp t)
  have hlo : (2 : ℝ) ^ 52 ≤ t / 2 ^ ulpExp t := by
    rw [le_div_iff₀ hp]
    have := Int.zpow_log_le_self (b := 2) (R := ℝ) (by norm_num) (abs_pos.2 ht.ne')
    have h3 : Int.log 2 |t| = ulpExp t + 52 := by omega
    rw [h3, abs_of_pos ht] at this
    push_cast at this
    rw [zpow_add₀ (by norm_num), mul_comm] at this
    exact_mod_cast this
  have hhi : t / 2 ^ ulpExp t ≤ 2 ^ 53 := (le_abs_self _).trans (scaled_lt t).le
  have r1 := XR.rint_mono (show (((2 ^ 52 : ℤ)) : ℝ) ≤ t / 2 ^ ulpExp t by exact_mod_cast hlo)
  have r2 := XR.rint_mono (show t / 2 ^ ulpExp t ≤ (((2 ^ 53 : ℤ)) : ℝ) by exact_mod_cast hhi)
  rw [XR.rint_int] at r1 r2
  exact drift_coarse hE (by exact_mod_cast r1) (by exact_mod_cast r2) rfl

/-! ## Nine digits -/

/-- Rounding to nine significant digits. -/
theorem nineDigits_eq (x : ℝ) : nineDigits x =
    (XR.rint (x / 10 ^ (Int.log 10 |x| - 8)) : ℝ) * 10 ^ (Int.log 10 |x| - 8) := by
  have h1 : nineDigits x = (XR.rint (x / 10 ^ (decExp x - 8)) : ℝ) * 10 ^ (decExp x - 8) := by
    rw [nineDigits, significand, sign_rint x (ten_zpow_pos _)]
  rw [h1]
  unfold decExp
  split
  · rename_i h
    have e : Int.log 10 |x| + 1 - 8 = Int.log 10 |x| - 8 + 1 := by ring
    generalize hu : (10 : ℝ) ^ (Int.log 10 |x| - 8) = u at h ⊢
    have hup : 0 < u := hu ▸ ten_zpow_pos _
    rw [e, zpow_add_one₀ (by norm_num), hu]
    have h3 := XR.rint_sub_le (|x| / u)
    rw [h, abs_le] at h3
    have key : XR.rint (|x| / (u * 10)) = 10 ^ 8 := by
      refine rint_eq_of_near (10 ^ 8) ?_
      rw [← div_div, abs_lt]
      push_cast at h3 ⊢
      have := log_bounds (x := x) (by rintro rfl; simp at h3; norm_num at h3)
      rw [hu] at this
      constructor <;> linarith
    rcases le_or_gt 0 x with hx | hx
    · rw [abs_of_nonneg hx] at h key
      rw [h, key]; push_cast; ring
    · rw [abs_of_neg hx, neg_div, rint_neg] at h key
      have a : XR.rint (x / u) = -10 ^ 9 := by omega
      have b : XR.rint (x / (u * 10)) = -10 ^ 8 := by omega
      rw [a, b]; push_cast; ring
  · rfl

theorem nineDigits_neg (x : ℝ) : nineDigits (-x) = -nineDigits x := by
  rw [nineDigits_eq, nineDigits_eq, abs_neg, neg_div, rint_neg]
  push_cast
  ring

theorem nineDigits_zero : nineDigits 0 = 0 := by
  simp [nineDigits, significand_zero]

/-- The double nearest to a number with nine significant digits is written with these digits. -/
theorem drift_digits {j q : ℤ} (h1 : 10 ^ 8 ≤ j) (h2 : j < 10 ^ 9)
    (hn : (2 : ℝ) ^ (-1022 : ℤ) ≤ j * 10 ^ q) :
    nineDigits (nearest (j * 10 ^ q)) = j * 10 ^ q := by
  have hq := ten_zpow_pos q
  have hj1 : (10 : ℝ) ^ 8 ≤ j := by exact_mod_cast h1
  have hj2 : (j : ℝ) ≤ 10 ^ 9 - 1 := by
    have : j ≤ 10 ^ 9 - 1 := by omega
    exact_mod_cast this
  have hs : (0 : ℝ) < j * 10 ^ q := by positivity
  have herr := nearest_rel (x := j * 10 ^ q) (by rwa [abs_of_pos hs])
  rw [abs_of_pos hs] at herr
  generalize nearest (j * 10 ^ q) = z at herr ⊢
  have h53 : (j * 10 ^ q : ℝ) / 2 ^ 53 = j / 2 ^ 53 * 10 ^ q := by ring
  rw [h53, abs_le] at herr
  have hz0 : 0 < z := by
    have : (j : ℝ) / 2 ^ 53 * 10 ^ q < j * 10 ^ q := by
      refine mul_lt_mul_of_pos_right ?_ hq
      rw [div_lt_iff₀ (by positivity)]
      nlinarith
    linarith
  have hj53 : (j : ℝ) / 2 ^ 53 ≤ 1 / 100 := by
    rw [div_le_iff₀ (by positivity)]
    norm_num at hj2 ⊢
    linarith
  have hzj : |z / 10 ^ q - j| ≤ j / 2 ^ 53 := by
    rw [abs_le]
    constructor
    · rw [neg_le_sub_iff_le_add, ← sub_le_iff_le_add, le_div_iff₀ hq, sub_mul]; linarith
    · rw [sub_le_iff_le_add, div_le_iff₀ hq, add_mul]; linarith
  rw [nineDigits_eq, abs_of_pos hz0]
  by_cases hlow : (10 : ℝ) ^ 8 * 10 ^ q ≤ z
  · have hL : Int.log 10 z = q + 8 := by
      have a1 := (Int.zpow_le_iff_le_log (b := 10) (x := q + 8) (R := ℝ) (by norm_num) hz0).1 (by
        push_cast
        rw [zpow_add₀ (by norm_num), mul_comm]
        exact_mod_cast hlow)
      have a2 := (Int.lt_zpow_iff_log_lt (b := 10) (x := q + 9) (R := ℝ) (by norm_num) hz0).1 (by
        push_cast
        rw [zpow_add₀ (by norm_num), mul_comm]
        have : z < 10 ^ 9 * 10 ^ q := by
          rw [← div_lt_iff₀ hq]
          have := (abs_le.1 hzj).2
          linarith
        exact_mod_cast this)
      omega
    rw [hL, show q + 8 - 8 = q by ring, rint_eq_of_near j (by linarith)]
  · rw [not_le, ← div_lt_iff₀ hq] at hlow
    have hj : j = 10 ^ 8 := by
      have := (abs_le.1 hzj).1
      have : (j : ℝ) < 10 ^ 8 + 1 := by linarith
      have : j < 10 ^ 8 + 1 := by exact_mod_cast this
      omega
    subst hj
    have hzq := hlow
    push_cast at hzj hj53
    have hlo := (abs_le.1 hzj).1
    have hL : Int.log 10 z = q + 7 := by
      have a1 := (Int.zpow_le_iff_le_log (b := 10) (x := q + 7) (R := ℝ) (by norm_num) hz0).1 (by
        push_cast
        rw [zpow_add₀ (by norm_num), mul_comm]
        have : 10 ^ 7 * 10 ^ q ≤ z := by
          rw [← le_div_iff₀ hq]
          linarith
        exact_mod_cast this)
      have a2 := (Int.lt_zpow_iff_log_lt (b := 10) (x := q + 8) (R := ℝ) (by norm_num) hz0).1 (by
        push_cast
        rw [zpow_add₀ (by norm_num), mul_comm]
        have : z < 10 ^ 8 * 10 ^ q := by
          rw [← div_lt_iff₀ hq]; exact hzq
        exact_mod_cast this)
      omega
    have e : (10 : ℝ) ^ (q + 7 - 8) = 10 ^ q / 10 := by
      rw [show q + 7 - 8 = q - 1 by ring, zpow_sub_one₀ (by norm_num)]; ring
    rw [hL, e, rint_eq_of_near (10 ^ 9) ?_]
    · push_cast; ring
    · rw [div_div_eq_mul_div, mul_comm z, mul_div_assoc, abs_lt]
      push_cast
      norm_num at hzq hlo ⊢
      constructor <;> linarith

end

end Disp
