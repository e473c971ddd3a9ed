import Verif.Lemmas.RelativeError
/-!
# `np.round` in binary64
-/

namespace Disp

noncomputable section

/-- Rounding a double to an integer gives a double. -/
theorem double_rint {x : ℝ} (h : IsDouble x) : IsDouble (XR.rint x : ℝ) := by
  obtain ⟨m, e, hm, he1, he2, hx⟩ := h
  rcases le_or_gt 0 e with h0 | h0
  · obtain ⟨k, rfl⟩ := Int.eq_ofNat_of_zero_le h0
    have hi : x = ((m * 2 ^ k : ℤ) : ℝ) := by rw [hx]; push_cast; rw [zpow_natCast]
    have : (XR.rint x : ℝ) = x := by rw [hi, XR.rint_int]
    rw [this]
    exact ⟨m, k, hm, he1, he2, hx⟩
  · refine Dbl.double_int (rint_abs_le ?_)
    rw [hx, abs_mul, abs_of_pos (two_zpow_pos e)]
    have h1 : |(m : ℝ)| < 2 ^ 53 := by exact_mod_cast hm
    have h2 : (2 : ℝ) ^ e ≤ 1 := zpow_le_one_of_nonpos₀ (by norm_num) h0.le
    push_cast
    nlinarith [abs_nonneg (m : ℝ), two_zpow_pos e]

theorem Dbl.isDouble_val {a : Dbl} {x : ℝ} (h : a.val = .fin x) : IsDouble x := by
  obtain ⟨v, hv⟩ := a
  have e : v = .fin x := h
  subst e
  exact hv

theorem Dbl.rint_val {a : Dbl} {x : ℝ} (h : a.val = .fin x) :
    (Dbl.rint a).val = .fin (XR.rint x) := by
  unfold Dbl.rint
  rw [h, XR.round_fin]
  have e : XR.roundDec 0 x = XR.rint x := by simp [XR.roundDec]
  rw [e]
  exact Dbl.rnd_double (double_rint (Dbl.isDouble_val h))

theorem mag_ten (d : ℕ) : Mag d ((10 : ℝ) ^ d) where
  low := by
    have : (1 : ℝ) ≤ 10 ^ d := one_le_pow₀ (by norm_num)
    exact (inv_le_one_of_one_le₀ this).trans this
  high := le_rfl

theorem ten_le {d : ℕ} (hd : d ≤ 15) : (10 : ℤ) ^ d ≤ 2 ^ 53 :=
  (pow_le_pow_right₀ (by norm_num) hd).trans (by norm_num)

/-- Powers of ten are exact. -/
theorem approx_ten {d : ℕ} (hd : d ≤ 15) :
    Approx 0 d (10 ^ d) (Dbl.ofRat (10 ^ d)) := by
  have h : |(10 : ℤ) ^ d| ≤ 2 ^ 53 := by rw [abs_of_pos (by positivity)]; exact ten_le hd
  have := Approx.int (n := 10 ^ d) (k := d) (by push_cast; exact mag_ten d) h
  push_cast at this
  exact this

theorem ten_val {d : ℕ} (hd : d ≤ 15) : (Dbl.ofRat (10 ^ d)).val = .fin (10 ^ d) := by
  have h : |(10 : ℤ) ^ d| ≤ 2 ^ 53 := by rw [abs_of_pos (by positivity)]; exact ten_le hd
  have := Dbl.lit_int h
  push_cast at this
  exact this

/-- A double close enough to a decimal fraction is rounded to the double nearest to the fraction. -/
theorem Approx.round_exact {n k d : ℕ} {a : Dbl} {m : ℕ} (h : Approx n k (m / 10 ^ d) a)
    (hd : d ≤ 15) (hn : n ≤ 99) (hk : k + d ≤ 300) (hm : (n + 1) * (2 * m + 1) < 2 ^ 53) :
    Dbl.round d a = Disp.lit ((m : ℚ) / 10 ^ d) := by
  obtain ⟨⟨z, hz, hnear⟩, -⟩ := h.mul (approx_ten hd) (by omega) hk
  rw [div_mul_cancel₀ _ (by positivity)] at hnear
  have hlt := hnear.abs_sub_lt (by
    have : (((n + 1) * (2 * m + 1) : ℕ) : ℝ) < 2 ^ 53 := by exact_mod_cast hm
    push_cast at this ⊢
    simpa using this)
  have hr : XR.rint z = (m : ℤ) := rint_eq_of_near _ (by simpa using hlt)
  have hv := Dbl.rint_val hz
  unfold Dbl.round
  rw [Dbl.val_div, hv, ten_val hd, XR.div_fin_of_ne _ (by positivity), hr, Dbl.val_lit]
  push_cast
  rfl

/-- The error of rounding to decimals. -/
theorem Approx.round_err {n k d : ℕ} {x : ℝ} {a : Dbl} (h : Approx n k x a)
    (hd : d ≤ 15) (hn : n ≤ 98) (hk : k + d ≤ 300) :
    ∃ r, (Dbl.round d a).val = .fin r ∧
      |r - x| ≤ x * (n + 4) / 2 ^ 53 + (1 / 2 + 1 / 2 ^ 50) / 10 ^ d := by
  obtain ⟨⟨z, hz, hnear⟩, hmag⟩ := h.mul (approx_ten hd) (by omega) hk
  have hx : 0 < x := h.mag.pos
  have hP : (0 : ℝ) < 10 ^ d := by positivity
  have hv := Dbl.rint_val hz
  have e1 := hnear.abs_sub_le (by omega)
  have e2 := XR.rint_sub_le z
  have hz2 := (hnear.half (by omega)).2
  obtain ⟨K, hK⟩ : ∃ K : ℤ, XR.rint z = K := ⟨_, rfl⟩
  rw [hK] at hv e2
  have hK0 : 0 ≤ K := by
    rw [← hK]
    have := XR.rint_mono (x := ((0 : ℤ) : ℝ)) (y := z) (by push_cast; exact hnear.right.le)
    rwa [XR.rint_int] at this
  have hval : (Dbl.round d a).val = (Dbl.rnd (.fin (K / 10 ^ d))).val := by
    unfold Dbl.round
    rw [Dbl.val_div, hv, ten_val hd, XR.div_fin_of_ne _ hP.ne']
  have hKz : (K : ℝ) ≤ z + 1 / 2 := by linarith [(abs_le.1 e2).2]
  -- the last rounding
  have hlast : ∃ r, (Dbl.rnd (.fin (K / 10 ^ d))).val = .fin r ∧
      |r - K / 10 ^ d| ≤ K / 10 ^ d / 2 ^ 53 * 1 := by
    rcases eq_or_lt_of_le hK0 with h0 | h0
    · rw [← h0]
      refine ⟨0, ?_, by simp⟩
      have := Dbl.rnd_double (x := 0) ⟨0, 0, by norm_num, by norm_num, by norm_num, by simp⟩
      simpa using this
    · have hK1 : (1 : ℝ) ≤ K := by exact_mod_cast h0
      have hq0 : (0 : ℝ) < K / 10 ^ d := by positivity
      have hlow : (2 : ℝ) ^ (-1022 : ℤ) ≤ K / 10 ^ d := by
        have h1 : (2 : ℝ) ^ (-1022 : ℤ) ≤ 2 ^ (-53 : ℤ) :=
          zpow_le_zpow_right₀ (by norm_num) (by norm_num)
        have h2 : (10 : ℝ) ^ d ≤ 2 ^ 53 := by exact_mod_cast ten_le hd
        have h3 : (1 : ℝ) / 2 ^ 53 ≤ K / 10 ^ d := by gcongr
        refine h1.trans (le_trans (le_of_eq ?_) h3)
        rw [zpow_neg, one_div]; norm_cast
      have herr := nearest_rel (x := (K : ℝ) / 10 ^ d) (by rwa [abs_of_pos hq0])
      rw [abs_of_pos hq0] at herr
      refine ⟨nearest (K / 10 ^ d), Dbl.rnd_fin ?_, by rwa [mul_one]⟩
      have hn' := Near.nearest hlow
      rw [abs_of_pos hn'.right]
      have b1 := (hn'.half (by norm_num)).2
      have b2 : (K : ℝ) / 10 ^ d ≤ K := div_le_self (by linarith) (one_le_pow₀ (by norm_num))
      have b3 := (hmag.safe hk).2
      have b4 : (1 : ℝ) ≤ 2 ^ 1000 := one_le_pow₀ (by norm_num)
      calc nearest (K / 10 ^ d) ≤ 6 * 2 ^ 1000 := by
            generalize (2 : ℝ) ^ 1000 = B at b3 b4 ⊢
            linarith
        _ < 2 ^ 24 * 2 ^ 1000 := by gcongr; norm_num
        _ = 2 ^ 1024 := by rw [← pow_add]
  obtain ⟨r, hr, hrerr⟩ := hlast
  refine ⟨r, hval.trans hr, ?_⟩
  have t : r - x = (r - K / 10 ^ d) + (K - z) / 10 ^ d + (z - x * 10 ^ d) / 10 ^ d := by
    field_simp; ring
  have a2 : |(K - z) / 10 ^ d| ≤ 1 / 2 / 10 ^ d := by
    rw [abs_div, abs_of_pos hP]; gcongr
  have a3 : |(z - x * 10 ^ d) / 10 ^ d| ≤ x * (n + 2) / 2 ^ 53 := by
    rw [abs_div, abs_of_pos hP, div_le_iff₀ hP]
    refine e1.trans (le_of_eq ?_)
    push_cast; ring
  have a1 : |r - K / 10 ^ d| ≤ x * 2 / 2 ^ 53 + 1 / 2 ^ 50 / 10 ^ d := by
    refine hrerr.trans ?_
    have : (K : ℝ) / 10 ^ d ≤ x * 2 + 1 / 2 / 10 ^ d := by
      rw [div_le_iff₀ hP, add_mul, div_mul_cancel₀ _ hP.ne']
      linarith
    calc (K : ℝ) / 10 ^ d / 2 ^ 53 * 1 = (K : ℝ) / 10 ^ d / 2 ^ 53 := mul_one _
      _ ≤ (x * 2 + 1 / 2 / 10 ^ d) / 2 ^ 53 := by gcongr
      _ = x * 2 / 2 ^ 53 + 1 / 2 ^ 54 / 10 ^ d := by ring
      _ ≤ _ := by gcongr <;> norm_num
  rw [t]
  calc _ ≤ |r - K / 10 ^ d + (K - z) / 10 ^ d| + |(z - x * 10 ^ d) / 10 ^ d| := abs_add_le _ _
    _ ≤ |r - K / 10 ^ d| + |(K - z) / 10 ^ d| + |(z - x * 10 ^ d) / 10 ^ d| := by
      gcongr; exact abs_add_le _ _
    _ ≤ (x * 2 / 2 ^ 53 + 1 / 2 ^ 50 / 10 ^ d) + 1 / 2 / 10 ^ d + x * (n + 2) / 2 ^ 53 := by
      linarith
    _ = _ := by ring

end
end Disp
