import Verif.Props.DoublePassive
/-!
# Rounding to doubles is monotone
-/

namespace Disp

theorem ulpExp_mono {x y : ℝ} (h0 : 0 < x) (h : x ≤ y) : ulpExp x ≤ ulpExp y := by
  unfold ulpExp
  rw [abs_of_pos h0, abs_of_pos (h0.trans_le h)]
  have := Int.log_mono_right (b := 2) h0 h
  omega

/-- A number is below the next power of two of its unit. -/
theorem lt_ulp {x : ℝ} (h0 : 0 < x) : x < 2 ^ (ulpExp x + 53) := by
  have h1 := Int.lt_zpow_succ_log_self (b := 2) (by norm_num) x
  have h2 : (x : ℝ) < 2 ^ (Int.log 2 x + 1) := by exact_mod_cast h1
  refine h2.trans_le (zpow_le_zpow_right₀ (by norm_num) ?_)
  unfold ulpExp
  rw [abs_of_pos h0]
  omega

theorem nearest_mono_pos {x y : ℝ} (h0 : 0 < x) (h : x ≤ y) : nearest x ≤ nearest y := by
  have hy := h0.trans_le h
  rcases (ulpExp_mono h0 h).eq_or_lt with he | he
  · unfold nearest
    rw [he]
    refine mul_le_mul_of_nonneg_right ?_ (two_zpow_pos _).le
    exact_mod_cast XR.rint_mono (div_le_div_of_nonneg_right h (two_zpow_pos _).le)
  · -- a power of two lies between
    have hmid : (2 : ℝ) ^ (ulpExp x + 53) ≤ 2 ^ (ulpExp y + 52) :=
      zpow_le_zpow_right₀ (by norm_num) (by omega)
    have hlog : ulpExp y = Int.log 2 y - 52 := by
      have h1 : -1074 ≤ ulpExp x := le_max_right _ _
      unfold ulpExp at he h1 ⊢
      rw [abs_of_pos hy] at *
      omega
    have hbig : (2 : ℝ) ^ (ulpExp y + 52) ≤ y := by
      have := Int.zpow_log_le_self (b := 2) (by norm_num) hy
      have e : ulpExp y + 52 = Int.log 2 y := by omega
      rw [e]; exact_mod_cast this
    have hx : nearest x ≤ 2 ^ (ulpExp x + 53) := by
      have h1 : x / 2 ^ ulpExp x ≤ ((2 ^ 53 : ℤ) : ℝ) := by
        rw [div_le_iff₀ (two_zpow_pos _)]
        have := (lt_ulp h0).le
        rw [add_comm, zpow_add₀ (by norm_num)] at this
        exact_mod_cast this
      have h2 := XR.rint_mono h1
      rw [XR.rint_int] at h2
      unfold nearest
      rw [add_comm, zpow_add₀ (by norm_num)]
      refine mul_le_mul_of_nonneg_right ?_ (two_zpow_pos _).le
      exact_mod_cast h2
    have hy' : 2 ^ (ulpExp y + 52) ≤ nearest y := by
      have h1 : ((2 ^ 52 : ℤ) : ℝ) ≤ y / 2 ^ ulpExp y := by
        rw [le_div_iff₀ (two_zpow_pos _)]
        rw [add_comm, zpow_add₀ (by norm_num)] at hbig
        exact_mod_cast hbig
      have h2 := XR.rint_mono h1
      rw [XR.rint_int] at h2
      unfold nearest
      rw [add_comm, zpow_add₀ (by norm_num)]
      refine mul_le_mul_of_nonneg_right ?_ (two_zpow_pos _).le
      exact_mod_cast h2
    exact hx.trans (hmid.trans hy')

/-- Rounding to doubles is monotone. -/
theorem nearest_mono {x y : ℝ} (h : x ≤ y) : nearest x ≤ nearest y := by
  rcases lt_or_ge 0 x with h0 | h0
  · exact nearest_mono_pos h0 h
  · rcases lt_or_ge y 0 with h1 | h1
    · have := nearest_mono_pos (neg_pos.2 h1) (neg_le_neg h)
      rw [nearest_neg, nearest_neg] at this
      linarith
    · exact (nearest_np h0).trans (nearest_nn h1)

end Disp
