import Mathlib.Algebra.Order.Ring.Pow
import Verif.Lemmas.Rounding
/-!
# Relative errors in binary64

`Near n x y`: the positive numbers `x` and `y` differ by at most `n` roundings. `Approx n x a`: the
double `a` differs from `x` by at most `n` roundings.
-/

namespace Disp

noncomputable section

/-- One minus the unit roundoff. -/
def qr : ℝ := 1 - 1 / 2 ^ 53

theorem qr_pos : 0 < qr := by unfold qr; norm_num
theorem qr_le : qr ≤ 1 := by unfold qr; norm_num
theorem qr_pow_pos (n : ℕ) : 0 < qr ^ n := pow_pos qr_pos n
theorem qr_pow_le (n : ℕ) : qr ^ n ≤ 1 := pow_le_one₀ qr_pos.le qr_le

/-- Bernoulli's inequality. -/
theorem qr_pow_ge (n : ℕ) : 1 - n / 2 ^ 53 ≤ qr ^ n := by
  have := one_add_mul_le_pow (a := -(1 / 2 ^ 53 : ℝ)) (by norm_num) n
  unfold qr
  calc 1 - n / 2 ^ 53 = 1 + n * -(1 / 2 ^ 53 : ℝ) := by ring
    _ ≤ (1 + -(1 / 2 ^ 53)) ^ n := this
    _ = _ := by ring

/-- The positive numbers differ by at most `n` roundings. -/
structure Near (n : ℕ) (x y : ℝ) : Prop where
  left : 0 < x
  right : 0 < y
  low : x * qr ^ n ≤ y
  high : y * qr ^ n ≤ x

namespace Near

theorem refl {x : ℝ} (h : 0 < x) : Near 0 x x := ⟨h, h, by simp, by simp⟩

theorem symm {n : ℕ} {x y : ℝ} (h : Near n x y) : Near n y x := ⟨h.right, h.left, h.high, h.low⟩

theorem trans {m n : ℕ} {x y z : ℝ} (h : Near m x y) (h' : Near n y z) : Near (m + n) x z where
  left := h.left
  right := h'.right
  low := by
    rw [pow_add, ← mul_assoc]
    exact (mul_le_mul_of_nonneg_right h.low (qr_pow_pos n).le).trans h'.low
  high := by
    rw [add_comm, pow_add, ← mul_assoc]
    exact (mul_le_mul_of_nonneg_right h'.high (qr_pow_pos m).le).trans h.high

theorem mono {m n : ℕ} {x y : ℝ} (h : Near m x y) (hmn : m ≤ n) : Near n x y where
  left := h.left
  right := h.right
  low := (mul_le_mul_of_nonneg_left (pow_le_pow_of_le_one qr_pos.le qr_le hmn) h.left.le).trans h.low
  high := (mul_le_mul_of_nonneg_left (pow_le_pow_of_le_one qr_pos.le qr_le hmn) h.right.le).trans h.high

theorem mul {m n : ℕ} {x y x' y' : ℝ} (h : Near m x y) (h' : Near n x' y') :
    Near (m + n) (x * x') (y * y') where
  left := mul_pos h.left h'.left
  right := mul_pos h.right h'.right
  low := by
    rw [pow_add, mul_mul_mul_comm]
    exact mul_le_mul h.low h'.low (mul_pos h'.left (qr_pow_pos n)).le h.right.le
  high := by
    rw [pow_add, mul_mul_mul_comm]
    exact mul_le_mul h.high h'.high (mul_pos h'.right (qr_pow_pos n)).le h.left.le

theorem inv {n : ℕ} {x y : ℝ} (h : Near n x y) : Near n x⁻¹ y⁻¹ where
  left := inv_pos.2 h.left
  right := inv_pos.2 h.right
  low := by
    rw [← div_eq_inv_mul, div_le_iff₀ h.left, ← div_eq_inv_mul, le_div_iff₀ h.right, mul_comm]
    exact h.high
  high := by
    rw [← div_eq_inv_mul, div_le_iff₀ h.right, ← div_eq_inv_mul, le_div_iff₀ h.left, mul_comm]
    exact h.low

theorem div {m n : ℕ} {x y x' y' : ℝ} (h : Near m x y) (h' : Near n x' y') :
    Near (m + n) (x / x') (y / y') := by
  rw [div_eq_mul_inv, div_eq_mul_inv]
  exact h.mul h'.inv

/-- The error, if there are not too many roundings. -/
theorem abs_sub_le {n : ℕ} {x y : ℝ} (h : Near n x y) (hn : n ≤ 2 ^ 20) :
    |y - x| ≤ x * (n + 1) / 2 ^ 53 := by
  have hq := qr_pow_ge n
  have hn' : (n : ℝ) ≤ 2 ^ 20 := by exact_mod_cast hn
  have hx := h.left
  have hlow := h.low
  have hhigh := h.high
  have hq' : 0 < 1 - (n : ℝ) / 2 ^ 53 := by
    rw [sub_pos, div_lt_one (by positivity)]
    linarith [show (2 : ℝ) ^ 20 < 2 ^ 53 by norm_num]
  rw [abs_le]
  constructor
  · have : x * (1 - n / 2 ^ 53) ≤ y := (mul_le_mul_of_nonneg_left hq hx.le).trans hlow
    have h2 : x * (n + 1) / 2 ^ 53 = x * (n / 2 ^ 53) + x / 2 ^ 53 := by ring
    have h3 : 0 < x / 2 ^ 53 := by positivity
    rw [h2]
    linarith
  · have h1 : y * (1 - n / 2 ^ 53) ≤ x := (mul_le_mul_of_nonneg_left hq h.right.le).trans hhigh
    -- y ≤ x * (1 + (n+1)/2^53)
    have h4 : x ≤ x * (1 + (n + 1) / 2 ^ 53) * (1 - n / 2 ^ 53) := by
      have : (1 : ℝ) ≤ (1 + (n + 1) / 2 ^ 53) * (1 - n / 2 ^ 53) := by
        have hn0 : (0 : ℝ) ≤ n := Nat.cast_nonneg n
        have hn2 : (n : ℝ) * (n + 1) ≤ 2 ^ 53 := by nlinarith
        have e : (1 + ((n : ℝ) + 1) / 2 ^ 53) * (1 - n / 2 ^ 53) =
            1 + (1 - n * (n + 1) / 2 ^ 53) / 2 ^ 53 := by ring
        rw [e]
        have : (n : ℝ) * (n + 1) / 2 ^ 53 ≤ 1 := by rw [div_le_one (by positivity)]; exact hn2
        have : 0 ≤ (1 - (n : ℝ) * (n + 1) / 2 ^ 53) / 2 ^ 53 :=
          div_nonneg (by linarith) (by positivity)
        linarith
      rw [mul_assoc]
      exact le_mul_of_one_le_right hx.le this
    have h5 : y ≤ x * (1 + (n + 1) / 2 ^ 53) :=
      le_of_mul_le_mul_right (h1.trans h4) hq'
    have h6 : x * (1 + (n + 1) / 2 ^ 53) = x + x * (n + 1) / 2 ^ 53 := by ring
    linarith

/-- The error in a form that is useful for decimal rounding. -/
theorem abs_sub_lt {n : ℕ} {x y : ℝ} (h : Near n x y) (hn : n * (2 * x + 1) < 2 ^ 53) :
    |y - x| < 1 / 2 := by
  have hq := qr_pow_ge n
  have hx := h.left
  have hn0 : (0 : ℝ) ≤ n := Nat.cast_nonneg n
  have hnx : 0 ≤ n * x := mul_nonneg hn0 hx.le
  have hq' : 0 < 1 - (n : ℝ) / 2 ^ 53 := by
    rw [sub_pos, div_lt_one (by positivity)]
    nlinarith
  rw [abs_lt]
  constructor
  · have : x * (1 - n / 2 ^ 53) ≤ y := (mul_le_mul_of_nonneg_left hq hx.le).trans h.low
    have h2 : x * (1 - n / 2 ^ 53) = x - n * x / 2 ^ 53 := by ring
    have h3 : n * x / 2 ^ 53 < 1 / 2 := by
      rw [div_lt_iff₀ (by positivity)]; nlinarith
    linarith
  · have h1 : y * (1 - n / 2 ^ 53) ≤ x := (mul_le_mul_of_nonneg_left hq h.right.le).trans h.high
    have h4 : x < (x + 1 / 2) * (1 - n / 2 ^ 53) := by
      have e : (x + 1 / 2) * (1 - n / 2 ^ 53) = x + 1 / 2 * (1 - n * (2 * x + 1) / 2 ^ 53) := by ring
      have : n * (2 * x + 1) / 2 ^ 53 < 1 := by rw [div_lt_one (by positivity)]; exact hn
      rw [e]; linarith
    have := lt_of_mul_lt_mul_right (h1.trans_lt h4) hq'.le
    linarith

/-- Rounding. -/
theorem nearest {x : ℝ} (h : (2 : ℝ) ^ (-1022 : ℤ) ≤ x) : Near 1 x (nearest x) := by
  have hx : 0 < x := (two_zpow_pos _).trans_le h
  have h1 := nearest_rel (x := x) (by rwa [abs_of_pos hx])
  rw [abs_of_pos hx, abs_le] at h1
  have hq : qr = 1 - 1 / 2 ^ 53 := rfl
  have h2 : x * qr = x - x / 2 ^ 53 := by rw [hq]; ring
  have hlow : x * qr ≤ Disp.nearest x := by linarith [h1.1]
  refine ⟨hx, (mul_pos hx qr_pos).trans_le hlow, by rwa [pow_one], ?_⟩
  rw [pow_one]
  have h3 : Disp.nearest x ≤ x * (1 + 1 / 2 ^ 53) := by
    have e : x * (1 + 1 / 2 ^ 53) = x + x / 2 ^ 53 := by ring
    linarith [h1.2]
  calc Disp.nearest x * qr ≤ x * (1 + 1 / 2 ^ 53) * qr := mul_le_mul_of_nonneg_right h3 qr_pos.le
    _ = x * (1 - (1 / 2 ^ 53) ^ 2) := by rw [hq]; ring
    _ ≤ x * 1 := mul_le_mul_of_nonneg_left (by norm_num) hx.le
    _ = x := mul_one x

/-- Few roundings do not change the order of magnitude. -/
theorem half {n : ℕ} {x y : ℝ} (h : Near n x y) (hn : n ≤ 100) : x / 2 ≤ y ∧ y ≤ 2 * x := by
  have hq := qr_pow_ge n
  have hn' : (n : ℝ) ≤ 100 := by exact_mod_cast hn
  have hq' : (1 : ℝ) / 2 ≤ qr ^ n := by
    refine le_trans ?_ hq
    have : (n : ℝ) / 2 ^ 53 ≤ 100 / 2 ^ 53 := by gcongr
    linarith [show (100 : ℝ) / 2 ^ 53 ≤ 1 / 2 by norm_num]
  have h1 := mul_le_mul_of_nonneg_left hq' h.left.le
  have h2 := mul_le_mul_of_nonneg_left hq' h.right.le
  constructor
  · linarith [h.low]
  · linarith [h.high]

end Near

/-! ### Magnitudes -/

/-- The number lies between `10^-k` and `10^k`. -/
structure Mag (k : ℕ) (x : ℝ) : Prop where
  low : ((10 : ℝ) ^ k)⁻¹ ≤ x
  high : x ≤ 10 ^ k

namespace Mag

theorem pos {k : ℕ} {x : ℝ} (h : Mag k x) : 0 < x := lt_of_lt_of_le (by positivity) h.low

theorem mono {j k : ℕ} {x : ℝ} (h : Mag j x) (hjk : j ≤ k) : Mag k x where
  low := le_trans (by gcongr; norm_num) h.low
  high := h.high.trans (by gcongr; norm_num)

theorem mul {j k : ℕ} {x y : ℝ} (h : Mag j x) (h' : Mag k y) : Mag (j + k) (x * y) where
  low := by
    rw [pow_add, mul_inv]
    exact mul_le_mul h.low h'.low (by positivity) h.pos.le
  high := by
    rw [pow_add]
    exact mul_le_mul h.high h'.high h'.pos.le (by positivity)

theorem inv {k : ℕ} {x : ℝ} (h : Mag k x) : Mag k x⁻¹ where
  low := inv_anti₀ h.pos h.high
  high := by
    have := inv_anti₀ (by positivity) h.low
    rwa [inv_inv] at this

theorem div {j k : ℕ} {x y : ℝ} (h : Mag j x) (h' : Mag k y) : Mag (j + k) (x / y) := by
  rw [div_eq_mul_inv]; exact h.mul h'.inv

theorem ten_two : (10 : ℝ) ^ 300 ≤ 2 ^ 1000 := by
  rw [show 300 = 3 * 100 by norm_num, show 1000 = 10 * 100 by norm_num, pow_mul, pow_mul]
  gcongr
  norm_num

theorem safe {k : ℕ} {x : ℝ} (h : Mag k x) (hk : k ≤ 300) :
    (2 : ℝ) ^ (-1000 : ℤ) ≤ x ∧ x ≤ 2 ^ 1000 := by
  have h' := h.mono hk
  constructor
  · refine le_trans ?_ h'.low
    rw [zpow_neg]
    refine inv_anti₀ (by positivity) ?_
    rw [show ((2 : ℝ) ^ (1000 : ℤ)) = 2 ^ (1000 : ℕ) from zpow_natCast 2 1000]
    exact ten_two
  · exact h'.high.trans ten_two

end Mag

/-- Rounding a number of a safe magnitude. -/
theorem Dbl.rnd_near {n k : ℕ} {x y : ℝ} (h : Near n x y) (hm : Mag k x) (hn : n ≤ 99)
    (hk : k ≤ 300) : ∃ z, (Dbl.rnd (.fin y)).val = .fin z ∧ Near (n + 1) x z := by
  obtain ⟨h1, h2⟩ := hm.safe hk
  obtain ⟨h3, h4⟩ := h.half (by omega)
  have hy : (2 : ℝ) ^ (-1022 : ℤ) ≤ y := by
    refine le_trans ?_ h3
    have e : (2 : ℝ) ^ (-1000 : ℤ) / 2 = 2 ^ (-1001 : ℤ) := by
      rw [show (-1000 : ℤ) = -1001 + 1 by norm_num, zpow_add_one₀ (by norm_num)]; ring
    have : (2 : ℝ) ^ (-1022 : ℤ) ≤ 2 ^ (-1001 : ℤ) := zpow_le_zpow_right₀ (by norm_num) (by norm_num)
    linarith
  have hr := Near.nearest hy
  obtain ⟨-, h5⟩ := hr.half (by norm_num)
  refine ⟨_, Dbl.rnd_fin ?_, h.trans hr⟩
  rw [abs_of_pos hr.right]
  calc nearest y ≤ 2 * (2 * 2 ^ 1000) := by linarith
    _ = 2 ^ 1002 := by rw [pow_add 2 1000 2]; ring
    _ < 2 ^ 1024 := by gcongr <;> norm_num

/-- The double approximates the number of magnitude at most `10^±k` with at most `n` roundings. -/
structure Approx (n k : ℕ) (x : ℝ) (a : Dbl) : Prop where
  near : ∃ y, a.val = .fin y ∧ Near n x y
  mag : Mag k x

namespace Approx

theorem mono {m n j k : ℕ} {x : ℝ} {a : Dbl} (h : Approx m j x a) (hn : m ≤ n) (hk : j ≤ k) :
    Approx n k x a := by
  obtain ⟨⟨y, h1, h2⟩, h3⟩ := h
  exact ⟨⟨y, h1, h2.mono hn⟩, h3.mono hk⟩

theorem mul {m n j k : ℕ} {x z : ℝ} {a b : Dbl} (ha : Approx m j x a) (hb : Approx n k z b)
    (hn : m + n ≤ 99) (hk : j + k ≤ 300) : Approx (m + n + 1) (j + k) (x * z) (a * b) := by
  obtain ⟨⟨y, h1, h2⟩, h3⟩ := ha
  obtain ⟨⟨y', h1', h2'⟩, h3'⟩ := hb
  refine ⟨?_, h3.mul h3'⟩
  rw [Dbl.val_mul, h1, h1', XR.mul_fin]
  exact Dbl.rnd_near (h2.mul h2') (h3.mul h3') hn hk

theorem div {m n j k : ℕ} {x z : ℝ} {a b : Dbl} (ha : Approx m j x a) (hb : Approx n k z b)
    (hn : m + n ≤ 99) (hk : j + k ≤ 300) : Approx (m + n + 1) (j + k) (x / z) (a / b) := by
  obtain ⟨⟨y, h1, h2⟩, h3⟩ := ha
  obtain ⟨⟨y', h1', h2'⟩, h3'⟩ := hb
  refine ⟨?_, h3.div h3'⟩
  rw [Dbl.val_div, h1, h1', XR.div_fin_of_ne _ h2'.right.ne']
  exact Dbl.rnd_near (h2.div h2') (h3.div h3') hn hk

theorem lit {q : ℚ} {k : ℕ} (h : Mag k (q : ℝ)) (hk : k ≤ 300) :
    Approx 1 k q (PyFloat.lit q : Dbl) :=
  ⟨by rw [Dbl.val_lit]; exact Dbl.rnd_near (Near.refl h.pos) h (by norm_num) hk, h⟩

theorem int {n : ℤ} {k : ℕ} (h : Mag k (n : ℝ)) (hn : |n| ≤ 2 ^ 53) :
    Approx 0 k n (PyFloat.lit (n : ℚ) : Dbl) :=
  ⟨⟨n, Dbl.lit_int hn, Near.refl h.pos⟩, h⟩

theorem exact {x : ℝ} {k : ℕ} {a : Dbl} (ha : a.val = .fin x) (h : Mag k x) : Approx 0 k x a :=
  ⟨⟨x, ha, Near.refl h.pos⟩, h⟩

theorem pi : Approx 1 1 Real.pi (PyFloat.pi : Dbl) := by
  have h : Mag 1 Real.pi := ⟨by linarith [Real.two_le_pi, show ((10 : ℝ) ^ 1)⁻¹ ≤ 2 by norm_num],
    by linarith [Real.pi_le_four, show (4 : ℝ) ≤ 10 ^ 1 by norm_num]⟩
  exact ⟨Dbl.rnd_near (Near.refl h.pos) h (by norm_num) (by norm_num), h⟩

end Approx
end
end Disp
