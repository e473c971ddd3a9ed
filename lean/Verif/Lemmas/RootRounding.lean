import Verif.Lemmas.InterpRounding
/-!
# Sums, roots and products of doubles
-/

namespace Disp

noncomputable section

/-- Rounding a sum of two numbers, each up to some roundings. -/
theorem Near.add {n : ℕ} {x y x' y' : ℝ} (h : Near n x y) (h' : Near n x' y') :
    Near n (x + x') (y + y') where
  left := add_pos h.left h'.left
  right := add_pos h.right h'.right
  low := by rw [add_mul]; exact add_le_add h.low h'.low
  high := by rw [add_mul]; exact add_le_add h.high h'.high

theorem Near.sqrt {n : ℕ} {x y : ℝ} (h : Near n x y) : Near n (Real.sqrt x) (Real.sqrt y) := by
  have key : ∀ {a b : ℝ}, 0 < a → a * qr ^ n ≤ b → Real.sqrt a * qr ^ n ≤ Real.sqrt b := by
    intro a b ha hab
    have hq : qr ^ n ≤ Real.sqrt (qr ^ n) := by
      refine Real.le_sqrt_of_sq_le ?_
      have := qr_pow_le n
      have := qr_pow_pos n
      nlinarith
    calc Real.sqrt a * qr ^ n ≤ Real.sqrt a * Real.sqrt (qr ^ n) :=
          mul_le_mul_of_nonneg_left hq (Real.sqrt_nonneg _)
      _ = Real.sqrt (a * qr ^ n) := (Real.sqrt_mul ha.le _).symm
      _ ≤ Real.sqrt b := Real.sqrt_le_sqrt hab
  exact ⟨Real.sqrt_pos.2 h.left, Real.sqrt_pos.2 h.right, key h.left h.low, key h.right h.high⟩

theorem Mag.sqrt {k : ℕ} {x : ℝ} (h : Mag k x) : Mag k (Real.sqrt x) := by
  have h1 : (1 : ℝ) ≤ 10 ^ k := one_le_pow₀ (by norm_num)
  constructor
  · refine Real.le_sqrt_of_sq_le (le_trans ?_ h.low)
    have h2 : ((10 : ℝ) ^ k)⁻¹ ≤ 1 := inv_le_one_of_one_le₀ h1
    have h3 : 0 < ((10 : ℝ) ^ k)⁻¹ := by positivity
    nlinarith
  · refine Real.sqrt_le_iff.2 ⟨by positivity, h.high.trans ?_⟩
    nlinarith

theorem Mag.add {k : ℕ} {x y : ℝ} (h : Mag k x) (h0 : 0 ≤ y) (hy : y ≤ 10 ^ k) :
    Mag (k + 1) (x + y) where
  low := by
    refine le_trans ?_ (le_trans h.low (le_add_of_nonneg_right h0))
    refine inv_anti₀ (by positivity) ?_
    gcongr <;> norm_num
  high := by
    have := h.high
    rw [pow_succ]
    nlinarith [show (0 : ℝ) < 10 ^ k by positivity]

/-- The sum of a double that is zero or positive and an approximation. -/
theorem Approx.addNonneg {n k : ℕ} {x z : ℝ} {a b : Dbl} (ha : a.val = .fin x) (hx : 0 ≤ x)
    (hxk : x ≤ 10 ^ k) (hb : Approx n k z b) (hn : n ≤ 99) (hk : k + 1 ≤ 300) :
    Approx (n + 1) (k + 1) (x + z) (a + b) := by
  obtain ⟨⟨y, h1, h2⟩, h3⟩ := hb
  have hm : Mag (k + 1) (x + z) := by rw [add_comm x]; exact h3.add hx hxk
  refine ⟨?_, hm⟩
  show ∃ w, (Dbl.rnd (a.val + b.val)).val = .fin w ∧ _
  rw [ha, h1, XR.add_fin]
  refine Dbl.rnd_near ?_ hm hn hk
  rcases hx.eq_or_lt with rfl | hx
  · rw [zero_add, zero_add]; exact h2
  · exact ((Near.refl hx).mono (Nat.zero_le n)).add h2

theorem Approx.sqrt {n k : ℕ} {x : ℝ} {a : Dbl} (ha : Approx n k x a) (hn : n ≤ 99) (hk : k ≤ 300) :
    Approx (n + 1) k (Real.sqrt x) (Dbl.sqrt a) := by
  obtain ⟨⟨y, h1, h2⟩, h3⟩ := ha
  refine ⟨?_, h3.sqrt⟩
  show ∃ w, (Dbl.rnd (PyFloat.sqrt a.val)).val = .fin w ∧ _
  rw [h1, show (PyFloat.sqrt (XR.fin y) : XR) = if y < 0 then XR.nan else XR.fin (Real.sqrt y) from rfl,
    if_neg (not_lt.2 h2.right.le)]
  exact Dbl.rnd_near h2.sqrt h3.sqrt hn hk

theorem hypot_mag {x y : ℝ} (hx : Ordinary x) (hy : Ordinary y) (h0 : x ≠ 0 ∨ y ≠ 0) :
    Mag 61 (Real.sqrt (x ^ 2 + y ^ 2)) := by
  have big : ∀ {r : ℝ}, Ordinary r → r ≠ 0 → ((10 : ℝ) ^ 60)⁻¹ ≤ |r| := by
    intro r h hr
    rcases h with h | h
    · exact absurd h hr
    · exact h.low
  have hs1 : |x| ≤ Real.sqrt (x ^ 2 + y ^ 2) := Real.abs_le_sqrt (by nlinarith [sq_nonneg y])
  have hs2 : |y| ≤ Real.sqrt (x ^ 2 + y ^ 2) := Real.abs_le_sqrt (by nlinarith [sq_nonneg x])
  constructor
  · have h1 : ((10 : ℝ) ^ 61)⁻¹ ≤ ((10 : ℝ) ^ 60)⁻¹ := inv_anti₀ (by positivity) (by norm_num)
    rcases h0 with h | h
    · exact h1.trans ((big hx h).trans hs1)
    · exact h1.trans ((big hy h).trans hs2)
  · refine Real.sqrt_le_iff.2 ⟨by positivity, ?_⟩
    have a1 := sq_le_sq' (by linarith [abs_nonneg x, hx.le, show (0:ℝ) ≤ 10 ^ 60 by positivity]) hx.le
    have a2 := sq_le_sq' (by linarith [abs_nonneg y, hy.le, show (0:ℝ) ≤ 10 ^ 60 by positivity]) hy.le
    rw [sq_abs] at a1 a2
    calc x ^ 2 + y ^ 2 ≤ (10 ^ 60) ^ 2 + (10 ^ 60) ^ 2 := add_le_add a1 a2
      _ ≤ (10 ^ 61) ^ 2 := by norm_num

theorem Approx.hypot {x y : ℝ} {a b : Dbl} (ha : a.val = .fin x) (hb : b.val = .fin y)
    (hx : Ordinary x) (hy : Ordinary y) (h0 : x ≠ 0 ∨ y ≠ 0) :
    Approx 1 61 (Real.sqrt (x ^ 2 + y ^ 2)) (Dbl.hypot a b) := by
  have hm := hypot_mag hx hy h0
  refine ⟨?_, hm⟩
  show ∃ w, (Dbl.rnd (PyFloat.sqrt (a.val * a.val + b.val * b.val))).val = .fin w ∧ _
  rw [ha, hb, XR.mul_fin, XR.mul_fin, XR.add_fin,
    show ∀ r : ℝ, (PyFloat.sqrt (XR.fin r) : XR) = if r < 0 then XR.nan else XR.fin (Real.sqrt r) from
      fun _ => rfl, if_neg (not_lt.2 (by nlinarith [sq_nonneg x, sq_nonneg y])), ← pow_two, ← pow_two]
  exact Dbl.rnd_near (Near.refl hm.pos) hm (by norm_num) (by norm_num)

/-- The product of two doubles. -/
theorem Dbl.mul_err {x y : ℝ} {a b : Dbl} (ha : a.val = .fin x) (hb : b.val = .fin y)
    (hx : Ordinary x) (hy : Ordinary y) :
    ∃ z, (a * b).val = .fin z ∧ |z - x * y| ≤ |x * y| / 2 ^ 53 ∧ |z| ≤ 10 ^ 121 := by
  rcases hx with rfl | hx
  · exact ⟨0, Dbl.zero_mul_val ha hb, by simp, by simp⟩
  rcases hy with rfl | hy
  · exact ⟨0, Dbl.mul_zero_val ha hb, by simp, by simp⟩
  have hm := hx.mul hy
  rw [← abs_mul] at hm
  obtain ⟨h1, -⟩ := hm.safe (by norm_num)
  have hnorm : (2 : ℝ) ^ (-1022 : ℤ) ≤ |x * y| :=
    (zpow_le_zpow_right₀ (by norm_num) (by norm_num)).trans h1
  have hr := nearest_rel hnorm
  have hz : |nearest (x * y)| ≤ 10 ^ 121 := by
    have h6 := abs_add_le (nearest (x * y) - x * y) (x * y)
    rw [sub_add_cancel] at h6
    have h7 : |x * y| / 2 ^ 53 ≤ |x * y| := div_le_self (abs_nonneg _) (by norm_num)
    have h8 := hm.high
    have h9 : (10 : ℝ) ^ 121 = 10 * 10 ^ (60 + 60) := by norm_num
    rw [h9]
    have : (0 : ℝ) < 10 ^ (60 + 60) := by positivity
    linarith
  refine ⟨nearest (x * y), ?_, hr, hz⟩
  rw [Dbl.val_mul, ha, hb, XR.mul_fin]
  refine Dbl.rnd_fin (lt_of_le_of_lt hz ?_)
  calc (10 : ℝ) ^ 121 ≤ (2 ^ 4) ^ 121 := by gcongr; norm_num
    _ < 2 ^ 1024 := by rw [← pow_mul]; exact pow_lt_pow_right₀ (by norm_num) (by norm_num)

/-- The sum of two doubles, which does not underflow. -/
theorem Dbl.add_err {x y : ℝ} {a b : Dbl} (ha : a.val = .fin x) (hb : b.val = .fin y)
    (hx : |x| ≤ 10 ^ 200) (hy : |y| ≤ 10 ^ 200) :
    ∃ z, (a + b).val = .fin z ∧ |z - (x + y)| ≤ |x + y| / 2 ^ 53 := by
  have hr := nearest_add (Dbl.isDouble_val ha) (Dbl.isDouble_val hb)
  refine ⟨nearest (x + y), ?_, hr⟩
  show (Dbl.rnd (a.val + b.val)).val = _
  rw [ha, hb, XR.add_fin]
  refine Dbl.rnd_fin ?_
  have h6 := abs_add_le (nearest (x + y) - (x + y)) (x + y)
  rw [sub_add_cancel] at h6
  have h7 : |x + y| / 2 ^ 53 ≤ |x + y| := div_le_self (abs_nonneg _) (by norm_num)
  have h8 := abs_add_le x y
  have h9 : |nearest (x + y)| ≤ 10 * 10 ^ 200 := by
    generalize (10 : ℝ) ^ 200 = B at hx hy ⊢
    linarith [abs_nonneg x]
  refine lt_of_le_of_lt h9 ?_
  calc 10 * (10 : ℝ) ^ 200 = 10 ^ 201 := by rw [pow_succ]; ring
    _ ≤ (2 ^ 4) ^ 201 := by gcongr; norm_num
    _ < 2 ^ 1024 := by rw [← pow_mul]; exact pow_lt_pow_right₀ (by norm_num) (by norm_num)

theorem Dbl.isDouble_neg {x : ℝ} (h : IsDouble x) : IsDouble (-x) := by
  obtain ⟨m, e, h1, h2, h3, rfl⟩ := h
  exact ⟨-m, e, by rwa [abs_neg], h2, h3, by push_cast; ring⟩

theorem Dbl.neg_val {x : ℝ} {a : Dbl} (ha : a.val = .fin x) : (-a).val = .fin (-x) := by
  show (Dbl.rnd (-a.val)).val = _
  rw [ha, show (-(XR.fin x) : XR) = XR.fin (-x) from rfl]
  exact Dbl.rnd_double (isDouble_neg (Dbl.isDouble_val ha))

theorem Dbl.abs_val {x : ℝ} {a : Dbl} (ha : a.val = .fin x) : (Dbl.abs a).val = .fin |x| := by
  show (Dbl.rnd (PyFloat.abs a.val)).val = _
  rw [ha, show (PyFloat.abs (XR.fin x) : XR) = XR.fin |x| from rfl]
  refine Dbl.rnd_double ?_
  rcases abs_choice x with h | h <;> rw [h]
  · exact Dbl.isDouble_val ha
  · exact isDouble_neg (Dbl.isDouble_val ha)

/-- The test for zero of NumPy's complex division. -/
theorem Dbl.not_both_zero {a b : Dbl} {x y : ℝ} (ha : a.val = .fin x) (hb : b.val = .fin y)
    (h : x ≠ 0 ∨ y ≠ 0) :
    ¬ (Dbl.le (Dbl.abs a) (Dbl.ofRat 0) && Dbl.le (Dbl.abs b) (Dbl.ofRat 0)) = true := by
  have h0 : (Dbl.ofRat 0).val = .fin 0 := by
    have := Dbl.rnd_double (double_int (n := 0) (by norm_num))
    show (Dbl.rnd (.fin ((0 : ℚ) : ℝ))).val = _
    push_cast at this ⊢
    exact this
  have key : ∀ {c : Dbl} {z : ℝ}, c.val = .fin z → Dbl.le (Dbl.abs c) (Dbl.ofRat 0) = true → z = 0 := by
    intro c z hc h1
    replace h1 : PyFloat.le (Dbl.abs c).val (Dbl.ofRat 0).val = true := h1
    rw [Dbl.abs_val hc, h0, XR.le_fin, decide_eq_true_eq] at h1
    exact abs_nonpos_iff.1 h1
  rw [Bool.and_eq_true]
  rintro ⟨h1, h2⟩
  exact h.elim (fun k => k (key ha h1)) (fun k => k (key hb h2))

/-- The difference of two doubles. -/
theorem Dbl.sub_err {x y : ℝ} {a b : Dbl} (ha : a.val = .fin x) (hb : b.val = .fin y)
    (hx : |x| ≤ 10 ^ 200) (hy : |y| ≤ 10 ^ 200) :
    ∃ z, (a - b).val = .fin z ∧ |z - (x - y)| ≤ |x - y| / 2 ^ 53 := by
  obtain ⟨z, h1, h2⟩ := Dbl.add_err ha (Dbl.neg_val hb) hx (by rwa [abs_neg])
  refine ⟨z, ?_, by rwa [← sub_eq_add_neg] at h2⟩
  rw [← h1]
  show (Dbl.rnd (a.val - b.val)).val = (Dbl.rnd (a.val + (-b).val)).val
  rw [ha, hb, Dbl.neg_val hb, XR.sub_fin, XR.add_fin, sub_eq_add_neg]

end
end Disp
