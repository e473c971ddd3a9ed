import Verif.Py.Double
/-!
# Lemmas about binary64: exact cases, laws of comparison, relative errors
-/

namespace Disp

/-! ### Rounding of reals -/

theorem rint_eq_of_near {x : ℝ} (m : ℤ) (h : |x - m| < 1 / 2) : XR.rint x = m := by
  have h1 := XR.rint_sub_le x
  have h2 : |((XR.rint x - m : ℤ) : ℝ)| < 1 := by
    push_cast
    calc |(XR.rint x : ℝ) - m| = |((XR.rint x : ℝ) - x) + (x - m)| := by ring_nf
      _ ≤ |(XR.rint x : ℝ) - x| + |x - m| := abs_add_le _ _
      _ < 1 := by linarith
  have h3 : |XR.rint x - m| < 1 := by exact_mod_cast h2
  have := Int.abs_lt_one_iff.1 h3
  omega

/-- Doubles are not changed by rounding. -/
theorem nearest_of_double {x : ℝ} (h : IsDouble x) : nearest x = x := by
  obtain ⟨m, e, hm, he1, he2, rfl⟩ := h
  rcases eq_or_ne m 0 with rfl | hm0
  · have : XR.rint 0 = 0 := by exact_mod_cast XR.rint_int 0
    simp [nearest, this]
  have hx0 : (0 : ℝ) < |m * (2 : ℝ) ^ e| := by
    rw [abs_pos]; exact mul_ne_zero (by exact_mod_cast hm0) (two_zpow_pos e).ne'
  have hlt : |m * (2 : ℝ) ^ e| < 2 ^ (e + 53) := by
    rw [abs_mul, abs_of_pos (two_zpow_pos e), add_comm, zpow_add₀ (by norm_num)]
    refine mul_lt_mul_of_pos_right ?_ (two_zpow_pos e)
    have : |(m : ℝ)| < 2 ^ 53 := by exact_mod_cast hm
    exact_mod_cast this
  have hE : ulpExp (m * (2 : ℝ) ^ e) ≤ e := by
    refine max_le ?_ he1
    have := (Int.lt_zpow_iff_log_lt (b := 2) (R := ℝ) (by norm_num) (x := e + 53) hx0).1
      (by exact_mod_cast hlt)
    omega
  obtain ⟨k, hk⟩ := Int.eq_ofNat_of_zero_le (show 0 ≤ e - ulpExp (m * (2 : ℝ) ^ e) by omega)
  have hd : (m * (2 : ℝ) ^ e) / 2 ^ ulpExp (m * (2 : ℝ) ^ e) = ((m * 2 ^ k : ℤ) : ℝ) := by
    rw [mul_div_assoc, ← zpow_sub₀ (by norm_num : (2 : ℝ) ≠ 0), hk]
    push_cast
    rw [zpow_natCast]
  unfold nearest
  rw [hd, XR.rint_int, ← hd, div_mul_cancel₀ _ (two_zpow_pos _).ne']

theorem nearest_err (x : ℝ) : |nearest x - x| ≤ 2 ^ ulpExp x / 2 := by
  have h := XR.rint_sub_le (x / 2 ^ ulpExp x)
  have hp := two_zpow_pos (ulpExp x)
  have e : nearest x - x = ((XR.rint (x / 2 ^ ulpExp x) : ℝ) - x / 2 ^ ulpExp x) * 2 ^ ulpExp x := by
    unfold nearest
    field_simp
  rw [e, abs_mul, abs_of_pos hp]
  have := mul_le_mul_of_nonneg_right h hp.le
  linarith

/-- The relative error of rounding a normal number. -/
theorem nearest_rel {x : ℝ} (h : (2 : ℝ) ^ (-1022 : ℤ) ≤ |x|) :
    |nearest x - x| ≤ |x| / 2 ^ 53 := by
  have hx : 0 < |x| := (two_zpow_pos _).trans_le h
  have hlog : -1022 ≤ Int.log 2 |x| :=
    (Int.zpow_le_iff_le_log (b := 2) (R := ℝ) (by norm_num) hx).1 (by exact_mod_cast h)
  have hE : ulpExp x = Int.log 2 |x| - 52 := max_eq_left (by omega)
  refine (nearest_err x).trans ?_
  have h1 := Int.zpow_log_le_self (b := 2) (R := ℝ) (by norm_num) hx
  rw [hE, zpow_sub₀ (by norm_num)]
  have h2 : ((2 : ℕ) : ℝ) ^ Int.log 2 |x| = 2 ^ Int.log 2 |x| := by norm_num
  rw [h2] at h1
  have h3 : (2 : ℝ) ^ (52 : ℤ) = 2 ^ 52 := by norm_cast
  rw [h3]
  rw [div_div, div_le_div_iff₀ (by positivity) (by positivity)]
  nlinarith [h1]

theorem nearest_zero : nearest 0 = 0 := nearest_of_double ⟨0, 0, by norm_num, by norm_num, by norm_num, by simp⟩

/-- Rounding by hand: `m` is the mantissa of `x` for the exponent `e`. -/
theorem nearest_eq {x : ℝ} (m e : ℤ) (he : -1074 ≤ e) (h1 : (2 : ℝ) ^ (e + 52) ≤ x)
    (h2 : x < 2 ^ (e + 53)) (h3 : |x / 2 ^ e - m| < 1 / 2) : nearest x = m * 2 ^ e := by
  have hx : 0 < x := (two_zpow_pos _).trans_le h1
  have ha : |x| = x := abs_of_pos hx
  have hlog : Int.log 2 |x| = e + 52 := by
    rw [ha]
    have a1 := (Int.zpow_le_iff_le_log (b := 2) (R := ℝ) (by norm_num) hx).1
      (show ((2 : ℕ) : ℝ) ^ (e + 52) ≤ x by exact_mod_cast h1)
    have a2 := (Int.lt_zpow_iff_log_lt (b := 2) (R := ℝ) (by norm_num) hx).1
      (show x < ((2 : ℕ) : ℝ) ^ (e + 53) by exact_mod_cast h2)
    omega
  have hE : ulpExp x = e := by unfold ulpExp; rw [hlog]; exact max_eq_left (by omega) |>.trans (by omega)
  unfold nearest
  rw [hE, rint_eq_of_near m h3]

namespace Dbl

theorem ext {a b : Dbl} (h : a.val = b.val) : a = b := Subtype.ext h

theorem rnd_fin {x : ℝ} (h : |nearest x| < 2 ^ 1024) : (rnd (.fin x)).val = .fin (nearest x) := by
  have e : rnd (.fin x) = ⟨.fin (nearest x), nearest_isDouble h⟩ := dif_pos h
  rw [e]; rfl

theorem double_lt {x : ℝ} (h : IsDouble x) : |x| < 2 ^ 1024 := by
  obtain ⟨m, e, hm, -, he, rfl⟩ := h
  rw [abs_mul, abs_of_pos (two_zpow_pos e)]
  have h1 : |(m : ℝ)| < 2 ^ 53 := by exact_mod_cast hm
  have h2 : (2 : ℝ) ^ e ≤ 2 ^ (971 : ℤ) := zpow_le_zpow_right₀ (by norm_num) he
  calc |(m : ℝ)| * 2 ^ e < 2 ^ 53 * 2 ^ e := mul_lt_mul_of_pos_right h1 (two_zpow_pos e)
    _ ≤ 2 ^ 53 * 2 ^ (971 : ℤ) := mul_le_mul_of_nonneg_left h2 (by positivity)
    _ = 2 ^ 1024 := by
      rw [show ((2 : ℝ) ^ (971 : ℤ)) = 2 ^ (971 : ℕ) from zpow_natCast 2 971, ← pow_add]

/-- Results that are doubles are exact. -/
theorem rnd_double {x : ℝ} (h : IsDouble x) : (rnd (.fin x)).val = .fin x := by
  have e := nearest_of_double h
  rw [rnd_fin (by rw [e]; exact double_lt h), e]

theorem rnd_val (a : Dbl) : rnd a.val = a := by
  apply ext
  obtain ⟨x, hx⟩ := a
  cases x with
  | fin x => exact rnd_double hx
  | pinf => rfl
  | ninf => rfl
  | nan => rfl

theorem val_mul (a b : Dbl) : a * b = rnd (a.val * b.val) := rfl
theorem val_div (a b : Dbl) : a / b = rnd (a.val / b.val) := rfl
theorem val_lit (q : ℚ) : (lit q : Dbl) = rnd (.fin q) := rfl

/-- Integers up to `2^53` are doubles. -/
theorem double_int {n : ℤ} (h : |n| ≤ 2 ^ 53) : IsDouble n := by
  rcases lt_or_eq_of_le h with h | h
  · exact ⟨n, 0, h, by norm_num, by norm_num, by simp⟩
  · rcases abs_choice n with h' | h' <;> rw [h'] at h
    · exact ⟨2 ^ 52, 1, by norm_num, by norm_num, by norm_num, by rw [h]; norm_num⟩
    · exact ⟨-2 ^ 52, 1, by norm_num, by norm_num, by norm_num, by
        rw [show n = -2 ^ 53 by omega]; norm_num⟩

theorem double_trunc {x : ℝ} (h : IsDouble x) :
    IsDouble (if x < 0 then (⌈x⌉ : ℝ) else (⌊x⌋ : ℝ)) := by
  obtain ⟨m, e, hm, he1, he2, hx⟩ := h
  rcases le_or_gt 0 e with h0 | h0
  · -- an integer
    obtain ⟨k, rfl⟩ := Int.eq_ofNat_of_zero_le h0
    have hi : x = ((m * 2 ^ k : ℤ) : ℝ) := by rw [hx]; push_cast; rw [zpow_natCast]
    have : (if x < 0 then (⌈x⌉ : ℝ) else (⌊x⌋ : ℝ)) = x := by
      rw [hi, Int.ceil_intCast, Int.floor_intCast, ite_self]
    rw [this]
    exact ⟨m, k, hm, he1, he2, hx⟩
  · have hle : |x| < 2 ^ 53 := by
      rw [hx, abs_mul, abs_of_pos (two_zpow_pos e)]
      have h1 : |(m : ℝ)| < 2 ^ 53 := by exact_mod_cast hm
      have h2 : (2 : ℝ) ^ e ≤ 1 := zpow_le_one_of_nonpos₀ (by norm_num) h0.le
      nlinarith [abs_nonneg (m : ℝ), two_zpow_pos e]
    obtain ⟨hl, hr⟩ := abs_lt.1 hle
    split_ifs with hneg
    · refine double_int ?_
      rw [abs_le]
      constructor
      · have : (-2 ^ 53 : ℝ) ≤ ⌈x⌉ := hl.le.trans (Int.le_ceil x)
        exact_mod_cast this
      · have : ⌈x⌉ ≤ 0 := Int.ceil_le.2 (by simpa using hneg.le)
        exact this.trans (by norm_num)
    · refine double_int ?_
      rw [abs_le]
      constructor
      · have : 0 ≤ ⌊x⌋ := Int.floor_nonneg.2 (not_lt.1 hneg)
        exact le_trans (by norm_num) this
      · have : (⌊x⌋ : ℝ) ≤ 2 ^ 53 := (Int.floor_le x).trans hr.le
        exact_mod_cast this

theorem trunc_val (a : Dbl) : (PyFloat.trunc a : Dbl).val = PyFloat.trunc a.val := by
  obtain ⟨x, hx⟩ := a
  cases x with
  | fin x =>
    show (rnd (PyFloat.trunc (.fin x))).val = PyFloat.trunc (.fin x)
    rw [XR.trunc_fin]
    exact rnd_double (double_trunc hx)
  | pinf => rfl
  | ninf => rfl
  | nan => rfl

end Dbl

/-! ### The laws of IEEE comparison hold -/

instance : LawfulCmp Dbl where
  lt_nan_left _ _ h := LawfulCmp.lt_nan_left (F := XR) _ _ h
  lt_nan_right _ _ h := LawfulCmp.lt_nan_right (F := XR) _ _ h
  lt_irrefl _ := LawfulCmp.lt_irrefl (F := XR) _
  lt_trans _ _ _ h1 h2 := LawfulCmp.lt_trans (F := XR) _ _ _ h1 h2
  lt_cotrans _ _ _ h1 h2 := LawfulCmp.lt_cotrans (F := XR) _ _ _ h1 h2
  le_eq_not_lt _ _ h1 h2 := LawfulCmp.le_eq_not_lt (F := XR) _ _ h1 h2
  le_nan_left _ _ h := LawfulCmp.le_nan_left (F := XR) _ _ h
  le_nan_right _ _ h := LawfulCmp.le_nan_right (F := XR) _ _ h
  eq_iff _ _ := LawfulCmp.eq_iff (F := XR) _ _

theorem Dbl.lit_int {n : ℤ} (h : |n| ≤ 2 ^ 53) : (lit (n : ℚ) : Dbl).val = .fin n := by
  rw [Dbl.val_lit]
  have := Dbl.rnd_double (Dbl.double_int h)
  simpa using this

instance : LawfulOne Dbl where
  mul_one a := by
    have h1 : (lit 1 : Dbl).val = .fin 1 := by exact_mod_cast Dbl.lit_int (n := 1) (by norm_num)
    rw [Dbl.val_mul, h1]
    have : a.val * XR.fin 1 = a.val := by
      have := LawfulOne.mul_one a.val
      simpa using this
    rw [this, Dbl.rnd_val]

instance : LawfulTrunc Dbl where
  trunc_mono a b h := by
    show PyFloat.le (PyFloat.trunc a : Dbl).val (PyFloat.trunc b : Dbl).val = true
    rw [Dbl.trunc_val, Dbl.trunc_val]
    exact LawfulTrunc.trunc_mono (F := XR) _ _ h
  trunc_idem a := by
    apply Dbl.ext
    rw [Dbl.trunc_val, Dbl.trunc_val, LawfulTrunc.trunc_idem]

end Disp
