import Verif.Lemmas.Xstrtod
/-!
# How far a number that is written and read again is off
-/

namespace Disp

noncomputable section

theorem assemble_fin {neg : Bool} {is fs : List Char} {E : ℤ} {z : ℝ}
    (h1 : -1021 ≤ E - fs.length) (h2 : E - fs.length ≤ 1024)
    (hz : (scaleBy (decide (E - (fs.length : ℤ) < 0)) (E - fs.length).natAbs (PyFloat.lit 10)
      (if neg then -gather (PyFloat.lit 0) (is ++ fs)
        else gather (PyFloat.lit 0) (is ++ fs))).val = .fin z) :
    assemble neg is fs E = some (scaleBy (decide (E - (fs.length : ℤ) < 0)) (E - fs.length).natAbs
      (PyFloat.lit 10) (if neg then -gather (PyFloat.lit 0) (is ++ fs)
        else gather (PyFloat.lit 0) (is ++ fs))) := by
  unfold assemble
  rw [if_neg (by omega)]
  simp only [hz]

theorem scaled_zpow (x : ℝ) (n : ℤ) : scaled (decide (n < 0)) x n.natAbs = x * 10 ^ n := by
  unfold scaled
  by_cases h : n < 0
  · simp only [h, decide_true, if_true]
    rw [div_eq_mul_inv, ← zpow_natCast, ← zpow_neg]
    congr 2; omega
  · simp only [h, decide_false, Bool.false_eq_true, if_false]
    rw [← zpow_natCast]
    congr 2; omega

/-- The sign of a number. -/
def signed (neg : Bool) (v : ℝ) : ℝ := if neg then -v else v

theorem power_lit : Power 0 (PyFloat.lit 10 : Dbl) :=
  ⟨SRel.exact power_start (power_size 0), fun _ => power_start⟩

/-- What is read for the given digits. -/
theorem assemble_near {neg : Bool} {is fs : List Char} {E : ℤ} {b : ℕ}
    (hd : ∀ c ∈ is ++ fs, c.isDigit = true) (hv : digitsValue (is ++ fs) < 10 ^ 17)
    (hE : (E - fs.length).natAbs ≤ 283) (hb : (E - fs.length).natAbs < 2 ^ b)
    (hs : scaleErr b 0 ≤ 90) :
    ∃ r : Dbl, assemble neg is fs E = some r ∧
      SRel (4 + scaleErr b 0) 300
        (signed neg (digitsValue (is ++ fs) * 10 ^ (E - (fs.length : ℤ)))) r := by
  have ha : SRel 4 17 (signed neg (digitsValue (is ++ fs)))
      (if neg then -gather (PyFloat.lit 0) (is ++ fs) else gather (PyFloat.lit 0) (is ++ fs)) := by
    have := gather_near hd hv
    unfold signed
    cases neg
    · exact this
    · exact this.neg
  have h := scale_near (decide (E - (fs.length : ℤ) < 0)) b (E - fs.length).natAbs 0 4 17 _
    (PyFloat.lit 10) _ hb (fun _ => power_lit) ha (by omega) (by omega)
  rw [pow_zero, mul_one, scaled_zpow] at h
  obtain ⟨⟨z, hz, -⟩, -⟩ := id h
  refine ⟨_, assemble_fin (by omega) (by omega) hz, ?_⟩
  have e : signed neg (digitsValue (is ++ fs) * 10 ^ (E - (fs.length : ℤ))) =
      signed neg (digitsValue (is ++ fs)) * 10 ^ (E - (fs.length : ℤ)) := by
    unfold signed; cases neg <;> simp
  rw [e]
  exact h.mono le_rfl (by omega)

theorem signed_abs (x : ℝ) : signed (decide (x < 0)) |x| = x := by
  unfold signed
  by_cases h : x < 0
  · simp [h, abs_of_neg h]
  · simp [h, abs_of_nonneg (not_lt.1 h)]

theorem snear_signed {n : ℕ} {v w : ℝ} (neg : Bool) (h : Near n v w) :
    SNear n (signed neg v) (signed neg w) := by
  have : SNear n v w := .inr ⟨mul_pos h.left h.right, by
    rwa [abs_of_pos h.left, abs_of_pos h.right]⟩
  unfold signed
  cases neg
  · exact this
  · exact this.neg

theorem SNear.trans {m n : ℕ} {x y z : ℝ} (h : SNear m x y) (h' : SNear n y z) :
    SNear (m + n) x z := by
  rcases h with ⟨rfl, rfl⟩ | ⟨h1, h2⟩
  · rcases h' with ⟨-, rfl⟩ | ⟨h3, -⟩
    · exact .inl ⟨rfl, rfl⟩
    · rw [zero_mul] at h3; exact absurd h3 (lt_irrefl _)
  · rcases h' with ⟨rfl, rfl⟩ | ⟨h3, h4⟩
    · rw [mul_zero] at h1; exact absurd h1 (lt_irrefl _)
    · refine .inr ⟨?_, h2.trans h4⟩
      have hy : 0 < y * y := by
        rcases eq_or_ne y 0 with rfl | h0
        · rw [mul_zero] at h1; exact absurd h1 (lt_irrefl _)
        · exact mul_self_pos.2 h0
      have : 0 < (x * z) * (y * y) := by
        calc 0 < (x * y) * (y * z) := mul_pos h1 h3
          _ = _ := by ring
      exact (mul_pos_iff_of_pos_right hy).1 this

theorem zpow_exp_le {e k : ℤ} (h : (10 : ℝ) ^ e < 10 ^ k) : e < k :=
  (zpow_lt_zpow_iff_right₀ (by norm_num)).1 h

/-- The shortest decimal of a double between `10^-k` and `10^u`. -/
theorem shortest_near {x : ℝ} (h : IsDouble x) {k u : ℕ} (hk : k ≤ 266)
    (hlow : ((10 : ℝ) ^ k)⁻¹ ≤ |x|) (hhigh : |x| ≤ 10 ^ u) {m : ℕ} {e : ℤ} (hs : Shortest x m e) :
    Near 1 ((m : ℝ) * 10 ^ e) |x| ∧ 0 < m ∧ m < 10 ^ 17 ∧ e ≤ u ∧ -(k : ℤ) - 17 ≤ e := by
  have ha : 0 < |x| := lt_of_lt_of_le (by positivity) hlow
  have hx : x ≠ 0 := abs_pos.1 ha
  have hsafe : (2 : ℝ) ^ (-1000 : ℤ) ≤ |x| := by
    refine le_trans ?_ hlow
    have hmag : Mag k (((10 : ℝ) ^ k)⁻¹) := (mag_ten k).inv
    exact (hmag.safe (by omega)).1
  have hp := shortest_pos hx hs
  have hlt := hs.lt h hx
  have hbig : (2 : ℝ) ^ (-1022 : ℤ) ≤ m * 10 ^ e := by
    by_contra hc
    have h1 := nearest_mono (not_le.1 hc).le
    have h2 : nearest ((2 : ℝ) ^ (-1022 : ℤ)) = 2 ^ (-1022 : ℤ) :=
      nearest_of_double ⟨1, -1022, by norm_num, by norm_num, by norm_num, by simp⟩
    rw [hs.reads, h2] at h1
    have h3 : (2 : ℝ) ^ (-1022 : ℤ) < 2 ^ (-1000 : ℤ) :=
      zpow_lt_zpow_right₀ (by norm_num) (by norm_num)
    linarith
  have hn : Near 1 ((m : ℝ) * 10 ^ e) |x| := by
    have := Near.nearest hbig
    rwa [hs.reads] at this
  obtain ⟨h3, h4⟩ := hn.half (by norm_num)
  have hu := ten_zpow_pos e
  have h1 : (1 : ℝ) ≤ m := by exact_mod_cast hp
  have h17 : (m : ℝ) ≤ 10 ^ (17 : ℤ) := by exact_mod_cast hlt.le
  refine ⟨hn, hp, hlt, ?_, ?_⟩
  · have : (10 : ℝ) ^ e < 10 ^ ((u : ℤ) + 1) := by
      rw [zpow_add_one₀ (by norm_num), zpow_natCast]
      have : (10 : ℝ) ^ e ≤ m * 10 ^ e := le_mul_of_one_le_left hu.le h1
      have : (0 : ℝ) < 10 ^ u := by positivity
      linarith
    have := zpow_exp_le this
    omega
  · have : (10 : ℝ) ^ (-(k : ℤ) - 18) < 10 ^ e := by
      have e1 : (10 : ℝ) ^ (-(k : ℤ) - 18) = 10 ^ (-(k : ℤ)) * (10 ^ (17 : ℤ))⁻¹ * (1 / 10) := by
        rw [show -(k : ℤ) - 18 = -(k : ℤ) + -17 + -1 by ring, zpow_add₀ (by norm_num),
          zpow_add₀ (by norm_num), zpow_neg _ (17 : ℤ)]
        norm_num
      have h5 : (10 : ℝ) ^ (-(k : ℤ)) ≤ |x| := by
        rw [zpow_neg, zpow_natCast]; exact hlow
      have h6 : (m : ℝ) * 10 ^ e ≤ 10 ^ (17 : ℤ) * 10 ^ e := by gcongr
      have h7 : (10 : ℝ) ^ (-(k : ℤ)) * (10 ^ (17 : ℤ))⁻¹ ≤ 2 * 10 ^ e := by
        rw [mul_inv_le_iff₀ (by positivity)]
        linarith
      rw [e1]
      have : (0 : ℝ) < 10 ^ e := hu
      linarith
    have := zpow_exp_le this
    omega

/-- A double between `10^-k` and `10^u` that is written and read: `b` bits of the exponent. -/
theorem reread_repr {x : ℝ} (h : IsDouble x) {k u b : ℕ} (hk : k ≤ 266) (hu : u ≤ 283)
    (hlow : ((10 : ℝ) ^ k)⁻¹ ≤ |x|) (hhigh : |x| ≤ 10 ^ u)
    (hb : k + 17 < 2 ^ b) (hb' : u < 2 ^ b) (hs : scaleErr b 0 ≤ 90) :
    ∃ r z, xstrtod (reprText x) = some r ∧ r.val = .fin z ∧ SNear (5 + scaleErr b 0) x z := by
  have hx : x ≠ 0 := abs_pos.1 (lt_of_lt_of_le (by positivity) hlow)
  have hsp := (pyDigits_spec h hx).toShortest
  unfold reprText
  rw [if_neg hx]
  generalize (pyDigits x).1 = m at hsp
  generalize (pyDigits x).2 = e at hsp
  obtain ⟨hn, hp, hlt, he1, he2⟩ := shortest_near h hk hlow hhigh hsp
  obtain ⟨is, fs, E, hread, hd, hcase⟩ := xstrtod_repr x m e
  have key : digitsValue (is ++ fs) < 10 ^ 17 ∧ (E - (fs.length : ℤ)).natAbs ≤ max (k + 17) u ∧
      (digitsValue (is ++ fs) : ℝ) * 10 ^ (E - (fs.length : ℤ)) = m * 10 ^ e := by
    rcases hcase with ⟨h1, h2, -⟩ | ⟨h0, h16, h1, h2⟩
    · rw [h1, h2]
      exact ⟨hlt, by omega, rfl⟩
    · rw [h1, h2]
      refine ⟨?_, by simp, ?_⟩
      · have h3 := Nat.lt_pow_succ_log_self (b := 10) (by norm_num) m
        calc m * 10 ^ e.toNat * 10 < 10 ^ (Nat.log 10 m + 1) * 10 ^ e.toNat * 10 := by
              have : 0 < 10 ^ e.toNat := by positivity
              exact Nat.mul_lt_mul_of_pos_right (Nat.mul_lt_mul_of_pos_right h3 this) (by norm_num)
          _ = 10 ^ (Nat.log 10 m + 1 + e.toNat + 1) := by rw [← pow_add, ← pow_succ]
          _ ≤ 10 ^ 17 := Nat.pow_le_pow_right (by norm_num) (by omega)
      · push_cast
        rw [show (10 : ℝ) ^ e = 10 ^ e.toNat by
          rw [← zpow_natCast]; congr 1; omega]
        norm_num
        ring
  obtain ⟨k1, k2, k3⟩ := key
  obtain ⟨r, hr, hrel⟩ := assemble_near (neg := decide (x < 0)) (b := b) (E := E) hd k1 (by omega) (by omega) hs
  obtain ⟨⟨z, hz, hsz⟩, -⟩ := hrel
  refine ⟨r, z, by rw [hread, hr], hz, ?_⟩
  rw [k3] at hsz
  have h1 : SNear 1 x (signed (decide (x < 0)) (m * 10 ^ e)) := by
    have := snear_signed (decide (x < 0)) hn.symm
    rwa [signed_abs] at this
  have := h1.trans hsz
  exact this.mono (by omega)

theorem csvParse_of {cs : List Char} {r : Dbl} (h : xstrtod cs = some r) : csvParse cs = .ok r := by
  unfold csvParse; rw [h]

/-! ## Numbers that are read exactly -/

/-- A single bit: one division. -/
theorem scale_bit (a : Dbl) : ∀ (j i : ℕ) (p : Dbl), i + j ≤ 4 → p.val = .fin (10 ^ 2 ^ i) →
    ∃ q : Dbl, q.val = .fin (10 ^ 2 ^ (i + j)) ∧ scaleBy true (2 ^ j) p a = a / q := by
  intro j
  induction j with
  | zero =>
    intro i p _ hp
    refine ⟨p, hp, ?_⟩
    rw [scaleBy_step _ (by norm_num), pow_zero]
    rw [show 1 / 2 = 0 by norm_num, scaleBy_zero]
    simp
  | succ j ih =>
    intro i p hij hp
    obtain ⟨q, hq, h⟩ := ih (i + 1) (p * p) (by omega) (power_square_exact (by omega) hp)
    refine ⟨q, by rw [hq]; congr 3; omega, ?_⟩
    rw [scaleBy_step _ (by positivity)]
    have h1 : 2 ^ (j + 1) / 2 = 2 ^ j := by rw [pow_succ]; omega
    have h2 : ¬ 2 ^ (j + 1) % 2 = 1 := by rw [pow_succ]; omega
    rw [h1, if_neg h2, h]

/-- Digits up to `2^53` with one, two, four, eight or sixteen decimals are read exactly. -/
theorem assemble_exact {neg : Bool} {is fs : List Char} {E : ℤ} {j : ℕ} {x : ℝ} (hx : IsDouble x)
    (hv : digitsValue (is ++ fs) ≤ 2 ^ 53) (hj : j ≤ 4) (hE : E - (fs.length : ℤ) = -2 ^ j)
    (hr : nearest (signed neg (digitsValue (is ++ fs) * 10 ^ (E - (fs.length : ℤ)))) = x) :
    ∃ r : Dbl, assemble neg is fs E = some r ∧ r.val = .fin x := by
  obtain ⟨q, hq, hs⟩ := scale_bit (if neg then -gather (PyFloat.lit 0) (is ++ fs)
    else gather (PyFloat.lit 0) (is ++ fs)) j 0 (PyFloat.lit 10) (by omega) power_start
  rw [zero_add] at hq
  have hneg : decide (E - (fs.length : ℤ) < 0) = true := by
    rw [hE]
    have : (0 : ℤ) < 2 ^ j := by positivity
    exact decide_eq_true (by omega)
  have habs : (E - (fs.length : ℤ)).natAbs = 2 ^ j := by
    rw [hE, Int.natAbs_neg, Int.natAbs_pow]; rfl
  have ha : (if neg then -gather (PyFloat.lit 0) (is ++ fs)
      else gather (PyFloat.lit 0) (is ++ fs)).val = .fin (signed neg (digitsValue (is ++ fs))) := by
    have := gather_exact hv
    unfold signed
    cases neg
    · exact this
    · exact Dbl.neg_val this
  have hval : (scaleBy (decide (E - (fs.length : ℤ) < 0)) (E - fs.length).natAbs (PyFloat.lit 10)
      (if neg then -gather (PyFloat.lit 0) (is ++ fs)
        else gather (PyFloat.lit 0) (is ++ fs))).val = .fin x := by
    rw [hneg, habs, hs, Dbl.val_div, ha, hq, XR.div_fin_of_ne _ (by positivity)]
    have e : signed neg (digitsValue (is ++ fs)) / 10 ^ 2 ^ j =
        signed neg (digitsValue (is ++ fs) * 10 ^ (E - (fs.length : ℤ))) := by
      rw [hE, zpow_neg, show (10 : ℝ) ^ ((2 : ℤ) ^ j) = 10 ^ 2 ^ j by
        rw [← zpow_natCast]; push_cast; rfl]
      unfold signed
      cases neg <;> simp [div_eq_mul_inv]
    rw [e]
    rw [Dbl.rnd_fin (by rw [hr]; exact Dbl.double_lt hx), hr]
  have h16 : (2 : ℤ) ^ j ≤ 2 ^ 4 := by gcongr; norm_num
  have h0 : (0 : ℤ) < 2 ^ j := by positivity
  exact ⟨_, assemble_fin (by omega) (by omega) hval, hval⟩

end
end Disp
