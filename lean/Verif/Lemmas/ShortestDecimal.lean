import Verif.Model.PandasNumbers
import Verif.Props.NumpyText
import Verif.Lemmas.RoundingMono
import Verif.Lemmas.RelativeError
/-!
# Decimal numbers that are read as a given double
-/

namespace Disp

noncomputable section

/-- A double in units of its last place. -/
theorem double_units {x : ℝ} (h : IsDouble x) (hx : 0 < x) :
    ∃ M : ℤ, x = M * 2 ^ ulpExp x ∧ 1 ≤ M ∧ M ≤ 2 ^ 53 - 1 ∧
      (ulpExp x = -1074 ∨ 2 ^ 52 ≤ M ∧ -1074 ≤ ulpExp x) := by
  have e := nearest_of_double h
  refine ⟨XR.rint (x / 2 ^ ulpExp x), e.symm, ?_⟩
  generalize hM : XR.rint (x / 2 ^ ulpExp x) = M
  have hx' : x = M * 2 ^ ulpExp x := by rw [← hM]; exact e.symm
  have h2 := two_zpow_pos (ulpExp x)
  have hpos : 0 < (M : ℝ) := by
    by_contra hc
    have : (M : ℝ) * 2 ^ ulpExp x ≤ 0 := mul_nonpos_of_nonpos_of_nonneg (not_lt.1 hc) h2.le
    linarith
  have hlt : (M : ℝ) < 2 ^ 53 := by
    have := abs_lt_zpow x
    rw [abs_of_pos hx, add_comm, zpow_add₀ (by norm_num)] at this
    have h3 : (M : ℝ) * 2 ^ ulpExp x < (2 : ℝ) ^ (53 : ℤ) * 2 ^ ulpExp x := hx' ▸ this
    have := lt_of_mul_lt_mul_right h3 h2.le
    exact_mod_cast this
  have i1 : 0 < M := by exact_mod_cast hpos
  have i2 : M < 2 ^ 53 := by exact_mod_cast hlt
  refine ⟨by omega, by omega, ?_⟩
  rcases le_or_gt (Int.log 2 |x| - 52) (-1074) with hl | hl
  · exact Or.inl (max_eq_right hl)
  · right
    have hE : ulpExp x = Int.log 2 |x| - 52 := max_eq_left hl.le
    refine ⟨?_, by omega⟩
    have := Int.zpow_log_le_self (b := 2) (by norm_num) hx
    rw [abs_of_pos hx] at hE
    have e2 : Int.log 2 x = 52 + ulpExp x := by omega
    rw [e2] at this
    have h3 : (2 : ℝ) ^ (52 + ulpExp x) ≤ M * 2 ^ ulpExp x := by
      rw [← hx']; exact_mod_cast this
    rw [zpow_add₀ (by norm_num)] at h3
    have := le_of_mul_le_mul_right h3 h2
    exact_mod_cast this

/-- A number that is closer than `2^-54` is rounded to the double. -/
theorem nearest_within {x y : ℝ} (h : IsDouble x) (hx : 0 < x) (hy : |y - x| < x / 2 ^ 54) :
    nearest y = x := by
  obtain ⟨M, hM, h1, h2, h3⟩ := double_units h hx
  generalize ulpExp x = E at hM h3
  have hp := two_zpow_pos E
  have h2' : (M : ℝ) ≤ 2 ^ 53 - 1 := by exact_mod_cast h2
  have h1' : (1 : ℝ) ≤ M := by exact_mod_cast h1
  have hd : |y / 2 ^ E - M| < 1 / 2 := by
    have : y / 2 ^ E - M = (y - x) / 2 ^ E := by rw [hM]; field_simp
    rw [this, abs_div, abs_of_pos hp, div_lt_iff₀ hp]
    refine hy.trans_le ?_
    rw [hM, div_le_iff₀ (by positivity)]
    have : (M : ℝ) ≤ 1 / 2 * 2 ^ 54 := by linarith [show (2 : ℝ) ^ 53 = 1 / 2 * 2 ^ 54 by norm_num]
    nlinarith
  have hd' := abs_lt.1 hd
  have hyE : y < 2 ^ (E + 53) := by
    have : y / 2 ^ E < 2 ^ 53 := by linarith
    rw [div_lt_iff₀ hp] at this
    rw [add_comm, zpow_add₀ (by norm_num)]
    exact_mod_cast this
  have hy0 : 0 < y := by
    have : 0 < y / 2 ^ E := by linarith
    by_contra hc
    have := div_nonpos_of_nonpos_of_nonneg (not_lt.1 hc) hp.le
    linarith
  by_cases hlow : (2 : ℝ) ^ (E + 52) ≤ y
  · rw [hM]
    exact nearest_eq M E (by rcases h3 with h3 | h3 <;> omega) hlow hyE hd
  · rcases h3 with h3 | ⟨h3, h4⟩
    · have hl : Int.log 2 |y| - 52 ≤ -1074 := by
        rw [abs_of_pos hy0]
        have := (Int.lt_zpow_iff_log_lt (b := 2) (R := ℝ) (by norm_num) hy0 (x := E + 52)).1
          (by exact_mod_cast not_le.1 hlow)
        omega
      have hE : ulpExp y = E := by rw [h3]; exact max_eq_right hl
      unfold nearest
      rw [hE, rint_eq_of_near M hd, hM]
    · have h52 : (M : ℝ) < 2 ^ 52 + 1 / 2 := by
        have : y / 2 ^ E < 2 ^ 52 := by
          rw [div_lt_iff₀ hp]
          have := not_le.1 hlow
          rw [add_comm, zpow_add₀ (by norm_num)] at this
          exact_mod_cast this
        linarith
      have hMe : M = 2 ^ 52 := by
        have : (M : ℝ) < ((2 ^ 52 + 1 : ℤ) : ℝ) := by push_cast; linarith
        have : M < 2 ^ 52 + 1 := by exact_mod_cast this
        omega
      subst hMe
      push_cast at hM hd hd'
      by_cases h5 : E = -1074
      · have hl : Int.log 2 |y| - 52 ≤ -1074 := by
          rw [abs_of_pos hy0]
          have := (Int.lt_zpow_iff_log_lt (b := 2) (R := ℝ) (by norm_num) hy0 (x := E + 52)).1
            (by exact_mod_cast not_le.1 hlow)
          omega
        have hE : ulpExp y = E := by rw [h5]; exact max_eq_right hl
        unfold nearest
        rw [hE, rint_eq_of_near (2 ^ 52) (by push_cast; exact hd), hM]
        push_cast
        ring
      · have hz : (2 : ℝ) ^ E = 2 ^ (E - 1) * 2 := by
          rw [← zpow_add_one₀ (by norm_num)]; congr 1; omega
        have hp1 := two_zpow_pos (E - 1)
        have hx2 : x = 2 ^ 53 * 2 ^ (E - 1) := by rw [hM, hz]; ring
        have hq : |y / 2 ^ (E - 1) - ((2 ^ 53 : ℤ) : ℝ)| < 1 / 2 := by
          have : y / 2 ^ (E - 1) - ((2 ^ 53 : ℤ) : ℝ) = (y - x) / 2 ^ (E - 1) := by rw [hx2]; push_cast; field_simp; norm_num
          rw [this, abs_div, abs_of_pos hp1, div_lt_iff₀ hp1]
          refine hy.trans_le ?_
          rw [hx2, div_le_iff₀ (by positivity)]
          nlinarith
        have hq' := abs_lt.1 hq
        push_cast at hq'
        rw [nearest_eq (2 ^ 53) (E - 1) (by omega) ?_ ?_ hq, hx2]
        · push_cast; ring
        · have : (2 : ℝ) ^ 52 ≤ y / 2 ^ (E - 1) := by linarith
          rw [le_div_iff₀ hp1] at this
          rw [add_comm, zpow_add₀ (by norm_num)]
          exact_mod_cast this
        · rw [show E - 1 + 53 = E + 52 by ring]
          exact not_le.1 hlow

/-- Seventeen digits are enough. -/
theorem seventeen {x : ℝ} (h : IsDouble x) (hx : x ≠ 0) :
    ∃ (m : ℕ) (e : ℤ), m < 10 ^ 17 ∧ nearest ((m : ℝ) * 10 ^ e) = |x| := by
  have ha : 0 < |x| := abs_pos.2 hx
  have b1 : (10 : ℝ) ^ Int.log 10 |x| ≤ |x| := by
    exact_mod_cast Int.zpow_log_le_self (b := 10) (by norm_num) ha
  have b2 : |x| < (10 : ℝ) ^ (Int.log 10 |x| + 1) := by
    exact_mod_cast Int.lt_zpow_succ_log_self (b := 10) (by norm_num) |x|
  generalize Int.log 10 |x| = L at b1 b2
  have hu := ten_zpow_pos (L - 16)
  have hr0 := XR.rint_sub_le (|x| / 10 ^ (L - 16))
  have hlow : (10 : ℝ) ^ 16 ≤ |x| / 10 ^ (L - 16) := by
    rw [le_div_iff₀ hu]
    refine le_of_eq_of_le ?_ b1
    rw [← zpow_natCast, ← zpow_add₀ (by norm_num)]
    congr 1; push_cast; ring
  have hhigh : |x| / 10 ^ (L - 16) < 10 ^ 17 := by
    rw [div_lt_iff₀ hu]
    refine lt_of_lt_of_eq b2 ?_
    rw [← zpow_natCast, ← zpow_add₀ (by norm_num)]
    congr 1; push_cast; ring
  generalize hm : XR.rint (|x| / 10 ^ (L - 16)) = m at hr0
  have hr := hr0
  rw [abs_le] at hr
  have hm1 : (10 : ℤ) ^ 16 ≤ m := by
    have : ((10 ^ 16 - 1 : ℤ) : ℝ) < m := by push_cast; linarith
    have : (10 ^ 16 - 1 : ℤ) < m := by exact_mod_cast this
    omega
  have hm2 : m ≤ (10 : ℤ) ^ 17 := by
    have : (m : ℝ) < ((10 ^ 17 + 1 : ℤ) : ℝ) := by push_cast; linarith
    have : m < (10 ^ 17 + 1 : ℤ) := by exact_mod_cast this
    omega
  have key : nearest ((m : ℝ) * 10 ^ (L - 16)) = |x| := by
    refine nearest_within (double_abs h) ha ?_
    have e1 : (m : ℝ) * 10 ^ (L - 16) - |x| = (m - |x| / 10 ^ (L - 16)) * 10 ^ (L - 16) := by
      field_simp
    rw [e1, abs_mul, abs_of_pos hu]
    calc |(m : ℝ) - |x| / 10 ^ (L - 16)| * 10 ^ (L - 16) ≤ 1 / 2 * 10 ^ (L - 16) := by gcongr
      _ ≤ 1 / 2 * (|x| / 10 ^ 16) := by
        have : (10 : ℝ) ^ (L - 16) ≤ |x| / 10 ^ 16 := by
          rw [le_div_iff₀ (by positivity)]
          have := (le_div_iff₀ hu).1 hlow
          linarith
        linarith
      _ < |x| / 2 ^ 54 := by
        rw [lt_div_iff₀ (by positivity)]
        have : (1 : ℝ) / 2 * (1 / 10 ^ 16) * 2 ^ 54 < 1 := by norm_num
        calc 1 / 2 * (|x| / 10 ^ 16) * 2 ^ 54 = |x| * (1 / 2 * (1 / 10 ^ 16) * 2 ^ 54) := by ring
          _ < |x| * 1 := by gcongr
          _ = |x| := by ring
  rcases eq_or_lt_of_le hm2 with he | hlt
  · refine ⟨1, L + 1, by norm_num, ?_⟩
    rw [← key, he]
    congr 1
    rw [show ((1 : ℕ) : ℝ) * 10 ^ (L + 1) = 10 ^ (L + 1) by simp,
      show (((10 : ℤ) ^ 17 : ℤ) : ℝ) = (10 : ℝ) ^ (17 : ℤ) by norm_num,
      ← zpow_add₀ (by norm_num)]
    congr 1; ring
  · refine ⟨m.toNat, L - 16, by omega, ?_⟩
    rw [← key]
    have : ((m.toNat : ℕ) : ℝ) = (m : ℝ) := by
      have : ((m.toNat : ℕ) : ℤ) = m := Int.toNat_of_nonneg (by omega)
      exact_mod_cast this
    rw [this]

/-- What is read as a double is neither tiny nor huge. -/
theorem reads_bounds {x v : ℝ} (h : IsDouble x) (hx : x ≠ 0) (hv : nearest v = |x|) :
    (2 : ℝ) ^ (-1076 : ℤ) < v ∧ v < 2 ^ (1024 : ℤ) := by
  have ha : 0 < |x| := abs_pos.2 hx
  constructor
  · by_contra hc
    have h1 := nearest_mono (not_lt.1 hc)
    have h0 : nearest ((2 : ℝ) ^ (-1076 : ℤ)) = 0 := by
      have hl : Int.log 2 |(2 : ℝ) ^ (-1076 : ℤ)| = -1076 := by
        rw [abs_of_pos (two_zpow_pos _)]
        exact_mod_cast Int.log_zpow (b := 2) (R := ℝ) (by norm_num) (-1076)
      have hE : ulpExp ((2 : ℝ) ^ (-1076 : ℤ)) = -1074 := by unfold ulpExp; rw [hl]; rfl
      unfold nearest
      rw [hE, rint_eq_of_near 0 ?_]
      · simp
      · rw [← zpow_sub₀ (by norm_num)]
        norm_num
    rw [hv, h0] at h1
    linarith
  · by_contra hc
    have h1 := nearest_mono (not_lt.1 hc)
    have h0 : nearest ((2 : ℝ) ^ (1024 : ℤ)) = 2 ^ (1024 : ℤ) := by
      rw [nearest_eq (2 ^ 52) 972 (by norm_num) (le_of_eq (by norm_num))
        (zpow_lt_zpow_right₀ (by norm_num) (by norm_num)) ?_]
      · rw [show (((2 : ℤ) ^ 52 : ℤ) : ℝ) = (2 : ℝ) ^ (52 : ℤ) by norm_num,
          ← zpow_add₀ (by norm_num)]
        norm_num
      · rw [← zpow_sub₀ (by norm_num)]
        norm_num
    rw [hv, h0] at h1
    have := Dbl.double_lt h
    rw [show ((2 : ℝ) ^ (1024 : ℤ)) = 2 ^ (1024 : ℕ) from zpow_natCast 2 1024] at h1
    linarith

theorem shortest_pos {x : ℝ} (hx : x ≠ 0) {m : ℕ} {e : ℤ} (h : Shortest x m e) : 0 < m := by
  rcases Nat.eq_zero_or_pos m with rfl | h0
  · have := h.reads
    simp only [Nat.cast_zero, zero_mul, nearest_zero] at this
    exact absurd this.symm (abs_pos.2 hx).ne'
  · exact h0

theorem exists_shortest {x : ℝ} (h : IsDouble x) (hx : x ≠ 0) : ∃ m e, Shortest x m e := by
  classical
  obtain ⟨m0, e0, -, h0⟩ := seventeen h hx
  have hex : ∃ n : ℕ, ∃ (m : ℕ) (e : ℤ), nearest ((m : ℝ) * 10 ^ e) = |x| ∧ Nat.log 10 m = n :=
    ⟨_, m0, e0, h0, rfl⟩
  obtain ⟨m, e, h1, h2⟩ := Nat.find_spec hex
  exact ⟨m, e, h1, fun m' e' h' => h2 ▸ Nat.find_min' hex ⟨m', e', h', rfl⟩⟩

theorem Shortest.lt {x : ℝ} (h : IsDouble x) (hx : x ≠ 0) {m : ℕ} {e : ℤ} (hs : Shortest x m e) :
    m < 10 ^ 17 := by
  obtain ⟨m0, e0, h1, h0⟩ := seventeen h hx
  have := hs.short m0 e0 h0
  have h3 : Nat.log 10 m0 < 17 := by
    rcases Nat.eq_zero_or_pos m0 with rfl | hp
    · simp
    · exact Nat.log_lt_of_lt_pow hp.ne' h1
  exact Nat.lt_pow_of_log_lt (by norm_num) (by omega)

/-- The exponents of the shortest decimals. -/
theorem Shortest.exponent {x : ℝ} (h : IsDouble x) (hx : x ≠ 0) {m : ℕ} {e : ℤ}
    (hs : Shortest x m e) : -341 ≤ e ∧ e ≤ 308 := by
  obtain ⟨h1, h2⟩ := reads_bounds h hx hs.reads
  have hm := hs.lt h hx
  have hp := shortest_pos hx hs
  have hu := ten_zpow_pos e
  have hm' : (m : ℝ) ≤ 10 ^ (17 : ℤ) := by exact_mod_cast hm.le
  have hp' : (1 : ℝ) ≤ m := by exact_mod_cast hp
  constructor
  · by_contra hc
    have he : e ≤ -342 := by omega
    have : (m : ℝ) * 10 ^ e ≤ 10 ^ (-325 : ℤ) := by
      calc (m : ℝ) * 10 ^ e ≤ 10 ^ (17 : ℤ) * 10 ^ (-342 : ℤ) :=
            mul_le_mul hm' (zpow_le_zpow_right₀ (by norm_num) he) hu.le (by positivity)
        _ = _ := by rw [← zpow_add₀ (by norm_num)]; norm_num
    have h3 : (10 : ℝ) ^ (-325 : ℤ) ≤ 2 ^ (-1076 : ℤ) := by
      rw [zpow_neg, zpow_neg]
      refine inv_anti₀ (by positivity) ?_
      have : (2 : ℕ) ^ 1076 ≤ 10 ^ 325 := by decide +kernel
      exact_mod_cast this
    linarith
  · by_contra hc
    have he : 309 ≤ e := by omega
    have h4 : (10 : ℝ) ^ (309 : ℤ) ≤ m * 10 ^ e := by
      calc (10 : ℝ) ^ (309 : ℤ) ≤ 10 ^ e := zpow_le_zpow_right₀ (by norm_num) he
        _ ≤ m * 10 ^ e := le_mul_of_one_le_left hu.le hp'
    have h3 : (2 : ℝ) ^ (1024 : ℤ) ≤ 10 ^ (309 : ℤ) := by
      have : (2 : ℕ) ^ 1024 ≤ 10 ^ 309 := by decide +kernel
      exact_mod_cast this
    exact absurd (h3.trans h4) (not_le.2 h2)

/-- Python finds digits for every double. -/
theorem exists_pyDigits {x : ℝ} (h : IsDouble x) (hx : x ≠ 0) :
    ∃ p : ℕ × ℤ, PythonDigits x p.1 p.2 := by
  have hfin : {p : ℕ × ℤ | Shortest x p.1 p.2}.Finite := by
    refine Set.Finite.subset ((Set.finite_Iio (10 ^ 17)).prod (Set.finite_Icc (-341 : ℤ) 308)) ?_
    rintro ⟨m, e⟩ hs
    exact ⟨Shortest.lt h hx hs, Shortest.exponent h hx hs⟩
  obtain ⟨m, e, hs⟩ := exists_shortest h hx
  obtain ⟨p, hp, hmin⟩ := Set.exists_min_image _
    (fun p : ℕ × ℤ => abs ((p.1 : ℝ) * 10 ^ p.2 - |x|)) hfin ⟨(m, e), hs⟩
  exact ⟨p, ⟨hp, fun m' e' h' => hmin (m', e') h'⟩⟩

theorem pyDigits_spec {x : ℝ} (h : IsDouble x) (hx : x ≠ 0) :
    PythonDigits x (pyDigits x).1 (pyDigits x).2 := by
  have hex := exists_pyDigits h hx
  unfold pyDigits
  rw [dif_pos hex]
  exact hex.choose_spec

/-- Decimal numbers of up to fifteen digits are apart. -/
theorem fifteen_gap {M m : ℕ} {E e : ℤ} (hM : 10 ^ 14 ≤ M) (hm : m < 10 ^ 15)
    (h : (M : ℝ) * 10 ^ E < m * 10 ^ e) : (M : ℝ) * 10 ^ E + 10 ^ E ≤ m * 10 ^ e := by
  rcases le_or_gt E e with he | he
  · obtain ⟨k, hk⟩ := Int.eq_ofNat_of_zero_le (show 0 ≤ e - E by omega)
    have e1 : (10 : ℝ) ^ e = 10 ^ k * 10 ^ E := by
      rw [← zpow_natCast, ← zpow_add₀ (by norm_num)]; congr 1; omega
    have hu := ten_zpow_pos E
    rw [e1, ← mul_assoc] at h ⊢
    have h1 := lt_of_mul_lt_mul_right h hu.le
    have h2 : M < m * 10 ^ k := by exact_mod_cast h1
    have h3 : (M : ℝ) + 1 ≤ m * 10 ^ k := by exact_mod_cast h2
    calc (M : ℝ) * 10 ^ E + 10 ^ E = (M + 1) * 10 ^ E := by ring
      _ ≤ _ := mul_le_mul_of_nonneg_right h3 hu.le
  · exfalso
    have h1 : (m : ℝ) * 10 ^ e ≤ 10 ^ 15 * 10 ^ (E - 1) :=
      mul_le_mul (by exact_mod_cast hm.le) (zpow_le_zpow_right₀ (by norm_num) (by omega))
        (ten_zpow_pos e).le (by positivity)
    have h2 : (10 : ℝ) ^ 15 * 10 ^ (E - 1) = 10 ^ 14 * 10 ^ E := by
      rw [zpow_sub₀ (by norm_num)]; norm_num; ring
    have h3 : (10 : ℝ) ^ 14 * 10 ^ E ≤ M * 10 ^ E :=
      mul_le_mul_of_nonneg_right (by exact_mod_cast hM) (ten_zpow_pos E).le
    linarith

/-- Different decimal numbers of up to fifteen digits are read as different doubles, if they are
not tiny. -/
theorem fifteen_lt {m m' : ℕ} {e e' : ℤ} (h0 : 0 < m) (hm : m < 10 ^ 15) (hm' : m' < 10 ^ 15)
    (hn : (2 : ℝ) ^ (-1022 : ℤ) ≤ m * 10 ^ e) (h : (m : ℝ) * 10 ^ e < m' * 10 ^ e') :
    nearest ((m : ℝ) * 10 ^ e) < nearest (m' * 10 ^ e') := by
  obtain ⟨M, E, hM1, hM2, hME⟩ : ∃ (M : ℕ) (E : ℤ), 10 ^ 14 ≤ M ∧ M < 10 ^ 15 ∧
      (m : ℝ) * 10 ^ e = M * 10 ^ E := by
    have hl : Nat.log 10 m < 15 := Nat.log_lt_of_lt_pow h0.ne' hm
    refine ⟨m * 10 ^ (14 - Nat.log 10 m), e - (14 - Nat.log 10 m : ℕ), ?_, ?_, ?_⟩
    · have := Nat.pow_log_le_self 10 h0.ne'
      calc 10 ^ 14 = 10 ^ Nat.log 10 m * 10 ^ (14 - Nat.log 10 m) := by
            rw [← pow_add]; congr 1; omega
        _ ≤ _ := Nat.mul_le_mul_right _ this
    · have := Nat.lt_pow_succ_log_self (b := 10) (by norm_num) m
      calc m * 10 ^ (14 - Nat.log 10 m) < 10 ^ (Nat.log 10 m + 1) * 10 ^ (14 - Nat.log 10 m) :=
            Nat.mul_lt_mul_of_pos_right this (by positivity)
        _ = 10 ^ 15 := by rw [← pow_add]; congr 1; omega
    · push_cast
      rw [mul_assoc, ← zpow_natCast, ← zpow_add₀ (by norm_num)]
      congr 2; omega
  rw [hME] at h hn ⊢
  have hu := ten_zpow_pos E
  have hg := fifteen_gap hM1 hm' h
  have hM2' : (M : ℝ) ≤ 10 ^ 15 := by exact_mod_cast hM2.le
  have hv : 0 < (M : ℝ) * 10 ^ E := (two_zpow_pos _).trans_le hn
  have r1 := abs_le.1 (nearest_rel (x := (M : ℝ) * 10 ^ E) (by rwa [abs_of_pos hv]))
  have r2 := abs_le.1 (nearest_rel (x := (m' : ℝ) * 10 ^ e') (by
    rw [abs_of_pos (hv.trans h)]; exact hn.trans h.le))
  rw [abs_of_pos hv] at r1
  rw [abs_of_pos (hv.trans h)] at r2
  generalize hV' : (m' : ℝ) * 10 ^ e' = V' at *
  generalize hV : (M : ℝ) * 10 ^ E = V at *
  have hU : V / 10 ^ 15 ≤ 10 ^ E := by
    rw [div_le_iff₀ (by positivity), ← hV]
    nlinarith
  have c1 : V / 2 ^ 53 ≤ V / 10 ^ 15 / 8 := by
    rw [div_div, div_le_div_iff₀ (by positivity) (by positivity)]
    nlinarith [show (10 : ℝ) ^ 15 * 8 ≤ 2 ^ 53 by norm_num]
  have c2 : V' / 2 ^ 53 ≤ V / 2 ^ 53 + (V' - V) / 4 := by
    have : (V' - V) / 2 ^ 53 ≤ (V' - V) / 4 := by
      apply div_le_div_of_nonneg_left _ (by norm_num) (by norm_num)
      linarith
    have e1 : V' / 2 ^ 53 = V / 2 ^ 53 + (V' - V) / 2 ^ 53 := by ring
    linarith
  have hpos : 0 < V / 10 ^ 15 := by positivity
  linarith [r1.1, r1.2, r2.1, r2.2]

/-- The shortest digits of a double that is the nearest one to a decimal number of up to fifteen
digits are those of this number. -/
theorem shortest_of_fifteen {x : ℝ} (hx : x ≠ 0) {k : ℕ} {d : ℤ} (hk : k < 10 ^ 15)
    (hd : nearest ((k : ℝ) * 10 ^ d) = |x|) (hn : (2 : ℝ) ^ (-1021 : ℤ) ≤ |x|) {m : ℕ} {e : ℤ}
    (hs : Shortest x m e) : (m : ℝ) * 10 ^ e = k * 10 ^ d := by
  have hm0 := shortest_pos hx hs
  have hk0 : 0 < k := by
    rcases Nat.eq_zero_or_pos k with rfl | h0
    · simp only [Nat.cast_zero, zero_mul, nearest_zero] at hd
      exact absurd hd.symm (abs_pos.2 hx).ne'
    · exact h0
  have hm : m < 10 ^ 15 := by
    have h1 := hs.short k d hd
    have h2 : Nat.log 10 k < 15 := Nat.log_lt_of_lt_pow hk0.ne' hk
    exact Nat.lt_pow_of_log_lt (by norm_num) (by omega)
  have hbig : ∀ v : ℝ, nearest v = |x| → (2 : ℝ) ^ (-1022 : ℤ) ≤ v := by
    intro v hv
    by_contra hc
    have h1 := nearest_mono (not_le.1 hc).le
    have h2 : nearest ((2 : ℝ) ^ (-1022 : ℤ)) = 2 ^ (-1022 : ℤ) :=
      nearest_of_double ⟨1, -1022, by norm_num, by norm_num, by norm_num, by simp⟩
    rw [hv, h2] at h1
    have h3 : (2 : ℝ) ^ (-1022 : ℤ) < 2 ^ (-1021 : ℤ) :=
      zpow_lt_zpow_right₀ (by norm_num) (by norm_num)
    linarith
  rcases lt_trichotomy ((m : ℝ) * 10 ^ e) (k * 10 ^ d) with h | h | h
  · have := fifteen_lt hm0 hm hk (hbig _ hs.reads) h
    rw [hs.reads, hd] at this
    exact absurd this (lt_irrefl _)
  · exact h
  · have := fifteen_lt hk0 hk hm (hbig _ hd) h
    rw [hs.reads, hd] at this
    exact absurd this (lt_irrefl _)

end
end Disp
