import Verif.Lemmas.ComplexRounding
/-!
# NumPy's complex square root in double precision

The square of the computed root is the operand up to 13·2⁻⁵³ of its modulus.
-/

namespace Disp

noncomputable section

open Dbl Spec

/-- A difference of complex doubles. -/
theorem csub_any {z w : Cx Dbl} {Z W : ℂ} (hz : StandsForCx z Z) (hw : StandsForCx w W)
    (h : ‖Z - W‖ ≤ 10 ^ 100) : ∃ S, StandsForCx (z - w) S ∧ ‖S - (Z - W)‖ ≤ 1 / 2 ^ 53 * ‖Z - W‖ := by
  have h1 := (Complex.abs_re_le_norm (Z - W)).trans h
  have h2 := (Complex.abs_im_le_norm (Z - W)).trans h
  rw [Complex.sub_re] at h1
  rw [Complex.sub_im] at h2
  obtain ⟨x, x1, x2⟩ := sub_any hz.1 hw.1 h1
  obtain ⟨y, y1, y2⟩ := sub_any hz.2 hw.2 h2
  refine ⟨⟨x, y⟩, ⟨x1, y1⟩, ?_⟩
  have := norm_scaled (z := ⟨x, y⟩ - (Z - W)) (w := Z - W) (k := 1 / 2 ^ 53) (ε := 0) (by positivity)
    le_rfl (by simpa [mul_comm] using x2) (by simpa [mul_comm] using y2)
  simpa using this

/-- The square root of a number with a relative error. -/
theorem sqrt_err {g v k : ℝ} (hg : 0 < g) (hv0 : 0 ≤ v) (hv : |v - g| ≤ k * g) :
    |Real.sqrt v - Real.sqrt g| ≤ k * Real.sqrt g := by
  have s0 : 0 < Real.sqrt g := Real.sqrt_pos.2 hg
  have e : v - g = (Real.sqrt v - Real.sqrt g) * (Real.sqrt v + Real.sqrt g) := by
    have e1 := Real.mul_self_sqrt hv0
    have e2 := Real.mul_self_sqrt hg.le
    linear_combination e2 - e1
  rw [e, abs_mul, abs_of_nonneg (a := Real.sqrt v + Real.sqrt g) (by positivity)] at hv
  have h1 : |Real.sqrt v - Real.sqrt g| * Real.sqrt g ≤ k * Real.sqrt g * Real.sqrt g := by
    calc |Real.sqrt v - Real.sqrt g| * Real.sqrt g
        ≤ |Real.sqrt v - Real.sqrt g| * (Real.sqrt v + Real.sqrt g) :=
          mul_le_mul_of_nonneg_left (by linarith [Real.sqrt_nonneg v]) (abs_nonneg _)
      _ ≤ k * g := hv
      _ = k * Real.sqrt g * Real.sqrt g := by rw [mul_assoc, Real.mul_self_sqrt hg.le]
  exact le_of_mul_le_mul_right h1 s0

/-- The larger part of a root, and the other part. -/
theorem root_chain {c hd : Dbl} {X N h : ℝ} (hc : c.val = .fin X) (hh : hd.val = .fin h)
    (hN : |h - N| ≤ 101 / 100 * (1 / 2 ^ 53) * N) (X0 : 0 ≤ X) (X1 : X ≤ N)
    (N0 : ((10 : ℝ) ^ 60)⁻¹ ≤ N) (N1 : N ≤ 10 ^ 60) :
    ∃ t, (Dbl.sqrt ((c + hd) * Dbl.ofRat (1 / 2))).val = .fin t ∧
      |t - Real.sqrt ((X + N) / 2)| ≤ 62 / 10 * (1 / 2 ^ 53) * Real.sqrt ((X + N) / 2) ∧
      ∀ (b : Dbl) (y : ℝ), b.val = .fin y → |y| ≤ N →
        ∃ w, (b / (Dbl.ofRat 2 * Dbl.sqrt ((c + hd) * Dbl.ofRat (1 / 2)))).val = .fin w ∧
          |w - y / (2 * Real.sqrt ((X + N) / 2))| ≤
            62 / 10 * (1 / 2 ^ 53) * |y / (2 * Real.sqrt ((X + N) / 2))| + ((10 : ℝ) ^ 200)⁻¹ := by
  have Np : 0 < N := lt_of_lt_of_le (by positivity) N0
  have half : (Dbl.ofRat (1 / 2)).val = .fin (1 / 2) := by
    have : (lit (1 / 2) : Dbl).val = .fin (1 / 2) := by
      rw [Dbl.val_lit]
      have := Dbl.rnd_double (x := 1 / 2) ⟨1, -1, by norm_num, by norm_num, by norm_num, by norm_num⟩
      norm_num at this ⊢
      exact this
    exact this
  have two : (Dbl.ofRat 2).val = .fin 2 := by exact_mod_cast Dbl.lit_int (n := 2) (by norm_num)
  have tiny : ∀ {A : ℝ}, ((10 : ℝ) ^ 62)⁻¹ ≤ A → ((10 : ℝ) ^ 200)⁻¹ ≤ 1 / 100 * (1 / 2 ^ 53) * A := by
    intro A hA
    refine le_trans ?_ (mul_le_mul_of_nonneg_left hA (by positivity))
    norm_num
  have h0 : 0 ≤ h := by
    have := (abs_le.1 hN).1
    have k : 101 / 100 * (1 / 2 ^ 53) * N ≤ 1 * N := mul_le_mul_of_nonneg_right (by norm_num) Np.le
    linarith
  have h1 : h ≤ 2 * N := by
    have := (abs_le.1 hN).2
    have k : 101 / 100 * (1 / 2 ^ 53) * N ≤ 1 * N := mul_le_mul_of_nonneg_right (by norm_num) Np.le
    linarith
  have big : (3 : ℝ) * 10 ^ 60 ≤ 10 ^ 100 := by norm_num
  obtain ⟨s, s1, s2⟩ := add_any hc hh (by rw [abs_of_nonneg (by linarith)]; linarith)
  rw [abs_of_nonneg (a := X + h) (by linarith)] at s2
  obtain ⟨A, hA⟩ : ∃ A, A = X + N := ⟨_, rfl⟩
  have s3 : |s - A| ≤ 203 / 100 * (1 / 2 ^ 53) * A := by
    have k : |s - A| ≤ |s - (X + h)| + |h - N| := by
      have := abs_add_le (s - (X + h)) (h - N)
      rwa [show s - (X + h) + (h - N) = s - A by rw [hA]; ring] at this
    have k2 := (abs_le.1 hN).2
    generalize |s - A| = Y1 at *
    generalize |s - (X + h)| = Y2 at *
    generalize |h - N| = Y3 at *
    rw [hA]
    norm_num at s2 hN k k2 ⊢
    linarith
  have A1 : N ≤ A := by rw [hA]; linarith
  have A2 : A ≤ 2 * 10 ^ 60 := by rw [hA]; linarith
  have Ap : 0 < A := Np.trans_le A1
  have s4 : |s| ≤ 3 / 2 * A := by
    have k := abs_add_le (s - A) A
    rw [sub_add_cancel, abs_of_pos Ap] at k
    have k2 : 203 / 100 * (1 / 2 ^ 53) * A ≤ 1 / 2 * A := mul_le_mul_of_nonneg_right (by norm_num) Ap.le
    linarith
  obtain ⟨v, v1, v2⟩ := mul_any s1 half (by
    rw [abs_mul, abs_of_pos (by norm_num : (0 : ℝ) < 1 / 2)]
    have : (3 / 2 * (2 * 10 ^ 60)) * (1 / 2) ≤ (10 : ℝ) ^ 100 := by norm_num
    linarith)
  obtain ⟨g, hg⟩ : ∃ g, g = A / 2 := ⟨_, rfl⟩
  have gp : 0 < g := by rw [hg]; linarith
  have g0 : ((10 : ℝ) ^ 61)⁻¹ ≤ g := by
    have : ((10 : ℝ) ^ 61)⁻¹ ≤ ((10 : ℝ) ^ 60)⁻¹ / 2 := by norm_num
    rw [hg]; linarith
  have g1 : g ≤ 10 ^ 60 := by rw [hg]; linarith
  have v3 : |v - g| ≤ 305 / 100 * (1 / 2 ^ 53) * g := by
    have k : |v - g| ≤ |v - s * (1 / 2)| + |s - A| / 2 := by
      have := abs_add_le (v - s * (1 / 2)) ((s - A) / 2)
      rw [show v - s * (1 / 2) + (s - A) / 2 = v - g by rw [hg]; ring, abs_div,
        abs_of_pos (by norm_num : (0 : ℝ) < 2)] at this
      exact this
    have k3 := tiny (A := g) (le_trans (by norm_num) g0)
    have k4 : |s| ≤ A + 203 / 100 * (1 / 2 ^ 53) * A := by
      have := abs_add_le (s - A) A
      rw [sub_add_cancel, abs_of_pos Ap] at this
      linarith
    rw [abs_mul, abs_of_pos (by norm_num : (0 : ℝ) < 1 / 2)] at v2
    have hA' : A = 2 * g := by rw [hg]; ring
    rw [hA'] at s3 k4 k
    generalize |v - g| = Y1 at *
    generalize |v - s * (1 / 2)| = Y2 at *
    generalize |s - 2 * g| = Y3 at *
    generalize |s| = Y4 at *
    generalize ((10 : ℝ) ^ 200)⁻¹ = η at *
    norm_num at v2 s3 k k3 k4 ⊢
    linarith
  have vp : 0 ≤ v := by
    have := (abs_le.1 v3).1
    have k : 305 / 100 * (1 / 2 ^ 53) * g ≤ 1 * g := mul_le_mul_of_nonneg_right (by norm_num) gp.le
    linarith
  have r1 := sqrt_err gp vp v3
  obtain ⟨T, hT⟩ : ∃ T, T = Real.sqrt g := ⟨_, rfl⟩
  have e1 : Real.sqrt ((X + N) / 2) = T := by rw [hT, hg, hA]
  rw [e1]
  rw [← hT] at r1
  have Tp : 0 < T := by rw [hT]; exact Real.sqrt_pos.2 gp
  have TT : T * T = g := by rw [hT]; exact Real.mul_self_sqrt gp.le
  have T0 : ((10 : ℝ) ^ 31)⁻¹ ≤ T := by
    rw [hT]
    refine Real.le_sqrt_of_sq_le (le_trans ?_ g0)
    norm_num
  have T1 : T ≤ 10 ^ 31 := by
    rw [hT, Real.sqrt_le_left (by positivity)]
    refine g1.trans ?_
    norm_num
  have q1 : Real.sqrt v ≤ T + 305 / 100 * (1 / 2 ^ 53) * T := by
    have := (abs_le.1 r1).2
    linarith
  have q2 : Real.sqrt v ≤ 2 * T := by
    have k : 305 / 100 * (1 / 2 ^ 53) * T ≤ 1 * T := mul_le_mul_of_nonneg_right (by norm_num) Tp.le
    linarith
  obtain ⟨t, t1, t2⟩ := round_any (x := Real.sqrt v) (by
    rw [abs_of_nonneg (Real.sqrt_nonneg _)]
    have : (2 : ℝ) * 10 ^ 31 ≤ 10 ^ 100 := by norm_num
    linarith)
  rw [abs_of_nonneg (Real.sqrt_nonneg _)] at t2
  have t3 : |t - T| ≤ 408 / 100 * (1 / 2 ^ 53) * T := by
    have k : |t - T| ≤ |t - Real.sqrt v| + |Real.sqrt v - T| := by
      have := abs_add_le (t - Real.sqrt v) (Real.sqrt v - T)
      rwa [sub_add_sub_cancel] at this
    have k3 := tiny (A := T) (le_trans (by norm_num) T0)
    generalize |t - T| = Y1 at *
    generalize |t - Real.sqrt v| = Y2 at *
    generalize |Real.sqrt v - T| = Y3 at *
    generalize Real.sqrt v = Y4 at *
    generalize ((10 : ℝ) ^ 200)⁻¹ = η at *
    norm_num at t2 r1 k k3 q1 ⊢
    linarith
  have t4 : 9 / 10 * T ≤ t ∧ t ≤ 11 / 10 * T := by
    have k : 408 / 100 * (1 / 2 ^ 53) * T ≤ 1 / 10 * T :=
      mul_le_mul_of_nonneg_right (by norm_num) Tp.le
    have := abs_le.1 t3
    constructor <;> linarith
  have troot : (Dbl.sqrt ((c + hd) * Dbl.ofRat (1 / 2))).val = .fin t := by
    show (Dbl.rnd (PyFloat.sqrt _)).val = _
    rw [v1, XR.sqrt_fin_nonneg vp]
    exact t1
  refine ⟨t, troot, ?_, ?_⟩
  · refine t3.trans (mul_le_mul_of_nonneg_right ?_ Tp.le)
    norm_num
  intro b y hb hy
  obtain ⟨d, d1, d2⟩ := mul_any two troot (by
    rw [abs_of_nonneg (by linarith)]
    have : (2 : ℝ) * (11 / 10 * 10 ^ 31) ≤ 10 ^ 100 := by norm_num
    linarith)
  rw [abs_of_nonneg (a := 2 * t) (by linarith)] at d2
  have d3 : |d - 2 * T| ≤ 51 / 10 * (1 / 2 ^ 53) * (2 * T) := by
    have k : |d - 2 * T| ≤ |d - 2 * t| + 2 * |t - T| := by
      have := abs_add_le (d - 2 * t) (2 * (t - T))
      rwa [show d - 2 * t + 2 * (t - T) = d - 2 * T by ring, abs_mul,
        abs_of_pos (by norm_num : (0 : ℝ) < 2)] at this
    have k3 := tiny (A := T) (le_trans (by norm_num) T0)
    have k4 := (abs_le.1 t3).2
    generalize |d - 2 * T| = Y1 at *
    generalize |d - 2 * t| = Y2 at *
    generalize |t - T| = Y3 at *
    generalize ((10 : ℝ) ^ 200)⁻¹ = η at *
    norm_num at d2 t3 k k3 k4 ⊢
    linarith
  have d4 : T ≤ d := by
    have k : 51 / 10 * (1 / 2 ^ 53) * (2 * T) ≤ 1 / 2 * (2 * T) :=
      mul_le_mul_of_nonneg_right (by norm_num) (by linarith)
    have := (abs_le.1 d3).1
    linarith
  have dp : 0 < d := Tp.trans_le d4
  obtain ⟨z, hz⟩ : ∃ z, z = y / (2 * T) := ⟨_, rfl⟩
  have hy' : |y| ≤ 2 * (T * T) := by rw [TT, hg]; linarith
  have z1 : |y / d - z| ≤ 511 / 100 * (1 / 2 ^ 53) * |z| := by
    have e : y / d - z = z * ((2 * T - d) / d) := by
      rw [hz]
      field_simp
    rw [e, abs_mul, mul_comm]
    refine mul_le_mul_of_nonneg_right ?_ (abs_nonneg _)
    rw [abs_div, abs_of_pos dp, div_le_iff₀ dp, abs_sub_comm]
    have := (abs_le.1 d3).1
    have k2 : 51 / 10 * (1 / 2 ^ 53) * (2 * T) ≤ 51 / 10 * (1 / 2 ^ 53) * (1001 / 1000 * d) := by
      refine mul_le_mul_of_nonneg_left ?_ (by positivity)
      have k : 51 / 10 * (1 / 2 ^ 53) * (2 * T) ≤ 1 / 10000 * (2 * T) :=
        mul_le_mul_of_nonneg_right (by norm_num) (by linarith)
      linarith
    refine d3.trans (k2.trans ?_)
    rw [← mul_assoc]
    exact mul_le_mul_of_nonneg_right (by norm_num) dp.le
  have z2 : |z| ≤ T := by
    rw [hz, abs_div, abs_of_pos (a := 2 * T) (by linarith), div_le_iff₀ (by linarith)]
    linarith
  have z3 : |y / d| ≤ |z| + 511 / 100 * (1 / 2 ^ 53) * |z| := by
    have := abs_add_le (y / d - z) z
    rw [sub_add_cancel] at this
    linarith
  obtain ⟨w, w1, w2⟩ := div_any hb d1 dp.ne' (by
    have k : 511 / 100 * (1 / 2 ^ 53) * |z| ≤ 1 * |z| :=
      mul_le_mul_of_nonneg_right (by norm_num) (abs_nonneg _)
    have : (2 : ℝ) * 10 ^ 31 ≤ 10 ^ 100 := by norm_num
    linarith)
  refine ⟨w, w1, ?_⟩
  rw [← hz]
  have k : |w - z| ≤ |w - y / d| + |y / d - z| := by
    have := abs_add_le (w - y / d) (y / d - z)
    rwa [sub_add_sub_cancel] at this
  have z0 := abs_nonneg z
  generalize |w - z| = Y1 at *
  generalize |w - y / d| = Y2 at *
  generalize |y / d - z| = Y3 at *
  generalize |y / d| = Y4 at *
  generalize |z| = Y5 at *
  generalize ((10 : ℝ) ^ 200)⁻¹ = η at *
  norm_num at w2 z1 z3 k ⊢
  linarith

/-- From an error of the root to an error of its square. -/
theorem csquare_err {R S Z : ℂ} (hS : S ^ 2 = Z) (h0 : ((10 : ℝ) ^ 60)⁻¹ ≤ ‖Z‖)
    (h : ‖R - S‖ ≤ 62 / 10 * (1 / 2 ^ 53) * ‖S‖ + 2 * ((10 : ℝ) ^ 200)⁻¹) :
    ‖R ^ 2 - Z‖ ≤ 13 * (1 / 2 ^ 53) * ‖Z‖ := by
  have hn : ‖S‖ ^ 2 = ‖Z‖ := by rw [← norm_pow, hS]
  have s0 := norm_nonneg S
  have s1 : ((10 : ℝ) ^ 30)⁻¹ ≤ ‖S‖ := by
    refine le_of_sq_le_sq ?_ s0
    rw [hn]
    exact le_trans (by norm_num) h0
  have h1 : ‖R - S‖ ≤ 63 / 10 * (1 / 2 ^ 53) * ‖S‖ := by
    have : 2 * ((10 : ℝ) ^ 200)⁻¹ ≤ 1 / 10 * (1 / 2 ^ 53) * ‖S‖ := by
      refine le_trans ?_ (mul_le_mul_of_nonneg_left s1 (by positivity))
      norm_num
    linarith
  have e : R ^ 2 - Z = (R - S) * ((R - S) + 2 * S) := by rw [← hS]; ring
  rw [e, norm_mul]
  have h2 : ‖(R - S) + 2 * S‖ ≤ 201 / 100 * ‖S‖ := by
    refine (norm_add_le _ _).trans ?_
    rw [norm_mul]
    have : 63 / 10 * (1 / 2 ^ 53) * ‖S‖ ≤ 1 / 100 * ‖S‖ := mul_le_mul_of_nonneg_right (by norm_num) s0
    have n2 : ‖(2 : ℂ)‖ = 2 := by norm_num
    rw [n2]
    linarith
  calc ‖R - S‖ * ‖(R - S) + 2 * S‖ ≤ (63 / 10 * (1 / 2 ^ 53) * ‖S‖) * (201 / 100 * ‖S‖) :=
        mul_le_mul h1 h2 (norm_nonneg _) (by positivity)
    _ = (63 / 10 * (1 / 2 ^ 53) * (201 / 100)) * ‖S‖ ^ 2 := by ring
    _ = (63 / 10 * (1 / 2 ^ 53) * (201 / 100)) * ‖Z‖ := by rw [hn]
    _ ≤ 13 * (1 / 2 ^ 53) * ‖Z‖ := mul_le_mul_of_nonneg_right (by norm_num) (norm_nonneg _)

/-- The square of the computed root is the operand, up to rounding errors. -/
theorem csqrt_any {z : Cx Dbl} {Z : ℂ} (hz : StandsForCx z Z) (h0 : ((10 : ℝ) ^ 60)⁻¹ ≤ ‖Z‖)
    (h1 : ‖Z‖ ≤ 10 ^ 60) : ∃ R, StandsForCx (PyFloat.csqrt z) R ∧
      ‖R ^ 2 - Z‖ ≤ 13 * (1 / 2 ^ 53) * ‖Z‖ := by
  show ∃ R, StandsForCx (Dbl.csqrt z) R ∧ _
  have zero : (Dbl.ofRat 0).val = .fin 0 := lit_zero_val
  have Np : 0 < ‖Z‖ := lt_of_lt_of_le (by positivity) h0
  have nsq : Z.re ^ 2 + Z.im ^ 2 = ‖Z‖ ^ 2 := parts_norm
  have hre := Complex.abs_re_le_norm Z
  have him := Complex.abs_im_le_norm Z
  have hnot : (Dbl.le (Dbl.abs z.re) (Dbl.ofRat 0) && Dbl.le (Dbl.abs z.im) (Dbl.ofRat 0)) = false := by
    rw [Bool.and_eq_false_iff]
    by_contra hc
    rw [not_or, Bool.not_eq_false, Bool.not_eq_false] at hc
    obtain ⟨c1, c2⟩ := hc
    unfold Dbl.le at c1 c2
    rw [Dbl.abs_val hz.1, zero, XR.le_fin, decide_eq_true_eq] at c1
    rw [Dbl.abs_val hz.2, zero, XR.le_fin, decide_eq_true_eq] at c2
    have e1 : Z.re = 0 := abs_eq_zero.1 (le_antisymm c1 (abs_nonneg _))
    have e2 : Z.im = 0 := abs_eq_zero.1 (le_antisymm c2 (abs_nonneg _))
    rw [e1, e2] at nsq
    have : 0 < ‖Z‖ ^ 2 := by positivity
    rw [← nsq] at this
    norm_num at this
  obtain ⟨h, hh, he⟩ : ∃ h, (Dbl.hypot z.re z.im).val = .fin h ∧
      |h - ‖Z‖| ≤ 101 / 100 * (1 / 2 ^ 53) * ‖Z‖ := by
    obtain ⟨h, k1, k2⟩ := round_any (x := ‖Z‖) (by
      rw [abs_of_pos Np]
      exact h1.trans (by norm_num))
    refine ⟨h, ?_, ?_⟩
    · show (Dbl.rnd (PyFloat.sqrt (z.re.val * z.re.val + z.im.val * z.im.val))).val = _
      rw [hz.1, hz.2, XR.mul_fin, XR.mul_fin, XR.add_fin,
        XR.sqrt_fin_nonneg (add_nonneg (mul_self_nonneg _) (mul_self_nonneg _)), ← pow_two, ← pow_two, nsq,
        Real.sqrt_sq Np.le]
      exact k1
    · rw [abs_of_pos Np] at k2
      have : ((10 : ℝ) ^ 200)⁻¹ ≤ 1 / 100 * (1 / 2 ^ 53) * ‖Z‖ := by
        refine le_trans ?_ (mul_le_mul_of_nonneg_left h0 (by positivity))
        norm_num
      linarith
  rw [Dbl.csqrt_fin hz.1 hz.2]
  unfold Dbl.csqrtFin
  rw [if_neg (by rw [hnot]; decide)]
  obtain ⟨N, hN⟩ : ∃ N, N = ‖Z‖ := ⟨_, rfl⟩
  rw [← hN] at h0 h1 Np nsq hre him he
  rcases le_or_gt 0 Z.re with hp | hn
  · have hpos : Dbl.le (Dbl.ofRat 0) z.re = true := by
      unfold Dbl.le
      rw [zero, hz.1, XR.le_fin, decide_eq_true_eq]
      exact hp
    rw [if_pos hpos]
    rw [abs_of_nonneg hp] at hre
    obtain ⟨t, t1, t2, t3⟩ := root_chain hz.1 hh he hp hre h0 h1
    obtain ⟨w, w1, w2⟩ := t3 z.im Z.im hz.2 him
    have gp : 0 < (Z.re + N) / 2 := by linarith
    obtain ⟨T, hT⟩ : ∃ T, T = Real.sqrt ((Z.re + N) / 2) := ⟨_, rfl⟩
    have Tp : 0 < T := by rw [hT]; exact Real.sqrt_pos.2 gp
    have TT : T ^ 2 = (Z.re + N) / 2 := by rw [hT]; exact Real.sq_sqrt gp.le
    rw [← hT] at t2 w2
    refine ⟨⟨t, w⟩, ⟨t1, w1⟩, ?_⟩
    have hS : (⟨T, Z.im / (2 * T)⟩ : ℂ) ^ 2 = Z := by
      have q : (Z.im / (2 * T)) ^ 2 = (N - Z.re) / 2 := by
        rw [div_pow, mul_pow, TT, div_eq_iff (by positivity)]
        have : Z.im ^ 2 = (N - Z.re) * (N + Z.re) := by linarith [nsq]
        rw [this]; ring
      apply Complex.ext
      · rw [pow_two, Complex.mul_re]
        show T * T - Z.im / (2 * T) * (Z.im / (2 * T)) = _
        rw [← pow_two, ← pow_two, TT, q]; ring
      · rw [pow_two, Complex.mul_im]
        show T * (Z.im / (2 * T)) + Z.im / (2 * T) * T = _
        field_simp
        ring
    refine csquare_err hS (by rw [← hN]; exact h0) (norm_scaled (by positivity) (by positivity) ?_ ?_)
    · rw [Complex.sub_re]
      show |t - T| ≤ _ * |T| + _
      rw [abs_of_pos Tp]
      have : (0 : ℝ) ≤ ((10 : ℝ) ^ 200)⁻¹ := by positivity
      linarith
    · rw [Complex.sub_im]
      exact w2
  · have hpos : Dbl.le (Dbl.ofRat 0) z.re = false := by
      unfold Dbl.le
      rw [zero, hz.1, XR.le_fin, decide_eq_false_iff_not, not_le]
      exact hn
    rw [if_neg (by rw [hpos]; decide)]
    rw [abs_of_neg hn] at hre
    have hneg : (-z.re).val = .fin (-Z.re) := by
      show (Dbl.rnd (-z.re.val)).val = _
      rw [hz.1]
      exact Dbl.rnd_double (isDouble_neg (isDouble_val hz.1))
    obtain ⟨t, t1, t2, t3⟩ := root_chain hneg hh he (by linarith) hre h0 h1
    obtain ⟨w, w1, w2⟩ := t3 (Dbl.abs z.im) |Z.im| (Dbl.abs_val hz.2) (by rw [abs_abs]; exact him)
    have gp : 0 < (-Z.re + N) / 2 := by linarith
    obtain ⟨T, hT⟩ : ∃ T, T = Real.sqrt ((-Z.re + N) / 2) := ⟨_, rfl⟩
    have Tp : 0 < T := by rw [hT]; exact Real.sqrt_pos.2 gp
    have TT : T ^ 2 = (-Z.re + N) / 2 := by rw [hT]; exact Real.sq_sqrt gp.le
    rw [← hT] at t2 w2
    obtain ⟨σ, σ1, σ2, σ3⟩ : ∃ σ : ℝ, |σ| = 1 ∧ σ * |Z.im| = Z.im ∧
        (if Dbl.lt z.im (Dbl.ofRat 0) then
          -(Dbl.sqrt ((-z.re + Dbl.hypot z.re z.im) * Dbl.ofRat (1 / 2)))
          else Dbl.sqrt ((-z.re + Dbl.hypot z.re z.im) * Dbl.ofRat (1 / 2))).val = .fin (σ * t) := by
      rcases lt_or_ge Z.im 0 with hi | hi
      · have : Dbl.lt z.im (Dbl.ofRat 0) = true := by
          show PyFloat.lt z.im.val (Dbl.ofRat 0).val = true
          rw [zero, hz.2, XR.lt_fin, decide_eq_true_eq]
          exact hi
        refine ⟨-1, by norm_num, by rw [abs_of_neg hi]; ring, ?_⟩
        rw [if_pos this]
        show (Dbl.rnd (-(Dbl.sqrt _).val)).val = _
        rw [t1, neg_one_mul]
        exact Dbl.rnd_double (isDouble_neg (isDouble_val t1))
      · have : Dbl.lt z.im (Dbl.ofRat 0) = false := by
          show PyFloat.lt z.im.val (Dbl.ofRat 0).val = false
          rw [zero, hz.2, XR.lt_fin, decide_eq_false_iff_not, not_lt]
          exact hi
        refine ⟨1, by norm_num, by rw [abs_of_nonneg hi]; ring, ?_⟩
        rw [if_neg (by rw [this]; decide), t1, one_mul]
    have σσ : σ ^ 2 = 1 := by rw [← sq_abs, σ1]; norm_num
    refine ⟨⟨w, σ * t⟩, ⟨w1, σ3⟩, ?_⟩
    have hS : (⟨|Z.im| / (2 * T), σ * T⟩ : ℂ) ^ 2 = Z := by
      have q : (|Z.im| / (2 * T)) ^ 2 = (N + Z.re) / 2 := by
        rw [div_pow, mul_pow, TT, sq_abs, div_eq_iff (by positivity)]
        have : Z.im ^ 2 = (N - Z.re) * (N + Z.re) := by linarith [nsq]
        rw [this]; ring
      apply Complex.ext
      · rw [pow_two, Complex.mul_re]
        show |Z.im| / (2 * T) * (|Z.im| / (2 * T)) - σ * T * (σ * T) = _
        rw [← pow_two, ← pow_two, mul_pow, σσ, TT, q]; ring
      · rw [pow_two, Complex.mul_im]
        show |Z.im| / (2 * T) * (σ * T) + σ * T * (|Z.im| / (2 * T)) = _
        have : |Z.im| / (2 * T) * (σ * T) = σ * |Z.im| / 2 := by field_simp
        rw [mul_comm (σ * T), this, σ2]; ring
    refine csquare_err hS (by rw [← hN]; exact h0) (norm_scaled (by positivity) (by positivity) ?_ ?_)
    · rw [Complex.sub_re]
      exact w2
    · rw [Complex.sub_im]
      show |σ * t - σ * T| ≤ _ * |σ * T| + _
      rw [← mul_sub, abs_mul, abs_mul, σ1, one_mul, one_mul, abs_of_pos Tp]
      have : (0 : ℝ) ≤ ((10 : ℝ) ^ 200)⁻¹ := by positivity
      linarith

end

end Disp
