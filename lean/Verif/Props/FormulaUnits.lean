import Verif.Props.FormulaAccuracy
import Verif.Props.TableAccuracy
/-!
# C114: dispersion formulas asked in any unit, in double precision
-/

namespace Disp

open Spec

noncomputable section

/-- As `Conditioned`, with a factor of two to spare, and a measure `K` of the sensitivity to the
wavelength: resonances are at a relative distance of at least `1 / K`, exponents are at most `K` in
size. -/
inductive Spec.Steady : Formula → ℝ → List (ℝ × ℝ) → ℝ → ℝ → ℝ → ℝ → Prop
  | sellmeier {c : ℝ} {ps : List (ℝ × ℝ)} {x K r A : ℝ}
      (h : ∀ p ∈ ps, x ^ 2 + p.2 ^ 2 ≤ K * |x ^ 2 - p.2 ^ 2|)
      (hr : r = 1 + c + (ps.map fun p => p.1 * x ^ 2 / (x ^ 2 - p.2 ^ 2)).sum)
      (hA : A = 1 + |c| + (ps.map fun p => |p.1 * x ^ 2 / (x ^ 2 - p.2 ^ 2)|).sum)
      (hc : A ≤ 2 ^ 19 * r) : Steady .sellmeier c ps x K (Real.sqrt r) (A / Real.sqrt r)
  | sellmeier2 {c : ℝ} {ps : List (ℝ × ℝ)} {x K r A : ℝ}
      (h : ∀ p ∈ ps, x ^ 2 + |p.2| ≤ K * |x ^ 2 - p.2|)
      (hr : r = 1 + c + (ps.map fun p => p.1 * x ^ 2 / (x ^ 2 - p.2)).sum)
      (hA : A = 1 + |c| + (ps.map fun p => |p.1 * x ^ 2 / (x ^ 2 - p.2)|).sum)
      (hc : A ≤ 2 ^ 19 * r) : Steady .sellmeier2 c ps x K (Real.sqrt r) (A / Real.sqrt r)
  | polynomial {c : ℝ} {ps : List (ℝ × ℝ)} {x K r A : ℝ}
      (h : ∀ p ∈ ps, |p.2| ≤ K ∧ ((10 : ℝ) ^ 59)⁻¹ ≤ x ^ p.2 ∧ x ^ p.2 ≤ 10 ^ 59)
      (hr : r = c + (ps.map fun p => p.1 * x ^ p.2).sum)
      (hA : A = |c| + (ps.map fun p => |p.1 * x ^ p.2|).sum)
      (hc : A ≤ 2 ^ 19 * r) (h1 : 1 ≤ 2 ^ 19 * r) :
      Steady .polynomial c ps x K (Real.sqrt r) (A / Real.sqrt r)
  | cauchy {c : ℝ} {ps : List (ℝ × ℝ)} {x K : ℝ}
      (h : ∀ p ∈ ps, |p.2| ≤ K ∧ ((10 : ℝ) ^ 59)⁻¹ ≤ x ^ p.2 ∧ x ^ p.2 ≤ 10 ^ 59) :
      Steady .cauchy c ps x K (c + (ps.map fun p => p.1 * x ^ p.2).sum)
        (|c| + (ps.map fun p => |p.1 * x ^ p.2|).sum)
  | gases {c : ℝ} {ps : List (ℝ × ℝ)} {x K : ℝ}
      (h : ∀ p ∈ ps, |p.2| + 1 / x ^ 2 ≤ K * |p.2 - 1 / x ^ 2|) :
      Steady .gases c ps x K (1 + c + (ps.map fun p => p.1 / (p.2 - 1 / x ^ 2)).sum)
        (1 + |c| + (ps.map fun p => |p.1 / (p.2 - 1 / x ^ 2)|).sum)

/-! ## Terms at neighbouring wavelengths -/

/-- Away from a resonance at `C`, the distance from it changes little. -/
theorem gap_near {z z' C K ε : ℝ} (hz : 0 < z) (hd : |z' - z| ≤ ε * z) (hK : z + |C| ≤ K * |z - C|)
    (hε : K * ε ≤ 1 / 4) (hε0 : 0 ≤ ε) (hε1 : ε ≤ 1 / 4) :
    3 / 4 * |z - C| ≤ |z' - C| ∧ z' + |C| ≤ 2 * K * |z' - C| ∧ ε * (z + |C|) ≤ ε * K * |z - C| ∧
      0 < |z - C| := by
  have hC := abs_nonneg C
  have h1 := abs_sub_abs_le_abs_sub (z - C) (z - z')
  rw [show z - C - (z - z') = z' - C by ring, abs_sub_comm z z'] at h1
  have h2 : ε * (z + |C|) ≤ ε * (K * |z - C|) := mul_le_mul_of_nonneg_left hK hε0
  have h3 : K * ε * |z - C| ≤ 1 / 4 * |z - C| := mul_le_mul_of_nonneg_right hε (abs_nonneg _)
  have h4 : 0 ≤ ε * |C| := mul_nonneg hε0 hC
  have hg : 3 / 4 * |z - C| ≤ |z' - C| := by nlinarith
  have hpos : 0 < |z - C| := by
    rcases (abs_nonneg (z - C)).lt_or_eq with h | h
    · exact h
    · rw [← h] at hK; linarith
  have hK0 : 0 ≤ K := by
    by_contra hneg
    have : K * |z - C| ≤ 0 := mul_nonpos_of_nonpos_of_nonneg (by linarith) (abs_nonneg _)
    linarith
  refine ⟨hg, ?_, by nlinarith, hpos⟩
  have h5 := abs_le.1 hd
  have h6 : z' + |C| ≤ (1 + ε) * (z + |C|) := by nlinarith [h5.2]
  have h7 : (1 + ε) * (z + |C|) ≤ 5 / 4 * (K * |z - C|) := by
    have : 0 ≤ z + |C| := by linarith
    nlinarith
  have h8 : K * (3 / 4 * |z - C|) ≤ K * |z' - C| := mul_le_mul_of_nonneg_left hg hK0
  have : 0 ≤ K * |z - C| := by positivity
  linarith

theorem resonance_near {z z' B C K ε : ℝ} (hz : 0 < z) (hd : |z' - z| ≤ ε * z)
    (hK : z + |C| ≤ K * |z - C|) (hε : K * ε ≤ 1 / 4) (hε0 : 0 ≤ ε) (hε1 : ε ≤ 1 / 4) :
    |B * z' / (z' - C) - B * z / (z - C)| ≤ 4 / 3 * (K * ε) * |B * z / (z - C)| := by
  obtain ⟨h1, -, h2, h3⟩ := gap_near hz hd hK hε hε0 hε1
  have n1 : z - C ≠ 0 := abs_pos.1 h3
  have n2 : z' - C ≠ 0 := abs_pos.1 (by linarith)
  have e : B * z' / (z' - C) - B * z / (z - C) = (B * z / (z - C)) * (C * (z - z') / (z * (z' - C))) := by
    field_simp
    ring
  rw [e, abs_mul, mul_comm]
  refine mul_le_mul_of_nonneg_right ?_ (abs_nonneg _)
  rw [abs_div, abs_mul, abs_mul, abs_of_pos hz, div_le_iff₀ (by positivity), abs_sub_comm z z']
  have hC := abs_nonneg C
  calc |C| * |z' - z| ≤ |C| * (ε * z) := mul_le_mul_of_nonneg_left hd hC
    _ = (ε * |C|) * z := by ring
    _ ≤ (ε * K * |z - C|) * z := by
        refine mul_le_mul_of_nonneg_right ?_ hz.le
        nlinarith
    _ ≤ (ε * K * (4 / 3 * |z' - C|)) * z := by
        refine mul_le_mul_of_nonneg_right ?_ hz.le
        refine mul_le_mul_of_nonneg_left (by linarith) ?_
        have : 0 ≤ ε * K * |z - C| := le_trans (by positivity) h2
        exact nonneg_of_mul_nonneg_left this h3
    _ = 4 / 3 * (K * ε) * (z * |z' - C|) := by ring

theorem pole_near {z z' B C K ε : ℝ} (hz : 0 < z) (hd : |z' - z| ≤ ε * z)
    (hK : |C| + z ≤ K * |C - z|) (hε : K * ε ≤ 1 / 4) (hε0 : 0 ≤ ε) (hε1 : ε ≤ 1 / 4) :
    |B / (C - z') - B / (C - z)| ≤ 4 / 3 * (K * ε) * |B / (C - z)| := by
  rw [add_comm, abs_sub_comm] at hK
  obtain ⟨h1, -, h2, h3⟩ := gap_near hz hd hK hε hε0 hε1
  have n1 : z - C ≠ 0 := abs_pos.1 h3
  have n2 : z' - C ≠ 0 := abs_pos.1 (by linarith)
  have n3 : C - z ≠ 0 := by intro h; apply n1; linarith
  have n4 : C - z' ≠ 0 := by intro h; apply n2; linarith
  have e : B / (C - z') - B / (C - z) = (B / (C - z)) * ((z' - z) / (C - z')) := by
    field_simp
    ring
  rw [e, abs_mul, mul_comm]
  refine mul_le_mul_of_nonneg_right ?_ (abs_nonneg _)
  rw [abs_div, div_le_iff₀ (abs_pos.2 n4), abs_sub_comm C z']
  have hC := abs_nonneg C
  have hεK : 0 ≤ ε * K := by
    have : 0 ≤ ε * K * |z - C| := le_trans (by positivity) h2
    exact nonneg_of_mul_nonneg_left this h3
  calc |z' - z| ≤ ε * z := hd
    _ ≤ ε * K * |z - C| := by nlinarith
    _ ≤ ε * K * (4 / 3 * |z' - C|) := mul_le_mul_of_nonneg_left (by linarith) hεK
    _ = 4 / 3 * (K * ε) * |z' - C| := by ring

theorem power_near {x x' p K δ : ℝ} (hx : 0 < x) (hd : |x' - x| ≤ δ * x) (hp : |p| ≤ K)
    (hδ0 : 0 ≤ δ) (hδ : δ ≤ 1 / 4) (hK : K * δ ≤ 1 / 4) :
    |x' ^ p - x ^ p| ≤ 8 / 3 * (K * δ) * x ^ p := by
  have hd' := abs_le.1 hd
  have hx' : 0 < x' := by nlinarith
  obtain ⟨y, hy⟩ : ∃ y, y = x' / x := ⟨_, rfl⟩
  have hxy : x' = x * y := by rw [hy]; field_simp
  have hy0 : 0 < y := by rw [hy]; positivity
  have hy1 : |y - 1| ≤ δ := by
    rw [hxy, show x * y - x = (y - 1) * x by ring, abs_mul, abs_of_pos hx] at hd
    exact le_of_mul_le_mul_right hd hx
  have hy2 := abs_le.1 hy1
  have hlog : |Real.log y| ≤ 4 / 3 * δ := by
    rw [abs_le]
    constructor
    · have h1 := Real.one_sub_inv_le_log_of_pos hy0
      have h2 : y⁻¹ ≤ 1 + 4 / 3 * δ := by
        rw [inv_le_iff_one_le_mul₀ hy0]
        nlinarith
      linarith
    · have := Real.log_le_sub_one_of_pos hy0
      linarith
  rw [hxy, Real.mul_rpow hx.le hy0.le, show x ^ p * y ^ p - x ^ p = (y ^ p - 1) * x ^ p by ring,
    abs_mul, abs_of_pos (Real.rpow_pos_of_pos hx p)]
  refine mul_le_mul_of_nonneg_right ?_ (Real.rpow_pos_of_pos hx p).le
  rw [Real.rpow_def_of_pos hy0]
  have hu : |Real.log y * p| ≤ 4 / 3 * (K * δ) := by
    rw [abs_mul]
    calc |Real.log y| * |p| ≤ (4 / 3 * δ) * K := mul_le_mul hlog hp (abs_nonneg _) (by linarith)
      _ = 4 / 3 * (K * δ) := by ring
  have := Real.abs_exp_sub_one_le (x := Real.log y * p) (by linarith)
  linarith

/-- Squares of neighbouring wavelengths. -/
theorem square_near {x x' δ : ℝ} (hx : 0 < x) (hd : |x' - x| ≤ δ * x) (hδ0 : 0 ≤ δ)
    (hδ : δ ≤ 1 / 2 ^ 22) : 0 < x' ∧ |x' ^ 2 - x ^ 2| ≤ (17 / 8 * δ) * x ^ 2 ∧
      |1 / x' ^ 2 - 1 / x ^ 2| ≤ (17 / 8 * δ) * (1 / x ^ 2) := by
  have hd' := abs_le.1 hd
  have hs : δ ≤ 1 / 1000000 := hδ.trans (by norm_num)
  have hx' : 0 < x' := by nlinarith
  have e1 : |x' ^ 2 - x ^ 2| ≤ (33 / 16 * δ) * x ^ 2 := by
    rw [show x' ^ 2 - x ^ 2 = (x' - x) * (x' + x) by ring, abs_mul,
      abs_of_pos (show 0 < x' + x by linarith)]
    calc |x' - x| * (x' + x) ≤ (δ * x) * (33 / 16 * x) :=
          mul_le_mul hd (by nlinarith) (by linarith) (by positivity)
      _ = (33 / 16 * δ) * x ^ 2 := by ring
  refine ⟨hx', e1.trans ?_, ?_⟩
  · exact mul_le_mul_of_nonneg_right (by linarith) (by positivity)
  · have hx2 : 0 < x ^ 2 := by positivity
    have hx2' : 0 < x' ^ 2 := by positivity
    have e2 : 33 / 34 * x ^ 2 ≤ x' ^ 2 := by
      have := (abs_le.1 e1).1
      nlinarith
    rw [show 1 / x' ^ 2 - 1 / x ^ 2 = (x ^ 2 - x' ^ 2) / (x' ^ 2) * (1 / x ^ 2) by field_simp,
      abs_mul, abs_of_pos (show 0 < 1 / x ^ 2 by positivity), abs_div, abs_of_pos hx2',
      abs_sub_comm]
    refine mul_le_mul_of_nonneg_right ?_ (by positivity)
    rw [div_le_iff₀ hx2']
    calc |x' ^ 2 - x ^ 2| ≤ (33 / 16 * δ) * x ^ 2 := e1
      _ = 17 / 8 * δ * (33 / 34 * x ^ 2) := by ring
      _ ≤ 17 / 8 * δ * x' ^ 2 := mul_le_mul_of_nonneg_left e2 (by linarith)

/-! ## Sums -/

theorem sum_near (f g : ℝ × ℝ → ℝ) {η : ℝ} (ps : List (ℝ × ℝ))
    (h : ∀ p ∈ ps, |g p - f p| ≤ η * |f p|) :
    |(ps.map g).sum - (ps.map f).sum| ≤ η * (ps.map fun p => |f p|).sum ∧
      (ps.map fun p => |g p|).sum ≤ (1 + η) * (ps.map fun p => |f p|).sum := by
  induction ps with
  | nil => simp
  | cons p ps ih =>
    obtain ⟨i1, i2⟩ := ih fun q hq => h q (by simp [hq])
    have h0 := h p (by simp)
    simp only [List.map_cons, List.sum_cons]
    constructor
    · have := abs_add_le (g p - f p) ((ps.map g).sum - (ps.map f).sum)
      rw [show g p + (ps.map g).sum - (f p + (ps.map f).sum) =
        (g p - f p) + ((ps.map g).sum - (ps.map f).sum) by ring]
      linarith
    · have := abs_sub_abs_le_abs_sub (g p) (f p)
      linarith

/-- The square root at a neighbouring value. -/
theorem root_near {r r' A A' η : ℝ} (hA : A ≤ 2 ^ 19 * r) (hr : 0 < r) (hA0 : 0 ≤ A)
    (hη0 : 0 ≤ η) (hη : η ≤ 1 / 2 ^ 22)
    (h1 : |r' - r| ≤ η * A) (h2 : A' ≤ (1 + η) * A) : A' ≤ 2 ^ 20 * r' ∧ r / 2 ≤ r' ∧
      |Real.sqrt r' - Real.sqrt r| ≤ η * (A / Real.sqrt r) ∧
      A' / Real.sqrt r' ≤ 2 * (A / Real.sqrt r) := by
  have k1 := abs_le.1 h1
  have k2 : η * A ≤ 1 / 2 ^ 22 * (2 ^ 19 * r) := mul_le_mul hη hA hA0 (by positivity)
  have k3 : r' ≥ 7 / 8 * r := by
    have : (1 : ℝ) / 2 ^ 22 * (2 ^ 19 * r) = r / 8 := by ring
    linarith [k1.1]
  have k4 : A' ≤ 9 / 8 * A := by
    have : η ≤ 1 / 8 := hη.trans (by norm_num)
    nlinarith
  have hr' : 0 < r' := by linarith
  have s0 := Real.sqrt_pos.2 hr
  have s1 := Real.sqrt_pos.2 hr'
  have q0 := Real.mul_self_sqrt hr.le
  have q1 := Real.mul_self_sqrt hr'.le
  refine ⟨by nlinarith, by linarith, ?_, ?_⟩
  · have e : (Real.sqrt r' - Real.sqrt r) * (Real.sqrt r' + Real.sqrt r) = r' - r := by nlinarith
    have e2 : |Real.sqrt r' - Real.sqrt r| * (Real.sqrt r' + Real.sqrt r) = |r' - r| := by
      rw [← e, abs_mul, abs_of_pos (by linarith : 0 < Real.sqrt r' + Real.sqrt r)]
    rw [← mul_div_assoc, le_div_iff₀ s0]
    have := abs_nonneg (Real.sqrt r' - Real.sqrt r)
    nlinarith
  · have hs : 3 / 4 * Real.sqrt r ≤ Real.sqrt r' := by
      refine Real.le_sqrt_of_sq_le ?_
      nlinarith
    rw [div_le_iff₀ s1]
    have e : A / Real.sqrt r * Real.sqrt r = A := by field_simp
    have h0 : 0 ≤ A / Real.sqrt r := by positivity
    nlinarith

theorem with_constant {d η A0 S T : ℝ} (hη : 0 ≤ η) (hA : 0 ≤ A0) (h1 : |d| ≤ η * S)
    (h2 : T ≤ (1 + η) * S) : |d| ≤ η * (A0 + S) ∧ A0 + T ≤ (1 + η) * (A0 + S) := by
  have : 0 ≤ η * A0 := mul_nonneg hη hA
  constructor <;> nlinarith

theorem with_constant' {η A0 S T : ℝ} (hη : η ≤ 1) (hS : 0 ≤ A0 + S)
    (h : A0 + T ≤ (1 + η) * (A0 + S)) : A0 + T ≤ 2 * (A0 + S) :=
  h.trans (mul_le_mul_of_nonneg_right (by linarith) hS)

/-! ## Formulas at neighbouring wavelengths -/

/-- A formula at a neighbouring wavelength: the index changes by at most 3 K times the relative
distance times the sum of the terms. -/
theorem Spec.Steady.moved {k : Formula} {c x x' K n b δ : ℝ} {ps : List (ℝ × ℝ)}
    (h : Steady k c ps x K n b) (hx : 0 < x) (hd : |x' - x| ≤ δ * x) (hδ0 : 0 ≤ δ)
    (hδ : δ ≤ 1 / 2 ^ 22) (hK0 : 0 ≤ K) (hK : 3 * K * δ ≤ 1 / 2 ^ 22) :
    ∃ K' n' b', Conditioned k c ps x' K' n' b' ∧ 0 ≤ K' ∧ K' ≤ 2 * K ∧
      |n' - n| ≤ 3 * K * δ * b ∧ b' ≤ 2 * b := by
  obtain ⟨hx', hsq, hinv⟩ := square_near hx hd hδ0 hδ
  have hx2 : 0 < x ^ 2 := by positivity
  have hη0 : 0 ≤ 3 * K * δ := by positivity
  have hKδ : 0 ≤ K * δ := by positivity
  have hKs : K * δ ≤ 1 / 1000 := by
    have : (1 : ℝ) / 2 ^ 22 ≤ 1 / 1000 := by norm_num
    linarith
  have hδs : δ ≤ 1 / 1000 := hδ.trans (by norm_num)
  have hε : K * (17 / 8 * δ) ≤ 1 / 4 := by linarith
  have hε0 : 0 ≤ 17 / 8 * δ := by linarith
  have hε1 : 17 / 8 * δ ≤ 1 / 4 := by linarith
  have weaken : ∀ t : ℝ, 4 / 3 * (K * (17 / 8 * δ)) * |t| ≤ 3 * K * δ * |t| := fun t =>
    mul_le_mul_of_nonneg_right (by linarith) (abs_nonneg t)
  have weaken2 : ∀ a t : ℝ, 0 ≤ t → |a| * (8 / 3 * (K * δ) * t) ≤ 3 * K * δ * |a * t| := by
    intro a t ht
    rw [abs_mul, abs_of_nonneg ht]
    have : 0 ≤ |a| * t := mul_nonneg (abs_nonneg _) ht
    nlinarith
  have power : ∀ p : ℝ × ℝ, |p.2| ≤ K → |p.1 * x' ^ p.2 - p.1 * x ^ p.2| ≤
      3 * K * δ * |p.1 * x ^ p.2| := by
    intro p hp
    rw [← mul_sub, abs_mul]
    refine le_trans (mul_le_mul_of_nonneg_left
      (power_near hx hd hp hδ0 (by linarith) (by linarith)) (abs_nonneg _)) ?_
    exact weaken2 _ _ (Real.rpow_pos_of_pos hx _).le
  have range : ∀ p : ℝ × ℝ, |p.2| ≤ K → ((10 : ℝ) ^ 59)⁻¹ ≤ x ^ p.2 → x ^ p.2 ≤ 10 ^ 59 →
      ((10 : ℝ) ^ 60)⁻¹ ≤ x' ^ p.2 ∧ x' ^ p.2 ≤ 10 ^ 60 := by
    intro p hp h1 h2
    have h3 := abs_le.1 (power_near hx hd hp hδ0 (by linarith) (by linarith))
    have hpos := Real.rpow_pos_of_pos hx p.2
    have h4 : 8 / 3 * (K * δ) * x ^ p.2 ≤ 1 / 2 * x ^ p.2 :=
      mul_le_mul_of_nonneg_right (by linarith) hpos.le
    constructor
    · have : ((10 : ℝ) ^ 60)⁻¹ ≤ 1 / 2 * ((10 : ℝ) ^ 59)⁻¹ := by norm_num
      linarith [h3.1]
    · have : (3 / 2 : ℝ) * 10 ^ 59 ≤ 10 ^ 60 := by norm_num
      linarith [h3.2]
  cases h with
  | @sellmeier _ _ _ _ r A h hr hA hc =>
    obtain ⟨s1, s2⟩ := sum_near (fun p => p.1 * x ^ 2 / (x ^ 2 - p.2 ^ 2))
      (fun p => p.1 * x' ^ 2 / (x' ^ 2 - p.2 ^ 2)) ps (η := 3 * K * δ) (fun p hp =>
        (resonance_near hx2 hsq (by rw [abs_of_nonneg (sq_nonneg p.2)]; exact h p hp) hε hε0
          hε1).trans (weaken _))
    have hsum := abs_sum_nonneg (fun u v => u * x ^ 2 / (x ^ 2 - v ^ 2)) ps
    have hA1 : 1 ≤ A := by rw [hA]; linarith [abs_nonneg c]
    have hc0 := abs_nonneg c
    obtain ⟨w1, w2⟩ := with_constant hη0 (by linarith : 0 ≤ 1 + |c|) s1 s2
    obtain ⟨g1, -, g2, g3⟩ := root_near hc (by linarith) (by linarith) hη0 hK
      (r' := 1 + c + (ps.map fun p => p.1 * x' ^ 2 / (x' ^ 2 - p.2 ^ 2)).sum)
      (A' := 1 + |c| + (ps.map fun p => |p.1 * x' ^ 2 / (x' ^ 2 - p.2 ^ 2)|).sum)
      (by rw [hr, add_sub_add_left_eq_sub, hA]; exact w1) (by rw [hA]; exact w2)
    refine ⟨2 * K, _, _, .sellmeier ?_ rfl rfl g1, by linarith, le_rfl, g2, g3⟩
    intro p hp
    have := (gap_near hx2 hsq (C := p.2 ^ 2) (by rw [abs_of_nonneg (sq_nonneg p.2)]; exact h p hp)
      hε hε0 hε1).2.1
    rwa [abs_of_nonneg (sq_nonneg p.2)] at this
  | @sellmeier2 _ _ _ _ r A h hr hA hc =>
    obtain ⟨s1, s2⟩ := sum_near (fun p => p.1 * x ^ 2 / (x ^ 2 - p.2))
      (fun p => p.1 * x' ^ 2 / (x' ^ 2 - p.2)) ps (η := 3 * K * δ) (fun p hp =>
        (resonance_near hx2 hsq (h p hp) hε hε0 hε1).trans (weaken _))
    have hsum := abs_sum_nonneg (fun u v => u * x ^ 2 / (x ^ 2 - v)) ps
    have hA1 : 1 ≤ A := by rw [hA]; linarith [abs_nonneg c]
    have hc0 := abs_nonneg c
    obtain ⟨w1, w2⟩ := with_constant hη0 (by linarith : 0 ≤ 1 + |c|) s1 s2
    obtain ⟨g1, -, g2, g3⟩ := root_near hc (by linarith) (by linarith) hη0 hK
      (r' := 1 + c + (ps.map fun p => p.1 * x' ^ 2 / (x' ^ 2 - p.2)).sum)
      (A' := 1 + |c| + (ps.map fun p => |p.1 * x' ^ 2 / (x' ^ 2 - p.2)|).sum)
      (by rw [hr, add_sub_add_left_eq_sub, hA]; exact w1) (by rw [hA]; exact w2)
    exact ⟨2 * K, _, _, .sellmeier2 (fun p hp => (gap_near hx2 hsq (h p hp) hε hε0 hε1).2.1) rfl rfl
      g1, by linarith, le_rfl, g2, g3⟩
  | @polynomial _ _ _ _ r A h hr hA hc h1 =>
    obtain ⟨s1, s2⟩ := sum_near (fun p => p.1 * x ^ p.2) (fun p => p.1 * x' ^ p.2) ps
      (η := 3 * K * δ) (fun p hp => power p (h p hp).1)
    have hsum := abs_sum_nonneg (fun u v => u * x ^ v) ps
    have hc0 := abs_nonneg c
    obtain ⟨w1, w2⟩ := with_constant hη0 hc0 s1 s2
    obtain ⟨g1, g0, g2, g3⟩ := root_near hc (by linarith) (by rw [hA]; linarith) hη0 hK
      (r' := c + (ps.map fun p => p.1 * x' ^ p.2).sum)
      (A' := |c| + (ps.map fun p => |p.1 * x' ^ p.2|).sum)
      (by rw [hr, add_sub_add_left_eq_sub, hA]; exact w1) (by rw [hA]; exact w2)
    exact ⟨0, _, _, .polynomial (fun p hp => range p (h p hp).1 (h p hp).2.1 (h p hp).2.2) rfl rfl g1
      (by linarith), le_rfl, by linarith, g2, g3⟩
  | cauchy h =>
    obtain ⟨s1, s2⟩ := sum_near (fun p => p.1 * x ^ p.2) (fun p => p.1 * x' ^ p.2) ps
      (η := 3 * K * δ) (fun p hp => power p (h p hp).1)
    have hsum := abs_sum_nonneg (fun u v => u * x ^ v) ps
    have hc0 := abs_nonneg c
    obtain ⟨w1, w2⟩ := with_constant hη0 hc0 s1 s2
    refine ⟨0, _, _, .cauchy (fun p hp => range p (h p hp).1 (h p hp).2.1 (h p hp).2.2), le_rfl,
      by linarith, ?_, ?_⟩
    · rw [add_sub_add_left_eq_sub]; exact w1
    · exact with_constant' (by linarith) (by linarith) w2
  | gases h =>
    have hz : 0 < 1 / x ^ 2 := by positivity
    obtain ⟨s1, s2⟩ := sum_near (fun p => p.1 / (p.2 - 1 / x ^ 2)) (fun p => p.1 / (p.2 - 1 / x' ^ 2))
      ps (η := 3 * K * δ) (fun p hp => (pole_near hz hinv (h p hp) hε hε0 hε1).trans (weaken _))
    have hsum := abs_sum_nonneg (fun u v => u / (v - 1 / x ^ 2)) ps
    have hc0 := abs_nonneg c
    obtain ⟨w1, w2⟩ := with_constant hη0 (by linarith : 0 ≤ 1 + |c|) s1 s2
    refine ⟨2 * K, _, _, .gases (fun p hp => ?_), by linarith, le_rfl, ?_, ?_⟩
    · have := (gap_near hz hinv (C := p.2) (by rw [add_comm, abs_sub_comm]; exact h p hp)
        hε hε0 hε1).2.1
      rwa [add_comm, abs_sub_comm] at this
    · rw [add_sub_add_left_eq_sub]; exact w1
    · exact with_constant' (by linarith) (by linarith) w2

/-- The value of a steady formula is the published one. -/
theorem C114_published {k : Formula} {c x K n b : ℝ} {ps : List (ℝ × ℝ)}
    (h : Steady k c ps x K n b) (hx : 0 < x) (hK0 : 0 ≤ K) :
    Published (formulaNumber k) (c :: ps.flatMap fun p => [p.1, p.2]) x n := by
  obtain ⟨K', n', b', h1, -, -, h2, -⟩ := h.moved hx (x' := x) (δ := 0) (by simp) le_rfl (by norm_num)
    hK0 (by simp)
  have : n' = n := by
    rw [mul_zero, zero_mul] at h2
    exact sub_eq_zero.1 (abs_nonpos_iff.1 h2)
  rw [← this]
  exact C109_published h1 hx

/-! ## Data objects -/

theorem Spec.Steady.size {k : Formula} {c x K n b : ℝ} {ps : List (ℝ × ℝ)}
    (h : Steady k c ps x K n b) : 0 ≤ b := by
  have hc := abs_nonneg c
  cases h with
  | @sellmeier _ _ _ _ r A h hr hA _ =>
    have := abs_sum_nonneg (fun u v => u * x ^ 2 / (x ^ 2 - v ^ 2)) ps
    exact div_nonneg (by rw [hA]; linarith) (Real.sqrt_nonneg _)
  | @sellmeier2 _ _ _ _ r A h hr hA _ =>
    have := abs_sum_nonneg (fun u v => u * x ^ 2 / (x ^ 2 - v)) ps
    exact div_nonneg (by rw [hA]; linarith) (Real.sqrt_nonneg _)
  | @polynomial _ _ _ _ r A h hr hA _ _ =>
    have := abs_sum_nonneg (fun u v => u * x ^ v) ps
    exact div_nonneg (by rw [hA]; linarith) (Real.sqrt_nonneg _)
  | cauchy h =>
    have := abs_sum_nonneg (fun u v => u * x ^ v) ps
    linarith
  | gases h =>
    have := abs_sum_nonneg (fun u v => u / (v - 1 / x ^ 2)) ps
    linarith

/-- The requirements on a formula and a wavelength `X` in micrometres: coefficients and wavelength
of usual size, fewer than 2^20 terms, the formula is well conditioned there, and the uncertainty of
a conversion to micrometres is small against the wavelength and the distance from resonances. -/
structure Spec.Answerable (k : Formula) (c K : ℝ) (ps : List (ℝ × ℝ)) (X n b : ℝ) : Prop where
  coeff : Usual c
  coeffs : ∀ q ∈ ps, Usual q.1 ∧ Usual q.2
  few : ps.length < 2 ^ 20
  low : ((10 : ℝ) ^ 29)⁻¹ ≤ X
  high : X ≤ 10 ^ 29
  nonneg : 0 ≤ K
  bound : K ≤ 2 ^ 19
  small : slack (some 9) X ≤ 1 / 2 ^ 22 * X
  smooth : 3 * K * slack (some 9) X ≤ 1 / 2 ^ 22 * X
  steady : Steady k c ps X K n b

/-- The error of a formula at a converted wavelength: from the conversion and from rounding. -/
def Spec.formulaError (K X b : ℝ) (N : ℕ) : ℝ :=
  3 * K * (slack (some 9) X / X) * b + (N + 2 * K + 13) * (2 * b) / 2 ^ 53

/-- The value of a formula at a computed wavelength near the exact one. -/
theorem answer_near {k : Formula} {c K X n b : ℝ} {ps : List (ℝ × ℝ)} {p : List Dbl}
    (h : Answerable k c K ps X n b) (hp : p.map Dbl.val = finList (c :: flat2 ps)) {w : Dbl} {x : ℝ}
    (hw : w.val = .fin x) (hx : |x - X| ≤ slack (some 9) X) :
    ∃ m y, k.at p w = .ok m ∧ m.val = .fin y ∧ |y - n| ≤ formulaError K X b ps.length := by
  have hX : 0 < X := lt_of_lt_of_le (by positivity) h.low
  have hs0 : 0 ≤ slack (some 9) X := (abs_nonneg _).trans hx
  have e : slack (some 9) X / X * X = slack (some 9) X := by field_simp
  have hδ : slack (some 9) X / X ≤ 1 / 2 ^ 22 := by rw [div_le_iff₀ hX]; exact h.small
  have hδK : 3 * K * (slack (some 9) X / X) ≤ 1 / 2 ^ 22 := by
    rw [← mul_div_assoc, div_le_iff₀ hX]; exact h.smooth
  obtain ⟨K', n', b', c1, c2, c3, c4, c5⟩ := h.steady.moved hX (x' := x) (δ := slack (some 9) X / X)
    (by rw [e]; exact hx) (by positivity) hδ h.nonneg hδK
  have hxb := abs_le.1 hx
  have hsm : slack (some 9) X ≤ 1 / 2 * X := h.small.trans
    (mul_le_mul_of_nonneg_right (by norm_num) hX.le)
  have hx0 : 0 < x := by linarith [hxb.1]
  have hus : Usual x := by
    right
    rw [abs_of_pos hx0]
    constructor
    · have : ((10 : ℝ) ^ 30)⁻¹ ≤ 1 / 2 * ((10 : ℝ) ^ 29)⁻¹ := by norm_num
      linarith [h.low, hxb.1]
    · have : (3 / 2 : ℝ) * 10 ^ 29 ≤ 10 ^ 30 := by norm_num
      linarith [h.high, hxb.2]
  have hK' : K' ≤ 2 ^ 20 := by
    have : (2 : ℝ) * 2 ^ 19 = 2 ^ 20 := by norm_num
    linarith [h.bound]
  obtain ⟨m, y, m1, m2, m3⟩ := C109_at c1 hp hw hus hx0 h.coeff h.coeffs c2 hK' h.few
  refine ⟨m, y, m1, m2, ?_⟩
  have hb := h.steady.size
  have t := abs_sub_le y n' n
  have hN : (0 : ℝ) ≤ ps.length := Nat.cast_nonneg _
  have t2 : (ps.length + K' + 13) * b' ≤ (ps.length + 2 * K + 13) * (2 * b) :=
    (mul_le_mul_of_nonneg_left c5 (by linarith)).trans
      (mul_le_mul_of_nonneg_right (by linarith) (by linarith))
  have t3 : (ps.length + K' + 13) * b' / 2 ^ 53 ≤ (ps.length + 2 * K + 13) * (2 * b) / 2 ^ 53 :=
    div_le_div_of_nonneg_right t2 (by positivity)
  unfold formulaError
  linarith

/-- C114, data objects: a dispersion formula asked in any type and unit returns, up to the stated
error, its value at the exact wavelength of the question. -/
theorem C114_data [SciPy Dbl] {k : Formula} {c K : ℝ} {ps : List (ℝ × ℝ)} {p : List Dbl}
    {raw₀ : Raw Dbl} {t' u' : String} {d : RealData Dbl} (ht' : lower t' = "wavelength")
    (hc' : (lower t', u', "um") ∈ names) (hd : RealData.newModel k p raw₀ t' u' = .ok d)
    (hp : p.map Dbl.val = finList (c :: flat2 ps)) (t u cu : String)
    (hc : (lower t, lower u, cu) ∈ names) (raw : Raw Dbl) (xs : List ℝ)
    (ha : AsksFor (lower t) cu (lower t') raw xs) (s : Spectrum Dbl)
    (hsp : Spectrum.new raw t u = .ok s) (v : Vals Dbl) (hv : (d.evaluate s).1 = .ok v)
    (i : ℕ) (x n b : ℝ) (hx : xs[i]? = some x)
    (hX : Answerable k c K ps (counterpart (lower t) cu "wavelength" "um" x) n b) :
    ∃ w y, v.toList[i]? = some w ∧ w.val = .fin y ∧
      |y - n| ≤ formulaError K (counterpart (lower t) cu "wavelength" "um" x) b ps.length := by
  obtain ⟨ov, rs, h1, h2, h3⟩ := asked_converted hc hc' (by rw [ht']; decide) ha hsp
  obtain ⟨r, hr, h4⟩ := forall₂_get h3 hx
  rw [ht', show decimals "wavelength" "um" = some 9 by decide] at h4
  have hz : ∃ z, ov.toList[i]? = some z ∧ z.val = .fin r := by
    have := congrArg (·[i]?) h2
    simp only [List.getElem?_map, hr, Option.map_some] at this
    cases hz : ov.toList[i]? with
    | none => rw [hz] at this; cases this
    | some z => rw [hz] at this; exact ⟨z, rfl, by simpa using this⟩
  obtain ⟨z, hz, hzr⟩ := hz
  obtain ⟨ws, e1, e2, e3⟩ := C17_evaluate k p raw₀ _ _ d hd s v hv
  rw [h1] at e1
  cases e1
  obtain ⟨m, hm, hat⟩ := e3 i z hz
  obtain ⟨m', y, k1, k2, k3⟩ := answer_near hX hp hzr h4
  rw [hat] at k1
  cases k1
  exact ⟨m, y, hm, k2, k3⟩

/-- A formula with two limits is evaluated exactly at the converted values between its limits, in
every arithmetic. -/
theorem model_evaluate {F : Type} [PyFloat F] [LawfulCmp F] [SciPy F] {k : Formula} {p : List F}
    {lo hi : F} {t u c : String} (hc : (lower t, u, c) ∈ names) {d : RealData F}
    (hd : RealData.newModel k p (.list .float [lo, hi]) t u = .ok d) (hn : NoNaN [lo, hi])
    {s : Spectrum F} {ov : Vals F} (hov : s.convertTo t u = .ok ov) (hne : ov.toList ≠ [])
    (hnn : NoNaN ov.toList) :
    (Within [lo, hi] ov.toList → (d.evaluate s).1 = ov.mapRes (k.at p)) ∧
    (¬ Within [lo, hi] ov.toList → (d.evaluate s).1 = .error (rangeError c)) := by
  have hl : lower u = u := (names_lower _ hc).2
  have hl' : lower (lower t) = lower t := (names_lower _ hc).1
  unfold RealData.newModel at hd
  rw [new_list (c := c) (by rw [hl]; exact hc)] at hd
  simp only [bind, Except.bind] at hd
  cases hval : validateSpectrumType (F := F) k.required t u with
  | error e => rw [hval] at hd; cases hd
  | ok _ =>
    rw [hval] at hd
    cases hd
    have hconv : s.convertTo (lower t) c = .ok ov := by
      rw [← hov, Spectrum.convertTo_eq, Spectrum.convertTo_eq, specLookup_ok_iff.2 hc, hl',
        specLookup_ok_iff.2 (pairs_names _ (names_pairs _ hc))]
    have hu : c ∈ pairs.map (·.2) := List.mem_map.2 ⟨_, names_pairs _ hc, rfl⟩
    obtain ⟨k1, k2⟩ := contains_iff
      ({ values := .array .float [lo, hi], stype := lower t, unit := c,
         std := .array .float ([lo, hi].map (fromElem safeInverseElem (lower t) c)) } : Spectrum F)
      s ov (by simp [Vals.toList]) hconv hne hn hnn hu
    constructor
    · intro h
      simp only [RealData.evaluate, bind, Except.bind]
      rw [k1 h]
      simp only [hov]
    · intro h
      simp only [RealData.evaluate, bind, Except.bind]
      rw [k2 h]

/-- C114, answered questions: a dispersion formula with a range in micrometres answers all questions
whose exact wavelengths lie inside its range by more than the uncertainty of the conversion, and
refuses them all if one lies outside by more. -/
theorem C114_answered [SciPy Dbl] {k : Formula} {c K : ℝ} {ps : List (ℝ × ℝ)} {p : List Dbl}
    {lo hi : Dbl} {a b : ℝ} (hlo : lo.val = .fin a) (hhi : hi.val = .fin b)
    {t' u' : String} {d : RealData Dbl} (ht' : lower t' = "wavelength")
    (hc' : (lower t', u', "um") ∈ names)
    (hd : RealData.newModel k p (.list .float [lo, hi]) t' u' = .ok d)
    (hp : p.map Dbl.val = finList (c :: flat2 ps)) (t u cu : String)
    (hc : (lower t, lower u, cu) ∈ names) (raw : Raw Dbl) (xs : List ℝ)
    (ha : AsksFor (lower t) cu (lower t') raw xs) (hne : xs ≠ []) (s : Spectrum Dbl)
    (hsp : Spectrum.new raw t u = .ok s) :
    ((∀ x ∈ xs, ∀ X, X = counterpart (lower t) cu "wavelength" "um" x →
        a + slack (some 9) X ≤ X ∧ X + slack (some 9) X ≤ b ∧
        ∃ n e, Answerable k c K ps X n e) →
      ∃ v, (d.evaluate s).1 = .ok v ∧ v.toList.length = xs.length) ∧
    ((∃ x ∈ xs, ∃ X, X = counterpart (lower t) cu "wavelength" "um" x ∧
        ((X + slack (some 9) X < a ∧ X + slack (some 9) X < b) ∨
        (a + slack (some 9) X < X ∧ b + slack (some 9) X < X))) →
      (d.evaluate s).1 = .error .value) := by
  obtain ⟨ov, rs, h1, h2, h3⟩ := asked_converted hc hc' (by rw [ht']; decide) ha hsp
  rw [ht', show decimals "wavelength" "um" = some 9 by decide] at h3
  have hmem : ∀ z ∈ ov.toList, ∃ r ∈ rs, z.val = .fin r := by
    intro z hz
    have : z.val ∈ rs.map XR.fin := h2 ▸ List.mem_map_of_mem hz
    obtain ⟨r, hr, e⟩ := List.mem_map.1 this
    exact ⟨r, hr, e.symm⟩
  have hmem' : ∀ r ∈ rs, ∃ z ∈ ov.toList, z.val = .fin r := by
    intro r hr
    have : XR.fin r ∈ ov.toList.map Dbl.val := h2 ▸ List.mem_map_of_mem hr
    obtain ⟨z, hz, e⟩ := List.mem_map.1 this
    exact ⟨z, hz, e⟩
  have hnn : NoNaN ov.toList := by
    intro z hz
    obtain ⟨r, -, hr⟩ := hmem z hz
    show PyFloat.isNaN z.val = false
    rw [hr]; rfl
  have hn : NoNaN [lo, hi] := by
    intro z hz
    simp only [List.mem_cons, List.not_mem_nil, or_false] at hz
    show PyFloat.isNaN z.val = false
    rcases hz with rfl | rfl
    · rw [hlo]; rfl
    · rw [hhi]; rfl
  have hlen : ov.toList.length = xs.length := by
    have := congrArg List.length h2
    rw [List.length_map, List.length_map] at this
    rw [this, h3.length_eq]
  have hne' : ov.toList ≠ [] := by
    intro h
    rw [h] at hlen
    exact hne (List.length_eq_zero_iff.1 hlen.symm)
  obtain ⟨k1, k2⟩ := model_evaluate hc' hd hn h1 hne' hnn
  constructor
  · intro hin
    rw [k1 (by
      intro z hz
      obtain ⟨r, hr, hzr⟩ := hmem _ hz
      obtain ⟨x, hx, hrx⟩ := mem_of_forall₂ h3 hr
      obtain ⟨i1, i2, -⟩ := hin x hx _ rfl
      rw [abs_le] at hrx
      exact ⟨⟨lo, by simp, (le_of_real hlo hzr).2 (by linarith [hrx.1])⟩,
        ⟨hi, by simp, (le_of_real hzr hhi).2 (by linarith [hrx.2])⟩⟩)]
    have hat : ∀ z ∈ ov.toList, ∃ y, k.at p z = .ok y := by
      intro z hz
      obtain ⟨r, hr, hzr⟩ := hmem _ hz
      obtain ⟨x, hx, hrx⟩ := mem_of_forall₂ h3 hr
      obtain ⟨-, -, n, e, hA⟩ := hin x hx _ rfl
      obtain ⟨m, -, hm, -⟩ := answer_near hA hp hzr hrx
      exact ⟨m, hm⟩
    cases ov with
    | scalar z =>
      obtain ⟨y, hy⟩ := hat z (by simp [Vals.toList])
      refine ⟨.scalar y, ?_, by simpa [Vals.toList] using hlen⟩
      simp only [Vals.mapRes, hy, bind, Except.bind]
    | array dt zs =>
      obtain ⟨ys, hys, hl2⟩ := mapM_total _ zs hat
      refine ⟨.array .float ys, by simp only [Vals.mapRes, hys, bind, Except.bind], ?_⟩
      rw [← hlen]
      exact hl2
  · rintro ⟨x, hx, X, rfl, hout⟩
    rw [show PyErr.value = rangeError "um" by decide]
    apply k2
    intro hcon
    obtain ⟨r, hr, hrx⟩ := mem_of_forall₂' h3 hx
    obtain ⟨z, hz, hzr⟩ := hmem' r hr
    obtain ⟨⟨l, hl', haz⟩, ⟨g, hg', hzb⟩⟩ := hcon z hz
    rw [abs_le] at hrx
    simp only [List.mem_cons, List.not_mem_nil, or_false] at hl' hg'
    rcases hout with ⟨o1, o2⟩ | ⟨o1, o2⟩
    · rcases hl' with rfl | rfl
      · rw [le_of_real hlo hzr] at haz
        linarith [hrx.2]
      · rw [le_of_real hhi hzr] at haz
        linarith [hrx.2]
    · rcases hg' with rfl | rfl
      · rw [le_of_real hzr hlo] at hzb
        linarith [hrx.1]
      · rw [le_of_real hzr hhi] at hzb
        linarith [hrx.1]

/-! ## Materials -/

/-- What a part of a material should answer for `x`, given in the type `t` and the unit `cu`, and
how far off the answer may be: a dispersion formula in micrometres, or a table or a constant. -/
inductive Spec.PartAnswer [SciPy Dbl] (t cu : String) (raw : Raw Dbl) (xs : List ℝ) (x : ℝ) :
    RealData Dbl → ℝ → ℝ → Prop
  | formula {k : Formula} {c K : ℝ} {ps : List (ℝ × ℝ)} {p : List Dbl} {raw₀ : Raw Dbl}
      {t' u' : String} {d : RealData Dbl} {n b : ℝ} : lower t' = "wavelength" →
      (lower t', u', "um") ∈ names → RealData.newModel k p raw₀ t' u' = .ok d →
      p.map Dbl.val = finList (c :: flat2 ps) → AsksFor t cu (lower t') raw xs →
      Answerable k c K ps (counterpart t cu "wavelength" "um" x) n b →
      PartAnswer t cu raw xs x d n
        (formulaError K (counterpart t cu "wavelength" "um" x) b ps.length)
  | other {t' u' c' : String} {d : RealData Dbl} {Y e : ℝ} : (lower t', u', c') ∈ names →
      lower t' ≠ "wavenumber" → AsksFor t cu (lower t') raw xs →
      PartValue t' u' c' (counterpart t cu (lower t') c' x) d Y e → PartAnswer t cu raw xs x d Y e

theorem part_answer [SciPy Dbl] {t u cu : String} (hc : (lower t, lower u, cu) ∈ names)
    {raw : Raw Dbl} {xs : List ℝ} {s : Spectrum Dbl} (hsp : Spectrum.new raw t u = .ok s) {i : ℕ}
    {x : ℝ} (hx : xs[i]? = some x) {d : RealData Dbl} {Y e : ℝ}
    (hp : PartAnswer (lower t) cu raw xs x d Y e) {v : Vals Dbl} {s' : Spectrum Dbl}
    (hv : d.evaluate s = (.ok v, s')) :
    s' = s ∧ ∃ w y, v.toList[i]? = some w ∧ w.val = .fin y ∧ |y - Y| ≤ e := by
  cases hp with
  | other h1 h2 h3 h4 => exact part_value hc h1 h2 h3 hsp hx h4 hv
  | formula h1 h2 h3 h4 h5 h6 =>
    refine ⟨?_, C114_data h1 h2 h3 h4 t u cu hc raw xs h5 s hsp v (by rw [hv]) i x _ _ hx h6⟩
    obtain ⟨r, rfl⟩ : ∃ r, d = .model _ _ r _ _ := by
      unfold RealData.newModel at h3
      simp only [bind, Except.bind] at h3
      split at h3
      · cases h3
      · split at h3
        · cases h3
        · cases h3; exact ⟨_, rfl⟩
    exact (congrArg Prod.snd hv).symm

/-- C114, materials: `get_nk_data` of a material whose parts are dispersion formulas, tables or
constants, asked in any type and unit. -/
theorem C114_material [SciPy Dbl] (m : Material Dbl) (hm : m.name = "nk") (hcx : m.cplx = none)
    (dr di : RealData Dbl) (hr : m.real = some dr) (hi : m.imag = some di) (t u cu : String)
    (hc : (lower t, lower u, cu) ∈ names) (raw : Raw Dbl) (xs : List ℝ) (v : CVals Dbl)
    (hv : m.nkCore raw t u = .ok v) (i : ℕ) (x N K en ek : ℝ) (hx : xs[i]? = some x)
    (hN : PartAnswer (lower t) cu raw xs x dr N en)
    (hK : PartAnswer (lower t) cu raw xs x di K ek) :
    ∃ z n k, v.toList[i]? = some z ∧ z.re.val = .fin n ∧ z.im.val = .fin k ∧
      |n - N| ≤ en ∧ |k - K| ≤ ek := by
  obtain ⟨s, s1, s2, vr, vi, hsp, h1, h2, h3⟩ := nkCore_parts hm hcx hr hi hv
  obtain ⟨rfl, w1, n, a1, a2, a3⟩ := part_answer hc hsp hx hN h1
  obtain ⟨-, w2, k, b1, b2, b3⟩ := part_answer hc hsp hx hK h2
  obtain ⟨e1, e2⟩ := cplxOf_val a2 b2
  exact ⟨_, n, k, combine_get h3 a1 b1, e1, e2, a3, b3⟩

/-! ## A concrete case -/

theorem two_um : counterpart "wavelength" "nm" "wavelength" "um" 2000 = 2 := by
  unfold counterpart
  rw [show metres "wavelength" "nm" 2000 = 2000 * (1 / 10 ^ 9) by simp [metres, lengthUnit],
    show ∀ L, ofMetres "wavelength" "um" L = L / (1 / 10 ^ 6) by intro L; simp [ofMetres, lengthUnit]]
  norm_num

/-- Sellmeier with resonances at 1 and 4 micrometres, valid from 1 to 3 micrometres, is well behaved
at 2 micrometres. -/
theorem two_um_answerable :
    Answerable .sellmeier 0 2 [(1, 1), (1, 4)] 2 (Real.sqrt 2) (8 / 3 / Real.sqrt 2) := by
  refine ⟨.of_int 0 (by norm_num) (by norm_num), ?_, by norm_num, by norm_num, by norm_num,
    by norm_num, by norm_num, by norm_num [slack], by norm_num [slack], ?_⟩
  · intro q hq
    simp only [List.mem_cons, List.not_mem_nil, or_false] at hq
    rcases hq with rfl | rfl
    · exact ⟨.of_int 1 (by norm_num) (by norm_num), .of_int 1 (by norm_num) (by norm_num)⟩
    · exact ⟨.of_int 1 (by norm_num) (by norm_num), .of_int 4 (by norm_num) (by norm_num)⟩
  · refine .sellmeier ?_ ?_ ?_ ?_
    · intro p hp
      simp only [List.mem_cons, List.not_mem_nil, or_false] at hp
      rcases hp with rfl | rfl <;> norm_num [abs_of_pos, abs_of_neg]
    · norm_num
    · norm_num [abs_of_pos, abs_of_neg]
    · norm_num

/-- This formula asked at 2000 nm: it answers the root of 2 up to 10⁻⁸. -/
example [SciPy Dbl] : ∃ d s v w y,
    RealData.newModel .sellmeier [(lit 0 : Dbl), lit 1, lit 1, lit 1, lit 4]
      (.list .float [lit 1, lit 3]) "wavelength" "um" = .ok d ∧
    Spectrum.new (.float (lit 2000 : Dbl)) "wavelength" "nm" = .ok s ∧ (d.evaluate s).1 = .ok v ∧
    v.toList[0]? = some w ∧ w.val = .fin y ∧ |y - Real.sqrt 2| ≤ 1 / 10 ^ 8 := by
  have hc' : (lower "wavelength", "um", "um") ∈ names := by decide +kernel
  have hc : (lower "wavelength", lower "nm", "nm") ∈ names := by decide +kernel
  have hlw : lower "wavelength" = "wavelength" := by decide +kernel
  have v2 : (lit 2000 : Dbl).val = .fin 2000 :=
    Dbl.lit_val (n := 2000) (by norm_num) (by norm_num) (by norm_num)
  have v1 : (lit 1 : Dbl).val = .fin 1 := Dbl.lit_val (n := 1) (by norm_num) (by norm_num) (by norm_num)
  have v3 : (lit 3 : Dbl).val = .fin 3 := Dbl.lit_val (n := 3) (by norm_num) (by norm_num) (by norm_num)
  obtain ⟨d, hd, -, -⟩ := (C19_index_models .sellmeier (by decide)
    [(lit 0 : Dbl), lit 1, lit 1, lit 1, lit 4] (.list .float [lit 1, lit 3]) rfl
    "wavelength" "um").1 ⟨hlw, by decide +kernel⟩
  have hp : [(lit 0 : Dbl), lit 1, lit 1, lit 1, lit 4].map Dbl.val =
      finList (0 :: flat2 [(1, 1), (1, 4)]) := by
    simp only [List.map_cons, List.map_nil, finList, flat2, List.flatMap_cons, List.flatMap_nil,
      List.cons_append, List.nil_append]
    rw [Dbl.lit_val (n := 0) (x := 0), Dbl.lit_val (n := 1) (x := 1),
      Dbl.lit_val (n := 4) (x := 4)] <;> norm_num
  have hask : AsksFor (lower "wavelength") "nm" (lower "wavelength") (.float (lit 2000)) [2000] :=
    .scalar v2 ⟨by norm_num, by norm_num⟩
  have hnew := new_scalar hc (lit 2000 : Dbl)
  have hA := two_um_answerable
  obtain ⟨v, hv, -⟩ := (C114_answered v1 v3 hlw hc' hd hp "wavelength" "nm" "nm" hc _ _ hask
    (by simp) _ hnew (K := 2)).1 (by
      rw [hlw]
      intro x hx X hX
      rw [List.mem_singleton] at hx
      rw [hx, two_um] at hX
      subst hX
      exact ⟨by norm_num [slack], by norm_num [slack], _, _, hA⟩)
  obtain ⟨w, y, k1, k2, k3⟩ := C114_data hlw hc' hd hp "wavelength" "nm" "nm" hc _ _ hask _ hnew v hv
    0 2000 (Real.sqrt 2) (8 / 3 / Real.sqrt 2) (K := 2) rfl (by rw [hlw, two_um]; exact hA)
  rw [hlw, two_um] at k3
  refine ⟨d, _, v, w, y, hd, hnew, hv, k1, k2, k3.trans ?_⟩
  have hb : 8 / 3 / Real.sqrt 2 ≤ 8 / 3 := by
    apply div_le_self (by norm_num)
    rw [show (1 : ℝ) = Real.sqrt 1 by simp]
    exact Real.sqrt_le_sqrt (by norm_num)
  generalize 8 / 3 / Real.sqrt 2 = b at hb
  unfold formulaError
  norm_num [slack]
  linarith

end

end Disp
