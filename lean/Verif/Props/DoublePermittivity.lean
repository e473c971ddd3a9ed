import Verif.Lemmas.RootRounding
import Verif.Props.MaterialEval
/-!
# Index and permittivity in double precision (C106)
-/

namespace Disp
open Spec

noncomputable section

/-- The double `a` is the number `x` up to a relative error of `r · 2^-53`. -/
def Spec.RelErr (r : ℝ) (x : ℝ) (a : Dbl) : Prop :=
  ∃ y, a.val = .fin y ∧ |y - x| ≤ |x| * r / 2 ^ 53

/-- `n + i k` is the square root of `x + i y` for a passive medium. -/
structure Spec.PassiveRoot (x y n k : ℝ) : Prop where
  n_nonneg : 0 ≤ n
  k_nonneg : 0 ≤ k
  re : n ^ 2 - k ^ 2 = x
  im : 2 * n * k = y

/-- The square of a complex number in double precision. -/
theorem square_err {n k : ℝ} {z : Cx Dbl} (hn : z.re.val = .fin n) (hk : z.im.val = .fin k)
    (on : Ordinary n) (ok : Ordinary k) :
    (∃ r, (Cx.sq z).re.val = .fin r ∧ |r - (n ^ 2 - k ^ 2)| ≤ (n ^ 2 + k ^ 2) * 3 / 2 ^ 53) ∧
    RelErr 3 (2 * n * k) (Cx.sq z).im := by
  have le121 : (10 : ℝ) ^ 121 ≤ 10 ^ 200 := by norm_num
  obtain ⟨p, p1, p2, p3⟩ := Dbl.mul_err hn hn on on
  obtain ⟨q, q1, q2, q3⟩ := Dbl.mul_err hk hk ok ok
  obtain ⟨a, a1, a2, a3⟩ := Dbl.mul_err hn hk on ok
  obtain ⟨b, b1, b2, b3⟩ := Dbl.mul_err hk hn ok on
  obtain ⟨r, r1, r2⟩ := Dbl.sub_err p1 q1 (p3.trans le121) (q3.trans le121)
  obtain ⟨i, i1, i2⟩ := Dbl.add_err a1 b1 (a3.trans le121) (b3.trans le121)
  rw [abs_mul_self] at p2 q2
  rw [abs_mul] at a2 b2
  rw [mul_comm k n, mul_comm |k| |n|] at b2
  have e1 := abs_le.1 p2
  have e2 := abs_le.1 q2
  have e3 := abs_le.1 a2
  have e4 := abs_le.1 b2
  constructor
  · refine ⟨r, r1, ?_⟩
    have hb : |p - q| ≤ (n ^ 2 + k ^ 2) * 2 := by
      rw [abs_le]
      constructor <;> nlinarith [sq_nonneg n, sq_nonneg k]
    have e5 := abs_le.1 (r2.trans (div_le_div_of_nonneg_right hb (by positivity)))
    rw [abs_le]
    constructor <;> nlinarith
  · refine ⟨i, i1, ?_⟩
    have h0 : 0 ≤ |n| * |k| := by positivity
    have hb : |a + b| ≤ |n| * |k| * 4 := by
      have h1 := abs_mul n k
      have h2 := abs_le.1 (le_refl |n * k|)
      rw [abs_le]
      constructor <;> linarith
    have e5 := abs_le.1 (i2.trans (div_le_div_of_nonneg_right hb (by positivity)))
    have e6 : |2 * n * k| = 2 * (|n| * |k|) := by
      rw [mul_assoc, abs_mul, abs_mul, abs_two]
    rw [e6, abs_le]
    constructor <;> linarith

theorem root_exists (x y : ℝ) (hy : 0 ≤ y) : PassiveRoot x y
    (Real.sqrt ((Real.sqrt (x ^ 2 + y ^ 2) + x) / 2)) (Real.sqrt ((Real.sqrt (x ^ 2 + y ^ 2) - x) / 2)) := by
  have h1 : |x| ≤ Real.sqrt (x ^ 2 + y ^ 2) := Real.abs_le_sqrt (by nlinarith [sq_nonneg y])
  have h2 := abs_le.1 h1
  have hs := Real.sq_sqrt (show 0 ≤ x ^ 2 + y ^ 2 by positivity)
  refine ⟨Real.sqrt_nonneg _, Real.sqrt_nonneg _, ?_, ?_⟩
  · rw [Real.sq_sqrt (by linarith), Real.sq_sqrt (by linarith)]; ring
  · rw [mul_assoc, ← Real.sqrt_mul (by linarith)]
    have : (Real.sqrt (x ^ 2 + y ^ 2) + x) / 2 * ((Real.sqrt (x ^ 2 + y ^ 2) - x) / 2) = (y / 2) ^ 2 := by
      nlinarith
    rw [this, Real.sqrt_sq (by linarith)]
    ring

/-- There is only one such root. -/
theorem root_unique {x y n k n' k' : ℝ} (h : PassiveRoot x y n k) (h' : PassiveRoot x y n' k') :
    n = n' ∧ k = k' := by
  have e : (n ^ 2 + k ^ 2) = (n' ^ 2 + k' ^ 2) := by
    have a1 : (n ^ 2 + k ^ 2) ^ 2 = (n' ^ 2 + k' ^ 2) ^ 2 := by
      have b1 : (n ^ 2 + k ^ 2) ^ 2 = x ^ 2 + y ^ 2 := by rw [← h.re, ← h.im]; ring
      have b2 : (n' ^ 2 + k' ^ 2) ^ 2 = x ^ 2 + y ^ 2 := by rw [← h'.re, ← h'.im]; ring
      rw [b1, b2]
    exact (pow_left_inj₀ (by positivity) (by positivity) two_ne_zero).1 a1
  have e1 := h.re
  have e2 := h'.re
  constructor
  · exact (pow_left_inj₀ h.n_nonneg h'.n_nonneg two_ne_zero).1 (by linarith)
  · exact (pow_left_inj₀ h.k_nonneg h'.k_nonneg two_ne_zero).1 (by linarith)

theorem RelErr.of_approx {n j : ℕ} {x : ℝ} {a : Dbl} (h : Approx n j x a) (hn : n ≤ 7) : RelErr 8 x a := by
  obtain ⟨⟨y, h1, h2⟩, h3⟩ := h
  refine ⟨y, h1, ?_⟩
  have := (h2.mono hn).abs_sub_le (by norm_num)
  rw [abs_of_pos h3.pos]
  norm_num at this ⊢
  linarith

/-- The larger part of the root. -/
theorem root_large {x y : ℝ} {a b : Dbl} (ha : a.val = .fin x) (hb : b.val = .fin y) (hx : 0 ≤ x)
    (ox : Ordinary x) (oy : Ordinary y) (h0 : x ≠ 0 ∨ y ≠ 0) {c : Dbl} (hc : c.val = .fin x ∨ c.val = .fin (-x)) :
    Approx 5 63 (Real.sqrt ((Real.sqrt (x ^ 2 + y ^ 2) + x) / 2))
      (Dbl.sqrt ((a + Dbl.hypot c b) * Dbl.ofRat (1 / 2))) := by
  have hh : Approx 1 61 (Real.sqrt (x ^ 2 + y ^ 2)) (Dbl.hypot c b) := by
    rcases hc with hc | hc
    · exact Approx.hypot hc hb ox oy h0
    · have := Approx.hypot hc hb (x := -x) (by
        unfold Ordinary; rw [abs_neg, neg_eq_zero]; exact ox) oy (by rwa [neg_ne_zero])
      rwa [neg_sq] at this
  have hx60 : x ≤ 10 ^ 61 := (le_abs_self x).trans (ox.le.trans (by norm_num))
  have h1 := Approx.addNonneg ha hx hx60 hh (by norm_num) (by norm_num)
  have half : Approx 1 1 (((1 / 2 : ℚ)) : ℝ) (lit (1 / 2 : ℚ) : Dbl) :=
    Approx.lit ⟨by norm_num, by norm_num⟩ (by norm_num)
  have h2 := (h1.mul half (by norm_num) (by norm_num)).sqrt (by norm_num) (by norm_num)
  have e : (x + Real.sqrt (x ^ 2 + y ^ 2)) * (((1 / 2 : ℚ)) : ℝ) =
      (Real.sqrt (x ^ 2 + y ^ 2) + x) / 2 := by push_cast; ring
  rw [e] at h2
  exact h2

/-- The smaller part of the root. -/
theorem root_small {y t : ℝ} {b T : Dbl} (hb : b.val = .fin y) (hy : 0 ≤ y) (oy : Ordinary y)
    (hT : Approx 5 63 t T) : RelErr 8 (y / (2 * t)) (b / (Dbl.ofRat 2 * T)) := by
  have two : Approx 0 1 ((2 : ℤ) : ℝ) (lit ((2 : ℤ) : ℚ) : Dbl) :=
    Approx.int ⟨by norm_num, by norm_num⟩ (by norm_num)
  have h1 := two.mul hT (by norm_num) (by norm_num)
  rcases oy with rfl | oy
  · obtain ⟨⟨w, w1, w2⟩, -⟩ := h1
    refine ⟨0, ?_, by simp⟩
    have w1' : (Dbl.ofRat 2 * T).val = .fin w := w1
    rw [Dbl.val_div, hb, w1', XR.div_fin_of_ne _ w2.right.ne', zero_div]
    exact Dbl.rnd_double ⟨0, 0, by norm_num, by norm_num, by norm_num, by simp⟩
  · rw [abs_of_nonneg hy] at oy
    have h2 := (Approx.exact hb oy).div h1 (by norm_num) (by norm_num)
    have := RelErr.of_approx h2 (by norm_num)
    push_cast at this
    exact this

/-- The square root of a passive permittivity in double precision: both parts have a relative
error of at most `8 · 2^-53`. -/
theorem root_err {x y n k : ℝ} {z : Cx Dbl} (hx : z.re.val = .fin x) (hy : z.im.val = .fin y)
    (ox : Ordinary x) (oy : Ordinary y) (h0 : 0 ≤ y) (hr : PassiveRoot x y n k) :
    RelErr 8 n (Dbl.csqrt z).re ∧ RelErr 8 k (Dbl.csqrt z).im := by
  obtain ⟨hn, hk⟩ := root_unique hr (root_exists x y h0)
  have zero : (Dbl.ofRat 0).val = .fin 0 := by
    have := Dbl.lit_int (n := 0) (by norm_num)
    simp only [Int.cast_zero] at this
    exact this
  have le_real : ∀ {a b : Dbl} {p q : ℝ}, a.val = .fin p → b.val = .fin q →
      Dbl.le a b = decide (p ≤ q) := by
    intro a b p q h1 h2
    unfold Dbl.le
    rw [h1, h2, XR.le_fin]
  have lt_real : ∀ {a b : Dbl} {p q : ℝ}, a.val = .fin p → b.val = .fin q →
      Dbl.lt a b = decide (p < q) := by
    intro a b p q h1 h2
    unfold Dbl.lt
    rw [h1, h2]
    rfl
  rw [Dbl.csqrt_fin hx hy]
  unfold Dbl.csqrtFin
  rw [le_real (Dbl.abs_val hx) zero, le_real (Dbl.abs_val hy) zero, le_real zero hx, lt_real hy zero]
  by_cases hzero : x = 0 ∧ y = 0
  · obtain ⟨rfl, rfl⟩ := hzero
    have hn0 : n = 0 := by rw [hn]; simp
    have hk0 : k = 0 := by rw [hk]; simp
    subst hn0 hk0
    simp only [abs_zero, le_refl, decide_true, Bool.and_self, if_true]
    exact ⟨⟨0, zero, by simp⟩, ⟨0, zero, by simp⟩⟩
  · have hne : x ≠ 0 ∨ y ≠ 0 := by
      by_contra hc
      push Not at hc
      exact hzero hc
    have hnot : ¬ (decide (|x| ≤ 0) && decide (|y| ≤ 0)) = true := by
      simp only [Bool.and_eq_true, decide_eq_true_eq, abs_nonpos_iff]
      exact hzero
    rw [if_neg hnot]
    have hm := (hypot_mag ox oy hne).pos
    by_cases hx0 : 0 ≤ x
    · simp only [decide_eq_true hx0, if_true]
      have h1 := root_large (c := z.re) hx hy hx0 ox oy hne (.inl hx)
      rw [← hn] at h1
      refine ⟨RelErr.of_approx h1 (by norm_num), ?_⟩
      have hk' : k = y / (2 * n) := by
        rw [eq_div_iff (mul_ne_zero two_ne_zero h1.mag.pos.ne'), ← hr.im]; ring
      rw [hk']
      exact root_small hy h0 oy h1
    · have hx0' : 0 ≤ -x := by linarith
      have hlt : ¬ y < 0 := not_lt.2 h0
      simp only [hx0, hlt, decide_false, Bool.false_eq_true, if_false]
      have h1 := root_large (c := z.re) (Dbl.neg_val hx) hy hx0' (by
        unfold Ordinary; rw [abs_neg, neg_eq_zero]; exact ox) oy (by rwa [neg_ne_zero])
        (.inr (by rw [neg_neg]; exact hx))
      rw [neg_sq, ← sub_eq_add_neg, ← hk] at h1
      refine ⟨?_, RelErr.of_approx h1 (by norm_num)⟩
      have hn' : n = y / (2 * k) := by
        rw [eq_div_iff (mul_ne_zero two_ne_zero h1.mag.pos.ne'), ← hr.im]; ring
      rw [hn']
      refine root_small ?_ h0 oy h1
      rw [Dbl.abs_val hy, abs_of_nonneg h0]

theorem CVals.toList_map (f : Cx Dbl → Cx Dbl) (v : CVals Dbl) : (v.map f).toList = v.toList.map f := by
  cases v <;> rfl

variable [SciPy Dbl]

/-- C106, materials defined by their index: in double precision the permittivity is the square of
the index, up to `3 · 2^-53` of `n² + k²` in the real part and a relative error of `3 · 2^-53` in
the imaginary part, which therefore is not negative for passive materials. -/
theorem C106_permittivity (m : Material Dbl) (s : Spectrum Dbl) (hs : Fresh s) (hm : m.name = "nk")
    (v : CVals Dbl) (hv : (m.getNk s).1 = .ok v) :
    ∃ w, (m.getPermittivity s).1 = .ok w ∧ w.toList.length = v.toList.length ∧
      ∀ (i : ℕ) (z : Cx Dbl) (n k : ℝ), v.toList[i]? = some z → z.re.val = .fin n →
        z.im.val = .fin k → Ordinary n → Ordinary k →
        ∃ (e : Cx Dbl) (r j : ℝ), w.toList[i]? = some e ∧ e.re.val = .fin r ∧ e.im.val = .fin j ∧
          |r - (n ^ 2 - k ^ 2)| ≤ (n ^ 2 + k ^ 2) * 3 / 2 ^ 53 ∧
          |j - 2 * n * k| ≤ |2 * n * k| * 3 / 2 ^ 53 ∧ (0 ≤ n → 0 ≤ k → 0 ≤ j) := by
  have h := C27_index_partial m s hs hm
  rw [hv] at h
  refine ⟨_, h, by rw [CVals.toList_map, List.length_map], ?_⟩
  intro i z n k hz hn hk on ok
  obtain ⟨⟨r, h1, h2⟩, j, h3, h4⟩ := square_err hn hk on ok
  refine ⟨Cx.sq z, r, j, ?_, h1, h3, h2, h4, ?_⟩
  · rw [CVals.toList_map, List.getElem?_map, hz]
    rfl
  · intro hn0 hk0
    have hp : 0 ≤ 2 * n * k := by positivity
    rw [abs_of_nonneg hp] at h4
    have := (abs_le.1 h4).1
    linarith [show 2 * n * k * 3 / 2 ^ 53 ≤ 2 * n * k by
      rw [div_le_iff₀ (by positivity)]; nlinarith]

/-- C106, materials defined by their permittivity: in double precision the index of a passive
medium is the square root of the permittivity, each part up to a relative error of `8 · 2^-53`. -/
theorem C106_index (m : Material Dbl) (s : Spectrum Dbl) (hs : Fresh s) (hm : m.name = "eps")
    (w : CVals Dbl) (hw : (m.getPermittivity s).1 = .ok w) :
    ∃ v, (m.getNk s).1 = .ok v ∧ v.toList.length = w.toList.length ∧
      ∀ (i : ℕ) (e : Cx Dbl) (x y n k : ℝ), w.toList[i]? = some e → e.re.val = .fin x →
        e.im.val = .fin y → Ordinary x → Ordinary y → PassiveRoot x y n k →
        ∃ z : Cx Dbl, v.toList[i]? = some z ∧ RelErr 8 n z.re ∧ RelErr 8 k z.im := by
  rw [getPermittivity_eq m s (.inr hm), hm] at hw
  rw [getNk_fresh m hs (.inr hm), hm]
  cases he : (m.evalStored s).1 with
  | error e => rw [he] at hw; cases hw
  | ok u =>
    rw [he] at hw
    have hu : u = w := by
      simp only [Except.map] at hw
      rw [if_neg (by decide)] at hw
      exact Except.ok.inj hw
    subst hu
    refine ⟨u.map PyFloat.csqrt, by simp [Except.map], by rw [CVals.toList_map, List.length_map], ?_⟩
    intro i e x y n k hz hx hy ox oy hr
    have hy0 : 0 ≤ y := by
      rw [← hr.im]
      have := hr.n_nonneg
      have := hr.k_nonneg
      positivity
    refine ⟨Dbl.csqrt e, ?_, root_err hx hy ox oy hy0 hr⟩
    rw [CVals.toList_map, List.getElem?_map, hz]
    rfl

/-- Concrete case: the root of the permittivity of gold near 633 nm, `-11.6 + 1.2 i`-like values:
`-12 + 16 i` has the root `2 + 4 i`. -/
example : PassiveRoot (-12) 16 2 4 := ⟨by norm_num, by norm_num, by norm_num, by norm_num⟩

end
end Disp
