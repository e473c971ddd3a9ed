import Verif.Props.MediumEntries
import Verif.Lemmas.SignedError
/-!
# C133 and C134: how accurate effective media are in double precision

An effective medium, asked at the wavelengths it was built with, should report the mixing formula
applied to the permittivities of its constituents. `C133` bounds the error of the linear mixture,
`C134` that of the Maxwell-Garnett medium.
-/

namespace Disp

noncomputable section

open Dbl Spec

/-! ## Doubles on a grid -/

/-- Doubles of at least `2^e` are multiples of `2^(e-52)`. -/
theorem double_grid_at {x : ℝ} (h : IsDouble x) {e : ℤ} (hx : (2 : ℝ) ^ e ≤ |x|) :
    ∃ k : ℤ, x = k * (2 : ℝ) ^ (e - 52) := by
  obtain ⟨m, d, hm, -, -, rfl⟩ := h
  have hd : e - 52 ≤ d := by
    by_contra hc
    have hc : d + 53 ≤ e := by omega
    have h1 : |(m : ℝ)| < 2 ^ (53 : ℤ) := by exact_mod_cast hm
    have h2 : |(m : ℝ) * 2 ^ d| < 2 ^ (d + 53) := by
      rw [abs_mul, abs_of_pos (two_zpow_pos d), add_comm, zpow_add₀ (by norm_num)]
      exact mul_lt_mul_of_pos_right h1 (two_zpow_pos d)
    have h3 : (2 : ℝ) ^ (d + 53) ≤ 2 ^ e := zpow_le_zpow_right₀ (by norm_num) hc
    linarith
  obtain ⟨n, hn⟩ := Int.eq_ofNat_of_zero_le (show 0 ≤ d - (e - 52) by omega)
  refine ⟨m * 2 ^ n, ?_⟩
  rw [show d = n + (e - 52) by omega, zpow_add₀ (by norm_num), zpow_natCast]
  push_cast
  ring

/-- A multiple of a unit is zero or at least one unit. -/
theorem grid_le {x u : ℝ} (hu : 0 < u) {k : ℤ} (h : x = k * u) (hx : x ≠ 0) : u ≤ |x| := by
  have hk : k ≠ 0 := by rintro rfl; simp at h; exact hx h
  have : (1 : ℝ) ≤ |(k : ℝ)| := by exact_mod_cast Int.one_le_abs hk
  rw [h, abs_mul, abs_of_pos hu]
  nlinarith

/-- What is left of 1: zero, or between 10⁻¹⁶ and 1. -/
theorem one_minus {f : Dbl} {φ : ℝ} (hf : f.val = .fin φ) (h0 : 0 ≤ φ) (h1 : φ ≤ 1) :
    SRel 1 16 (1 - φ) (lit 1 - f) := by
  have hl : (lit 1 : Dbl).val = .fin 1 := by exact_mod_cast Dbl.lit_int (n := 1) (by norm_num)
  show SRel _ _ _ (Dbl.rnd ((lit 1 : Dbl).val - f.val))
  rw [hl, hf, XR.sub_fin]
  refine SRel.rnd (SNear.refl _) ?_ (by norm_num) (by norm_num)
  rcases h1.lt_or_eq with h1 | h1
  · refine .inr ?_
    rw [abs_of_pos (by linarith)]
    refine ⟨?_, by linarith [show (1 : ℝ) ≤ 10 ^ 16 by norm_num]⟩
    by_cases hh : φ ≤ 1 / 2
    · have : ((10 : ℝ) ^ 16)⁻¹ ≤ 1 / 2 := by norm_num
      linarith
    · push Not at hh
      obtain ⟨k, hk⟩ := double_grid_at (isDouble_val hf) (e := -1) (by
        rw [abs_of_nonneg h0]
        have : (2 : ℝ) ^ (-1 : ℤ) = 1 / 2 := by norm_num
        rw [this]; exact hh.le)
      have e : 1 - φ = ((2 ^ 53 - k : ℤ) : ℝ) * (2 : ℝ) ^ (-1 - 52 : ℤ) := by
        have : (2 : ℝ) ^ (-1 - 52 : ℤ) = (2 ^ 53)⁻¹ := by
          rw [← zpow_natCast, ← zpow_neg]; norm_num
        rw [hk, this]; push_cast; field_simp; norm_num
      have := grid_le (two_zpow_pos _) e (by linarith)
      rw [abs_of_pos (by linarith)] at this
      refine le_trans ?_ this
      norm_num
  · exact .inl (by linarith)

theorem srel_sub_zero {n k : ℕ} {x : ℝ} {a z : Dbl} (hz : z.val = .fin 0) (ha : SRel n k x a) :
    SRel n k x (a - z) := by
  have e : a - z = a := by
    show Dbl.rnd (a.val - z.val) = a
    obtain ⟨⟨y, h1, -⟩, -⟩ := ha
    rw [hz, h1, XR.sub_fin, _root_.sub_zero, ← h1, Dbl.rnd_val]
  rwa [e]

theorem lit_zero_val : (lit 0 : Dbl).val = .fin 0 := by
  exact_mod_cast Dbl.lit_int (n := 0) (by norm_num)

/-- A complex double times a real one. -/
theorem scaled_parts {z : Cx Dbl} {g : Dbl} {x y γ : ℝ} {n k : ℕ} (hx : z.re.val = .fin x)
    (hy : z.im.val = .fin y) (hxm : x = 0 ∨ Mag 20 |x|) (hym : y = 0 ∨ Mag 20 |y|)
    (hg : SRel n k γ g) (hn : n ≤ 9) (hk : k ≤ 100) :
    SRel (n + 1) (20 + k) (x * γ) (z * Cx.ofReal g).re ∧
      SRel (n + 1) (20 + k) (y * γ) (z * Cx.ofReal g).im := by
  have h1 := (SRel.exact hx hxm).mul hg (by omega) (by omega)
  have h2 := (SRel.exact hy hym).mul hg (by omega) (by omega)
  rw [Nat.zero_add] at h1 h2
  exact ⟨srel_sub_zero (Dbl.mul_zero_val hy lit_zero_val) h1,
    h2.zero_add (Dbl.mul_zero_val hx lit_zero_val)⟩

/-- The sum of two terms of any signs. -/
theorem mixed_sum {S T : ℝ} {a b : Dbl} (ha : SRel 2 36 S a) (hb : SRel 2 36 T b) :
    ∃ r, (a + b).val = .fin r ∧ Ordinary r ∧ |r - (S + T)| ≤ (|S| + |T|) * 5 / 2 ^ 53 := by
  obtain ⟨⟨s, hs, ns⟩, ms⟩ := ha
  obtain ⟨⟨t, ht, nt⟩, mt⟩ := hb
  have ds := isDouble_val hs
  have dt := isDouble_val ht
  have es := ns.abs_sub_le (by norm_num)
  have et := nt.abs_sub_le (by norm_num)
  push_cast at es et
  have e := nearest_add ds dt
  have hS0 := abs_nonneg S
  have hT0 := abs_nonneg T
  -- sizes
  have up : ∀ {S s : ℝ}, (S = 0 ∨ Mag 36 |S|) → |s - S| ≤ |S| * (2 + 1) / 2 ^ 53 →
      |S| ≤ 10 ^ 36 ∧ |s| ≤ |S| * (1 + 3 / 2 ^ 53) := by
    intro S s h1 h2
    refine ⟨?_, ?_⟩
    · rcases h1 with rfl | h1
      · simp
      · exact h1.high
    · have : |s| ≤ |S| + |s - S| := by
        have := abs_add_le S (s - S)
        rwa [add_sub_cancel] at this
      linarith
  obtain ⟨u1, u2⟩ := up ms es
  obtain ⟨v1, v2⟩ := up mt et
  have hst : |s + t| ≤ |s| + |t| := abs_add_le _ _
  have hr : |nearest (s + t) - (S + T)| ≤ (|S| + |T|) * 5 / 2 ^ 53 := by
    have h1 : nearest (s + t) - (S + T) = (nearest (s + t) - (s + t)) + ((s - S) + (t - T)) := by ring
    rw [h1]
    refine (abs_add_le _ _).trans ?_
    have h2 := abs_add_le (s - S) (t - T)
    have h3 : |s + t| / 2 ^ 53 ≤ (|S| * (1 + 3 / 2 ^ 53) + |T| * (1 + 3 / 2 ^ 53)) / 2 ^ 53 := by
      gcongr; linarith
    have h4 : (|S| * (1 + 3 / 2 ^ 53) + |T| * (1 + 3 / 2 ^ 53)) / 2 ^ 53 ≤ (|S| + |T|) * 2 / 2 ^ 53 := by
      gcongr
      nlinarith
    have h5 : (|S| + |T|) * 5 / 2 ^ 53 = (|S| + |T|) * 2 / 2 ^ 53 + (|S| * (2 + 1) / 2 ^ 53 +
      |T| * (2 + 1) / 2 ^ 53) := by ring
    linarith
  have hbig : |nearest (s + t)| ≤ 10 ^ 40 := by
    have h1 : |nearest (s + t)| ≤ |S + T| + |nearest (s + t) - (S + T)| := by
      have := abs_add_le (S + T) (nearest (s + t) - (S + T))
      rwa [add_sub_cancel] at this
    have h2 := abs_add_le S T
    have h3 : (|S| + |T|) * 5 / 2 ^ 53 ≤ |S| + |T| := by
      rw [div_le_iff₀ (by positivity)]
      nlinarith
    have h4 : (4 : ℝ) * 10 ^ 36 ≤ 10 ^ 40 := by norm_num
    linarith
  have hfin : (a + b).val = .fin (nearest (s + t)) := by
    refine add_is hs ht rfl (lt_of_le_of_lt hbig ?_)
    exact lt_of_le_of_lt (show (10 : ℝ) ^ 40 ≤ 2 ^ 200 by norm_num)
      (pow_lt_pow_right₀ (by norm_num) (by norm_num))
  refine ⟨_, hfin, ?_, hr⟩
  -- the sum is zero or not small
  have grid : ∀ {S s : ℝ}, IsDouble s → SNear 2 S s → (S = 0 ∨ Mag 36 |S|) →
      ∃ k : ℤ, s = k * (2 : ℝ) ^ (-173 : ℤ) := by
    intro S s d n m
    rcases n with ⟨-, rfl⟩ | ⟨h1, h2⟩
    · exact ⟨0, by simp⟩
    have hS : S ≠ 0 := fun h => by rw [h, zero_mul] at h1; exact lt_irrefl _ h1
    have hm := (m.resolve_left hS).low
    have hh := (h2.half (by norm_num)).1
    refine double_grid_at d (e := -121) ?_
    refine le_trans ?_ hh
    have : (2 : ℝ) ^ (-121 : ℤ) ≤ ((10 : ℝ) ^ 36)⁻¹ / 2 := by norm_num
    linarith
  obtain ⟨k, hk⟩ := grid ds ns ms
  obtain ⟨l, hl⟩ := grid dt nt mt
  have est : s + t = ((k + l : ℤ) : ℝ) * (2 : ℝ) ^ (-173 : ℤ) := by
    rw [hk, hl]; push_cast; ring
  by_cases h0 : s + t = 0
  · left; rw [h0, nearest_zero]
  · right
    have hge := grid_le (two_zpow_pos _) est h0
    refine ⟨?_, hbig.trans (by norm_num)⟩
    have h1 : |s + t| ≤ |nearest (s + t)| + |nearest (s + t) - (s + t)| := by
      have := abs_sub_abs_le_abs_sub (s + t) (nearest (s + t))
      rw [abs_sub_comm] at this
      linarith
    have h2 : |s + t| / 2 ^ 53 ≤ |s + t| / 2 := by
      gcongr; norm_num
    have h3 : |s + t| / 2 ≤ |nearest (s + t)| := by linarith
    refine le_trans ?_ ((div_le_div_of_nonneg_right hge (by norm_num)).trans h3)
    norm_num

/-! ## C133: the linear mixture -/

namespace Spec

/-- A part of a permittivity: zero, or of an absolute value between 10⁻²⁰ and 10²⁰. -/
def PartSize (x : ℝ) : Prop := x = 0 ∨ (((10 : ℝ) ^ 20)⁻¹ ≤ |x| ∧ |x| ≤ 10 ^ 20)

/-- A fraction: zero, or between 10⁻¹⁶ and 1. -/
def FractionSize (φ : ℝ) : Prop := φ = 0 ∨ (((10 : ℝ) ^ 16)⁻¹ ≤ φ ∧ φ ≤ 1)

/-- Both parts are finite and of ordinary size. -/
def FiniteCx (z : Cx Dbl) : Prop :=
  ∃ x y : ℝ, z.re.val = .fin x ∧ z.im.val = .fin y ∧ PartSize x ∧ PartSize y

/-- Distinct wavelengths, at least one, between 10⁻⁶⁰ and 10⁶⁰ metres. -/
def GoodMetres (s : Spectrum Dbl) : Prop :=
  s.std.toList ≠ [] ∧ s.std.toList.Nodup ∧
    ∀ x ∈ s.std.toList, ∃ r : ℝ, x.val = .fin r ∧ ((10 : ℝ) ^ 60)⁻¹ ≤ r ∧ r ≤ 10 ^ 60

/-- `w` is the mean `(1-φ) x + φ y`, up to `k` units of 2⁻⁵³ of the mean of the absolute values. -/
def MeanClose (k : ℕ) (φ x y : ℝ) (w : Dbl) : Prop :=
  ∃ v, w.val = .fin v ∧
    |v - ((1 - φ) * x + φ * y)| ≤ ((1 - φ) * |x| + φ * |y|) * k / 2 ^ 53

end Spec

theorem PartSize_mag {x : ℝ} (h : PartSize x) : x = 0 ∨ Mag 20 |x| := h.imp id (fun h => ⟨h.1, h.2⟩)

theorem fraction_srel {f : Dbl} {φ : ℝ} (hf : f.val = .fin φ) (hφ : FractionSize φ) :
    SRel 0 16 φ f := by
  refine SRel.exact hf (hφ.imp id fun h => ?_)
  rw [abs_of_pos (lt_of_lt_of_le (by positivity) h.1)]
  exact ⟨h.1, h.2.trans (by norm_num)⟩

/-- The mixed parts: finite, ordinary and close to the mean. -/
theorem simple_parts {f : Dbl} {φ : ℝ} (hf : f.val = .fin φ) (hφ : FractionSize φ) (h0 : 0 ≤ φ)
    (h1 : φ ≤ 1) {a b : Cx Dbl} {x y x' y' : ℝ} (hx : a.re.val = .fin x) (hy : a.im.val = .fin y)
    (hx' : b.re.val = .fin x') (hy' : b.im.val = .fin y') (mx : PartSize x) (my : PartSize y)
    (mx' : PartSize x') (my' : PartSize y') :
    (∃ r, (simpleMix f a b).re.val = .fin r ∧ Ordinary r ∧
      |r - ((1 - φ) * x + φ * x')| ≤ ((1 - φ) * |x| + φ * |x'|) * 5 / 2 ^ 53) ∧
    ∃ r, (simpleMix f a b).im.val = .fin r ∧ Ordinary r ∧
      |r - ((1 - φ) * y + φ * y')| ≤ ((1 - φ) * |y| + φ * |y'|) * 5 / 2 ^ 53 := by
  obtain ⟨a1, a2⟩ := scaled_parts hx hy (PartSize_mag mx) (PartSize_mag my) (one_minus hf h0 h1)
    (by norm_num) (by norm_num)
  obtain ⟨b1, b2⟩ := scaled_parts hx' hy' (PartSize_mag mx') (PartSize_mag my')
    ((fraction_srel hf hφ).mono (n := 1) (by norm_num) le_rfl) (by norm_num) (by norm_num)
  have fix : ∀ x x' : ℝ, |x * (1 - φ)| + |x' * φ| = (1 - φ) * |x| + φ * |x'| := by
    intro x x'
    rw [abs_mul, abs_mul, abs_of_nonneg h0, abs_of_nonneg (sub_nonneg.2 h1)]
    ring
  obtain ⟨r, r1, r2, r3⟩ := mixed_sum a1 b1
  obtain ⟨t, t1, t2, t3⟩ := mixed_sum a2 b2
  rw [fix, mul_comm x, mul_comm x'] at r3
  rw [fix, mul_comm y, mul_comm y'] at t3
  exact ⟨⟨r, r1, r2, r3⟩, ⟨t, t1, t2, t3⟩⟩

/-- Two errors together. -/
theorem close_trans {r x W : ℝ} {w : Dbl} (h : Close 9 r w) (hr : |r - x| ≤ W * 5 / 2 ^ 53)
    (hx : |x| ≤ W) : ∃ v, w.val = .fin v ∧ |v - x| ≤ W * 15 / 2 ^ 53 := by
  obtain ⟨v, v1, v2⟩ := h
  refine ⟨v, v1, ?_⟩
  have hW : 0 ≤ W := (abs_nonneg x).trans hx
  have h1 : |r| ≤ |x| + |r - x| := by
    have := abs_add_le x (r - x)
    rwa [add_sub_cancel] at this
  have h2 : |r| ≤ W * (1 + 5 / 2 ^ 53) := by
    have : W * (1 + 5 / 2 ^ 53) = W + W * 5 / 2 ^ 53 := by ring
    linarith
  have h3 : |v - x| ≤ |v - r| + |r - x| := by
    have := abs_add_le (v - r) (r - x)
    rwa [sub_add_sub_cancel] at this
  have h4 : |r| * (9 : ℕ) / 2 ^ 53 ≤ W * 10 / 2 ^ 53 := by
    refine div_le_div_of_nonneg_right ?_ (by positivity)
    push_cast
    linarith
  have h5 : W * 15 / 2 ^ 53 = W * 10 / 2 ^ 53 + W * 5 / 2 ^ 53 := by ring
  linarith

/-- An elementwise operation, point by point. -/
theorem zip_points {g : Cx Dbl → Cx Dbl → Cx Dbl} {a b c : CVals Dbl} (h : CVals.zip g a b = .ok c)
    {i : ℕ} {x y : Cx Dbl} (hx : (points a)[i]? = some x) (hy : (points b)[i]? = some y) :
    (points c)[i]? = some (g x y) := by
  cases a with
  | scalar z =>
    have hi : i = 0 ∧ z = x := by
      cases i with
      | zero => simpa [points] using hx
      | succ i => simp [points] at hx
    obtain ⟨rfl, rfl⟩ := hi
    cases b with
    | scalar w =>
      cases h
      have : w = y := by simpa [points] using hy
      subst this; rfl
    | array ws =>
      cases h
      have hy : ws[0]? = some y := hy
      show (ws.map _)[0]? = _
      rw [List.getElem?_map, hy]; rfl
  | array zs =>
    have hx : zs[i]? = some x := hx
    cases b with
    | scalar w =>
      cases h
      have hi : w = y := by
        cases i with
        | zero => simpa [points] using hy
        | succ i => simp [points] at hy
      subst hi
      show (zs.map _)[i]? = _
      rw [List.getElem?_map, hx]; rfl
    | array ws =>
      simp only [CVals.zip] at h
      split at h
      · cases h
        have hy : ws[i]? = some y := hy
        show (List.zipWith g zs ws)[i]? = _
        rw [List.getElem?_zipWith, hx, hy]
      · cases h

theorem points_toList (v : CVals Dbl) : v.toList = points v := by cases v <;> rfl

variable [SciPy Dbl]

omit [SciPy Dbl] in
theorem GoodMetres_mag {s : Spectrum Dbl} (h : GoodMetres s) :
    ∀ x ∈ s.std.toList, ∃ r, x.val = .fin r ∧ Mag 60 r :=
  fun x hx => (h.2.2 x hx).imp fun _ h => ⟨h.1, ⟨h.2.1, h.2.2⟩⟩

omit [SciPy Dbl] in
theorem GoodMetres_table {s : Spectrum Dbl} (h : GoodMetres s) : NoNaN s.std.toList ∧
    s.std.toList.Pairwise (fun x y => PyFloat.eq x y = false) := by
  refine ⟨fun x hx => ?_, ?_⟩
  · obtain ⟨r, hr, -⟩ := h.2.2 x hx
    exact fin_noNaN hr
  · refine (List.Pairwise.imp_of_mem ?_ h.2.1)
    intro x y hx hy hxy
    obtain ⟨r, hr, -⟩ := h.2.2 x hx
    obtain ⟨t, ht, -⟩ := h.2.2 y hy
    show PyFloat.eq x.val y.val = false
    rw [hr, ht, XR.eq_fin, decide_eq_false_iff_not]
    rintro rfl
    exact hxy (Dbl.ext (hr.trans ht.symm))

omit [SciPy Dbl] in
theorem FractionSize_bounds {φ : ℝ} (h : FractionSize φ) : 0 ≤ φ ∧ φ ≤ 1 := by
  rcases h with rfl | h
  · exact ⟨le_rfl, zero_le_one⟩
  · exact ⟨(by positivity : (0 : ℝ) ≤ ((10 : ℝ) ^ 16)⁻¹).trans h.1, h.2⟩

omit [SciPy Dbl] in
theorem fraction_accepted {f : Dbl} {φ : ℝ} (hf : f.val = .fin φ) (h : FractionSize φ) :
    PyFloat.lt f (lit 0) = false ∧ PyFloat.lt (lit 1) f = false := by
  obtain ⟨h0, h1⟩ := FractionSize_bounds h
  have hl : (lit 1 : Dbl).val = .fin 1 := by exact_mod_cast Dbl.lit_int (n := 1) (by norm_num)
  rw [Dbl.lt_real hf lit_zero_val, Dbl.lt_real hl hf, decide_eq_false_iff_not,
    decide_eq_false_iff_not, not_lt, not_lt]
  exact ⟨h0, h1⟩

omit [SciPy Dbl] in
theorem FiniteCx_size {z : Cx Dbl} {x y : ℝ} (h : FiniteCx z) (hx : z.re.val = .fin x)
    (hy : z.im.val = .fin y) : PartSize x ∧ PartSize y := by
  obtain ⟨u, v, h1, h2, h3, h4⟩ := h
  rw [hx] at h1
  rw [hy] at h2
  injection h1 with h1
  injection h2 with h2
  rw [h1, h2]
  exact ⟨h3, h4⟩

/-- C133: in double precision, a linear mixture can be made of any two materials, and asked at the
wavelengths it was built with, in whatever unit, it reports `(1-f) ε₁ + f ε₂` of the permittivities
that its constituents report there, separately for the real and the imaginary part, up to 15·2⁻⁵³ of
the mean of the absolute values. -/
theorem C133_linear (s : Spectrum Dbl) (hal : Aligned s) (hs : GoodMetres s)
    (m1 m2 : Material Dbl) (f : Dbl) (φ : ℝ) (hf : f.val = .fin φ) (hφ : FractionSize φ)
    (e1 e2 : CVals Dbl) (h1 : (m1.getPermittivity s).1 = .ok e1)
    (h2 : (m2.getPermittivity s).1 = .ok e2) (n1 : ∀ z ∈ points e1, FiniteCx z)
    (n2 : ∀ z ∈ points e2, FiniteCx z) :
    ∃ m, (effectiveMedium .simple s m1 m2 f).1 = .ok m ∧
      ∀ q : Spectrum Dbl, Aligned q → q.std = s.std → ∃ c, (m.getPermittivity q).1 = .ok c ∧
        ∀ (i : ℕ) (a b : Cx Dbl) (x y x' y' : ℝ), (points e1)[i]? = some a →
          (points e2)[i]? = some b → a.re.val = .fin x → a.im.val = .fin y → b.re.val = .fin x' →
          b.im.val = .fin y' →
          ∃ w, (points c)[i]? = some w ∧ MeanClose 15 φ x x' w.re ∧ MeanClose 15 φ y y' w.im := by
  obtain ⟨f0, f1⟩ := FractionSize_bounds hφ
  obtain ⟨l0, l1⟩ := fraction_accepted hf hφ
  obtain ⟨t1, t2⟩ := GoodMetres_table hs
  obtain ⟨eps, hz, hform⟩ := zip_form (g := simpleMix f) (permittivity_form m1 hal h1)
    (permittivity_form m2 hal h2)
  obtain ⟨m, hm⟩ := medium_builds (k := .simple) hal hs.1 t1 t2 l0 l1 h1 h2 hz (hform.length_std hal)
  refine ⟨m, hm, ?_⟩
  intro q hq hqs
  obtain ⟨-, -, d1, d2, eps', k1, k2, k3, k4⟩ := medium_entries hal (GoodMetres_mag hs) hm
  rw [h1] at k1
  cases k1
  rw [h2] at k2
  cases k2
  have he : eps' = eps := Except.ok.inj (k3.symm.trans hz)
  subst he
  obtain ⟨c, c1, c2⟩ := k4 (by
    intro z hzm
    rw [← points_toList] at hzm
    obtain ⟨a, ha, b, hb, rfl⟩ := zip_elems hz z hzm
    rw [points_toList] at ha hb
    obtain ⟨x, y, x1, y1, mx, my⟩ := n1 a ha
    obtain ⟨x', y', x2, y2, mx', my'⟩ := n2 b hb
    obtain ⟨⟨r, r1, r2, -⟩, ⟨t, t1, t2, -⟩⟩ := simple_parts hf hφ f0 f1 x1 y1 x2 y2 mx my mx' my'
    exact ⟨⟨r, r1, r2⟩, ⟨t, t1, t2⟩⟩) q hq hqs
  refine ⟨c, c1, ?_⟩
  intro i a b x y x' y' ha hb x1 y1 x2 y2
  obtain ⟨mx, my⟩ := FiniteCx_size (n1 a (List.mem_of_getElem? ha)) x1 y1
  obtain ⟨mx', my'⟩ := FiniteCx_size (n2 b (List.mem_of_getElem? hb)) x2 y2
  obtain ⟨⟨r, r1, r2, r3⟩, ⟨t, t1, t2, t3⟩⟩ := simple_parts hf hφ f0 f1 x1 y1 x2 y2 mx my mx' my'
  obtain ⟨w, w1, w2, w3⟩ := c2 i _ r t (zip_points hz ha hb) r1 t1
  have mean : ∀ x x' : ℝ, |(1 - φ) * x + φ * x'| ≤ (1 - φ) * |x| + φ * |x'| := by
    intro x x'
    refine (abs_add_le _ _).trans ?_
    rw [abs_mul, abs_mul, abs_of_nonneg f0, abs_of_nonneg (sub_nonneg.2 f1)]
  exact ⟨w, w1, close_trans w2 r3 (mean _ _), close_trans w3 t3 (mean _ _)⟩

/-- A case: a quarter of 3 in 12+7i, at one metre. -/
example [NumText Dbl] (rd : String → Res (FileDict Dbl)) : ∃ m1 m2 m : Material Dbl, ∃ c,
    Material.new rd [("fixed_eps", .cplx host)] = .ok m1 ∧
    Material.new rd [("fixed_eps", .cplx guest)] = .ok m2 ∧
    (effectiveMedium .simple oneMetre m1 m2 (lit 0.25)).1 = .ok m ∧
    (m.getPermittivity oneMetre).1 = .ok c ∧
    ∃ w, (points c)[0]? = some w ∧ MeanClose 15 0.25 12 3 w.re ∧ MeanClose 15 0.25 7 0 w.im := by
  obtain ⟨m1, a1, a2⟩ := fixed_oneMetre rd host
  obtain ⟨m2, b1, b2⟩ := fixed_oneMetre rd guest
  have hf : (lit 0.25 : Dbl).val = .fin 0.25 := by
    rw [Dbl.val_lit]
    have := Dbl.rnd_double (x := 0.25) ⟨1, -2, by norm_num, by norm_num, by norm_num, by norm_num⟩
    push_cast
    exact this
  have hg : GoodMetres oneMetre := by
    refine ⟨by simp [oneMetre, Vals.toList], by simp [oneMetre, Vals.toList], ?_⟩
    intro x hx
    simp only [oneMetre, Vals.toList, List.mem_singleton] at hx
    subst hx
    exact ⟨1, by exact_mod_cast Dbl.lit_int (n := 1) (by norm_num), by norm_num, by norm_num⟩
  have hh := host_int
  have hgu := guest_int
  obtain ⟨m, c1, c2⟩ := C133_linear oneMetre oneMetre_aligned hg m1 m2 (lit 0.25) 0.25 hf
    (.inr ⟨by norm_num, by norm_num⟩) _ _ a2 b2
    (by
      intro z hz
      rw [show z = _ from List.mem_singleton.1 hz]
      exact ⟨_, _, hh.re, hh.im, .inr ⟨by norm_num, by norm_num⟩, .inr ⟨by norm_num, by norm_num⟩⟩)
    (by
      intro z hz
      rw [show z = _ from List.mem_singleton.1 hz]
      exact ⟨_, _, hgu.re, hgu.im, .inr ⟨by norm_num, by norm_num⟩, .inl (by norm_num)⟩)
  obtain ⟨c, d1, d2⟩ := c2 oneMetre oneMetre_aligned rfl
  refine ⟨m1, m2, m, c, a1, b1, c1, d1, ?_⟩
  exact d2 0 _ _ 12 7 3 0 rfl rfl (by exact_mod_cast hh.re) (by exact_mod_cast hh.im)
    (by exact_mod_cast hgu.re) (by exact_mod_cast hgu.im)

/-! ## C134: the Maxwell-Garnett medium -/

/-- The complex double is a real number, up to `n` roundings. -/
def RealCx (n k : ℕ) (x : ℝ) (z : Cx Dbl) : Prop := SRel n k x z.re ∧ z.im.val = .fin 0

namespace RealCx

omit [SciPy Dbl] in
theorem mono {n n' k k' : ℕ} {x : ℝ} {z : Cx Dbl} (h : RealCx n k x z) (hn : n ≤ n') (hk : k ≤ k') :
    RealCx n' k' x z := ⟨h.1.mono hn hk, h.2⟩

omit [SciPy Dbl] in
theorem fin {n k : ℕ} {x : ℝ} {z : Cx Dbl} (h : RealCx n k x z) : ∃ y, z.re.val = .fin y := by
  obtain ⟨⟨⟨y, h1, -⟩, -⟩, -⟩ := h
  exact ⟨y, h1⟩

omit [SciPy Dbl] in
theorem mul {m n j k : ℕ} {x y : ℝ} {z w : Cx Dbl} (hz : RealCx m j x z) (hw : RealCx n k y w)
    (hn : m + n ≤ 99) (hk : j + k ≤ 300) : RealCx (m + n + 1) (j + k) (x * y) (z * w) := by
  obtain ⟨u, hu⟩ := hz.fin
  obtain ⟨v, hv⟩ := hw.fin
  have d0 : IsDouble (0 : ℝ) := isDouble_val hz.2
  refine ⟨srel_sub_zero (Dbl.mul_zero_val hz.2 hw.2) (hz.1.mul hw.1 hn hk), ?_⟩
  exact add_is (Dbl.mul_zero_val hu hw.2) (Dbl.zero_mul_val hz.2 hv)
    (by rw [add_zero]; exact nearest_of_double d0) (double_lt d0)

omit [SciPy Dbl] in
theorem scale {m n j k : ℕ} {x y : ℝ} {a : Dbl} {w : Cx Dbl} (ha : SRel m j x a)
    (hw : RealCx n k y w) (hn : m + n ≤ 99) (hk : j + k ≤ 300) :
    RealCx (m + n + 1) (j + k) (x * y) (rmul a w) :=
  mul (z := Cx.ofReal a) ⟨ha, lit_zero_val⟩ hw hn hk

omit [SciPy Dbl] in
theorem add {n k : ℕ} {x y : ℝ} {z w : Cx Dbl} (hz : RealCx n k x z) (hw : RealCx n k y w)
    (hs : 0 ≤ x * y) (hn : n ≤ 99) (hk : k + 1 ≤ 300) : RealCx (n + 1) (k + 1) (x + y) (z + w) := by
  have d0 : IsDouble (0 : ℝ) := isDouble_val hz.2
  exact ⟨hz.1.add hw.1 hs hn hk, add_is hz.2 hw.2 (by rw [add_zero]; exact nearest_of_double d0)
    (double_lt d0)⟩

omit [SciPy Dbl] in
theorem div {m n j k : ℕ} {x y : ℝ} {z w : Cx Dbl} (hz : RealCx m j x z) (hw : RealCx n k y w)
    (hy : y ≠ 0) (hn : m + (n + 1) ≤ 99) (hk : j + k ≤ 300) :
    RealCx (m + (n + 1) + 1) (j + k) (x / y) (z / w) := by
  obtain ⟨u, hu⟩ := hz.fin
  have hw1 := hw.1
  obtain ⟨⟨v, hv, hvn⟩, -⟩ := hw1
  have hv0 : v ≠ 0 := fun h => hy (hvn.zero_iff.2 h)
  have d0 : IsDouble (0 : ℝ) := isDouble_val hz.2
  have hle : PyFloat.le (Dbl.abs w.im) (Dbl.abs w.re) = true := by
    have h1 : (Dbl.abs w.im).val = .fin 0 := by
      unfold Dbl.abs
      rw [hw.2]
      show (Dbl.rnd (.fin |0|)).val = _
      rw [abs_zero]; exact rnd_double d0
    have h2 : ∃ t, (Dbl.abs w.re).val = .fin t ∧ 0 ≤ t := by
      have hd : IsDouble |v| := by
        obtain ⟨m, e, hm, h1, h2, rfl⟩ := isDouble_val hv
        refine ⟨|m|, e, by rwa [abs_abs], h1, h2, ?_⟩
        rw [abs_mul, abs_of_pos (two_zpow_pos e)]
        push_cast
        rfl
      refine ⟨|v|, ?_, abs_nonneg _⟩
      unfold Dbl.abs
      rw [hv]
      exact rnd_double hd
    obtain ⟨t, h2, h3⟩ := h2
    show PyFloat.le (Dbl.abs w.im).val (Dbl.abs w.re).val = true
    rw [h1, h2]
    rw [XR.le_fin]; simpa using h3
  have hrat : (w.im / w.re).val = .fin 0 := by
    rw [Dbl.val_div, hw.2, hv, XR.div_fin_of_ne _ hv0, zero_div]
    exact rnd_double d0
  have hscl : SRel (n + 1) k (1 / y) (Dbl.ofRat 1 / (w.re + w.im * (w.im / w.re))) := by
    have := SRel.one.div (hw.1.add_zero (Dbl.mul_zero_val hw.2 hrat)) hy (by omega) (by omega)
    rw [Nat.zero_add, Nat.zero_add] at this
    exact this
  have hdef : z / w = ⟨(z.re + z.im * (w.im / w.re)) * (Dbl.ofRat 1 / (w.re + w.im * (w.im / w.re))),
      (z.im - z.re * (w.im / w.re)) * (Dbl.ofRat 1 / (w.re + w.im * (w.im / w.re)))⟩ := by
    show Dbl.cdiv z w = _
    unfold Dbl.cdiv
    rw [if_pos (show Dbl.le (Dbl.abs w.im) (Dbl.abs w.re) = true from hle),
      if_neg (Dbl.not_both_zero hv hw.2 (Or.inl hv0))]
  rw [hdef]
  constructor
  · have := (hz.1.add_zero (Dbl.mul_zero_val hz.2 hrat)).mul hscl hn hk
    rw [mul_one_div] at this
    exact this
  · obtain ⟨⟨t, ht, -⟩, -⟩ := hscl
    refine Dbl.zero_mul_val ?_ ht
    exact Dbl.sub_self_val (Dbl.mul_zero_val hu hrat) hz.2

end RealCx

namespace Spec

/-- The Maxwell-Garnett formula for two transparent materials. -/
def maxwellGarnett (φ x y : ℝ) : ℝ :=
  x * (2 * (1 - φ) * x + (1 + 2 * φ) * y) / ((2 + φ) * x + (1 - φ) * y)

/-- TransparentCx: the imaginary part is zero and the real part lies between 10⁻²⁰ and 10²⁰. -/
def TransparentCx (z : Cx Dbl) : Prop :=
  z.im.val = .fin 0 ∧ ∃ x : ℝ, z.re.val = .fin x ∧ ((10 : ℝ) ^ 20)⁻¹ ≤ x ∧ x ≤ 10 ^ 20

end Spec

/-- The mixed value lies between the constituents. -/
theorem maxwellGarnett_between {φ x y : ℝ} (h0 : 0 ≤ φ) (h1 : φ ≤ 1) (hx : 0 < x) (hy : 0 < y) :
    min x y ≤ maxwellGarnett φ x y ∧ maxwellGarnett φ x y ≤ max x y := by
  have hd : 0 < (2 + φ) * x + (1 - φ) * y := by
    have := mul_nonneg (sub_nonneg.2 h1) hy.le
    nlinarith [mul_nonneg h0 hx.le]
  have e1 : maxwellGarnett φ x y - x = x * (3 * φ * (y - x)) / ((2 + φ) * x + (1 - φ) * y) := by
    unfold maxwellGarnett
    rw [eq_div_iff hd.ne', sub_mul, div_mul_cancel₀ _ hd.ne']; ring
  have e2 : y - maxwellGarnett φ x y = (1 - φ) * (2 * x + y) * (y - x) /
      ((2 + φ) * x + (1 - φ) * y) := by
    unfold maxwellGarnett
    rw [eq_div_iff hd.ne', sub_mul, div_mul_cancel₀ _ hd.ne']; ring
  rcases le_total x y with h | h
  · rw [min_eq_left h, max_eq_right h]
    have g : 0 ≤ y - x := by linarith
    have g1 : 0 ≤ 1 - φ := by linarith
    have p1 : 0 ≤ x * (3 * φ * (y - x)) / ((2 + φ) * x + (1 - φ) * y) := by positivity
    have p2 : 0 ≤ (1 - φ) * (2 * x + y) * (y - x) / ((2 + φ) * x + (1 - φ) * y) := by positivity
    constructor <;> linarith
  · rw [min_eq_right h, max_eq_left h]
    have g : 0 ≤ x - y := by linarith
    have g1 : 0 ≤ 1 - φ := by linarith
    have p1 : 0 ≤ x * (3 * φ * (x - y)) / ((2 + φ) * x + (1 - φ) * y) := by positivity
    have p2 : 0 ≤ (1 - φ) * (2 * x + y) * (x - y) / ((2 + φ) * x + (1 - φ) * y) := by positivity
    have q1 : x * (3 * φ * (y - x)) / ((2 + φ) * x + (1 - φ) * y) =
      -(x * (3 * φ * (x - y)) / ((2 + φ) * x + (1 - φ) * y)) := by ring
    have q2 : (1 - φ) * (2 * x + y) * (y - x) / ((2 + φ) * x + (1 - φ) * y) =
      -((1 - φ) * (2 * x + y) * (x - y) / ((2 + φ) * x + (1 - φ) * y)) := by ring
    constructor <;> linarith

omit [SciPy Dbl] in
theorem mg_down {f : Dbl} {φ : ℝ} (hf : f.val = .fin φ) (hφ : FractionSize φ) (h0 : 0 ≤ φ)
    (h1 : φ ≤ 1) {a b : Cx Dbl} {x y : ℝ} (ha : RealCx 0 20 x a) (hb : RealCx 0 20 y b)
    (hx : 0 < x) (hy : 0 < y) : RealCx 3 38 ((2 + φ) * x + (1 - φ) * y) (mgDown f a b) := by
  have hg := one_minus hf h0 h1
  have hf' := fraction_srel hf hφ
  have g1 : 0 ≤ 1 - φ := by linarith
  have two : SRel 0 1 2 (lit 2 : Dbl) := by
    refine SRel.exact (by exact_mod_cast Dbl.lit_int (n := 2) (by norm_num)) (.inr ?_)
    rw [abs_of_pos (by norm_num)]
    exact ⟨by norm_num, by norm_num⟩
  have d1 : RealCx 2 37 ((2 + φ) * x) (rmul (lit 2 + f) a) := by
    have := (two.mono (n := 0) (k := 16) (by norm_num) (by norm_num)).add hf' (by positivity)
      (by norm_num) (by norm_num)
    exact RealCx.scale this ha (by norm_num) (by norm_num)
  have d2 : RealCx 2 37 ((1 - φ) * y) (rmul (lit 1 - f) b) :=
    (RealCx.scale hg hb (by norm_num) (by norm_num)).mono (by norm_num) (by norm_num)
  exact d1.add d2 (by positivity) (by norm_num) (by norm_num)

omit [SciPy Dbl] in
/-- The mixed value of transparent constituents: 10 roundings. -/
theorem mg_parts {f : Dbl} {φ : ℝ} (hf : f.val = .fin φ) (hφ : FractionSize φ) (h0 : 0 ≤ φ)
    (h1 : φ ≤ 1) {a b : Cx Dbl} {x y : ℝ} (ha : RealCx 0 20 x a) (hb : RealCx 0 20 y b)
    (hx : 0 < x) (hy : 0 < y) : RealCx 10 97 (maxwellGarnett φ x y) (mgMix f a b) := by
  have hg := one_minus hf h0 h1
  have hf' := fraction_srel hf hφ
  have two : SRel 0 1 2 (lit 2 : Dbl) := by
    refine SRel.exact (by exact_mod_cast Dbl.lit_int (n := 2) (by norm_num)) (.inr ?_)
    rw [abs_of_pos (by norm_num)]
    exact ⟨by norm_num, by norm_num⟩
  have g1 : 0 ≤ 1 - φ := by linarith
  have u1 : RealCx 3 38 (2 * (1 - φ) * x) (rmul (lit 2 * (lit 1 - f)) a) :=
    (RealCx.scale (two.mul hg (by norm_num) (by norm_num)) ha (by norm_num) (by norm_num)).mono
      (by norm_num) (by norm_num)
  have u2 : RealCx 3 38 ((1 + 2 * φ) * y) (rmul (lit 1 + lit 2 * f) b) := by
    have := (SRel.one.mono (n := 1) (k := 17) (by norm_num) (by norm_num)).add
      (two.mul hf' (by norm_num) (by norm_num)) (by positivity) (by norm_num) (by norm_num)
    exact RealCx.scale this hb (by norm_num) (by norm_num)
  have u := u1.add u2 (by positivity) (by norm_num) (by norm_num)
  have d := mg_down hf hφ h0 h1 ha hb hx hy
  have hd : (2 + φ) * x + (1 - φ) * y ≠ 0 := by
    have : 0 < (2 + φ) * x + (1 - φ) * y := by positivity
    exact this.ne'
  exact (ha.mul u (by norm_num) (by norm_num)).div d hd (by norm_num) (by norm_num)

/-- C134 for transparent constituents: the medium is built, reports no loss, and its real part is that
of the Maxwell-Garnett formula up to 21·2⁻⁵³ of it. Missing for the full claim: constituents whose
denominators cancel, for which it is false. -/
theorem C134_transparent_partial (s : Spectrum Dbl) (hal : Aligned s) (hs : GoodMetres s)
    (m1 m2 : Material Dbl) (f : Dbl) (φ : ℝ) (hf : f.val = .fin φ) (hφ : FractionSize φ)
    (e1 e2 : CVals Dbl) (h1 : (m1.getPermittivity s).1 = .ok e1)
    (h2 : (m2.getPermittivity s).1 = .ok e2) (n1 : ∀ z ∈ points e1, TransparentCx z)
    (n2 : ∀ z ∈ points e2, TransparentCx z) :
    ∃ m, (effectiveMedium .maxwellGarnett s m1 m2 f).1 = .ok m ∧
      ∀ q : Spectrum Dbl, Aligned q → q.std = s.std → ∃ c, (m.getPermittivity q).1 = .ok c ∧
        ∀ (i : ℕ) (a b : Cx Dbl) (x x' : ℝ), (points e1)[i]? = some a → (points e2)[i]? = some b →
          a.re.val = .fin x → b.re.val = .fin x' →
          ∃ w, (points c)[i]? = some w ∧ Close 21 (maxwellGarnett φ x x') w.re ∧
            w.im.val = .fin 0 := by
  obtain ⟨f0, f1⟩ := FractionSize_bounds hφ
  obtain ⟨l0, l1⟩ := fraction_accepted hf hφ
  obtain ⟨t1, t2⟩ := GoodMetres_table hs
  have real : ∀ {z : Cx Dbl}, TransparentCx z → ∃ x, z.re.val = .fin x ∧ RealCx 0 20 x z ∧ 0 < x ∧
      ((10 : ℝ) ^ 20)⁻¹ ≤ x ∧ x ≤ 10 ^ 20 := by
    rintro z ⟨h1, x, h2, h3, h4⟩
    have hx : 0 < x := lt_of_lt_of_le (by positivity) h3
    exact ⟨x, h2, ⟨SRel.exact h2 (.inr (by rw [abs_of_pos hx]; exact ⟨h3, h4⟩)), h1⟩, hx, h3, h4⟩
  obtain ⟨eps, hz, hform⟩ := zip_form (g := mgMix f) (permittivity_form m1 hal h1)
    (permittivity_form m2 hal h2)
  obtain ⟨down, hdz, hdform⟩ := zip_form (g := mgDown f) (permittivity_form m1 hal h1)
    (permittivity_form m2 hal h2)
  have hany : down.elems.any absTrue = true := by
    have hl := hdform.length_std hal
    have hpos : 0 < down.elems.length := by
      rw [← hl]; exact List.length_pos_iff.2 hs.1
    obtain ⟨z, hzm⟩ := List.exists_mem_of_length_pos hpos
    rw [List.any_eq_true]
    refine ⟨z, hzm, ?_⟩
    have hzm' : z ∈ down.toList := by cases down <;> exact hzm
    obtain ⟨a, ha, b, hb, rfl⟩ := zip_elems hdz z hzm'
    rw [points_toList] at ha hb
    obtain ⟨x, x1, x2, x3, -⟩ := real (n1 a ha)
    obtain ⟨y, y1, y2, y3, -⟩ := real (n2 b hb)
    obtain ⟨v, v1, v2⟩ := (mg_down hf hφ f0 f1 x2 y2 x3 y3).1.near
    have hpos : 0 < (2 + φ) * x + (1 - φ) * y := by
      have := mul_nonneg (sub_nonneg.2 f1) y3.le
      positivity
    have hv : v ≠ 0 := fun h => hpos.ne' (v2.zero_iff.2 h)
    unfold absTrue
    have : PyFloat.eq (mgDown f a b).re (lit 0) = false := by
      show PyFloat.eq (mgDown f a b).re.val (lit 0 : Dbl).val = false
      rw [v1, lit_zero_val, XR.eq_fin, decide_eq_false_iff_not]
      exact hv
    rw [this]; rfl
  have hmix : mixVals .maxwellGarnett f e1 e2 = .ok eps := by
    simp only [mixVals, bind, Except.bind, hdz, hany, if_true, hz]
  obtain ⟨m, hm⟩ := medium_builds (k := .maxwellGarnett) hal hs.1 t1 t2 l0 l1 h1 h2 hmix
    (hform.length_std hal)
  refine ⟨m, hm, ?_⟩
  intro q hq hqs
  obtain ⟨-, -, d1, d2, eps', k1, k2, k3, k4⟩ := medium_entries hal (GoodMetres_mag hs) hm
  rw [h1] at k1
  cases k1
  rw [h2] at k2
  cases k2
  have he : eps' = eps := Except.ok.inj (k3.symm.trans hmix)
  subst he
  have mixed : ∀ {a b : Cx Dbl} {x y : ℝ}, RealCx 0 20 x a → RealCx 0 20 y b →
      (0 < x ∧ ((10 : ℝ) ^ 20)⁻¹ ≤ x ∧ x ≤ 10 ^ 20) → (0 < y ∧ ((10 : ℝ) ^ 20)⁻¹ ≤ y ∧ y ≤ 10 ^ 20) →
      ∃ r, (mgMix f a b).re.val = .fin r ∧ Ordinary r ∧
        |r - maxwellGarnett φ x y| ≤ maxwellGarnett φ x y * 11 / 2 ^ 53 ∧
        0 < maxwellGarnett φ x y ∧ (mgMix f a b).im.val = .fin 0 := by
    intro a b x y ha hb hx hy
    obtain ⟨b1, b2⟩ := maxwellGarnett_between f0 f1 hx.1 hy.1
    have lo : ((10 : ℝ) ^ 20)⁻¹ ≤ maxwellGarnett φ x y := (le_min hx.2.1 hy.2.1).trans b1
    have hi : maxwellGarnett φ x y ≤ 10 ^ 20 := b2.trans (max_le hx.2.2 hy.2.2)
    have hp : 0 < maxwellGarnett φ x y := lt_of_lt_of_le (by positivity) lo
    have hR := mg_parts hf hφ f0 f1 ha hb hx.1 hy.1
    obtain ⟨r, r1, r2⟩ := hR.1.error (by norm_num)
    rw [abs_of_pos hp] at r2
    have e11 : ((10 : ℕ) : ℝ) + 1 = 11 := by norm_num
    rw [e11] at r2
    refine ⟨r, r1, .inr ?_, r2, hp, hR.2⟩
    have h3 : maxwellGarnett φ x y * 11 / 2 ^ 53 ≤ maxwellGarnett φ x y / 2 := by
      rw [div_le_div_iff₀ (by positivity) (by norm_num)]
      nlinarith
    rw [abs_le] at r2
    have hr : 0 < r := by linarith
    rw [abs_of_pos hr]
    constructor
    · have : ((10 : ℝ) ^ 60)⁻¹ ≤ ((10 : ℝ) ^ 20)⁻¹ / 2 := by norm_num
      linarith
    · have : 2 * (10 : ℝ) ^ 20 ≤ 10 ^ 60 := by norm_num
      linarith
  obtain ⟨c, c1, c2⟩ := k4 (by
    intro z hzm
    rw [← points_toList] at hzm
    obtain ⟨a, ha, b, hb, rfl⟩ := zip_elems hz z hzm
    rw [points_toList] at ha hb
    obtain ⟨x, -, x2, x3⟩ := real (n1 a ha)
    obtain ⟨y, -, y2, y3⟩ := real (n2 b hb)
    obtain ⟨r, r1, r2, -, -, r5⟩ := mixed x2 y2 x3 y3
    exact ⟨⟨r, r1, r2⟩, ⟨0, r5, .inl rfl⟩⟩) q hq hqs
  refine ⟨c, c1, ?_⟩
  intro i a b x y ha hb hx hy
  obtain ⟨x', x1, x2, x3⟩ := real (n1 a (List.mem_of_getElem? ha))
  obtain ⟨y', y1, y2, y3⟩ := real (n2 b (List.mem_of_getElem? hb))
  have ex : x' = x := XR.fin.inj (x1.symm.trans hx)
  have ey : y' = y := XR.fin.inj (y1.symm.trans hy)
  subst ex ey
  obtain ⟨r, r1, -, r3, r4, r5⟩ := mixed x2 y2 x3 y3
  obtain ⟨w, w1, ⟨v, v1, v2⟩, ⟨u, u1, u2⟩⟩ := c2 i _ r 0 (zip_points hz ha hb) r1 r5
  refine ⟨w, w1, ⟨v, v1, ?_⟩, ?_⟩
  · rw [abs_of_pos r4]
    have h1 : |r| ≤ maxwellGarnett φ x' y' + |r - maxwellGarnett φ x' y'| := by
      have := abs_add_le (maxwellGarnett φ x' y') (r - maxwellGarnett φ x' y')
      rwa [add_sub_cancel, abs_of_pos r4] at this
    have h2 : |v - maxwellGarnett φ x' y'| ≤ |v - r| + |r - maxwellGarnett φ x' y'| := by
      have := abs_add_le (v - r) (r - maxwellGarnett φ x' y')
      rwa [sub_add_sub_cancel] at this
    have h3 : |r| * (9 : ℕ) / 2 ^ 53 ≤ maxwellGarnett φ x' y' * 10 / 2 ^ 53 := by
      refine div_le_div_of_nonneg_right ?_ (by positivity)
      push_cast
      linarith
    have h4 : maxwellGarnett φ x' y' * (21 : ℕ) / 2 ^ 53 = maxwellGarnett φ x' y' * 10 / 2 ^ 53 +
      maxwellGarnett φ x' y' * 11 / 2 ^ 53 := by push_cast; ring
    linarith
  · rw [u1]
    simp only [abs_zero, sub_zero, zero_mul, zero_div, abs_nonpos_iff] at u2
    rw [u2]

namespace Spec

/-- The complex number that a complex double stands for. -/
def StandsForCx (z : Cx Dbl) (a : ℂ) : Prop := z.re.val = .fin a.re ∧ z.im.val = .fin a.im

/-- The Maxwell-Garnett formula. -/
def maxwellGarnettC (φ : ℝ) (a b : ℂ) : ℂ :=
  a * (2 * (1 - φ) * a + (1 + 2 * φ) * b) / ((2 + φ) * a + (1 - φ) * b)

end Spec

/-- C134 (full statement, refuted below): a Maxwell-Garnett medium of materials with finite
permittivities, for which the denominator of the formula does not vanish, can be built and reports
the formula at the wavelengths it was built with, within ten per cent. -/
def C134_statement : Prop :=
  ∀ (s : Spectrum Dbl), Aligned s → GoodMetres s → ∀ (m1 m2 : Material Dbl) (f : Dbl) (φ : ℝ),
    f.val = .fin φ → FractionSize φ → ∀ e1 e2, (m1.getPermittivity s).1 = .ok e1 →
    (m2.getPermittivity s).1 = .ok e2 → (∀ z ∈ points e1, FiniteCx z) →
    (∀ z ∈ points e2, FiniteCx z) →
    (∀ (i : ℕ) (z w : Cx Dbl) (a b : ℂ), (points e1)[i]? = some z → (points e2)[i]? = some w →
      StandsForCx z a → StandsForCx w b → (2 + φ) * a + (1 - φ) * b ≠ 0) →
    ∃ m, (effectiveMedium .maxwellGarnett s m1 m2 f).1 = .ok m ∧
      ∀ q : Spectrum Dbl, Aligned q → q.std = s.std → ∃ c, (m.getPermittivity q).1 = .ok c ∧
        ∀ (i : ℕ) (z w : Cx Dbl) (a b : ℂ), (points e1)[i]? = some z → (points e2)[i]? = some w →
          StandsForCx z a → StandsForCx w b →
          ∃ u e, (points c)[i]? = some u ∧ StandsForCx u e ∧
            ‖e - maxwellGarnettC φ a b‖ ≤ ‖maxwellGarnettC φ a b‖ / 10

/-- A permittivity for which `2.5 ε` is rounded. -/
def oddHost : Cx Dbl :=
  ⟨⟨.fin 4503599627370497, ⟨4503599627370497, 0, by norm_num, by norm_num, by norm_num, by norm_num⟩⟩,
    lit 0⟩

/-- A permittivity that cancels the rounded one. -/
def oddGuest : Cx Dbl :=
  ⟨⟨.fin (-22517998136852484), ⟨-5629499534213121, 2, by norm_num, by norm_num, by norm_num,
    by norm_num⟩⟩, lit 0⟩

omit [SciPy Dbl] in
theorem half_val : (lit 0.5 : Dbl).val = .fin (1 / 2) := by
  rw [Dbl.val_lit]
  have := Dbl.rnd_double (x := 1 / 2) ⟨1, -1, by norm_num, by norm_num, by norm_num, by norm_num⟩
  norm_num at this ⊢
  exact this

omit [SciPy Dbl] in
theorem odd_down {a b : Cx Dbl} (ha : a.re.val = .fin 4503599627370497) (ha' : a.im.val = .fin 0)
    (hb : b.re.val = .fin (-22517998136852484)) (hb' : b.im.val = .fin 0) :
    (mgDown (lit 0.5) a b).re.val = .fin 0 ∧ (mgDown (lit 0.5) a b).im.val = .fin 0 := by
  have h0 := lit_zero_val
  have h1 : (lit 1 : Dbl).val = .fin 1 := by exact_mod_cast Dbl.lit_int (n := 1) (by norm_num)
  have h2 : (lit 2 : Dbl).val = .fin 2 := by exact_mod_cast Dbl.lit_int (n := 2) (by norm_num)
  have d0 : IsDouble (0 : ℝ) := isDouble_val h0
  have zz : ∀ {u v : Dbl}, u.val = .fin 0 → v.val = .fin 0 → (u + v).val = .fin 0 := fun hu hv =>
    add_is hu hv (by rw [add_zero]; exact nearest_of_double d0) (double_lt d0)
  have dh : IsDouble (5 / 2 : ℝ) := ⟨5, -1, by norm_num, by norm_num, by norm_num, by norm_num⟩
  have g1 : (lit 2 + lit 0.5 : Dbl).val = .fin (5 / 2) :=
    add_is h2 half_val (by
      rw [show (2 : ℝ) + 1 / 2 = 5 / 2 by norm_num]; exact nearest_of_double dh) (double_lt dh)
  have dh' : IsDouble (1 / 2 : ℝ) := isDouble_val half_val
  have g2 : (lit 1 - lit 0.5 : Dbl).val = .fin (1 / 2) :=
    sub_is h1 half_val (by
      rw [show (1 : ℝ) - 1 / 2 = 1 / 2 by norm_num]; exact nearest_of_double dh') (double_lt dh')
  have dn : IsDouble (11258999068426242 : ℝ) :=
    ⟨5629499534213121, 1, by norm_num, by norm_num, by norm_num, by norm_num⟩
  have dn' : IsDouble (-11258999068426242 : ℝ) := Dbl.isDouble_neg dn
  have k1 : ((lit 2 + lit 0.5) * a.re : Dbl).val = .fin 11258999068426242 := by
    refine mul_is g1 ha ?_ (double_lt dn)
    have := nearest_eq (x := 5 / 2 * 4503599627370497) 5629499534213121 1 (by norm_num) (by norm_num)
      (by norm_num) (by norm_num [abs_lt])
    rw [this]; norm_num
  have k2 : ((lit 1 - lit 0.5) * b.re : Dbl).val = .fin (-11258999068426242) := by
    refine mul_is g2 hb ?_ (double_lt dn')
    rw [show (1 / 2 : ℝ) * -22517998136852484 = -11258999068426242 by norm_num]
    exact nearest_of_double dn'
  have sz : ∀ {u v : Dbl} {x : ℝ}, IsDouble x → u.val = .fin x → v.val = .fin 0 →
      (u - v).val = .fin x := fun hx hu hv =>
    sub_is hu hv (by rw [sub_zero]; exact nearest_of_double hx) (double_lt hx)
  constructor
  · exact add_is (sz dn k1 (Dbl.zero_mul_val h0 ha')) (sz dn' k2 (Dbl.zero_mul_val h0 hb'))
      (by rw [add_neg_cancel]; exact nearest_of_double d0) (double_lt d0)
  · exact zz (zz (Dbl.mul_zero_val g1 ha') (Dbl.zero_mul_val h0 ha))
      (zz (Dbl.mul_zero_val g2 hb') (Dbl.zero_mul_val h0 hb))

omit [SciPy Dbl] in
theorem oneMetre_good : GoodMetres oneMetre := by
  refine ⟨by simp [oneMetre, Vals.toList], by simp [oneMetre, Vals.toList], ?_⟩
  intro x hx
  simp only [oneMetre, Vals.toList, List.mem_singleton] at hx
  subst hx
  exact ⟨1, by exact_mod_cast Dbl.lit_int (n := 1) (by norm_num), by norm_num, by norm_num⟩

/-- C134 is refuted: the denominator of half a material of permittivity -22517998136852484 in one of
4503599627370497 is 1/2, but 0 in double precision, and the constructor raises ValueError. -/
theorem C134_refuted [NumText Dbl] : ¬ C134_statement := by
  intro h
  let rd : String → Res (FileDict Dbl) := fun _ => .error .os
  obtain ⟨m1, -, p1⟩ := fixed_oneMetre rd oddHost
  obtain ⟨m2, -, p2⟩ := fixed_oneMetre rd oddGuest
  obtain ⟨a1, a2⟩ := cplxOf_val (a := oddHost.re) (b := oddHost.im) rfl lit_zero_val
  obtain ⟨b1, b2⟩ := cplxOf_val (a := oddGuest.re) (b := oddGuest.im) rfl lit_zero_val
  set e1 := cplxOf oddHost.re oddHost.im with he1
  set e2 := cplxOf oddGuest.re oddGuest.im with he2
  obtain ⟨m, hm, -⟩ := h oneMetre oneMetre_aligned oneMetre_good m1 m2 (lit 0.5) (1 / 2) half_val
    (.inr ⟨by norm_num, by norm_num⟩) _ _ p1 p2
    (by
      intro z hz
      rw [show z = e1 from List.mem_singleton.1 hz]
      exact ⟨_, _, a1, a2, .inr ⟨by norm_num, by norm_num⟩, .inl rfl⟩)
    (by
      intro z hz
      rw [show z = e2 from List.mem_singleton.1 hz]
      exact ⟨_, _, b1, b2, .inr ⟨by norm_num, by norm_num⟩, .inl rfl⟩)
    (by
      intro i z w a b hz hw ha hb hc
      cases i with
      | succ i => simp [points] at hz
      | zero =>
        have hz : e1 = z := by simpa [points] using hz
        have hw : e2 = w := by simpa [points] using hw
        subst hz hw
        have r1 : (4503599627370497 : ℝ) = a.re := XR.fin.inj (a1.symm.trans ha.1)
        have r2 : (-22517998136852484 : ℝ) = b.re := XR.fin.inj (b1.symm.trans hb.1)
        have := congrArg Complex.re hc
        simp only [Complex.add_re, Complex.mul_re, Complex.ofReal_re, Complex.ofReal_im,
          Complex.add_im, Complex.sub_re, Complex.sub_im, Complex.one_re, Complex.one_im,
          Complex.re_ofNat, Complex.im_ofNat, Complex.zero_re, ← r1, ← r2] at this
        norm_num at this)
  obtain ⟨l0, l1⟩ := fraction_accepted half_val (.inr ⟨by norm_num, by norm_num⟩)
  rw [(medium_outcome _ oneMetre_aligned m1 m2 _ l0 l1).1, p1, p2] at hm
  obtain ⟨d1, d2⟩ := odd_down a1 a2 b1 b2
  have hq : ∀ {x : Dbl}, x.val = .fin 0 → PyFloat.eq x (lit 0) = true := by
    intro x hx
    show PyFloat.eq x.val (lit 0 : Dbl).val = true
    rw [hx, lit_zero_val, XR.eq_fin, decide_eq_true_eq]
  have hd : absTrue (mgDown (lit 0.5) e1 e2) = false := by
    unfold absTrue
    rw [hq d1, hq d2]; rfl
  simp only [bind, Except.bind, mixVals, CVals.zip, List.length_cons, List.length_nil, if_true,
    CVals.elems, List.zipWith, List.any, hd, Bool.or_false] at hm
  cases hm

/-- A case of `C134_transparent_partial`: a quarter of 3 in 12, at one metre. -/
example [NumText Dbl] (rd : String → Res (FileDict Dbl)) : ∃ m1 m2 m : Material Dbl, ∃ c,
    Material.new rd [("fixed_eps", .cplx ⟨intDbl 12, intDbl 0⟩)] = .ok m1 ∧
    Material.new rd [("fixed_eps", .cplx guest)] = .ok m2 ∧
    (effectiveMedium .maxwellGarnett oneMetre m1 m2 (lit 0.5)).1 = .ok m ∧
    (m.getPermittivity oneMetre).1 = .ok c ∧
    ∃ w, (points c)[0]? = some w ∧ Close 21 (maxwellGarnett (1 / 2) 12 3) w.re ∧
      w.im.val = .fin 0 := by
  obtain ⟨m1, a1, a2⟩ := fixed_oneMetre rd ⟨intDbl 12, intDbl 0⟩
  obtain ⟨m2, b1, b2⟩ := fixed_oneMetre rd guest
  have hh : IntCx (cplxOf (intDbl 12) (intDbl 0)) 12 0 :=
    cplx_int (intDbl_val (by norm_num)) (intDbl_val (by norm_num)) (by norm_num) (by norm_num)
  have hgu := guest_int
  obtain ⟨m, c1, c2⟩ := C134_transparent_partial oneMetre oneMetre_aligned oneMetre_good m1 m2 (lit 0.5)
    (1 / 2) half_val (.inr ⟨by norm_num, by norm_num⟩) _ _ a2 b2
    (by
      intro z hz
      rw [show z = _ from List.mem_singleton.1 hz]
      exact ⟨by exact_mod_cast hh.im, _, hh.re, by norm_num, by norm_num⟩)
    (by
      intro z hz
      rw [show z = _ from List.mem_singleton.1 hz]
      exact ⟨by exact_mod_cast hgu.im, _, hgu.re, by norm_num, by norm_num⟩)
  obtain ⟨c, d1, d2⟩ := c2 oneMetre oneMetre_aligned rfl
  exact ⟨m1, m2, m, c, a1, b1, c1, d1, d2 0 _ _ 12 3 rfl rfl (by exact_mod_cast hh.re)
    (by exact_mod_cast hgu.re)⟩

end

end Disp
