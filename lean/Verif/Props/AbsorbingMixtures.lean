import Verif.Props.MediumBounds
/-!
# C143: mixtures of absorbing materials absorb at least as strongly as the weaker constituent

The argument is the balance of energy: with `A` and `B` the ratios of the fields inside the inclusions
to the mean field, the loss of the medium is the mean of the losses of the constituents, weighted with
the squares of the fields.
-/

namespace Disp

open Spec

/-! ## The balance of energy -/

/-- Weighted squares are not smaller than the square of the weighted mean. -/
theorem mean_normSq {φ : ℝ} (f0 : 0 ≤ φ) (f1 : φ ≤ 1) {A B : ℂ} (h : (1 - φ) * A + φ * B = 1) :
    1 ≤ (1 - φ) * Complex.normSq A + φ * Complex.normSq B := by
  have h1 : (1 - φ) * A.re + φ * B.re = 1 := by
    have := congrArg Complex.re h
    simpa using this
  have h2 := mul_nonneg (mul_nonneg f0 (sub_nonneg.2 f1)) (sq_nonneg (A.re - B.re))
  have h3 := mul_nonneg (sub_nonneg.2 f1) (sq_nonneg A.im)
  have h4 := mul_nonneg f0 (sq_nonneg B.im)
  rw [Complex.normSq_apply, Complex.normSq_apply]
  have h5 : ((1 - φ) * A.re + φ * B.re) ^ 2 = 1 := by rw [h1]; norm_num
  nlinarith

/-- Every solution of Bruggeman's equation for two constituents with losses of at least `l > 0` has a
loss of at least `l`, or a gain of at least `l / 2`. -/
theorem bruggeman_loss {φ l : ℝ} (f0 : 0 ≤ φ) (f1 : φ ≤ 1) (l0 : 0 < l) {a b e : ℂ} (ha : l ≤ a.im)
    (hb : l ≤ b.im) (he : BruggemanEq φ a b e) : l ≤ e.im ∨ e.im ≤ -(l / 2) := by
  by_cases da : a + 2 * e = 0
  · right
    have := congrArg Complex.im da
    simp at this
    linarith
  by_cases db : b + 2 * e = 0
  · right
    have := congrArg Complex.im db
    simp at this
    linarith
  obtain ⟨A, hA⟩ : ∃ A, A = 3 * e / (a + 2 * e) := ⟨_, rfl⟩
  obtain ⟨B, hB⟩ : ∃ B, B = 3 * e / (b + 2 * e) := ⟨_, rfl⟩
  have hA' : A * (a + 2 * e) = 3 * e := by rw [hA, div_mul_cancel₀ _ da]
  have hB' : B * (b + 2 * e) = 3 * e := by rw [hB, div_mul_cancel₀ _ db]
  have hmean : (1 - φ) * A + φ * B = 1 := by
    have h1 : ((1 - φ) * A + φ * B - 1) * ((a + 2 * e) * (b + 2 * e)) = 0 := by
      unfold BruggemanEq at he
      linear_combination (1 - φ) * (b + 2 * e) * hA' + φ * (a + 2 * e) * hB' - he
    rcases mul_eq_zero.1 h1 with h | h
    · linear_combination h
    · rcases mul_eq_zero.1 h with h | h
      · exact absurd h da
      · exact absurd h db
  have hS := mean_normSq f0 f1 hmean
  -- the balance: multiply each `A (a + 2e) = 3e` with the conjugate of `A`
  have nA : Complex.normSq A * (a.im + 2 * e.im) = 3 * (e.im * A.re - e.re * A.im) := by
    have h1 := congrArg Complex.re hA'
    have h2 := congrArg Complex.im hA'
    simp at h1 h2
    rw [Complex.normSq_apply]
    linear_combination A.re * h2 - A.im * h1
  have nB : Complex.normSq B * (b.im + 2 * e.im) = 3 * (e.im * B.re - e.re * B.im) := by
    have h1 := congrArg Complex.re hB'
    have h2 := congrArg Complex.im hB'
    simp at h1 h2
    rw [Complex.normSq_apply]
    linear_combination B.re * h2 - B.im * h1
  have m1 : (1 - φ) * A.re + φ * B.re = 1 := by
    have := congrArg Complex.re hmean
    simpa using this
  have m2 : (1 - φ) * A.im + φ * B.im = 0 := by
    have := congrArg Complex.im hmean
    simpa using this
  obtain ⟨p, hp⟩ : ∃ p, p = (1 - φ) * Complex.normSq A := ⟨_, rfl⟩
  obtain ⟨q, hq⟩ : ∃ q, q = φ * Complex.normSq B := ⟨_, rfl⟩
  have p0 : 0 ≤ p := by
    rw [hp]; exact mul_nonneg (by linarith) (Complex.normSq_nonneg _)
  have q0 : 0 ≤ q := by rw [hq]; exact mul_nonneg f0 (Complex.normSq_nonneg _)
  rw [← hp, ← hq] at hS
  have bal : p * a.im + q * b.im = e.im * (3 - 2 * (p + q)) := by
    rw [hp, hq]
    linear_combination (1 - φ) * nA + φ * nB + 3 * e.im * m1 - 3 * e.re * m2
  have w : l * (p + q) ≤ p * a.im + q * b.im := by
    have := mul_le_mul_of_nonneg_left ha p0
    have := mul_le_mul_of_nonneg_left hb q0
    nlinarith
  rw [bal] at w
  rcases le_or_gt 0 e.im with h | h
  · left
    nlinarith
  · right
    nlinarith

/-- For absorbing constituents the solution without gain is unique. -/
theorem bruggeman_unique {φ l : ℝ} (f0 : 0 ≤ φ) (f1 : φ ≤ 1) (l0 : 0 < l) {a b e e' : ℂ}
    (ha : l ≤ a.im) (hb : l ≤ b.im) (he : BruggemanEq φ a b e) (he' : BruggemanEq φ a b e')
    (p : 0 ≤ e.im) (p' : 0 ≤ e'.im) : e = e' := by
  by_contra hne
  have hd : e - e' ≠ 0 := sub_ne_zero.2 hne
  have k := (bruggeman_loss f0 f1 l0 ha hb he).resolve_right (by linarith)
  have k' := (bruggeman_loss f0 f1 l0 ha hb he').resolve_right (by linarith)
  unfold BruggemanEq at he he'
  have h1 : (e - e') * (e + e' - (φ * (2 * b - a) + (1 - φ) * (2 * a - b)) / 2) = 0 := by
    linear_combination (-1 / 2) * he + (1 / 2) * he'
  have h2 := (mul_eq_zero.1 h1).resolve_left hd
  have h3 := brug_opposite φ f0 f1 b a e e' (by linarith) (by linarith)
    (by linear_combination h2) (by linear_combination (1 / 2) * he + e * h2)
  nlinarith

/-- The loss of a mixture of Maxwell Garnett. -/
theorem garnett_loss {f l : ℝ} (f0 : 0 ≤ f) (f1 : f ≤ 1) (l0 : 0 ≤ l) {a b e : ℂ} (ha : l ≤ a.im)
    (hb : l ≤ b.im) (hd : mgDen f a b ≠ 0)
    (h : (e - a) * (b + 2 * a) = f * (b - a) * (e + 2 * a)) : l ≤ e.im := by
  have h1 : e * mgDen f a b = a * (2 * (1 - f) * a + (1 + 2 * f) * b) := by
    unfold mgDen; linear_combination h
  have h2 : e = a * (2 * (1 - f) * a + (1 + 2 * f) * b) / mgDen f a b :=
    (eq_div_iff hd).2 h1
  have hn : 0 < Complex.normSq (mgDen f a b) := Complex.normSq_pos.2 hd
  have h3 : e.im * Complex.normSq (mgDen f a b) =
      9 * f * b.im * Complex.normSq a + (1 - f) * a.im * Complex.normSq (b + 2 * a) +
        2 * f * (1 - f) * a.im * Complex.normSq (a - b) := by
    rw [h2, Complex.div_im]
    field_simp
    simp only [mgDen, Complex.normSq_apply, Complex.add_re, Complex.add_im, Complex.sub_re,
      Complex.sub_im, Complex.mul_re, Complex.mul_im, Complex.ofReal_re, Complex.ofReal_im,
      Complex.one_re, Complex.one_im, Complex.re_ofNat, Complex.im_ofNat]
    ring
  have n1 := Complex.normSq_nonneg a
  have n2 := Complex.normSq_nonneg (b + 2 * a)
  have n3 := Complex.normSq_nonneg (a - b)
  have g : 0 ≤ 1 - f := by linarith
  have k1 : 9 * f * Complex.normSq a * l ≤ 9 * f * Complex.normSq a * b.im :=
    mul_le_mul_of_nonneg_left hb (by positivity)
  have k2 : (1 - f) * Complex.normSq (b + 2 * a) * l ≤ (1 - f) * Complex.normSq (b + 2 * a) * a.im :=
    mul_le_mul_of_nonneg_left ha (by positivity)
  have k3 : 2 * f * (1 - f) * Complex.normSq (a - b) * l ≤
      2 * f * (1 - f) * Complex.normSq (a - b) * a.im :=
    mul_le_mul_of_nonneg_left ha (by positivity)
  -- the weights are together not smaller than the denominator
  have k4 : 9 * f * Complex.normSq a + (1 - f) * Complex.normSq (b + 2 * a) +
      2 * f * (1 - f) * Complex.normSq (a - b) =
      Complex.normSq (mgDen f a b) + 3 * f * (1 - f) * Complex.normSq (a - b) := by
    simp only [mgDen, Complex.normSq_apply, Complex.add_re, Complex.add_im, Complex.sub_re,
      Complex.sub_im, Complex.mul_re, Complex.mul_im, Complex.ofReal_re, Complex.ofReal_im,
      Complex.one_re, Complex.one_im, Complex.re_ofNat, Complex.im_ofNat]
    ring
  have k5 : 0 ≤ 3 * f * (1 - f) * Complex.normSq (a - b) * l := by positivity
  have k6 := congrArg (· * l) k4
  simp only [add_mul] at k6
  have k7 : l * Complex.normSq (mgDen f a b) ≤ e.im * Complex.normSq (mgDen f a b) := by
    rw [h3]
    linarith
  exact le_of_mul_le_mul_right k7 hn

/-! ## The property -/

section ideal
variable [SciPy XR]

/-- C143: a medium of two absorbing materials can be built, for each of the three kinds and every
filling fraction, and at each point of the spectrum it absorbs at least as strongly as the constituent
that absorbs less. The medium of Bruggeman has the only solution of its equation without gain. -/
theorem C143_absorbs (k : Mixing) (s : Spectrum XR) (hal : Aligned s) (harr : s.std.isArray = true)
    (ys : List ℝ) (hs : StandsFor s ys) (hnd : ys.Nodup) (m1 m2 : Material XR) (A B : ℝ → ℂ)
    (h1 : PermittivityAt m1 s ys A) (h2 : PermittivityAt m2 s ys B) (f : ℝ) (f0 : 0 ≤ f)
    (f1 : f ≤ 1) (hp : ∀ y ∈ ys, 0 < (A y).im ∧ 0 < (B y).im) :
    ∃ m E, (effectiveMedium k s m1 m2 (XR.fin f)).1 = .ok m ∧
      (∀ (q : Spectrum XR) (qs : List ℝ), Aligned q → StandsFor q qs → (∀ y ∈ qs, y ∈ ys) →
        PermittivityAt m q qs E) ∧
      (∀ y ∈ ys, min (A y).im (B y).im ≤ (E y).im) ∧
      (k = .bruggeman → ∀ y ∈ ys, ∀ e : ℂ, 0 ≤ e.im →
        (f * ((B y - e) / (B y + 2 * e)) + (1 - f) * ((A y - e) / (A y + 2 * e)) = 0 ↔ e = E y)) := by
  have hp' : ∀ y ∈ ys, 0 ≤ (A y).im ∧ 0 ≤ (B y).im := fun y hy => ⟨(hp y hy).1.le, (hp y hy).2.le⟩
  cases k with
  | simple =>
    obtain ⟨m, E, e1, e2, -, -, -, e3⟩ := C37_mixture s hal ys hs hnd m1 m2 A B h1 h2 f f0 f1
    exact ⟨m, E, e1, e2, fun y hy => (e3 y).2.1, fun h => by cases h⟩
  | maxwellGarnett =>
    have hden : ∀ y ∈ ys, mgDen f (A y) (B y) ≠ 0 := by
      intro y hy h0
      have := congrArg Complex.im h0
      simp [mgDen] at this
      obtain ⟨g1, g2⟩ := hp y hy
      have g3 : 0 < (2 + f) * (A y).im := mul_pos (by linarith) g1
      have g4 : 0 ≤ (1 - f) * (B y).im := mul_nonneg (by linarith) g2.le
      linarith
    obtain ⟨m, E, e1, e2, e3⟩ := C38_relation_partial s hal ys hs hnd m1 m2 A B h1 h2 f f0 f1 hden
    exact ⟨m, E, e1, e2, fun y hy => garnett_loss f0 f1 (le_min (hp' y hy).1 (hp' y hy).2)
      (min_le_left _ _) (min_le_right _ _) (hden y hy) (e3 y hy).1, fun h => by cases h⟩
  | bruggeman =>
    obtain ⟨m, E, e1, e2, e3⟩ :=
      C39_physical_partial s hal harr ys hs hnd m1 m2 A B h1 h2 f f0 f1 hp'
    have hl : ∀ y ∈ ys, 0 < min (A y).im (B y).im := fun y hy => lt_min (hp y hy).1 (hp y hy).2
    refine ⟨m, E, e1, e2, fun y hy => ?_, fun _ y hy e he => ?_⟩
    · exact (bruggeman_loss f0 f1 (hl y hy) (min_le_left _ _) (min_le_right _ _)
        (e3 y hy).1).resolve_right (by linarith [(e3 y hy).2.1, hl y hy])
    · have da : A y + 2 * e ≠ 0 := by
        intro h
        have := congrArg Complex.im h
        simp at this
        linarith [(hp y hy).1]
      have db : B y + 2 * e ≠ 0 := by
        intro h
        have := congrArg Complex.im h
        simp at this
        linarith [(hp y hy).2]
      have hiff : f * ((B y - e) / (B y + 2 * e)) + (1 - f) * ((A y - e) / (A y + 2 * e)) = 0 ↔
          BruggemanEq f (A y) (B y) e := by
        unfold BruggemanEq
        rw [← mul_div_assoc, ← mul_div_assoc, div_add_div _ _ db da, div_eq_zero_iff,
          or_iff_left (mul_ne_zero db da)]
        constructor <;> intro h <;> linear_combination h
      rw [hiff]
      constructor
      · intro h
        exact bruggeman_unique f0 f1 (hl y hy) (min_le_left _ _) (min_le_right _ _) h (e3 y hy).1 he
          (e3 y hy).2.1
      · rintro rfl
        exact (e3 y hy).1

/-- A case of `C143_absorbs`: gold (-10 + 1.5j) in a dye (2 + 0.25j), at two wavelengths. -/
example [NumText XR] (rd : String → Res (FileDict XR)) (k : Mixing) :
    ∃ (s : Spectrum XR) (m1 m2 m : Material XR) (E : ℝ → ℂ),
    (effectiveMedium k s m1 m2 (XR.fin 0.3)).1 = .ok m ∧ PermittivityAt m s [5e-7, 6e-7] E ∧
    0.25 ≤ (E 5e-7).im ∧ 0.25 ≤ (E 6e-7).im := by
  have hy : ∀ y ∈ ([5e-7, 6e-7] : List ℝ), (0 : ℝ) ≤ y := by
    intro y hy
    simp only [List.mem_cons, List.not_mem_nil, or_false] at hy
    rcases hy with rfl | rfl <;> norm_num
  obtain ⟨m1, -, p1⟩ := fixed_eps_at rd (⟨2, 0.25⟩ : ℂ) [5e-7, 6e-7] (by simp) hy
  obtain ⟨m2, -, p2⟩ := fixed_eps_at rd (⟨-10, 1.5⟩ : ℂ) [5e-7, 6e-7] (by simp) hy
  obtain ⟨m, E, e1, e2, e3, -⟩ := C143_absorbs k _ (metre_aligned _) rfl [5e-7, 6e-7]
    (metre_stands (by simp)) (by simp; norm_num) m1 m2 _ _ p1 p2 0.3 (by norm_num) (by norm_num)
    (by intro y _; constructor <;> norm_num)
  have hm : min (0.25 : ℝ) 1.5 = 0.25 := by norm_num
  refine ⟨_, m1, m2, m, E, e1, e2 _ _ (metre_aligned _) (metre_stands (by simp)) fun _ h => h, ?_, ?_⟩
  · have := e3 5e-7 (by simp)
    simpa only [hm] using this
  · have := e3 6e-7 (by simp)
    simpa only [hm] using this

end ideal

end Disp
