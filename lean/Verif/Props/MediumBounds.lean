import Verif.Props.EffectiveMedium
/-!
# C110: mixtures are passive and obey the bounds of Wiener and of Hashin and Shtrikman
-/

namespace Disp

open Spec

/-! ### Specification: transparent mixtures -/

/-- The permittivity `e` of a mixture of a host `a` and the fraction `f` of inclusions `b`, all
positive: the mean; or the formula of Maxwell Garnett; or the positive solution of Bruggeman's
equation. -/
def Spec.Mixed (k : Mixing) (f a b e : ℝ) : Prop :=
  match k with
  | .simple => e = (1 - f) * a + f * b
  | .maxwellGarnett => (e - a) / (e + 2 * a) = f * ((b - a) / (b + 2 * a)) ∧ 0 < e
  | .bruggeman => f * ((b - e) / (b + 2 * e)) + (1 - f) * ((a - e) / (a + 2 * e)) = 0 ∧ 0 < e

/-! ### Consequences of the specification -/

section bounds
variable {f a b e : ℝ}

/-- Without denominators. -/
theorem mixed_garnett (ha : 0 < a) (hb : 0 < b) (he : 0 < e) :
    (e - a) / (e + 2 * a) = f * ((b - a) / (b + 2 * a)) ↔
      (e - a) * (b + 2 * a) = f * (b - a) * (e + 2 * a) := by
  rw [← mul_div_assoc, div_eq_div_iff (by positivity) (by positivity)]

theorem mixed_bruggeman (ha : 0 < a) (hb : 0 < b) (he : 0 < e) :
    f * ((b - e) / (b + 2 * e)) + (1 - f) * ((a - e) / (a + 2 * e)) = 0 ↔
      f * (b - e) * (a + 2 * e) + (1 - f) * (a - e) * (b + 2 * e) = 0 := by
  rw [← mul_div_assoc, ← mul_div_assoc, div_add_div _ _ (by positivity) (by positivity),
    div_eq_zero_iff]
  constructor
  · rintro (h | h)
    · linarith
    · have : 0 < (b + 2 * e) * (a + 2 * e) := by positivity
      linarith
  · intro h; left; linarith

/-- The mean of a comparison medium `t`: zero gives the harmonic mean. -/
noncomputable def comparison (f a b t : ℝ) : ℝ :=
  (a * b + 2 * t * ((1 - f) * a + f * b)) / ((1 - f) * b + f * a + 2 * t)

theorem mean_pos (ha : 0 < a) (hb : 0 < b) (f0 : 0 ≤ f) (f1 : f ≤ 1) : 0 < (1 - f) * a + f * b := by
  rcases f0.eq_or_lt with rfl | h
  · simpa using ha
  · have := mul_pos h hb
    have := mul_nonneg (sub_nonneg.2 f1) ha.le
    linarith

theorem dual_pos (ha : 0 < a) (hb : 0 < b) (f0 : 0 ≤ f) (f1 : f ≤ 1) : 0 < (1 - f) * b + f * a :=
  mean_pos hb ha f0 f1

theorem product_le (f0 : 0 ≤ f) (f1 : f ≤ 1) :
    a * b ≤ ((1 - f) * a + f * b) * ((1 - f) * b + f * a) := by
  have : 0 ≤ f * (1 - f) * (a - b) ^ 2 := mul_nonneg (mul_nonneg f0 (by linarith)) (sq_nonneg _)
  nlinarith

theorem comparison_mono (ha : 0 < a) (hb : 0 < b) (f0 : 0 ≤ f) (f1 : f ≤ 1) {s t : ℝ} (hs : 0 ≤ s)
    (hst : s ≤ t) : comparison f a b s ≤ comparison f a b t := by
  have hd := dual_pos ha hb f0 f1
  have hp := product_le (a := a) (b := b) f0 f1
  unfold comparison
  rw [div_le_div_iff₀ (by linarith) (by linarith)]
  have := mul_nonneg (sub_nonneg.2 hst) (sub_nonneg.2 hp)
  nlinarith

theorem comparison_le (ha : 0 < a) (hb : 0 < b) (f0 : 0 ≤ f) (f1 : f ≤ 1) {t : ℝ} (ht : 0 ≤ t) :
    comparison f a b t ≤ (1 - f) * a + f * b := by
  have hd := dual_pos ha hb f0 f1
  have hp := product_le (a := a) (b := b) f0 f1
  unfold comparison
  rw [div_le_iff₀ (by linarith)]
  linarith

theorem comparison_zero (ha : 0 < a) (hb : 0 < b) (f0 : 0 ≤ f) (f1 : f ≤ 1) :
    comparison f a b 0 = ((1 - f) / a + f / b)⁻¹ := by
  have hd := dual_pos ha hb f0 f1
  unfold comparison
  rw [div_add_div _ _ ha.ne' hb.ne', inv_div]
  congr 1
  · ring
  · ring

theorem Spec.Mixed.garnett (ha : 0 < a) (hb : 0 < b) (f0 : 0 ≤ f) (f1 : f ≤ 1)
    (h : Mixed .maxwellGarnett f a b e) : e = comparison f a b a := by
  have h1 := (mixed_garnett ha hb h.2).1 h.1
  have hd := dual_pos ha hb f0 f1
  unfold comparison
  rw [eq_div_iff (by linarith)]
  linarith

theorem Spec.Mixed.bruggeman (ha : 0 < a) (hb : 0 < b) (f0 : 0 ≤ f) (f1 : f ≤ 1)
    (h : Mixed .bruggeman f a b e) : e = comparison f a b e := by
  have he : 0 < e := h.2
  have h1 := (mixed_bruggeman ha hb he).1 h.1
  have hd := dual_pos ha hb f0 f1
  unfold comparison
  rw [eq_div_iff (by linarith)]
  linarith

/-- The bounds of Wiener: between the harmonic and the arithmetic mean. -/
theorem Spec.Mixed.bounds {k : Mixing} (ha : 0 < a) (hb : 0 < b) (f0 : 0 ≤ f) (f1 : f ≤ 1)
    (h : Mixed k f a b e) : ((1 - f) / a + f / b)⁻¹ ≤ e ∧ e ≤ (1 - f) * a + f * b := by
  rw [← comparison_zero ha hb f0 f1]
  cases k with
  | simple =>
    have h : e = (1 - f) * a + f * b := h
    rw [h]
    exact ⟨comparison_le ha hb f0 f1 le_rfl, le_rfl⟩
  | maxwellGarnett =>
    rw [h.garnett ha hb f0 f1]
    exact ⟨comparison_mono ha hb f0 f1 le_rfl ha.le, comparison_le ha hb f0 f1 ha.le⟩
  | bruggeman =>
    have he : 0 < e := h.2
    rw [h.bruggeman ha hb f0 f1]
    exact ⟨comparison_mono ha hb f0 f1 le_rfl he.le, comparison_le ha hb f0 f1 he.le⟩

theorem harmonic_between (ha : 0 < a) (hb : 0 < b) (f0 : 0 ≤ f) (f1 : f ≤ 1) :
    min a b ≤ ((1 - f) / a + f / b)⁻¹ := by
  rw [← comparison_zero ha hb f0 f1]
  have hd := dual_pos ha hb f0 f1
  unfold comparison
  rw [le_div_iff₀ (by linarith)]
  have h0 : 0 ≤ 1 - f := by linarith
  rcases le_total a b with h | h
  · rw [min_eq_left h]
    nlinarith [mul_nonneg (mul_nonneg f0 ha.le) (sub_nonneg.2 h)]
  · rw [min_eq_right h]
    nlinarith [mul_nonneg (mul_nonneg h0 hb.le) (sub_nonneg.2 h)]

theorem mean_between (f0 : 0 ≤ f) (f1 : f ≤ 1) : (1 - f) * a + f * b ≤ max a b := by
  have := le_max_left a b
  have := le_max_right a b
  nlinarith

/-- The bounds of Hashin and Shtrikman: Bruggeman's value lies between the values of Maxwell
Garnett with the one and with the other constituent as the host. -/
theorem Spec.Mixed.between {g g' : ℝ} (ha : 0 < a) (hb : 0 < b) (f0 : 0 ≤ f) (f1 : f ≤ 1)
    (h : Mixed .bruggeman f a b e) (hg : Mixed .maxwellGarnett f a b g)
    (hg' : Mixed .maxwellGarnett (1 - f) b a g') :
    (a ≤ b → g ≤ e ∧ e ≤ g') ∧ (b ≤ a → g' ≤ e ∧ e ≤ g) := by
  obtain ⟨b1, b2⟩ := h.bounds ha hb f0 f1
  have l1 := (harmonic_between ha hb f0 f1).trans b1
  have l2 := b2.trans (mean_between f0 f1)
  have he := h.bruggeman ha hb f0 f1
  have e1 := hg.garnett ha hb f0 f1
  have e2 : g' = comparison f a b b := by
    rw [hg'.garnett hb ha (by linarith) (by linarith)]
    unfold comparison
    congr 1 <;> ring
  have he0 : 0 < e := h.2
  constructor
  · intro hab
    rw [min_eq_left hab] at l1
    rw [max_eq_right hab] at l2
    have m1 := comparison_mono ha hb f0 f1 ha.le l1
    have m2 := comparison_mono ha hb f0 f1 he0.le l2
    rw [← he] at m1 m2
    rw [e1, e2]
    exact ⟨m1, m2⟩
  · intro hab
    rw [min_eq_right hab] at l1
    rw [max_eq_left hab] at l2
    have m1 := comparison_mono ha hb f0 f1 hb.le l1
    have m2 := comparison_mono ha hb f0 f1 he0.le l2
    rw [← he] at m1 m2
    rw [e1, e2]
    exact ⟨m1, m2⟩

/-- More of the constituent with the larger permittivity gives a larger permittivity. -/
theorem Spec.Mixed.mono {k : Mixing} {f' e' : ℝ} (ha : 0 < a) (hab : a ≤ b) (f0 : 0 ≤ f)
    (hff : f ≤ f') (f1 : f' ≤ 1) (h : Mixed k f a b e) (h' : Mixed k f' a b e') : e ≤ e' := by
  have hb : 0 < b := by linarith
  have hd := dual_pos ha hb f0 (hff.trans f1)
  have hd' := dual_pos ha hb (f0.trans hff) f1
  have hm := mul_nonneg (sub_nonneg.2 hff) (sub_nonneg.2 hab)
  cases k with
  | simple =>
    have h : e = (1 - f) * a + f * b := h
    have h' : e' = (1 - f') * a + f' * b := h'
    rw [h, h']; linarith
  | maxwellGarnett =>
    rw [h.garnett ha hb f0 (hff.trans f1), h'.garnett ha hb (f0.trans hff) f1]
    unfold comparison
    refine div_le_div₀ ?_ ?_ (by linarith) (by linarith)
    · have := mean_pos ha hb (f0.trans hff) f1
      positivity
    · have := mul_nonneg ha.le hm
      linarith
  | bruggeman =>
    have he : 0 < e := h.2
    have he' : 0 < e' := h'.2
    have h1 := (mixed_bruggeman ha hb he).1 h.1
    have h2 := (mixed_bruggeman ha hb he').1 h'.1
    by_contra hlt
    rw [not_le] at hlt
    have h3 := mul_nonneg he.le hm
    have h4 : 0 < (e - e') * (2 * e * e' + a * b) :=
      mul_pos (by linarith) (by positivity)
    nlinarith

/-- More of the constituent with the smaller permittivity gives a smaller permittivity. -/
theorem Spec.Mixed.anti {k : Mixing} {f' e' : ℝ} (hb : 0 < b) (hab : b ≤ a) (f0 : 0 ≤ f)
    (hff : f ≤ f') (f1 : f' ≤ 1) (h : Mixed k f a b e) (h' : Mixed k f' a b e') : e' ≤ e := by
  have ha : 0 < a := by linarith
  have hd := dual_pos ha hb f0 (hff.trans f1)
  have hd' := dual_pos ha hb (f0.trans hff) f1
  have hm := mul_nonneg (sub_nonneg.2 hff) (sub_nonneg.2 hab)
  cases k with
  | simple =>
    have h : e = (1 - f) * a + f * b := h
    have h' : e' = (1 - f') * a + f' * b := h'
    rw [h, h']; linarith
  | maxwellGarnett =>
    rw [h.garnett ha hb f0 (hff.trans f1), h'.garnett ha hb (f0.trans hff) f1]
    unfold comparison
    refine div_le_div₀ ?_ ?_ (by linarith) (by linarith)
    · have := mean_pos ha hb f0 (hff.trans f1)
      positivity
    · have := mul_nonneg ha.le hm
      linarith
  | bruggeman =>
    have he : 0 < e := h.2
    have he' : 0 < e' := h'.2
    have h1 := (mixed_bruggeman ha hb he).1 h.1
    have h2 := (mixed_bruggeman ha hb he').1 h'.1
    by_contra hlt
    rw [not_le] at hlt
    have h3 := mul_nonneg he.le hm
    have h4 : 0 < (e' - e) * (2 * e * e' + a * b) :=
      mul_pos (by linarith) (by positivity)
    nlinarith
end bounds

/-! ### The media of the code -/

/-- The first solution is the positive one. -/
theorem brugMix_pos (f a b : ℝ) (ha : 0 < a) (hb : 0 < b) : ∃ e : ℝ, 0 < e ∧
    brugMix (XR.fin f) (toCx (a : ℂ)) (toCx (b : ℂ)) = toCx (e : ℂ) ∧
    f * (b - e) * (a + 2 * e) + (1 - f) * (a - e) * (b + 2 * e) = 0 := by
  obtain ⟨e1, e2, h1, h2, hs, hp, hre⟩ := brug_toCx f a b
  obtain ⟨g1, -⟩ := brug_solves hs hp
  have hab := mul_pos ha hb
  have s2 : e1.im + e2.im = 0 := by
    have := congrArg Complex.im hs
    rw [show (((f : ℂ) * (2 * b - a) + (1 - f) * (2 * a - b)) / 2) =
      (((f * (2 * b - a) + (1 - f) * (2 * a - b)) / 2 : ℝ) : ℂ) by push_cast; ring] at this
    simpa using this
  have hp' : e1 * e2 = ((-(b * a) / 2 : ℝ) : ℂ) := by rw [hp]; push_cast; ring
  have p1 : e1.re * e2.re - e1.im * e2.im = -(b * a) / 2 := by
    have := congrArg Complex.re hp'
    rwa [Complex.mul_re, Complex.ofReal_re] at this
  have p2 : e1.re * e2.im + e1.im * e2.re = 0 := by
    have := congrArg Complex.im hp'
    rwa [Complex.mul_im, Complex.ofReal_im] at this
  have him : e1.im = 0 := by
    have e : e2.im = -e1.im := by linarith
    rw [e] at p1 p2
    have : e1.im * (e2.re - e1.re) = 0 := by linarith
    rcases mul_eq_zero.1 this with h | h
    · exact h
    · have : e2.re = e1.re := by linarith
      rw [this] at p1
      nlinarith [mul_self_nonneg e1.re, mul_self_nonneg e1.im]
  have hr : ((e1.re : ℝ) : ℂ) = e1 := Complex.ext (by simp) (by simp [him])
  have hpos : 0 < e1.re := by
    by_contra hn
    rw [not_lt] at hn
    rw [him] at p1
    nlinarith [mul_nonneg (neg_nonneg.2 hn) (neg_nonneg.2 (hre.trans hn))]
  refine ⟨e1.re, hpos, ?_, ?_⟩
  · unfold brugMix
    rw [h1, hr, if_pos]
    have h0 : (lit 0 : XR) = XR.fin 0 := by show XR.fin _ = _; norm_num
    rw [h0]
    show PyFloat.le (XR.fin 0) (XR.fin e1.im) = true
    rw [XR.le_fin, decide_eq_true_eq, him]
  · unfold BruggemanEq at g1
    rw [← hr] at g1
    exact_mod_cast g1

/-- The imaginary part of a mixture of Maxwell Garnett. -/
theorem garnett_im {f : ℝ} (f0 : 0 ≤ f) (f1 : f ≤ 1) {a b e : ℂ} (ha : 0 ≤ a.im) (hb : 0 ≤ b.im)
    (hd : mgDen f a b ≠ 0) (h : (e - a) * (b + 2 * a) = f * (b - a) * (e + 2 * a)) : 0 ≤ e.im := by
  have h1 : e * mgDen f a b = a * (2 * (1 - f) * a + (1 + 2 * f) * b) := by
    unfold mgDen; linear_combination h
  have h2 : e = a * (2 * (1 - f) * a + (1 + 2 * f) * b) / mgDen f a b :=
    (eq_div_iff hd).2 h1
  have hn : 0 < Complex.normSq (mgDen f a b) := Complex.normSq_pos.2 hd
  have h3 : e.im * Complex.normSq (mgDen f a b) =
      9 * f * b.im * Complex.normSq a + (1 - f) * a.im * Complex.normSq (b + 2 * a) +
        2 * f * (1 - f) * a.im * Complex.normSq (a - b) := by
    rw [h2, Complex.div_im]
    field_simp
    simp only [mgDen, Complex.normSq_apply, Complex.add_re, Complex.add_im, Complex.sub_re,
      Complex.sub_im, Complex.mul_re, Complex.mul_im, Complex.ofReal_re, Complex.ofReal_im,
      Complex.one_re, Complex.one_im, Complex.re_ofNat, Complex.im_ofNat]
    ring
  have h4 : 0 ≤ e.im * Complex.normSq (mgDen f a b) := by
    rw [h3]
    have n1 := Complex.normSq_nonneg a
    have n2 := Complex.normSq_nonneg (b + 2 * a)
    have n3 := Complex.normSq_nonneg (a - b)
    have g : 0 ≤ 1 - f := by linarith
    positivity
  exact nonneg_of_mul_nonneg_left h4 hn

section ideal
variable [SciPy XR]

/-- C110: mixtures of passive materials are passive, for all three kinds of media. The medium of
Maxwell Garnett needs denominators that do not vanish, the one of Bruggeman an array. -/
theorem C110_passive (k : Mixing) (s : Spectrum XR) (hal : Aligned s) (harr : s.std.isArray = true)
    (ys : List ℝ) (hs : StandsFor s ys) (hnd : ys.Nodup) (m1 m2 : Material XR) (A B : ℝ → ℂ)
    (h1 : PermittivityAt m1 s ys A) (h2 : PermittivityAt m2 s ys B) (f : ℝ) (f0 : 0 ≤ f)
    (f1 : f ≤ 1) (hp : ∀ y ∈ ys, 0 ≤ (A y).im ∧ 0 ≤ (B y).im)
    (hden : k = .maxwellGarnett → ∀ y ∈ ys, mgDen f (A y) (B y) ≠ 0) :
    ∃ m E, (effectiveMedium k s m1 m2 (XR.fin f)).1 = .ok m ∧
      (∀ (q : Spectrum XR) (qs : List ℝ), Aligned q → StandsFor q qs → (∀ y ∈ qs, y ∈ ys) →
        PermittivityAt m q qs E) ∧ ∀ y ∈ ys, 0 ≤ (E y).im := by
  cases k with
  | simple =>
    obtain ⟨m, E, e1, e2, -, -, -, e3⟩ := C37_mixture s hal ys hs hnd m1 m2 A B h1 h2 f f0 f1
    exact ⟨m, E, e1, e2, fun y hy => le_trans (le_min (hp y hy).1 (hp y hy).2) (e3 y).2.1⟩
  | maxwellGarnett =>
    obtain ⟨m, E, e1, e2, e3⟩ := C38_relation_partial s hal ys hs hnd m1 m2 A B h1 h2 f f0 f1
      (hden rfl)
    exact ⟨m, E, e1, e2, fun y hy =>
      garnett_im f0 f1 (hp y hy).1 (hp y hy).2 (hden rfl y hy) (e3 y hy).1⟩
  | bruggeman =>
    obtain ⟨m, E, e1, e2, e3⟩ := C39_physical_partial s hal harr ys hs hnd m1 m2 A B h1 h2 f f0 f1 hp
    exact ⟨m, E, e1, e2, fun y hy => (e3 y hy).2.1⟩

/-- C110: media of transparent materials can be built and have the permittivities of the
specification. -/
theorem C110_transparent (k : Mixing) (s : Spectrum XR) (hal : Aligned s)
    (harr : s.std.isArray = true) (ys : List ℝ) (hs : StandsFor s ys) (hnd : ys.Nodup)
    (m1 m2 : Material XR) (a b : ℝ → ℝ) (h1 : PermittivityAt m1 s ys fun y => a y)
    (h2 : PermittivityAt m2 s ys fun y => b y) (f : ℝ) (f0 : 0 ≤ f) (f1 : f ≤ 1)
    (hp : ∀ y ∈ ys, 0 < a y ∧ 0 < b y) :
    ∃ (m : Material XR) (e : ℝ → ℝ), (effectiveMedium k s m1 m2 (XR.fin f)).1 = .ok m ∧
      (∀ (q : Spectrum XR) (qs : List ℝ), Aligned q → StandsFor q qs → (∀ y ∈ qs, y ∈ ys) →
        PermittivityAt m q qs fun y => e y) ∧ ∀ y ∈ ys, Mixed k f (a y) (b y) (e y) := by
  have key : ∀ (m : Material XR) (E : ℝ → ℂ) (e : ℝ → ℝ), (∀ y ∈ ys, E y = e y) →
      (∀ (q : Spectrum XR) (qs : List ℝ), Aligned q → StandsFor q qs → (∀ y ∈ qs, y ∈ ys) →
        PermittivityAt m q qs E) →
      ∀ (q : Spectrum XR) (qs : List ℝ), Aligned q → StandsFor q qs → (∀ y ∈ qs, y ∈ ys) →
        PermittivityAt m q qs fun y => e y := by
    intro m E e hE h q qs hq1 hq2 hq3
    obtain ⟨v, v1, v2⟩ := h q qs hq1 hq2 hq3
    refine ⟨v, v1, ?_⟩
    rwa [List.map_congr_left (g := fun y => (e y : ℂ)) fun y hy => hE y (hq3 y hy)] at v2
  cases k with
  | simple =>
    obtain ⟨m, E, e1, e2, e3, -⟩ := C37_mixture s hal ys hs hnd m1 m2 _ _ h1 h2 f f0 f1
    refine ⟨m, fun y => (1 - f) * a y + f * b y, e1, key m E _ ?_ e2, fun y _ => rfl⟩
    intro y _
    rw [e3]; push_cast; ring
  | maxwellGarnett =>
    have hden : ∀ y ∈ ys, 0 < (2 + f) * a y + (1 - f) * b y := by
      intro y hy
      have := mul_pos (show 0 < 2 + f by linarith) (hp y hy).1
      have := mul_nonneg (show 0 ≤ 1 - f by linarith) (hp y hy).2.le
      linarith
    obtain ⟨m, E, e1, e2, e3⟩ := C38_relation_partial s hal ys hs hnd m1 m2 _ _ h1 h2 f f0 f1 (by
      intro y hy h
      unfold mgDen at h
      have : (((2 + f) * a y + (1 - f) * b y : ℝ) : ℂ) = 0 := by push_cast; exact h
      exact (hden y hy).ne' (by exact_mod_cast this))
    have hrel : ∀ y ∈ ys, ∀ e : ℝ, e = comparison f (a y) (b y) (a y) →
        (e - a y) * (b y + 2 * a y) = f * (b y - a y) * (e + 2 * a y) := by
      intro y hy e he
      unfold comparison at he
      rw [eq_div_iff (by linarith [hden y hy])] at he
      linarith
    refine ⟨m, fun y => comparison f (a y) (b y) (a y), e1, key m E _ ?_ e2, ?_⟩
    · intro y hy
      refine ((e3 y hy).2.1 _ ?_).symm
      have := hrel y hy _ rfl
      exact_mod_cast this
    · intro y hy
      obtain ⟨ha, hb⟩ := hp y hy
      have hpos : 0 < comparison f (a y) (b y) (a y) := by
        refine lt_of_lt_of_le (lt_min ha hb) ((harmonic_between ha hb f0 f1).trans ?_)
        rw [← comparison_zero ha hb f0 f1]
        exact comparison_mono ha hb f0 f1 le_rfl ha.le
      exact ⟨(mixed_garnett ha hb hpos).2 (hrel y hy _ rfl), hpos⟩
  | bruggeman =>
    obtain ⟨v1, he1, n1⟩ := h1
    obtain ⟨v2, he2, n2⟩ := h2
    have hch : ∀ y : ℝ, ∃ e : ℝ, y ∈ ys → 0 < e ∧
        brugMix (XR.fin f) (toCx (a y : ℂ)) (toCx (b y : ℂ)) = toCx (e : ℂ) ∧
        f * (b y - e) * (a y + 2 * e) + (1 - f) * (a y - e) * (b y + 2 * e) = 0 := by
      intro y
      by_cases hy : y ∈ ys
      · obtain ⟨e, he⟩ := brugMix_pos f (a y) (b y) (hp y hy).1 (hp y hy).2
        exact ⟨e, fun _ => he⟩
      · exact ⟨0, fun h => absurd h hy⟩
    choose e hEs using hch
    obtain ⟨eps, hz, hE⟩ := numbers_zip (g := brugMix (XR.fin f)) (E := fun y => (e y : ℂ)) n1 n2
      (fun y hy => (hEs y hy).2.1)
    have hmix : mixVals .bruggeman (XR.fin f) v1 v2 = .ok eps := by
      rw [harr] at hE
      generalize hl : ys.map (fun y => (e y : ℂ)) = l at hE
      cases hE with
      | array => simp only [mixVals, hz, bind, Except.bind]
    obtain ⟨m, lo, hi, a1, -, -, -, -, -, a2⟩ := C40_medium .bruggeman s hal ys hs hnd m1 m2 f f0 f1
      v1 v2 eps he1 he2 hmix _ _ hE
    refine ⟨m, e, by rw [a1], a2, fun y hy => ?_⟩
    obtain ⟨g1, -, g3⟩ := hEs y hy
    exact ⟨(mixed_bruggeman (hp y hy).1 (hp y hy).2 g1).2 g3, g1⟩

/-- C110: the bounds of Wiener for every medium, those of Hashin and Shtrikman for the medium of
Bruggeman, and the dependence on the fraction. -/
theorem C110_bounds (s : Spectrum XR) (hal : Aligned s)
    (harr : s.std.isArray = true) (ys : List ℝ) (hs : StandsFor s ys) (hnd : ys.Nodup)
    (m1 m2 : Material XR) (a b : ℝ → ℝ) (h1 : PermittivityAt m1 s ys fun y => a y)
    (h2 : PermittivityAt m2 s ys fun y => b y) (hp : ∀ y ∈ ys, 0 < a y ∧ 0 < b y) :
    ∃ (M : Mixing → ℝ → Material XR) (G : ℝ → Material XR) (e : Mixing → ℝ → ℝ → ℝ)
      (g : ℝ → ℝ → ℝ), ∀ f, 0 ≤ f → f ≤ 1 →
        (∀ k, (effectiveMedium k s m1 m2 (XR.fin f)).1 = .ok (M k f) ∧
          PermittivityAt (M k f) s ys fun y => e k f y) ∧
        (effectiveMedium .maxwellGarnett s m2 m1 (XR.fin (1 - f))).1 = .ok (G f) ∧
        PermittivityAt (G f) s ys (fun y => g f y) ∧
        ∀ y ∈ ys,
          (∀ k, ((1 - f) / a y + f / b y)⁻¹ ≤ e k f y ∧ e k f y ≤ (1 - f) * a y + f * b y) ∧
          (a y ≤ b y → e .maxwellGarnett f y ≤ e .bruggeman f y ∧ e .bruggeman f y ≤ g f y ∧
            ∀ k f', f ≤ f' → f' ≤ 1 → e k f y ≤ e k f' y) ∧
          (b y ≤ a y → g f y ≤ e .bruggeman f y ∧ e .bruggeman f y ≤ e .maxwellGarnett f y ∧
            ∀ k f', f ≤ f' → f' ≤ 1 → e k f' y ≤ e k f y) := by
  have hM : ∀ (k : Mixing) (f : ℝ), ∃ (m : Material XR) (e : ℝ → ℝ), 0 ≤ f → f ≤ 1 →
      (effectiveMedium k s m1 m2 (XR.fin f)).1 = .ok m ∧ PermittivityAt m s ys (fun y => e y) ∧
      ∀ y ∈ ys, Mixed k f (a y) (b y) (e y) := by
    intro k f
    by_cases hf : 0 ≤ f ∧ f ≤ 1
    · obtain ⟨m, e, x1, x2, x3⟩ := C110_transparent k s hal harr ys hs hnd m1 m2 a b h1 h2 f hf.1
        hf.2 hp
      exact ⟨m, e, fun _ _ => ⟨x1, x2 s ys hal hs fun y hy => hy, x3⟩⟩
    · exact ⟨m1, a, fun x y => absurd ⟨x, y⟩ hf⟩
  have hG : ∀ (f : ℝ), ∃ (m : Material XR) (e : ℝ → ℝ), 0 ≤ f → f ≤ 1 →
      (effectiveMedium .maxwellGarnett s m2 m1 (XR.fin (1 - f))).1 = .ok m ∧
      PermittivityAt m s ys (fun y => e y) ∧
      ∀ y ∈ ys, Mixed .maxwellGarnett (1 - f) (b y) (a y) (e y) := by
    intro f
    by_cases hf : 0 ≤ f ∧ f ≤ 1
    · obtain ⟨m, e, x1, x2, x3⟩ := C110_transparent .maxwellGarnett s hal harr ys hs hnd m2 m1 b a
        h2 h1 (1 - f) (by linarith) (by linarith) (fun y hy => (hp y hy).symm)
      exact ⟨m, e, fun _ _ => ⟨x1, x2 s ys hal hs fun y hy => hy, x3⟩⟩
    · exact ⟨m1, a, fun x y => absurd ⟨x, y⟩ hf⟩
  choose M e hM using hM
  choose G g hG using hG
  refine ⟨M, G, e, g, fun f f0 f1 => ⟨fun k => ⟨(hM k f f0 f1).1, (hM k f f0 f1).2.1⟩,
    (hG f f0 f1).1, (hG f f0 f1).2.1, fun y hy => ?_⟩⟩
  obtain ⟨ha, hb⟩ := hp y hy
  have hmix := fun k => (hM k f f0 f1).2.2 y hy
  have hbt := (hmix .bruggeman).between ha hb f0 f1 (hmix .maxwellGarnett) ((hG f f0 f1).2.2 y hy)
  refine ⟨fun k => (hmix k).bounds ha hb f0 f1, fun hab => ⟨(hbt.1 hab).1, (hbt.1 hab).2, ?_⟩,
    fun hab => ⟨(hbt.2 hab).1, (hbt.2 hab).2, ?_⟩⟩
  · intro k f' hff hf'
    exact (hmix k).mono ha hab f0 hff hf' ((hM k f' (f0.trans hff) hf').2.2 y hy)
  · intro k f' hff hf'
    exact (hmix k).anti hb hab f0 hff hf' ((hM k f' (f0.trans hff) hf').2.2 y hy)

/-- Glass in air at two wavelengths. -/
example [NumText XR] (rd : String → Res (FileDict XR)) : ∃ (s : Spectrum XR) (ys : List ℝ)
    (m1 m2 : Material XR) (a b : ℝ → ℝ), Aligned s ∧ s.std.isArray = true ∧ StandsFor s ys ∧
    ys.Nodup ∧ 2 ≤ ys.length ∧ PermittivityAt m1 s ys (fun y => a y) ∧
    PermittivityAt m2 s ys (fun y => b y) ∧ ∀ y ∈ ys, 0 < a y ∧ 0 < b y := by
  have hy : ∀ y ∈ ([5e-7, 6e-7] : List ℝ), (0 : ℝ) ≤ y := by
    intro y hy
    simp only [List.mem_cons, List.not_mem_nil, or_false] at hy
    rcases hy with rfl | rfl <;> norm_num
  obtain ⟨m1, -, p1⟩ := fixed_eps_at rd ((1 : ℝ) : ℂ) [5e-7, 6e-7] (by simp) hy
  obtain ⟨m2, -, p2⟩ := fixed_eps_at rd ((2.25 : ℝ) : ℂ) [5e-7, 6e-7] (by simp) hy
  refine ⟨_, [5e-7, 6e-7], m1, m2, fun _ => 1, fun _ => 2.25, metre_aligned _, rfl,
    metre_stands (by simp), ?_, by simp, p1, p2, ?_⟩
  · simp; norm_num
  · intro y _
    constructor <;> norm_num

/-- The bounds for a half and half mixture of 1 and 4: 1.6 and 2.5; Maxwell Garnett gives 2 for
inclusions of 4 and 16/7 for inclusions of 1, and Bruggeman lies between. -/
example : Mixed .maxwellGarnett 0.5 1 4 2 ∧ Mixed .maxwellGarnett (1 - 0.5) 4 1 (16 / 7) ∧
    ∀ e, Mixed .bruggeman 0.5 1 4 e → 2 ≤ e ∧ e ≤ 16 / 7 := by
  have h1 : Mixed .maxwellGarnett 0.5 1 4 2 := ⟨by norm_num, by norm_num⟩
  have h2 : Mixed .maxwellGarnett (1 - 0.5) 4 1 (16 / 7) := ⟨by norm_num, by norm_num⟩
  exact ⟨h1, h2, fun e he =>
    (he.between (by norm_num) (by norm_num) (by norm_num) (by norm_num) h1 h2).1 (by norm_num)⟩

end ideal

end Disp
