import Verif.Lemmas.SumRounding
import Verif.Props.FormulaFiles
/-!
# C109: dispersion formulas in double precision

The error of the index for any number of terms, in terms of the closeness of resonances and of the
cancellation in the sum.
-/

namespace Disp

open Spec

noncomputable section

/-- Zero, or of a size between 1e-30 and 1e30. -/
def Spec.Usual (x : ℝ) : Prop := x = 0 ∨ ((10 : ℝ) ^ 30)⁻¹ ≤ |x| ∧ |x| ≤ 10 ^ 30

/-- The published value `n` of a formula with the coefficients `c, ps` at the wavelength `x`, and a
measure `b` of the cancellation in the sum: the sum of the absolute values of its terms, divided by
the index if the formula gives the square of the index. Resonances are at a relative distance of
at least `1 / K`. -/
inductive Spec.Conditioned : Formula → ℝ → List (ℝ × ℝ) → ℝ → ℝ → ℝ → ℝ → Prop
  | sellmeier {c : ℝ} {ps : List (ℝ × ℝ)} {x K r A : ℝ}
      (h : ∀ p ∈ ps, x ^ 2 + p.2 ^ 2 ≤ K * |x ^ 2 - p.2 ^ 2|)
      (hr : r = 1 + c + (ps.map fun p => p.1 * x ^ 2 / (x ^ 2 - p.2 ^ 2)).sum)
      (hA : A = 1 + |c| + (ps.map fun p => |p.1 * x ^ 2 / (x ^ 2 - p.2 ^ 2)|).sum)
      (hc : A ≤ 2 ^ 20 * r) : Conditioned .sellmeier c ps x K (Real.sqrt r) (A / Real.sqrt r)
  | sellmeier2 {c : ℝ} {ps : List (ℝ × ℝ)} {x K r A : ℝ}
      (h : ∀ p ∈ ps, x ^ 2 + |p.2| ≤ K * |x ^ 2 - p.2|)
      (hr : r = 1 + c + (ps.map fun p => p.1 * x ^ 2 / (x ^ 2 - p.2)).sum)
      (hA : A = 1 + |c| + (ps.map fun p => |p.1 * x ^ 2 / (x ^ 2 - p.2)|).sum)
      (hc : A ≤ 2 ^ 20 * r) : Conditioned .sellmeier2 c ps x K (Real.sqrt r) (A / Real.sqrt r)
  | polynomial {c : ℝ} {ps : List (ℝ × ℝ)} {x r A : ℝ}
      (h : ∀ p ∈ ps, ((10 : ℝ) ^ 60)⁻¹ ≤ x ^ p.2 ∧ x ^ p.2 ≤ 10 ^ 60)
      (hr : r = c + (ps.map fun p => p.1 * x ^ p.2).sum)
      (hA : A = |c| + (ps.map fun p => |p.1 * x ^ p.2|).sum)
      (hc : A ≤ 2 ^ 20 * r) (h1 : 1 ≤ 2 ^ 20 * r) :
      Conditioned .polynomial c ps x 0 (Real.sqrt r) (A / Real.sqrt r)
  | cauchy {c : ℝ} {ps : List (ℝ × ℝ)} {x : ℝ}
      (h : ∀ p ∈ ps, ((10 : ℝ) ^ 60)⁻¹ ≤ x ^ p.2 ∧ x ^ p.2 ≤ 10 ^ 60) :
      Conditioned .cauchy c ps x 0 (c + (ps.map fun p => p.1 * x ^ p.2).sum)
        (|c| + (ps.map fun p => |p.1 * x ^ p.2|).sum)
  | gases {c : ℝ} {ps : List (ℝ × ℝ)} {x K : ℝ}
      (h : ∀ p ∈ ps, |p.2| + 1 / x ^ 2 ≤ K * |p.2 - 1 / x ^ 2|) :
      Conditioned .gases c ps x K (1 + c + (ps.map fun p => p.1 / (p.2 - 1 / x ^ 2)).sum)
        (1 + |c| + (ps.map fun p => |p.1 / (p.2 - 1 / x ^ 2)|).sum)

/-! ### The terms -/

theorem Spec.Usual.mag {x : ℝ} (h : Usual x) : x = 0 ∨ Mag 30 |x| := by
  rcases h with h | ⟨h1, h2⟩
  · exact .inl h
  · exact .inr ⟨h1, h2⟩

theorem Spec.Usual.le {x : ℝ} (h : Usual x) : |x| ≤ 10 ^ 30 := by
  rcases h with rfl | ⟨-, h2⟩
  · simp
  · exact h2

theorem Dbl.sq_rel {x : ℝ} {a : Dbl} (ha : a.val = .fin x) (h : Usual x) :
    ∃ z, (sqF a).val = .fin z ∧ |z - x ^ 2| ≤ ur * |x ^ 2| := by
  have e : sqF a = Dbl.rnd (.fin (x ^ 2)) := by
    show Dbl.rnd (PyFloat.pow a.val (lit 2 : Dbl).val) = _
    rw [ha, show (lit 2 : Dbl).val = XR.fin 2 by
      have := Dbl.lit_int (n := 2) (by norm_num); simpa using this]
    have := XR.sqF_fin x
    unfold sqF at this
    rw [← this]
    norm_num
  rw [e]
  refine Dbl.rnd_rel ?_
  rcases h.mag with rfl | h
  · left; simp
  · right
    have := h.mul h
    rw [← abs_mul, ← pow_two] at this
    exact this.mono (by norm_num)

/-- Rounding of a product with an approximation. -/
theorem Dbl.mul_rel {x y Y : ℝ} {a b : Dbl} (ha : a.val = .fin x) (hb : b.val = .fin Y)
    (hx : Usual x) (hy : Mag 60 |y|) (hY : |Y - y| ≤ ur * |y|) :
    ∃ z, (a * b).val = .fin z ∧ |z - x * y| ≤ 3 * ur * |x * y| := by
  have hu := ur_pos
  have hu1 : ur ≤ 1 / 2 := by unfold ur; norm_num
  have h1 := mul_le_mul_of_nonneg_right hu1 (abs_nonneg y)
  have h2 := abs_add_le (Y - y) y
  rw [sub_add_cancel] at h2
  have h3 := abs_add_le (y - Y) Y
  rw [sub_add_cancel, abs_sub_comm] at h3
  have hm : x * Y = 0 ∨ Mag 280 |x * Y| := by
    rcases hx.mag with rfl | hx
    · left; simp
    · right
      rw [abs_mul]
      exact (hx.mul (hy.of_bounds (by linarith) (by linarith))).mono (by norm_num)
  obtain ⟨z, z1, z2⟩ := Dbl.rnd_rel hm
  refine ⟨z, by rw [Dbl.val_mul, ha, hb, XR.mul_fin]; exact z1, ?_⟩
  have h4 := abs_add_le (z - x * Y) (x * Y - x * y)
  rw [sub_add_sub_cancel, ← mul_sub, abs_mul x (Y - y)] at h4
  rw [abs_mul] at z2 ⊢
  have h5 := mul_le_mul_of_nonneg_left hY (abs_nonneg x)
  have h6 : ur * (|x| * |Y|) ≤ ur * (|x| * (2 * |y|)) :=
    mul_le_mul_of_nonneg_left (mul_le_mul_of_nonneg_left (by linarith) (abs_nonneg x)) hu.le
  linarith

/-- A computed term: its error and its size. -/
def TermErr (K : ℝ) (d : Dbl) (t : ℝ) : Prop :=
  (∃ T, d.val = .fin T ∧ |T - t| ≤ (K + 8) * ur * |t|) ∧ |t| ≤ 10 ^ 120

theorem power_term {K x A P : ℝ} {w a b : Dbl} (hK : 0 ≤ K) (hw : w.val = .fin x) (hx : 0 < x)
    (ha : a.val = .fin A) (hb : b.val = .fin P) (hA : Usual A)
    (hP : ((10 : ℝ) ^ 60)⁻¹ ≤ x ^ P ∧ x ^ P ≤ 10 ^ 60) :
    TermErr K (a * PyFloat.pow w b) (A * x ^ P) := by
  have hpos := Real.rpow_pos_of_pos hx P
  have hm : Mag 60 |x ^ P| := by rw [abs_of_pos hpos]; exact ⟨hP.1, hP.2⟩
  have e : (PyFloat.pow w b : Dbl) = Dbl.rnd (.fin (x ^ P)) := by
    show Dbl.rnd (PyFloat.pow w.val b.val) = _
    rw [hw, hb, XR.pow_pos hx]
  obtain ⟨Y, y1, y2⟩ := Dbl.rnd_rel (.inr (hm.mono (by norm_num)))
  rw [← e] at y1
  obtain ⟨z, z1, z2⟩ := Dbl.mul_rel ha y1 hA hm y2
  refine ⟨⟨z, z1, z2.trans ?_⟩, ?_⟩
  · refine mul_le_mul_of_nonneg_right ?_ (abs_nonneg _)
    exact mul_le_mul_of_nonneg_right (by linarith) ur_pos.le
  · rw [abs_mul]
    calc |A| * |x ^ P| ≤ 10 ^ 30 * 10 ^ 60 := mul_le_mul hA.le hm.high (abs_nonneg _) (by positivity)
      _ ≤ 10 ^ 120 := by norm_num

/-- The distance from a resonance. -/
theorem gap_mag {x y K : ℝ} (hK0 : 0 ≤ K) (hK : K ≤ 2 ^ 20) (h : |x| + |y| ≤ K * |x - y|)
    (hx : Mag 60 |x|) (hy : |y| ≤ 10 ^ 60) : Mag 70 |x - y| := by
  constructor
  · have h1 := hx.low
    have h2 : K * |x - y| ≤ 2 ^ 20 * |x - y| := mul_le_mul_of_nonneg_right hK (abs_nonneg _)
    have h3 : ((10 : ℝ) ^ 60)⁻¹ ≤ 2 ^ 20 * |x - y| := by linarith [abs_nonneg y]
    have h4 : ((10 : ℝ) ^ 70)⁻¹ * 2 ^ 20 ≤ ((10 : ℝ) ^ 60)⁻¹ := by norm_num
    nlinarith
  · have := abs_sub x y
    have := hx.high
    linarith [show 2 * (10 : ℝ) ^ 60 ≤ 10 ^ 70 by norm_num]

theorem ratio_term {K p x y P X Y : ℝ} {a b c : Dbl} (ha : a.val = .fin P) (hb : b.val = .fin X)
    (hc : c.val = .fin Y) (hP : |P - p| ≤ 3 * ur * |p|) (hX : |X - x| ≤ ur * |x|)
    (hY : |Y - y| ≤ ur * |y|) (hres : |x| + |y| ≤ K * |x - y|) (hK0 : 0 ≤ K) (hK : K ≤ 2 ^ 20)
    (hp : p = 0 ∨ Mag 90 |p|) (hd : Mag 70 |x - y|) (hx : |x| ≤ 10 ^ 60) (hy : |y| ≤ 10 ^ 60)
    (ht : |p / (x - y)| ≤ 10 ^ 120) : TermErr K (a / (b - c)) (p / (x - y)) :=
  ⟨resonant_err ha hb hc hP hX hY hres hK0 hK (hp.imp id (·.mono (by norm_num)))
    (hd.mono (by norm_num)) (hx.trans (by norm_num)) (hy.trans (by norm_num)), ht⟩

/-! ### The loops -/

/-- Two doubles with the values of two real numbers. -/
def PairOf (d : Dbl × Dbl) (p : ℝ × ℝ) : Prop := d.1.val = .fin p.1 ∧ d.2.val = .fin p.2

theorem split_pairs : ∀ (ps : List (ℝ × ℝ)) (l : List Dbl), l.map Dbl.val = finList (flat2 ps) →
    ∃ ds, l = flat2 ds ∧ List.Forall₂ PairOf ds ps := by
  intro ps
  induction ps with
  | nil =>
    intro l h
    have : l = [] := by simpa [finList, flat2] using h
    exact ⟨[], this, .nil⟩
  | cons p ps ih =>
    intro l h
    have e : finList (flat2 (p :: ps)) = XR.fin p.1 :: XR.fin p.2 :: finList (flat2 ps) := by
      simp [finList, flat2]
    rw [e] at h
    match l, h with
    | [a], h => simp at h
    | a :: b :: l', h =>
      simp only [List.map_cons, List.cons.injEq] at h
      obtain ⟨ds, h1, h2⟩ := ih l' h.2.2
      refine ⟨(a, b) :: ds, ?_, .cons ⟨h.1, h.2.1⟩ h2⟩
      rw [h1]; rfl

theorem split_coeffs {p : List Dbl} {c : ℝ} {ps : List (ℝ × ℝ)}
    (h : p.map Dbl.val = finList (c :: flat2 ps)) :
    ∃ a ds, p = a :: flat2 ds ∧ a.val = .fin c ∧ List.Forall₂ PairOf ds ps := by
  match p, h with
  | a :: l, h =>
    simp only [finList, List.map_cons, List.cons.injEq] at h
    obtain ⟨ds, h1, h2⟩ := split_pairs ps l h.2
    exact ⟨a, ds, by rw [h1], h.1, h2⟩

theorem sum_le_of_terms {f : ℝ → ℝ → ℝ} : ∀ {ps : List (ℝ × ℝ)},
    (∀ p ∈ ps, |f p.1 p.2| ≤ 10 ^ 120) →
    (ps.map fun p => |f p.1 p.2|).sum ≤ ps.length * 10 ^ 120 := by
  intro ps
  induction ps with
  | nil => intro _; simp
  | cons p ps ih =>
    intro h
    have h1 := h p (by simp)
    have h2 := ih fun q hq => h q (by simp [hq])
    simp only [List.map_cons, List.sum_cons, List.length_cons, Nat.cast_add, Nat.cast_one]
    linarith

theorem abs_sum_le (f : ℝ → ℝ → ℝ) (ps : List (ℝ × ℝ)) :
    |(ps.map fun p => f p.1 p.2).sum| ≤ (ps.map fun p => |f p.1 p.2|).sum := by
  induction ps with
  | nil => simp
  | cons p ps ih =>
    simp only [List.map_cons, List.sum_cons]
    exact (abs_add_le _ _).trans (by linarith)

theorem abs_sum_nonneg (f : ℝ → ℝ → ℝ) (ps : List (ℝ × ℝ)) :
    0 ≤ (ps.map fun p => |f p.1 p.2|).sum := (abs_nonneg _).trans (abs_sum_le f ps)

/-- The terms with their exact values. -/
theorem pair_terms {K : ℝ} (g : Dbl → Dbl → Dbl) (f : ℝ → ℝ → ℝ) {ds : List (Dbl × Dbl)}
    {ps : List (ℝ × ℝ)} (h : List.Forall₂ PairOf ds ps)
    (ht : ∀ d p, p ∈ ps → PairOf d p → TermErr K (g d.1 d.2) (f p.1 p.2)) :
    ∃ ts : List (Dbl × ℝ), ts.length = ps.length ∧
      (∀ init : Dbl, ds.foldl (fun acc d => acc + g d.1 d.2) init =
        ts.foldl (fun acc t => acc + t.1) init) ∧
      (ts.map fun t => t.2) = ps.map (fun p => f p.1 p.2) ∧
      (ts.map fun t => |t.2|) = ps.map (fun p => |f p.1 p.2|) ∧
      ∀ t ∈ ts, ∃ T, t.1.val = .fin T ∧ |T - t.2| ≤ (K + 8) * ur * |t.2| := by
  induction h with
  | nil => exact ⟨[], rfl, fun _ => rfl, rfl, rfl, by simp⟩
  | @cons d p ds ps hd _ ih =>
    obtain ⟨ts, h1, h2, h3, h4, h5⟩ := ih fun d q hq => ht d q (by simp [hq])
    refine ⟨(g d.1 d.2, f p.1 p.2) :: ts, by simp [h1], fun init => ?_, ?_, ?_, ?_⟩
    · simp only [List.foldl_cons]; exact h2 _
    · simp only [List.map_cons, h3]
    · simp only [List.map_cons, h4]
    · intro t hm
      rcases List.mem_cons.1 hm with rfl | hm
      · exact (ht d p (by simp) hd).1
      · exact h5 t hm

theorem terms_le {K : ℝ} (g : Dbl → Dbl → Dbl) (f : ℝ → ℝ → ℝ) {ds : List (Dbl × Dbl)}
    {ps : List (ℝ × ℝ)} (h : List.Forall₂ PairOf ds ps)
    (ht : ∀ d p, p ∈ ps → PairOf d p → TermErr K (g d.1 d.2) (f p.1 p.2)) :
    ∀ p ∈ ps, |f p.1 p.2| ≤ 10 ^ 120 := by
  induction h with
  | nil => simp
  | @cons d p ds ps hd _ ih =>
    intro q hq
    rcases List.mem_cons.1 hq with rfl | hq
    · exact (ht d _ (by simp) hd).2
    · exact ih (fun d q hq => ht d q (by simp [hq])) q hq

/-- The sum of a formula: its error and its size. -/
theorem loop2_err {K c : ℝ} {a : Dbl} (g : Dbl → Dbl → Dbl) (f : ℝ → ℝ → ℝ)
    {ds : List (Dbl × Dbl)} {ps : List (ℝ × ℝ)} (ha : a.val = .fin c) (hc : Usual c)
    (hK0 : 0 ≤ K) (hK : K ≤ 2 ^ 20) (hN : ps.length < 2 ^ 20) (h : List.Forall₂ PairOf ds ps)
    (ht : ∀ d p, p ∈ ps → PairOf d p → TermErr K (g d.1 d.2) (f p.1 p.2)) :
    ∃ r R, loop2 (a :: flat2 ds) 1 (sliceLen (a :: flat2 ds).length 1 (a :: flat2 ds).length 2)
        (fun acc x y => acc + g x y) (a * lit 1) = .ok r ∧ r.val = .fin R ∧
      |R - (c + (ps.map fun p => f p.1 p.2).sum)| ≤
        growth ((K + 8) * ur) ps.length * (|c| + (ps.map fun p => |f p.1 p.2|).sum) ∧
      |c| + (ps.map fun p => |f p.1 p.2|).sum ≤ 10 ^ 130 := by
  have hu := ur_pos
  have he : 0 ≤ (K + 8) * ur := mul_nonneg (by linarith) hu.le
  have hb : |c| + (ps.map fun p => |f p.1 p.2|).sum ≤ 10 ^ 130 := by
    have h1 := sum_le_of_terms (terms_le g f h ht)
    have h2 : (ps.length : ℝ) ≤ 2 ^ 20 := by exact_mod_cast hN.le
    have h3 : (ps.length : ℝ) * 10 ^ 120 ≤ 2 ^ 20 * 10 ^ 120 :=
      mul_le_mul_of_nonneg_right h2 (by positivity)
    have h4 := hc.le
    linarith [show (10 : ℝ) ^ 30 + 2 ^ 20 * 10 ^ 120 ≤ 10 ^ 130 by norm_num]
  have hlen : sliceLen (a :: flat2 ds).length 1 (a :: flat2 ds).length 2 = ds.length := by
    unfold sliceLen
    rw [min_self, List.length_cons, flat2_length]
    omega
  have hl := loop2_ok (fun acc x y => acc + g x y) ds [a] (a * lit 1)
  obtain ⟨ts, t1, t2, t3, t4, t5⟩ := pair_terms g f h ht
  have hg : growth ((K + 8) * ur) (0 + ts.length) ≤ 1 := by
    rw [zero_add, t1]
    refine (growth_le hK0 hK hN.le).trans ?_
    have h2 : (ps.length : ℝ) ≤ 2 ^ 20 := by exact_mod_cast hN.le
    unfold ur
    rw [mul_one_div, div_le_one (by positivity)]
    linarith [show (2 : ℝ) ^ 20 + 2 ^ 20 + 10 ≤ 2 ^ 53 by norm_num]
  obtain ⟨z, z1, z2⟩ := sum_err he ts a c c |c| 0 ha
    (by rw [sub_self, abs_zero]
        exact mul_nonneg (he.trans (growth_ge he 0)) (abs_nonneg _)) le_rfl t5 hg
    (by rw [t4]; exact hb.trans (by norm_num))
  rw [t3, t4, zero_add, t1] at z2
  refine ⟨_, z, ?_, z1, z2, hb⟩
  rw [hlen]
  have : loop2 (a :: flat2 ds) 1 ds.length (fun acc x y => acc + g x y) (a * lit 1) =
    .ok (ds.foldl (fun acc d => acc + g d.1 d.2) (a * lit 1)) := hl
  rw [this, LawfulOne.mul_one, t2]

theorem growth_bound {K : ℝ} {n : ℕ} (hK0 : 0 ≤ K) (hK : K ≤ 2 ^ 20) (hn : n ≤ 2 ^ 20) :
    growth ((K + 8) * ur) n ≤ 1 := by
  refine (growth_le hK0 hK hn).trans ?_
  have h2 : (n : ℝ) ≤ 2 ^ 20 := by exact_mod_cast hn
  unfold ur
  rw [mul_one_div, div_le_one (by positivity)]
  linarith [show (2 : ℝ) ^ 20 + 2 ^ 20 + 10 ≤ 2 ^ 53 by norm_num]

theorem Dbl.lit_one : (lit 1 : Dbl).val = .fin 1 := by
  exact_mod_cast Dbl.lit_int (n := 1) (by norm_num)

/-- One is added at the end. -/
theorem plus_one {K s A R : ℝ} {r : Dbl} {n : ℕ} (hK0 : 0 ≤ K) (hK : K ≤ 2 ^ 20)
    (hn : n < 2 ^ 20) (hr : r.val = .fin R) (h : |R - s| ≤ growth ((K + 8) * ur) n * A)
    (hs : |s| ≤ A) (hA : A ≤ 10 ^ 130) :
    ∃ z, (r + lit 1).val = .fin z ∧ |z - (1 + s)| ≤ (n + K + 11) * ur * (1 + A) := by
  have he : 0 ≤ (K + 8) * ur := mul_nonneg (by linarith) ur_pos.le
  have hA0 := (abs_nonneg s).trans hs
  obtain ⟨z, z1, z2⟩ := sum_err he [(lit 1, 1)] r s R A n hr h hs
    (by
      intro p hp
      rw [List.mem_singleton] at hp
      subst hp
      exact ⟨1, Dbl.lit_one, by simpa using he⟩)
    (growth_bound hK0 hK (by simpa using hn))
    (by
      simp only [List.map_cons, List.map_nil, abs_one, List.sum_cons, List.sum_nil, add_zero]
      linarith [show (10 : ℝ) ^ 130 + 1 ≤ 10 ^ 150 by norm_num])
  simp only [List.map_cons, List.map_nil, abs_one, List.sum_cons, List.sum_nil, add_zero,
    List.foldl_cons, List.foldl_nil, List.length_cons, List.length_nil, Nat.zero_add] at z1 z2
  refine ⟨z, z1, ?_⟩
  rw [add_comm 1 s, add_comm 1 A]
  refine z2.trans (mul_le_mul_of_nonneg_right ?_ (by linarith))
  have := growth_le hK0 hK (n := n + 1) (by omega)
  push_cast at this
  linarith

/-! ### The terms of the formulas -/

theorem Spec.Usual.sq_mag {x : ℝ} (h : Usual x) (h0 : x ≠ 0) : Mag 60 |x ^ 2| := by
  rcases h.mag with h1 | h1
  · exact absurd h1 h0
  · have := h1.mul h1
    rwa [← abs_mul, ← pow_two] at this

theorem Spec.Usual.sq_le {x : ℝ} (h : Usual x) : |x ^ 2| ≤ 10 ^ 60 := by
  by_cases h0 : x = 0
  · rw [h0]; norm_num
  · exact (h.sq_mag h0).high

/-- A resonant term is at most `K` times its strength. -/
theorem resonant_le {a x y K : ℝ} (hK0 : 0 ≤ K) (hK : K ≤ 2 ^ 20) (ha : |a| ≤ 10 ^ 30)
    (h : |x| + |y| ≤ K * |x - y|) (hd : 0 < |x - y|) : |a * x / (x - y)| ≤ 10 ^ 120 := by
  rw [abs_div, abs_mul, div_le_iff₀ hd]
  have h1 : |x| ≤ K * |x - y| := by linarith [abs_nonneg y]
  have h2 : K * |x - y| ≤ 2 ^ 20 * |x - y| := mul_le_mul_of_nonneg_right hK hd.le
  calc |a| * |x| ≤ 10 ^ 30 * (2 ^ 20 * |x - y|) :=
        mul_le_mul ha (h1.trans h2) (abs_nonneg _) (by positivity)
    _ = (10 ^ 30 * 2 ^ 20) * |x - y| := by ring
    _ ≤ 10 ^ 120 * |x - y| := mul_le_mul_of_nonneg_right (by norm_num) hd.le

theorem resonance_term {K x A y Y : ℝ} {w a b : Dbl} (hK0 : 0 ≤ K) (hK : K ≤ 2 ^ 20)
    (hw : w.val = .fin x) (hx : Usual x) (hx0 : x ≠ 0) (ha : a.val = .fin A) (hA : Usual A)
    (hb : b.val = .fin Y) (hY : |Y - y| ≤ ur * |y|) (hy : |y| ≤ 10 ^ 60)
    (hres : |x ^ 2| + |y| ≤ K * |x ^ 2 - y|) :
    TermErr K (a * sqF w / (sqF w - b)) (A * x ^ 2 / (x ^ 2 - y)) := by
  obtain ⟨X, x1, x2⟩ := Dbl.sq_rel hw hx
  have hm := hx.sq_mag hx0
  have hd := gap_mag hK0 hK hres hm hy
  obtain ⟨P, p1, p2⟩ := Dbl.mul_rel ha x1 hA hm x2
  refine ratio_term p1 x1 hb p2 x2 hY hres hK0 hK ?_ hd hm.high hy
    (resonant_le hK0 hK hA.le hres hd.pos)
  rcases hA.mag with rfl | h
  · left; simp
  · right
    rw [abs_mul]
    exact h.mul hm

theorem gas_term {K x A y : ℝ} {w a b : Dbl} (hK0 : 0 ≤ K) (hK : K ≤ 2 ^ 20)
    (hw : w.val = .fin x) (hx : Usual x) (hx0 : 0 < x) (ha : a.val = .fin A) (hA : Usual A)
    (hb : b.val = .fin y) (hy : Usual y) (hres : |y| + 1 / x ^ 2 ≤ K * |y - 1 / x ^ 2|) :
    TermErr K (a / (b - PyFloat.pow w (lit (-2)))) (A / (y - 1 / x ^ 2)) := by
  have hu := ur_pos
  have hpos : 0 < 1 / x ^ 2 := by positivity
  have hm : Mag 60 |1 / x ^ 2| := by
    have := (hx.sq_mag hx0.ne').inv
    rwa [← abs_inv, ← one_div] at this
  have e : (PyFloat.pow w (lit (-2)) : Dbl) = Dbl.rnd (.fin (1 / x ^ 2)) := by
    show Dbl.rnd (PyFloat.pow w.val (lit (-2) : Dbl).val) = _
    rw [hw, show (lit (-2) : Dbl).val = XR.fin (-2) by
      have := Dbl.lit_int (n := -2) (by norm_num); simpa using this, XR.pow_pos hx0]
    congr 2
    rw [Real.rpow_neg hx0.le, one_div, Real.rpow_two]
  obtain ⟨Y, y1, y2⟩ := Dbl.rnd_rel (.inr (hm.mono (by norm_num)))
  rw [← e] at y1
  have hyle : |y| ≤ 10 ^ 60 := hy.le.trans (by norm_num)
  have hres' : |y| + |1 / x ^ 2| ≤ K * |y - 1 / x ^ 2| := by rwa [abs_of_pos hpos]
  have hd : Mag 70 |y - 1 / x ^ 2| := by
    rw [abs_sub_comm]
    exact gap_mag hK0 hK (by rw [abs_sub_comm, add_comm]; exact hres') hm hyle
  refine ratio_term ha hb y1 ?_ ?_ y2 hres' hK0 hK ?_ hd hyle hm.high ?_
  · rw [sub_self, abs_zero]; positivity
  · rw [sub_self, abs_zero]; positivity
  · exact hA.mag.imp id (·.mono (by norm_num))
  · rw [abs_div, div_eq_mul_inv]
    calc |A| * |y - 1 / x ^ 2|⁻¹ ≤ 10 ^ 30 * 10 ^ 70 :=
          mul_le_mul hA.le hd.inv.high hd.inv.pos.le (by positivity)
      _ ≤ 10 ^ 120 := by norm_num

/-- The square root of one plus the sum. -/
theorem root_one {K s S A r B : ℝ} {y : Dbl} {n : ℕ} (hK0 : 0 ≤ K) (hK : K ≤ 2 ^ 20)
    (hn : n < 2 ^ 20) (hy : y.val = .fin S) (h : |S - s| ≤ growth ((K + 8) * ur) n * A)
    (hA : A ≤ 10 ^ 130) (hs : |s| ≤ A) (hr : 1 + s = r) (hB : 1 + A = B)
    (hc : B ≤ 2 ^ 20 * r) :
    ∃ m v, PyFloat.sqrt (y + lit 1) = m ∧ m.val = .fin v ∧
      |v - Real.sqrt r| ≤ (n + K + 13) * (B / Real.sqrt r) / 2 ^ 53 := by
  obtain ⟨z, z1, z2⟩ := plus_one hK0 hK hn hy h hs hA
  rw [hr, hB] at z2
  have hA0 := (abs_nonneg s).trans hs
  have hn1 : (n : ℝ) ≤ 2 ^ 20 := by exact_mod_cast hn.le
  have hn0 : (0 : ℝ) ≤ n := Nat.cast_nonneg _
  obtain ⟨v, v1, v2⟩ := sqrt_sum_err (m := n + K + 11) z1
    (by linarith [show (0 : ℝ) < 2 ^ 20 by norm_num])
    (by rw [← hr, ← hB]; linarith [le_abs_self s]) hc
    (by rw [← hB]; linarith [show (10 : ℝ) ^ 130 + 1 ≤ 10 ^ 150 by norm_num])
    (by rw [← hB]; nlinarith [show (1 : ℝ) ≤ 10 ^ 100 by norm_num]) (by linarith)
    (by linarith [show (2 : ℝ) ^ 20 + 2 ^ 20 + 11 ≤ 2 ^ 22 by norm_num]) z2
  refine ⟨_, v, rfl, v1, v2.trans (le_of_eq ?_)⟩
  unfold ur
  ring

/-- C109: the index of a formula with any number of terms, in double precision. -/
theorem C109_at {k : Formula} {c x K n b : ℝ} {ps : List (ℝ × ℝ)} {p : List Dbl} {w : Dbl}
    (h : Conditioned k c ps x K n b) (hp : p.map Dbl.val = finList (c :: flat2 ps))
    (hw : w.val = .fin x) (hx : Usual x) (hx0 : 0 < x) (hc : Usual c)
    (hps : ∀ q ∈ ps, Usual q.1 ∧ Usual q.2) (hK0 : 0 ≤ K) (hK : K ≤ 2 ^ 20)
    (hN : ps.length < 2 ^ 20) :
    ∃ m v, k.at p w = .ok m ∧ m.val = .fin v ∧
      |v - n| ≤ (ps.length + K + 13) * b / 2 ^ 53 := by
  obtain ⟨a, ds, rfl, ha, hds⟩ := split_coeffs hp
  have hu := ur_pos
  have hNr : (ps.length : ℝ) ≤ 2 ^ 20 := by exact_mod_cast hN.le
  have hN0 : (0 : ℝ) ≤ ps.length := Nat.cast_nonneg _
  have hfin : ∀ (t B : ℝ), t * ur * B = t * B / 2 ^ 53 := fun t B => by unfold ur; ring
  have hs : ∀ (c : ℝ) (f : ℝ → ℝ → ℝ), |c + (ps.map fun p => f p.1 p.2).sum| ≤
      |c| + (ps.map fun p => |f p.1 p.2|).sum := fun c f =>
    (abs_add_le _ _).trans (add_le_add_right (abs_sum_le f ps) _)
  have hidx : pyIdx (a :: flat2 ds) 0 = .ok a := rfl
  cases h with
  | @sellmeier _ _ _ _ r A h hr hA hcn =>
    have ht : ∀ d q, q ∈ ps → PairOf d q →
        TermErr K (d.1 * sqF w / (sqF w - sqF d.2)) (q.1 * x ^ 2 / (x ^ 2 - q.2 ^ 2)) := by
      intro d q hq hd
      obtain ⟨Y, y1, y2⟩ := Dbl.sq_rel hd.2 (hps q hq).2
      refine resonance_term hK0 hK hw hx hx0.ne' hd.1 (hps q hq).1 y1 y2 (hps q hq).2.sq_le ?_
      rw [abs_of_nonneg (sq_nonneg x), abs_of_nonneg (sq_nonneg q.2)]
      exact h q hq
    obtain ⟨r', R, l1, l2, l3, l4⟩ := loop2_err (fun u v => u * sqF w / (sqF w - sqF v))
      (fun u v => u * x ^ 2 / (x ^ 2 - v ^ 2)) ha hc hK0 hK hN hds ht
    obtain ⟨m, v, m1, m2, m3⟩ := root_one hK0 hK hN l2 l3 l4 (hs c fun u v => u * x ^ 2 / (x ^ 2 - v ^ 2))
      (by rw [← add_assoc, ← hr]) (by rw [← add_assoc, ← hA]) hcn
    refine ⟨m, v, ?_, m2, m3⟩
    simp only [Formula.at]
    rw [(pairFormula_eq _ _).1, hidx]
    simp only [bind, Except.bind, l1, m1]
  | @sellmeier2 _ _ _ _ r A h hr hA hcn =>
    have ht : ∀ d q, q ∈ ps → PairOf d q →
        TermErr K (d.1 * sqF w / (sqF w - d.2)) (q.1 * x ^ 2 / (x ^ 2 - q.2)) := by
      intro d q hq hd
      refine resonance_term hK0 hK hw hx hx0.ne' hd.1 (hps q hq).1 hd.2
        (by rw [sub_self, abs_zero]; positivity) ((hps q hq).2.le.trans (by norm_num)) ?_
      rw [abs_of_nonneg (sq_nonneg x)]
      exact h q hq
    obtain ⟨r', R, l1, l2, l3, l4⟩ := loop2_err (fun u v => u * sqF w / (sqF w - v))
      (fun u v => u * x ^ 2 / (x ^ 2 - v)) ha hc hK0 hK hN hds ht
    obtain ⟨m, v, m1, m2, m3⟩ := root_one hK0 hK hN l2 l3 l4 (hs c fun u v => u * x ^ 2 / (x ^ 2 - v))
      (by rw [← add_assoc, ← hr]) (by rw [← add_assoc, ← hA]) hcn
    refine ⟨m, v, ?_, m2, m3⟩
    simp only [Formula.at]
    rw [(pairFormula_eq _ _).2.1, hidx]
    simp only [bind, Except.bind, l1, m1]
  | @polynomial _ _ _ r A h hr hA hcn h1 =>
    have ht : ∀ d q, q ∈ ps → PairOf d q →
        TermErr 0 (d.1 * PyFloat.pow w d.2) (q.1 * x ^ q.2) := fun d q hq hd =>
      power_term le_rfl hw hx0 hd.1 hd.2 (hps q hq).1 (h q hq)
    obtain ⟨r', R, l1, l2, l3, l4⟩ := loop2_err (fun u v => u * PyFloat.pow w v)
      (fun u v => u * x ^ v) ha hc hK0 hK hN hds ht
    rw [← hr, ← hA] at l3
    rw [← hA] at l4
    have hrA : |r| ≤ A := by rw [hr, hA]; exact hs c (fun u v => u * x ^ v)
    have hr0 : 0 < r := by linarith [show (0 : ℝ) < 2 ^ 20 by norm_num]
    have hA0 : 0 ≤ A := (abs_nonneg r).trans hrA
    obtain ⟨z, z1, z2⟩ := sqrt_sum_err (m := ps.length + 0 + 10) l2 hr0 ((le_abs_self r).trans hrA)
      hcn (l4.trans (by norm_num)) (by
        have := (le_abs_self r).trans hrA
        nlinarith [show (2 : ℝ) ^ 20 ≤ 10 ^ 100 by norm_num]) (by linarith)
      (by linarith [show (2 : ℝ) ^ 20 + 10 ≤ 2 ^ 22 by norm_num])
      (l3.trans (mul_le_mul_of_nonneg_right (growth_le le_rfl (by norm_num) hN.le) hA0))
    refine ⟨_, z, ?_, z1, z2.trans ?_⟩
    · simp only [Formula.at, polynomialAt]
      rw [(pairFormula_eq _ _).2.2.1, hidx]
      simp only [bind, Except.bind, l1]
    · rw [← hfin]
      exact mul_le_mul_of_nonneg_right (mul_le_mul_of_nonneg_right (by linarith) hu.le)
        (by positivity)
  | cauchy h =>
    have ht : ∀ d q, q ∈ ps → PairOf d q →
        TermErr 0 (d.1 * PyFloat.pow w d.2) (q.1 * x ^ q.2) := fun d q hq hd =>
      power_term le_rfl hw hx0 hd.1 hd.2 (hps q hq).1 (h q hq)
    obtain ⟨r', R, l1, l2, l3, l4⟩ := loop2_err (fun u v => u * PyFloat.pow w v)
      (fun u v => u * x ^ v) ha hc hK0 hK hN hds ht
    refine ⟨r', R, ?_, l2, l3.trans ?_⟩
    · simp only [Formula.at, cauchyAt]
      rw [(pairFormula_eq _ _).2.2.1, hidx]
      simp only [bind, Except.bind, l1]
    · rw [← hfin]
      refine mul_le_mul_of_nonneg_right ((growth_le le_rfl (by norm_num) hN.le).trans ?_)
        (add_nonneg (abs_nonneg c) (abs_sum_nonneg (fun u v => u * x ^ v) ps))
      exact mul_le_mul_of_nonneg_right (by linarith) hu.le
  | gases h =>
    have ht : ∀ d q, q ∈ ps → PairOf d q →
        TermErr K (d.1 / (d.2 - PyFloat.pow w (lit (-2)))) (q.1 / (q.2 - 1 / x ^ 2)) :=
      fun d q hq hd => gas_term hK0 hK hw hx hx0 hd.1 (hps q hq).1 hd.2 (hps q hq).2 (h q hq)
    obtain ⟨r', R, l1, l2, l3, l4⟩ := loop2_err (fun u v => u / (v - PyFloat.pow w (lit (-2))))
      (fun u v => u / (v - 1 / x ^ 2)) ha hc hK0 hK hN hds ht
    have hsum := hs c (fun u v => u / (v - 1 / x ^ 2))
    obtain ⟨z, z1, z2⟩ := plus_one hK0 hK hN l2 l3 hsum l4
    refine ⟨_, z, ?_, z1, ?_⟩
    · simp only [Formula.at]
      rw [(pairFormula_eq _ _).2.2.2, hidx]
      simp only [bind, Except.bind, l1]
    · rw [← hfin, add_assoc 1 c, add_assoc 1 |c|]
      refine z2.trans (mul_le_mul_of_nonneg_right ?_
        (by linarith [(abs_nonneg _).trans hsum]))
      exact mul_le_mul_of_nonneg_right (by linarith) hu.le

/-- The numbers of the formulas at refractiveindex.info. -/
def Spec.formulaNumber : Formula → ℕ
  | .sellmeier => 1
  | .sellmeier2 => 2
  | .polynomial => 3
  | .refractiveIndexInfo => 4
  | .cauchy => 5
  | .gases => 6
  | .herzberger => 7
  | .retro => 8
  | .exotic => 9
  | .fano => 0

/-- The exact value of C109 is the published one. -/
theorem C109_published {k : Formula} {c x K n b : ℝ} {ps : List (ℝ × ℝ)}
    (h : Conditioned k c ps x K n b) (hx : 0 < x) :
    Published (formulaNumber k) (c :: ps.flatMap fun p => [p.1, p.2]) x n := by
  have hx2 : 0 < x ^ 2 := by positivity
  cases h with
  | @sellmeier _ _ _ _ r A h hr hA hcn =>
    subst hr
    refine .sellmeier _ _ _ (fun p hp e => ?_) ?_
    · have := h p hp
      rw [e, sub_self, abs_zero, mul_zero] at this
      linarith [sq_nonneg p.2]
    · have := abs_sum_nonneg (fun u v => u * x ^ 2 / (x ^ 2 - v ^ 2)) ps
      have : 0 ≤ A := by rw [hA]; linarith [abs_nonneg c]
      linarith
  | @sellmeier2 _ _ _ _ r A h hr hA hcn =>
    subst hr
    refine .sellmeier2 _ _ _ (fun p hp e => ?_) ?_
    · have := h p hp
      rw [e, sub_self, abs_zero, mul_zero] at this
      linarith [abs_nonneg p.2]
    · have := abs_sum_nonneg (fun u v => u * x ^ 2 / (x ^ 2 - v)) ps
      have : 0 ≤ A := by rw [hA]; linarith [abs_nonneg c]
      linarith
  | @polynomial _ _ _ r A h hr hA hcn h1 =>
    subst hr
    exact .polynomial _ _ _ (by linarith)
  | cauchy h => exact .cauchy _ _ _
  | gases h =>
    refine .gases _ _ _ fun p hp e => ?_
    have := h p hp
    rw [e, sub_self, abs_zero, mul_zero] at this
    have : 0 < 1 / x ^ 2 := by positivity
    linarith [abs_nonneg (1 / x ^ 2)]

/-- C109: a model evaluated at a list of values, each converted to micrometres. -/
theorem C109_evaluate [SciPy Dbl] {k : Formula} {c K : ℝ} {ps : List (ℝ × ℝ)} {p : List Dbl}
    {raw : Raw Dbl} {d : RealData Dbl} (hd : RealData.newModel k p raw "wavelength" "um" = .ok d)
    (hp : p.map Dbl.val = finList (c :: flat2 ps)) (hc : Usual c)
    (hps : ∀ q ∈ ps, Usual q.1 ∧ Usual q.2) (hK0 : 0 ≤ K) (hK : K ≤ 2 ^ 20)
    (hN : ps.length < 2 ^ 20) {s : Spectrum Dbl} {v : Vals Dbl} (hv : (d.evaluate s).1 = .ok v) :
    ∃ ws, s.convertTo "wavelength" "um" = .ok ws ∧ v.toList.length = ws.toList.length ∧
      ∀ (i : ℕ) w x n b, ws.toList[i]? = some w → w.val = .fin x → 0 < x → Usual x →
        Conditioned k c ps x K n b →
        ∃ m y, v.toList[i]? = some m ∧ m.val = .fin y ∧
          |y - n| ≤ (ps.length + K + 13) * b / 2 ^ 53 := by
  obtain ⟨ws, h1, h2, h3⟩ := C17_evaluate k p raw _ _ d hd s v hv
  refine ⟨ws, h1, h2, fun i w x n b hi hw hx0 hx hcond => ?_⟩
  obtain ⟨m', hm, hat⟩ := h3 i w hi
  obtain ⟨m, y, e1, e2, e3⟩ := C109_at hcond hp hw hx hx0 hc hps hK0 hK hN
  rw [hat] at e1
  cases e1
  exact ⟨m', y, hm, e2, e3⟩

/-! ### A case with cancellation -/

theorem Dbl.lit_val {n : ℤ} {q : ℚ} {x : ℝ} (hq : q = n) (hx : x = n) (h : |n| ≤ 2 ^ 53) :
    (lit q : Dbl).val = .fin x := by
  rw [hq, hx]; exact Dbl.lit_int h

theorem Spec.Usual.of_int {x : ℝ} (n : ℤ) (h : x = n) (hn : |n| ≤ 1000) : Usual x := by
  by_cases h0 : n = 0
  · left; rw [h, h0]; simp
  · right
    have h1 : 1 ≤ |n| := Int.one_le_abs h0
    have h2 : (1 : ℝ) ≤ |x| := by rw [h]; exact_mod_cast h1
    have h3 : |x| ≤ 1000 := by rw [h]; exact_mod_cast hn
    exact ⟨le_trans (by norm_num) h2, h3.trans (by norm_num)⟩

/-- Sellmeier with resonances at 1 and 4 micrometres, at 2 micrometres: the terms are 4/3 and
-1/3, the index is the root of 2. -/
example : ∃ m v, Formula.sellmeier.at [(lit 0 : Dbl), lit 1, lit 1, lit 1, lit 4] (lit 2) = .ok m ∧
    m.val = .fin v ∧ |v - Real.sqrt 2| ≤ 17 * (8 / 3 / Real.sqrt 2) / 2 ^ 53 := by
  have h : Conditioned .sellmeier 0 [(1, 1), (1, 4)] 2 2 (Real.sqrt 2) (8 / 3 / Real.sqrt 2) := by
    refine .sellmeier ?_ ?_ ?_ ?_
    · intro p hp
      simp only [List.mem_cons, List.not_mem_nil, or_false] at hp
      rcases hp with rfl | rfl <;> norm_num [abs_of_pos, abs_of_neg]
    · norm_num
    · norm_num [abs_of_pos, abs_of_neg]
    · norm_num
  have := C109_at h (p := [(lit 0 : Dbl), lit 1, lit 1, lit 1, lit 4]) (w := lit 2)
    (by
      simp only [List.map_cons, List.map_nil, finList, flat2, List.flatMap_cons, List.flatMap_nil,
        List.cons_append, List.nil_append]
      rw [Dbl.lit_val (n := 0) (x := 0), Dbl.lit_val (n := 1) (x := 1),
        Dbl.lit_val (n := 4) (x := 4)] <;> norm_num)
    (Dbl.lit_val (n := 2) (by norm_num) (by norm_num) (by norm_num))
    (.of_int 2 (by norm_num) (by norm_num)) (by norm_num) (.of_int 0 (by norm_num) (by norm_num))
    (by
      intro q hq
      simp only [List.mem_cons, List.not_mem_nil, or_false] at hq
      rcases hq with rfl | rfl
      · exact ⟨.of_int 1 (by norm_num) (by norm_num), .of_int 1 (by norm_num) (by norm_num)⟩
      · exact ⟨.of_int 1 (by norm_num) (by norm_num), .of_int 4 (by norm_num) (by norm_num)⟩)
    (by norm_num) (by norm_num) (by norm_num)
  convert this using 7
  norm_num

end

end Disp
