import Verif.Lemmas.SciPyIdeal
import Mathlib.Algebra.Polynomial.Roots
import Mathlib.Algebra.Polynomial.Eval.Degree
/-!
# The splines of SciPy

Two facts about `splrep(x, y, k=k)` without smoothing and `splev` (which extends the first and the
last polynomial beyond the data): a spline of order one is the broken line through the points, and
points on a polynomial of degree at most `k` give this polynomial, since the interpolating spline
is unique. Theorems that need them take `SplineLaws` as a hypothesis; `splineDemo` shows that it
can be met together with `SciPyLaws`.
-/

namespace Disp

/-- `(x, y)` lies on the broken line through the points, whose first and last piece are extended
without end. -/
def Spec.Broken (xy : List (ℝ × ℝ)) (x y : ℝ) : Prop :=
  ∃ l1 a b l2, xy = l1 ++ a :: b :: l2 ∧ (l1 = [] ∨ a.1 ≤ x) ∧ (l2 = [] ∨ x ≤ b.1) ∧
    y = a.2 + (b.2 - a.2) * ((x - a.1) / (b.1 - a.1))

open Spec

/-- What is used of the interpolating splines. -/
class SplineLaws [SciPy XR] : Prop where
  line : ∀ (xy : List (ℝ × ℝ)) (spl : SciPy.Spl XR), 2 ≤ xy.length →
    (xy.map (·.1)).Pairwise (· < ·) →
    SciPy.splrep (xy.map (fun p => XR.fin p.1)) (xy.map (fun p => XR.fin p.2)) 1 = .ok spl →
    ∀ x y, Broken xy x y → SciPy.splev spl (XR.fin x) = XR.fin y
  poly : ∀ (xy : List (ℝ × ℝ)) (k : ℕ) (p : Polynomial ℝ) (spl : SciPy.Spl XR), 1 ≤ k → k ≤ 5 →
    k < xy.length → (xy.map (·.1)).Pairwise (· < ·) → p.natDegree ≤ k →
    (∀ q ∈ xy, p.eval q.1 = q.2) →
    SciPy.splrep (xy.map (fun p => XR.fin p.1)) (xy.map (fun p => XR.fin p.2)) k = .ok spl →
    ∀ x, SciPy.splev spl (XR.fin x) = XR.fin (p.eval x)

/-- At most one polynomial of degree `k` goes through more than `k` points. -/
theorem poly_unique {xy : List (ℝ × ℝ)} {k : ℕ} {p q : Polynomial ℝ} (hk : k < xy.length)
    (hs : (xy.map (·.1)).Pairwise (· < ·)) (hp : p.natDegree ≤ k) (hq : q.natDegree ≤ k)
    (ep : ∀ r ∈ xy, p.eval r.1 = r.2) (eq : ∀ r ∈ xy, q.eval r.1 = r.2) : p = q := by
  by_contra hne
  have h0 : p - q ≠ 0 := sub_ne_zero.2 hne
  have hd : (p - q).natDegree ≤ k := (Polynomial.natDegree_sub_le p q).trans (max_le hp hq)
  have hsub : (xy.map (·.1)).toFinset ⊆ (p - q).roots.toFinset := by
    intro x hx
    rw [List.mem_toFinset, List.mem_map] at hx
    obtain ⟨r, hr, rfl⟩ := hx
    rw [Multiset.mem_toFinset, Polynomial.mem_roots h0, Polynomial.IsRoot.def, Polynomial.eval_sub,
      ep r hr, eq r hr, sub_self]
  have hc : (xy.map (·.1)).toFinset.card = xy.length := by
    rw [List.toFinset_card_of_nodup (hs.imp (fun h => h.ne)), List.length_map]
  have h1 := Finset.card_le_card hsub
  have h2 := Multiset.toFinset_card_le (p - q).roots
  have h3 := (p - q).card_roots'
  omega

/-- There is only one broken line. -/
theorem broken_unique {xy : List (ℝ × ℝ)} (hs : (xy.map (·.1)).Pairwise (· < ·)) {x y y' : ℝ}
    (h : Broken xy x y) (h' : Broken xy x y') : y = y' := by
  obtain ⟨l1, a, b, l2, e, h1, h2, rfl⟩ := h
  obtain ⟨m1, c, d, m2, e', h3, h4, rfl⟩ := h'
  rw [List.pairwise_map] at hs
  have key : ∀ (l1 : List (ℝ × ℝ)) (a b : ℝ × ℝ) (l2 m1 : List (ℝ × ℝ)) (c d : ℝ × ℝ)
      (m2 : List (ℝ × ℝ)), (l1 ++ a :: b :: l2).Pairwise (fun p q => p.1 < q.1) →
      l1 ++ a :: b :: l2 = m1 ++ c :: d :: m2 → (l1 = [] ∨ a.1 ≤ x) → (l2 = [] ∨ x ≤ b.1) →
      (m1 = [] ∨ c.1 ≤ x) → (m2 = [] ∨ x ≤ d.1) →
      a.2 + (b.2 - a.2) * ((x - a.1) / (b.1 - a.1)) =
        c.2 + (d.2 - c.2) * ((x - c.1) / (d.1 - c.1)) := by
    intro l1
    induction l1 with
    | nil =>
      intro a b l2 m1 c d m2 hs e h1 h2 h3 h4
      cases m1 with
      | nil =>
        simp only [List.nil_append, List.cons.injEq] at e
        obtain ⟨rfl, rfl, -⟩ := e
        rfl
      | cons m m1 =>
        simp only [List.nil_append, List.cons_append, List.cons.injEq] at e
        obtain ⟨rfl, e⟩ := e
        replace h3 : c.1 ≤ x := h3.resolve_left (by simp)
        cases m1 with
        | nil =>
          simp only [List.nil_append, List.cons.injEq] at e
          obtain ⟨rfl, rfl⟩ := e
          have hab : a.1 < b.1 := (List.pairwise_cons.1 hs).1 b (by simp)
          have hbd : b.1 < d.1 :=
            (List.pairwise_cons.1 (List.pairwise_cons.1 hs).2).1 d (by simp)
          have h2 : x ≤ b.1 := h2.resolve_left (by simp)
          have hx : x = b.1 := le_antisymm h2 h3
          rw [hx, div_self (by linarith), sub_self, zero_div]
          ring
        | cons n m1 =>
          simp only [List.cons_append, List.cons.injEq] at e
          obtain ⟨rfl, rfl⟩ := e
          have hbc : b.1 < c.1 :=
            (List.pairwise_cons.1 (List.pairwise_cons.1 hs).2).1 c (by simp)
          have h2 : x ≤ b.1 := h2.resolve_left (by simp)
          linarith
    | cons l l1 ih =>
      intro a b l2 m1 c d m2 hs e h1 h2 h3 h4
      replace h1 : a.1 ≤ x := h1.resolve_left (by simp)
      cases m1 with
      | nil =>
        simp only [List.nil_append, List.cons_append, List.cons.injEq] at e
        obtain ⟨rfl, e⟩ := e
        cases l1 with
        | nil =>
          simp only [List.nil_append, List.cons.injEq] at e
          obtain ⟨rfl, rfl⟩ := e
          have hla : l.1 < a.1 := (List.pairwise_cons.1 hs).1 a (by simp)
          have hab : a.1 < b.1 := (List.pairwise_cons.1 (List.pairwise_cons.1 hs).2).1 b (by simp)
          have h4 : x ≤ a.1 := h4.resolve_left (by simp)
          have hx : x = a.1 := le_antisymm h4 h1
          rw [hx, sub_self, zero_div, div_self (by linarith)]
          ring
        | cons n l1 =>
          simp only [List.cons_append, List.cons.injEq] at e
          obtain ⟨rfl, rfl⟩ := e
          have hna : n.1 < a.1 := (List.pairwise_cons.1 (List.pairwise_cons.1 hs).2).1 a (by simp)
          have h4 : x ≤ n.1 := h4.resolve_left (by simp)
          linarith
      | cons m m1 =>
        simp only [List.cons_append, List.cons.injEq] at e hs
        exact ih a b l2 m1 c d m2 (List.pairwise_cons.1 hs).2 e.2 (.inr h1) h2
          (.inr (h3.resolve_left (by simp))) h4
  exact key _ _ _ _ _ _ _ _ (e ▸ hs) (e ▸ e') h1 h2 h3 h4

/-- A line of degree at most one through the points is the broken line. -/
theorem broken_poly {xy : List (ℝ × ℝ)} (hs : (xy.map (·.1)).Pairwise (· < ·)) {p : Polynomial ℝ}
    (hp : p.natDegree ≤ 1) (ep : ∀ r ∈ xy, p.eval r.1 = r.2) {x y : ℝ} (h : Broken xy x y) :
    y = p.eval x := by
  obtain ⟨l1, a, b, l2, rfl, -, -, rfl⟩ := h
  rw [List.pairwise_map] at hs
  have hab : a.1 < b.1 :=
    (List.pairwise_cons.1 (List.pairwise_append.1 hs).2.1).1 b (by simp)
  have hne : b.1 - a.1 ≠ 0 := by linarith
  rw [← ep a (by simp), ← ep b (by simp), Polynomial.eq_X_add_C_of_natDegree_le_one hp]
  simp only [Polynomial.eval_add, Polynomial.eval_mul, Polynomial.eval_C, Polynomial.eval_X]
  field_simp
  ring

/-- The broken line passes through the points. -/
theorem broken_point {xy : List (ℝ × ℝ)} (hl : 2 ≤ xy.length)
    (hs : (xy.map (·.1)).Pairwise (· < ·)) {r : ℝ × ℝ} (hr : r ∈ xy) : Broken xy r.1 r.2 := by
  rw [List.pairwise_map] at hs
  obtain ⟨l1, l2, rfl⟩ := List.append_of_mem hr
  cases l2 with
  | cons b l2 =>
    have hab : r.1 < b.1 := (List.pairwise_cons.1 (List.pairwise_append.1 hs).2.1).1 b (by simp)
    exact ⟨l1, r, b, l2, rfl, .inr le_rfl, .inr hab.le, by simp⟩
  | nil =>
    rcases List.eq_nil_or_concat l1 with rfl | ⟨l1, a, rfl⟩
    · simp at hl
    · rw [List.concat_eq_append] at hs ⊢
      have har : a.1 < r.1 := (List.pairwise_append.1 hs).2.2 a (by simp) r (by simp)
      refine ⟨l1, a, r, [], by simp, .inr har.le, .inl rfl, ?_⟩
      rw [div_self (by linarith)]
      ring

/-! ## A library that meets both contracts -/

/-- The real part of a value; the demonstration has no use for the others. -/
noncomputable def XR.real : XR → ℝ
  | .fin x => x
  | _ => 0

open Classical in
/-- The value of the demonstration's spline: the polynomial if there is one, else the broken line
for order one, else the data points. -/
noncomputable def demoSpline (xy : List (ℝ × ℝ)) (k : ℕ) (x : ℝ) : ℝ :=
  if h : ∃ p : Polynomial ℝ, p.natDegree ≤ k ∧ ∀ q ∈ xy, p.eval q.1 = q.2 then h.choose.eval x
  else if h : k = 1 ∧ ∃ y, Broken xy x y then h.2.choose
  else if h : ∃ y, (x, y) ∈ xy then h.choose else 0

noncomputable def splineDemo : SciPy XR where
  Spl := List (ℝ × ℝ) × ℕ
  geomspace := demoSciPy.geomspace
  splrep x y k := .ok ((x.map XR.real).zip (y.map XR.real), k)
  splev spl v := XR.fin (demoSpline spl.1 spl.2 v.real)
  interpK _ _ _ := .error .value

theorem demo_zip (xy : List (ℝ × ℝ)) :
    ((xy.map (fun p => XR.fin p.1)).map XR.real).zip ((xy.map (fun p => XR.fin p.2)).map XR.real) =
      xy := by
  induction xy with
  | nil => rfl
  | cons p xy ih => simp only [List.map_cons, List.zip_cons_cons, ih]; rfl

theorem demoSpline_poly {xy : List (ℝ × ℝ)} {k : ℕ} {p : Polynomial ℝ} (hk : k < xy.length)
    (hs : (xy.map (·.1)).Pairwise (· < ·)) (hp : p.natDegree ≤ k)
    (ep : ∀ r ∈ xy, p.eval r.1 = r.2) (x : ℝ) : demoSpline xy k x = p.eval x := by
  have h : ∃ p : Polynomial ℝ, p.natDegree ≤ k ∧ ∀ q ∈ xy, p.eval q.1 = q.2 := ⟨p, hp, ep⟩
  unfold demoSpline
  rw [dif_pos h, poly_unique hk hs h.choose_spec.1 hp h.choose_spec.2 ep]

theorem demoSpline_line {xy : List (ℝ × ℝ)} (hk : 2 ≤ xy.length)
    (hs : (xy.map (·.1)).Pairwise (· < ·)) {x y : ℝ} (hb : Broken xy x y) :
    demoSpline xy 1 x = y := by
  by_cases h : ∃ p : Polynomial ℝ, p.natDegree ≤ 1 ∧ ∀ q ∈ xy, p.eval q.1 = q.2
  · obtain ⟨p, hp, ep⟩ := h
    rw [demoSpline_poly (by omega) hs hp ep, broken_poly hs hp ep hb]
  · have h' : (1 : ℕ) = 1 ∧ ∃ y, Broken xy x y := ⟨rfl, y, hb⟩
    unfold demoSpline
    rw [dif_neg h, dif_pos h']
    exact broken_unique hs h'.2.choose_spec hb

theorem demoSpline_point {xy : List (ℝ × ℝ)} {k : ℕ} (hk : k < xy.length) (h1 : 1 ≤ k)
    (hs : (xy.map (·.1)).Pairwise (· < ·)) {r : ℝ × ℝ} (hr : r ∈ xy) :
    demoSpline xy k r.1 = r.2 := by
  by_cases h : ∃ p : Polynomial ℝ, p.natDegree ≤ k ∧ ∀ q ∈ xy, p.eval q.1 = q.2
  · obtain ⟨p, hp, ep⟩ := h
    rw [demoSpline_poly hk hs hp ep, ep r hr]
  · by_cases h1' : k = 1
    · subst h1'
      exact demoSpline_line (by omega) hs (broken_point (by omega) hs hr)
    · have h2 : ∃ y, (r.1, y) ∈ xy := ⟨r.2, hr⟩
      unfold demoSpline
      rw [dif_neg h, dif_neg (fun h => h1' h.1), dif_pos h2]
      have h3 := h2.choose_spec
      rw [List.pairwise_map] at hs
      by_contra hne
      have hs' : xy.Pairwise (fun a b => a.1 ≠ b.1) := hs.imp (fun h => h.ne)
      haveI : Std.Symm (fun a b : ℝ × ℝ => a.1 ≠ b.1) := ⟨fun _ _ h => h.symm⟩
      exact hs'.forall h3 hr (fun e => hne (congrArg Prod.snd e)) rfl

theorem splineDemo_laws : @SciPyLaws splineDemo :=
  letI := splineDemo
  { geom := (@SciPyLaws.geom demoSciPy demoSciPyLaws)
    geom_zero := (@SciPyLaws.geom_zero demoSciPy demoSciPyLaws)
    geom_to_zero := (@SciPyLaws.geom_to_zero demoSciPy demoSciPyLaws)
    spline := by
      intro xy k h1 _ h3 hs
      refine ⟨(xy, k), ?_, ?_⟩
      · show Except.ok (_, k) = _
        rw [demo_zip]
        rfl
      · intro p hp
        show XR.fin (demoSpline xy k p.1) = _
        rw [demoSpline_point h3 h1 hs hp] }

theorem splineDemo_splines : @SplineLaws splineDemo :=
  letI := splineDemo
  { line := by
      intro xy spl hl hs he x y hb
      have : spl = (xy, 1) := by
        have h := Except.ok.inj he
        rw [← h, demo_zip]
      subst this
      show XR.fin (demoSpline xy 1 x) = _
      rw [demoSpline_line hl hs hb]
    poly := by
      intro xy k p spl _ _ hl hs hp ep he x
      have : spl = (xy, k) := by
        have h := Except.ok.inj he
        rw [← h, demo_zip]
      subst this
      show XR.fin (demoSpline xy k x) = _
      rw [demoSpline_poly hl hs hp ep] }

end Disp
