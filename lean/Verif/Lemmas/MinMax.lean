import Verif.Model.Spectrum
import Verif.Py.Float
/-!
# Facts about `np.min` and `np.max` under the laws of IEEE comparison
-/

namespace Disp

variable {F : Type} [PyFloat F] [LawfulCmp F]

/-- No entry is NaN. -/
def NoNaN (xs : List F) : Prop := ∀ x ∈ xs, PyFloat.isNaN x = false

omit [LawfulCmp F] in
theorem NoNaN.cons {x : F} {xs : List F} (h : NoNaN (x :: xs)) :
    PyFloat.isNaN x = false ∧ NoNaN xs :=
  ⟨h x (List.mem_cons_self ..), fun y hy => h y (List.mem_cons_of_mem _ hy)⟩

theorem not_lt_trans {x y z : F} (hy : PyFloat.isNaN y = false) (h1 : PyFloat.lt x y = false)
    (h2 : PyFloat.lt y z = false) : PyFloat.lt x z = false := by
  cases h : PyFloat.lt x z with
  | false => rfl
  | true =>
    rcases LawfulCmp.lt_cotrans x y z hy h with h' | h'
    · rw [h1] at h'; cases h'
    · rw [h2] at h'; cases h'

theorem lt_asymm' {x y : F} (h : PyFloat.lt x y = true) : PyFloat.lt y x = false := by
  cases h' : PyFloat.lt y x with
  | false => rfl
  | true =>
    have := LawfulCmp.lt_trans x y x h h'
    rw [LawfulCmp.lt_irrefl] at this; cases this

theorem npMinList_spec : ∀ (xs : List F) (x : F), NoNaN (x :: xs) →
    npMinList x xs ∈ x :: xs ∧ ∀ y ∈ x :: xs, PyFloat.lt y (npMinList x xs) = false := by
  intro xs
  induction xs with
  | nil =>
    intro x _
    refine ⟨List.mem_cons_self .., ?_⟩
    intro y hy
    rw [List.mem_singleton] at hy; subst hy
    exact LawfulCmp.lt_irrefl _
  | cons a xs ih =>
    intro x hn
    obtain ⟨hx, hn'⟩ := hn.cons
    obtain ⟨ha, hxs⟩ := hn'.cons
    have hstep : npMinList x (a :: xs) = npMinList (if PyFloat.lt a x then a else x) xs := by
      simp [npMinList, hx, ha]
    rw [hstep]
    cases hlt : PyFloat.lt a x with
    | true =>
      obtain ⟨m1, m2⟩ := ih a hn'
      simp only [if_true]
      refine ⟨List.mem_cons_of_mem _ m1, ?_⟩
      intro y hy
      rcases List.mem_cons.1 hy with rfl | hy
      · exact not_lt_trans ha (lt_asymm' hlt) (m2 a (List.mem_cons_self ..))
      · exact m2 y hy
    | false =>
      have hnx : NoNaN (x :: xs) := by
        intro y hy
        rcases List.mem_cons.1 hy with rfl | hy
        · exact hx
        · exact hxs y hy
      obtain ⟨m1, m2⟩ := ih x hnx
      simp only [Bool.false_eq_true, if_false]
      refine ⟨?_, ?_⟩
      · rcases List.mem_cons.1 m1 with h | h
        · rw [h]; exact List.mem_cons_self ..
        · exact List.mem_cons_of_mem _ (List.mem_cons_of_mem _ h)
      · intro y hy
        rcases List.mem_cons.1 hy with rfl | hy
        · exact m2 _ (List.mem_cons_self ..)
        · rcases List.mem_cons.1 hy with rfl | hy
          · exact not_lt_trans hx hlt (m2 x (List.mem_cons_self ..))
          · exact m2 y (List.mem_cons_of_mem _ hy)

theorem npMaxList_spec : ∀ (xs : List F) (x : F), NoNaN (x :: xs) →
    npMaxList x xs ∈ x :: xs ∧ ∀ y ∈ x :: xs, PyFloat.lt (npMaxList x xs) y = false := by
  intro xs
  induction xs with
  | nil =>
    intro x _
    refine ⟨List.mem_cons_self .., ?_⟩
    intro y hy
    rw [List.mem_singleton] at hy; subst hy
    exact LawfulCmp.lt_irrefl _
  | cons a xs ih =>
    intro x hn
    obtain ⟨hx, hn'⟩ := hn.cons
    obtain ⟨ha, hxs⟩ := hn'.cons
    have hstep : npMaxList x (a :: xs) = npMaxList (if PyFloat.lt x a then a else x) xs := by
      simp [npMaxList, hx, ha]
    rw [hstep]
    cases hlt : PyFloat.lt x a with
    | true =>
      obtain ⟨m1, m2⟩ := ih a hn'
      simp only [if_true]
      refine ⟨List.mem_cons_of_mem _ m1, ?_⟩
      intro y hy
      rcases List.mem_cons.1 hy with rfl | hy
      · exact not_lt_trans ha (m2 a (List.mem_cons_self ..)) (lt_asymm' hlt)
      · exact m2 y hy
    | false =>
      have hnx : NoNaN (x :: xs) := by
        intro y hy
        rcases List.mem_cons.1 hy with rfl | hy
        · exact hx
        · exact hxs y hy
      obtain ⟨m1, m2⟩ := ih x hnx
      simp only [Bool.false_eq_true, if_false]
      refine ⟨?_, ?_⟩
      · rcases List.mem_cons.1 m1 with h | h
        · rw [h]; exact List.mem_cons_self ..
        · exact List.mem_cons_of_mem _ (List.mem_cons_of_mem _ h)
      · intro y hy
        rcases List.mem_cons.1 hy with rfl | hy
        · exact m2 _ (List.mem_cons_self ..)
        · rcases List.mem_cons.1 hy with rfl | hy
          · exact not_lt_trans hx (m2 x (List.mem_cons_self ..)) hlt
          · exact m2 y (List.mem_cons_of_mem _ hy)

/-- `np.min` of a non-empty NaN-free sequence is one of its entries and none is smaller. -/
theorem npMin_spec (v : Vals F) (hne : v.toList ≠ []) (hn : NoNaN v.toList) :
    ∃ m, npMin v = .ok m ∧ m ∈ v.toList ∧ ∀ y ∈ v.toList, PyFloat.lt y m = false := by
  unfold npMin
  cases hv : v.toList with
  | nil => exact absurd hv hne
  | cons x xs =>
    rw [hv] at hn
    obtain ⟨h1, h2⟩ := npMinList_spec xs x hn
    exact ⟨_, rfl, h1, h2⟩

theorem npMax_spec (v : Vals F) (hne : v.toList ≠ []) (hn : NoNaN v.toList) :
    ∃ m, npMax v = .ok m ∧ m ∈ v.toList ∧ ∀ y ∈ v.toList, PyFloat.lt m y = false := by
  unfold npMax
  cases hv : v.toList with
  | nil => exact absurd hv hne
  | cons x xs =>
    rw [hv] at hn
    obtain ⟨h1, h2⟩ := npMaxList_spec xs x hn
    exact ⟨_, rfl, h1, h2⟩

end Disp
