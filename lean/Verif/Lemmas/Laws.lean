import Verif.Lemmas.MinMax
import Verif.Lemmas.Ideal
/-!
# Further laws of floats, and facts about the ideal arithmetic
-/

namespace Disp

/-- Multiplication by `1.0` is exact (binary64: yes). -/
class LawfulOne (F : Type) [PyFloat F] : Prop where
  mul_one : ∀ x : F, x * lit 1 = x

/-- Truncation of a float to an integer is monotone and idempotent. -/
class LawfulTrunc (F : Type) [PyFloat F] : Prop where
  trunc_mono : ∀ x y : F, PyFloat.le x y = true →
    PyFloat.le (PyFloat.trunc x) (PyFloat.trunc y) = true
  trunc_idem : ∀ x : F, PyFloat.trunc (PyFloat.trunc x) = PyFloat.trunc x

instance : LawfulOne XR where
  mul_one x := by
    cases x with
    | fin x => simp
    | pinf => show XR.signInf _ = _; rw [XR.signInf_pos (by norm_num)]
    | ninf => show XR.signInf _ = _; simp [XR.signInf]
    | nan => rfl

namespace XR

theorem le_iff_not_lt (x y : XR) :
    PyFloat.le x y = true ↔ PyFloat.isNaN x = false ∧ PyFloat.isNaN y = false ∧
      PyFloat.lt y x = false := by
  cases hx : PyFloat.isNaN x with
  | true => rw [LawfulCmp.le_nan_left _ _ hx]; simp
  | false =>
    cases hy : PyFloat.isNaN y with
    | true => rw [LawfulCmp.le_nan_right _ _ hy]; simp
    | false => rw [LawfulCmp.le_eq_not_lt _ _ hx hy]; simp

theorem trunc_fin (x : ℝ) :
    (PyFloat.trunc (fin x) : XR) = fin (if x < 0 then (⌈x⌉ : ℝ) else (⌊x⌋ : ℝ)) := rfl

theorem trunc_real_mono {x y : ℝ} (h : x ≤ y) :
    (if x < 0 then (⌈x⌉ : ℝ) else (⌊x⌋ : ℝ)) ≤ (if y < 0 then (⌈y⌉ : ℝ) else (⌊y⌋ : ℝ)) := by
  split_ifs with hx hy hy
  · exact_mod_cast Int.ceil_mono h
  · have h1 : ⌈x⌉ ≤ 0 := Int.ceil_le.2 (by simpa using hx.le)
    have h2 : 0 ≤ ⌊y⌋ := Int.floor_nonneg.2 (not_lt.1 hy)
    exact_mod_cast h1.trans h2
  · linarith
  · exact_mod_cast Int.floor_mono h

end XR

instance : LawfulTrunc XR where
  trunc_mono x y h := by
    cases x with
    | nan => rw [LawfulCmp.le_nan_left _ _ rfl] at h; cases h
    | pinf => cases y <;> exact h
    | ninf =>
      cases y with
      | fin y => rfl
      | pinf => exact h
      | ninf => exact h
      | nan => exact h
    | fin x =>
      cases y with
      | fin y =>
        rw [XR.trunc_fin, XR.trunc_fin]
        simp only [XR.le_fin, decide_eq_true_eq] at h ⊢
        exact XR.trunc_real_mono h
      | pinf => rfl
      | ninf => simp [XR.le_iff_not_lt] at h; cases h
      | nan => rw [LawfulCmp.le_nan_right _ _ rfl] at h; cases h
  trunc_idem x := by
    cases x with
    | fin x =>
      rw [XR.trunc_fin, XR.trunc_fin]
      congr 1
      split_ifs <;> simp_all
    | pinf => rfl
    | ninf => rfl
    | nan => rfl

section
variable {F : Type} [PyFloat F] [LawfulCmp F]

theorem le_noNaN {x y : F} (h : PyFloat.le x y = true) :
    PyFloat.isNaN x = false ∧ PyFloat.isNaN y = false := by
  constructor
  · cases hx : PyFloat.isNaN x with
    | false => rfl
    | true => rw [LawfulCmp.le_nan_left _ _ hx] at h; cases h
  · cases hy : PyFloat.isNaN y with
    | false => rfl
    | true => rw [LawfulCmp.le_nan_right _ _ hy] at h; cases h

theorem le_iff {x y : F} : PyFloat.le x y = true ↔
    PyFloat.isNaN x = false ∧ PyFloat.isNaN y = false ∧ PyFloat.lt y x = false := by
  constructor
  · intro h
    obtain ⟨h1, h2⟩ := le_noNaN h
    rw [LawfulCmp.le_eq_not_lt _ _ h1 h2] at h
    exact ⟨h1, h2, by simpa using h⟩
  · rintro ⟨h1, h2, h3⟩
    rw [LawfulCmp.le_eq_not_lt _ _ h1 h2, h3]; rfl

theorem le_refl' {x : F} (h : PyFloat.isNaN x = false) : PyFloat.le x x = true :=
  le_iff.2 ⟨h, h, LawfulCmp.lt_irrefl x⟩

theorem le_trans' {x y z : F} (h1 : PyFloat.le x y = true) (h2 : PyFloat.le y z = true) :
    PyFloat.le x z = true := by
  obtain ⟨a1, a2, a3⟩ := le_iff.1 h1
  obtain ⟨b1, b2, b3⟩ := le_iff.1 h2
  exact le_iff.2 ⟨a1, b2, not_lt_trans a2 b3 a3⟩

theorem lt_noNaN {x y : F} (h : PyFloat.lt x y = true) :
    PyFloat.isNaN x = false ∧ PyFloat.isNaN y = false := by
  constructor
  · cases hx : PyFloat.isNaN x with
    | false => rfl
    | true => rw [LawfulCmp.lt_nan_left _ _ hx] at h; cases h
  · cases hy : PyFloat.isNaN y with
    | false => rfl
    | true => rw [LawfulCmp.lt_nan_right _ _ hy] at h; cases h

theorem le_of_lt' {x y : F} (h : PyFloat.lt x y = true) : PyFloat.le x y = true := by
  obtain ⟨h1, h2⟩ := lt_noNaN h
  exact le_iff.2 ⟨h1, h2, lt_asymm' h⟩

theorem le_total' {x y : F} (hx : PyFloat.isNaN x = false) (hy : PyFloat.isNaN y = false) :
    PyFloat.le x y = true ∨ PyFloat.lt y x = true := by
  cases h : PyFloat.lt y x with
  | true => exact Or.inr rfl
  | false => exact Or.inl (le_iff.2 ⟨hx, hy, h⟩)

end

/-- Elements of a successful `mapM`. -/
theorem mapM_getElem {α β : Type} (f : α → Res β) : ∀ (xs : List α) (ys : List β),
    xs.mapM f = .ok ys → xs.length = ys.length ∧
      ∀ (i : ℕ) x, xs[i]? = some x → ∃ y, f x = .ok y ∧ ys[i]? = some y := by
  intro xs
  induction xs with
  | nil =>
    intro ys h
    have : ys = [] := by cases h; rfl
    subst this
    exact ⟨rfl, by intro i x hx; simp at hx⟩
  | cons a xs ih =>
    intro ys h
    rw [List.mapM_cons] at h
    cases hf : f a with
    | error e => rw [hf] at h; cases h
    | ok b =>
      cases hm : xs.mapM f with
      | error e => rw [hf, hm] at h; cases h
      | ok bs =>
        rw [hf, hm] at h
        have : ys = b :: bs := by cases h; rfl
        subst this
        obtain ⟨h1, h2⟩ := ih bs hm
        refine ⟨by simp [h1], ?_⟩
        intro i x hx
        cases i with
        | zero => simp at hx; subst hx; exact ⟨b, hf, rfl⟩
        | succ i => simp at hx; obtain ⟨y, hy1, hy2⟩ := h2 i x hx; exact ⟨y, hy1, by simpa using hy2⟩

/-- `mapM` with a function that succeeds on every element. -/
theorem mapM_ok_of {α β : Type} {f : α → Res β} {g : α → β} {xs : List α}
    (h : ∀ x ∈ xs, f x = .ok (g x)) : xs.mapM f = .ok (xs.map g) := by
  induction xs with
  | nil => rfl
  | cons a xs ih =>
    rw [List.mapM_cons, h a (List.mem_cons_self ..),
      ih (fun x hx => h x (List.mem_cons_of_mem _ hx))]
    rfl

end Disp
