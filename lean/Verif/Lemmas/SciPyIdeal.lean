import Mathlib.Data.List.OfFn
import Mathlib.Data.List.Pairwise
import Mathlib.Data.List.Nodup
import Verif.Model.SpectralData
import Verif.Lemmas.Laws
/-!
# Contracts of the black-box numerical functions on the ideal arithmetic

`SciPyLaws` states what NumPy and SciPy document about `geomspace`, `splrep` and `splev`.
Theorems that need it take it as a hypothesis; `demoSciPy` shows that it can be met.
-/

namespace Disp

/-- `np.geomspace(a, b, n)` on positive reals. -/
noncomputable def geomReal (a b : ℝ) (n : ℕ) : List ℝ :=
  List.ofFn (fun i : Fin n => a * (b / a) ^ ((i : ℝ) / ((n : ℝ) - 1)))

/-- The documented behaviour of `np.geomspace`, and of `splrep`/`splev` without smoothing. -/
class SciPyLaws [SciPy XR] : Prop where
  geom : ∀ (a b : ℝ) (n : ℕ), 0 < a → 0 < b → 2 ≤ n →
    SciPy.geomspace (XR.fin a) (XR.fin b) n = .ok ((geomReal a b n).map XR.fin)
  geom_zero : ∀ (b : XR) (n : ℕ), SciPy.geomspace (XR.fin 0) b n = .error .value
  geom_to_zero : ∀ (a : XR) (n : ℕ), SciPy.geomspace a (XR.fin 0) n = .error .value
  spline : ∀ (xy : List (ℝ × ℝ)) (k : ℕ), 1 ≤ k → k ≤ 5 → k < xy.length →
    (xy.map (·.1)).Pairwise (· < ·) →
    ∃ spl, SciPy.splrep (xy.map (fun p => XR.fin p.1)) (xy.map (fun p => XR.fin p.2)) k = .ok spl ∧
      ∀ p ∈ xy, SciPy.splev spl (XR.fin p.1) = XR.fin p.2

theorem geomReal_length (a b : ℝ) (n : ℕ) : (geomReal a b n).length = n := by
  simp [geomReal]

theorem geomReal_mem {a b : ℝ} (ha : 0 < a) (hab : a ≤ b) {n : ℕ} (hn : 2 ≤ n) {x : ℝ}
    (h : x ∈ geomReal a b n) : a ≤ x ∧ x ≤ b := by
  simp only [geomReal, List.mem_ofFn] at h
  obtain ⟨i, rfl⟩ := h
  have h1 : (1 : ℝ) ≤ b / a := by rwa [le_div_iff₀ ha, one_mul]
  have hn' : (0 : ℝ) < (n : ℝ) - 1 := by
    have : (2 : ℝ) ≤ n := by exact_mod_cast hn
    linarith
  have hi : (i : ℝ) ≤ (n : ℝ) - 1 := by
    have : (i : ℕ) + 1 ≤ n := i.2
    have : ((i : ℕ) : ℝ) + 1 ≤ n := by exact_mod_cast this
    linarith
  have he0 : (0 : ℝ) ≤ (i : ℝ) / ((n : ℝ) - 1) := by positivity
  have he1 : (i : ℝ) / ((n : ℝ) - 1) ≤ 1 := by rw [div_le_one hn']; exact hi
  constructor
  · have := Real.one_le_rpow h1 he0
    nlinarith
  · have h2 := Real.rpow_le_rpow_of_exponent_le h1 he1
    rw [Real.rpow_one] at h2
    calc a * (b / a) ^ ((i : ℝ) / ((n : ℝ) - 1)) ≤ a * (b / a) := by gcongr
      _ = b := by field_simp

theorem geomReal_pairwise {a b : ℝ} (ha : 0 < a) (hab : a < b) {n : ℕ} (hn : 2 ≤ n) :
    (geomReal a b n).Pairwise (· < ·) := by
  unfold geomReal
  rw [List.pairwise_ofFn]
  intro i j hij
  have h1 : (1 : ℝ) < b / a := by rwa [lt_div_iff₀ ha, one_mul]
  have hn' : (0 : ℝ) < (n : ℝ) - 1 := by
    have : (2 : ℝ) ≤ n := by exact_mod_cast hn
    linarith
  have hij' : ((i : ℕ) : ℝ) < ((j : ℕ) : ℝ) := by exact_mod_cast hij
  have : (i : ℝ) / ((n : ℝ) - 1) < (j : ℝ) / ((n : ℝ) - 1) := by gcongr
  have := Real.rpow_lt_rpow_of_exponent_lt h1 this
  gcongr

theorem geomReal_first {a b : ℝ} {n : ℕ} (hn : 2 ≤ n) : a ∈ geomReal a b n := by
  rw [geomReal, List.mem_ofFn]
  exact ⟨⟨0, by omega⟩, by simp⟩

theorem geomReal_last {a b : ℝ} (ha : 0 < a) {n : ℕ} (hn : 2 ≤ n) : b ∈ geomReal a b n := by
  rw [geomReal, List.mem_ofFn]
  refine ⟨⟨n - 1, by omega⟩, ?_⟩
  have hn' : (n : ℝ) - 1 ≠ 0 := by
    have : (2 : ℝ) ≤ n := by exact_mod_cast hn
    linarith
  have : ((n - 1 : ℕ) : ℝ) = (n : ℝ) - 1 := by
    rw [Nat.cast_sub (by omega)]; simp
  simp only [this, div_self hn', Real.rpow_one]
  field_simp

section demo
open Classical

/-- Look a point up in a list of pairs. -/
noncomputable def lookupXR (v : XR) : List (XR × XR) → XR
  | [] => XR.fin 0
  | (x, y) :: rest => if x = v then y else lookupXR v rest

/-- A library that meets the contract: its "splines" are the data points themselves and zero
elsewhere. -/
noncomputable def demoSciPy : SciPy XR where
  Spl := List (XR × XR)
  geomspace a b n :=
    match a, b with
    | .fin a, .fin b => if a = 0 ∨ b = 0 then .error .value else .ok ((geomReal a b n).map XR.fin)
    | _, _ => .error .value
  splrep x y _ := .ok (x.zip y)
  splev spl v := lookupXR v spl
  interpK _ _ _ := .error .value

theorem lookupXR_mem (xy : List (ℝ × ℝ)) (h : (xy.map (·.1)).Pairwise (· < ·)) (p : ℝ × ℝ)
    (hp : p ∈ xy) :
    lookupXR (XR.fin p.1) (xy.map (fun p => (XR.fin p.1, XR.fin p.2))) = XR.fin p.2 := by
  induction xy with
  | nil => cases hp
  | cons q qs ih =>
    rw [List.map_cons, List.pairwise_cons] at h
    simp only [List.map_cons, lookupXR]
    by_cases hq : q.1 = p.1
    · rw [if_pos (by rw [hq])]
      rcases List.mem_cons.1 hp with rfl | hp'
      · rfl
      · have := h.1 p.1 (List.mem_map_of_mem (f := Prod.fst) hp')
        exact absurd hq this.ne
    · rw [if_neg (fun h => hq (XR.fin_inj.1 h))]
      rcases List.mem_cons.1 hp with rfl | hp'
      · exact absurd rfl hq
      · exact ih h.2 hp'

theorem demoSciPyLaws : @SciPyLaws demoSciPy :=
  letI := demoSciPy
  { geom := by
      intro a b n ha hb _
      show (if a = 0 ∨ b = 0 then _ else _) = _
      rw [if_neg (by rintro (h | h) <;> linarith)]
    geom_zero := by
      intro b n
      cases b with
      | fin b =>
        show (if (0 : ℝ) = 0 ∨ b = 0 then _ else _) = _
        rw [if_pos (Or.inl rfl)]
      | pinf => rfl
      | ninf => rfl
      | nan => rfl
    geom_to_zero := by
      intro a n
      cases a with
      | fin a =>
        show (if a = 0 ∨ (0 : ℝ) = 0 then _ else _) = _
        rw [if_pos (Or.inr rfl)]
      | pinf => rfl
      | ninf => rfl
      | nan => rfl
    spline := by
      intro xy k _ _ _ hs
      refine ⟨_, rfl, ?_⟩
      intro p hp
      show lookupXR _ (List.zip _ _) = _
      have := lookupXR_mem xy hs p hp
      rw [List.zip_map', this] }

end demo

end Disp
