import Mathlib.Tactic.Linarith
import Mathlib.Tactic.NormNum
import Mathlib.Tactic.Positivity
import Mathlib.Tactic.FieldSimp
import Mathlib.Tactic.Ring
import Mathlib.Algebra.Order.Round
import Verif.Py.Ideal
/-!
# Lemmas about the ideal arithmetic
-/

namespace Disp
namespace XR

@[simp] theorem lit_eq (q : ℚ) : (lit q : XR) = fin q := rfl
@[simp] theorem add_fin (x y : ℝ) : (fin x + fin y : XR) = fin (x + y) := rfl
@[simp] theorem sub_fin (x y : ℝ) : (fin x - fin y : XR) = fin (x - y) := by
  show fin (x + -y) = _; rw [sub_eq_add_neg]
@[simp] theorem mul_fin (x y : ℝ) : (fin x * fin y : XR) = fin (x * y) := rfl
@[simp] theorem neg_fin (x : ℝ) : (-fin x : XR) = fin (-x) := rfl
theorem div_fin (x y : ℝ) :
    (fin x / fin y : XR) = if y = 0 then signInf x else fin (x / y) := rfl
theorem div_fin_of_ne (x : ℝ) {y : ℝ} (h : y ≠ 0) : (fin x / fin y : XR) = fin (x / y) := by
  rw [div_fin, if_neg h]
@[simp] theorem div_pinf (x : ℝ) : (fin x / pinf : XR) = fin 0 := rfl
@[simp] theorem div_ninf (x : ℝ) : (fin x / ninf : XR) = fin 0 := rfl
@[simp] theorem inf_eq : (PyFloat.inf : XR) = pinf := rfl
@[simp] theorem nan_eq : (PyFloat.nan : XR) = nan := rfl
@[simp] theorem pi_eq : (PyFloat.pi : XR) = fin Real.pi := rfl
@[simp] theorem mul_fin_pinf (x : ℝ) : (fin x * pinf : XR) = signInf x := rfl
@[simp] theorem mul_pinf_fin (x : ℝ) : (pinf * fin x : XR) = signInf x := rfl
@[simp] theorem mul_fin_nan (x : ℝ) : (fin x * nan : XR) = nan := rfl
@[simp] theorem mul_nan_fin (x : ℝ) : (nan * fin x : XR) = nan := rfl
theorem signInf_pos {x : ℝ} (h : 0 < x) : signInf x = pinf := if_pos h
@[simp] theorem round_fin (d : ℕ) (x : ℝ) : (PyFloat.round d (fin x) : XR) = fin (roundDec d x) := rfl
@[simp] theorem round_pinf (d : ℕ) : (PyFloat.round d pinf : XR) = pinf := rfl
@[simp] theorem round_nan (d : ℕ) : (PyFloat.round d nan : XR) = nan := rfl
@[simp] theorem abs_fin (x : ℝ) : (PyFloat.abs (fin x) : XR) = fin |x| := rfl
@[simp] theorem abs_pinf : (PyFloat.abs pinf : XR) = pinf := rfl
@[simp] theorem lt_fin (x y : ℝ) : (PyFloat.lt (fin x) (fin y)) = decide (x < y) := rfl
@[simp] theorem lt_fin_pinf (x : ℝ) : (PyFloat.lt (fin x) pinf) = true := rfl
@[simp] theorem lt_pinf (x : XR) : (PyFloat.lt pinf x) = false := by cases x <;> rfl
@[simp] theorem lt_nan_l (x : XR) : (PyFloat.lt nan x) = false := by cases x <;> rfl
@[simp] theorem lt_nan_r (x : XR) : (PyFloat.lt x nan) = false := by cases x <;> rfl
@[simp] theorem isNaN_fin (x : ℝ) : (PyFloat.isNaN (fin x)) = false := rfl
@[simp] theorem isNaN_pinf : (PyFloat.isNaN pinf) = false := rfl
@[simp] theorem isNaN_ninf : (PyFloat.isNaN ninf) = false := rfl
@[simp] theorem isNaN_nan : (PyFloat.isNaN nan) = true := rfl
@[simp] theorem le_fin (x y : ℝ) : (PyFloat.le (fin x) (fin y)) = decide (x ≤ y) := by
  show (!isNaN (fin x) && !isNaN (fin y) && !lt (fin y) (fin x)) = _
  simp only [isNaN, lt, Bool.not_false, Bool.true_and, ← decide_not, not_lt]
@[simp] theorem le_pinf_fin (x : ℝ) : (PyFloat.le pinf (fin x)) = false := by
  show (!isNaN pinf && !isNaN (fin x) && !lt (fin x) pinf) = _
  simp [isNaN, lt]
@[simp] theorem le_fin_pinf (x : ℝ) : (PyFloat.le (fin x) pinf) = true := by
  show (!isNaN (fin x) && !isNaN pinf && !lt pinf (fin x)) = _
  simp [isNaN, lt]
@[simp] theorem le_pinf_pinf : (PyFloat.le pinf pinf) = true := by
  show (!isNaN pinf && !isNaN pinf && !lt pinf pinf) = _
  simp [isNaN, lt]
@[simp] theorem eq_fin (x y : ℝ) : (PyFloat.eq (fin x) (fin y)) = decide (x = y) := by
  show (le (fin x) (fin y) && le (fin y) (fin x)) = _
  have h1 := le_fin x y
  have h2 := le_fin y x
  change le (fin x) (fin y) = _ at h1
  change le (fin y) (fin x) = _ at h2
  rw [h1, h2]
  simp [le_antisymm_iff]
@[simp] theorem eq_fin_pinf (x : ℝ) : (PyFloat.eq (fin x) pinf) = false := by
  show (le (fin x) pinf && le pinf (fin x)) = _
  have h2 := le_pinf_fin x
  change le pinf (fin x) = _ at h2
  rw [h2]; simp
@[simp] theorem eq_pinf_fin (x : ℝ) : (PyFloat.eq pinf (fin x)) = false := by
  show (le pinf (fin x) && le (fin x) pinf) = _
  have h2 := le_pinf_fin x
  change le pinf (fin x) = _ at h2
  rw [h2]; simp
@[simp] theorem eq_pinf_pinf : (PyFloat.eq pinf pinf) = true := by
  show (le pinf pinf && le pinf pinf) = _
  have h2 := le_pinf_pinf
  change le pinf pinf = _ at h2
  rw [h2]; rfl
@[simp] theorem sqrt_fin_nonneg {x : ℝ} (h : 0 ≤ x) : (PyFloat.sqrt (fin x) : XR) = fin (Real.sqrt x) := by
  show (if x < 0 then nan else fin (Real.sqrt x)) = _
  rw [if_neg (not_lt.mpr h)]

theorem fin_inj {x y : ℝ} : (fin x = fin y) ↔ x = y := by
  constructor
  · intro h; cases h; rfl
  · rintro rfl; rfl

instance : LawfulCmp XR where
  lt_nan_left x y h := by cases x <;> simp_all
  lt_nan_right x y h := by cases y <;> simp_all
  lt_irrefl x := by cases x <;> first | simp | rfl
  lt_trans x y z := by
    cases x <;> cases y <;> cases z <;>
      first
        | (simp only [lt_fin, decide_eq_true_eq]; exact lt_trans)
        | (intro h1 h2; first | rfl | (cases h1; done) | cases h2)
  lt_cotrans x y z hy h := by
    cases x <;> cases y <;> cases z <;>
      first
        | (simp only [lt_fin, decide_eq_true_eq] at h ⊢; exact lt_or_ge _ _ |>.imp_right (fun h' => lt_of_le_of_lt h' h))
        | (left; rfl)
        | (right; rfl)
        | (cases hy; done)
        | cases h
  le_eq_not_lt x y hx hy := by
    show (!isNaN x && !isNaN y && !lt y x) = !lt y x
    have hx' : isNaN x = false := hx
    have hy' : isNaN y = false := hy
    simp [hx', hy']
  le_nan_left x y h := by
    have h' : isNaN x = true := h
    show (!isNaN x && !isNaN y && !lt y x) = false
    simp [h']
  le_nan_right x y h := by
    have h' : isNaN y = true := h
    show (!isNaN x && !isNaN y && !lt y x) = false
    simp [h']
  eq_iff x y := rfl

/-! ### Rounding -/

theorem rint_sub_le (x : ℝ) : |(rint x : ℝ) - x| ≤ 1 / 2 := by
  have h1 := Int.floor_le x
  have h2 := Int.lt_floor_add_one x
  unfold rint
  rw [abs_le]
  split_ifs <;> push_cast <;> constructor <;> linarith

theorem rint_int (n : ℤ) : rint (n : ℝ) = n := by
  unfold rint; simp

theorem rint_mono {x y : ℝ} (h : x ≤ y) : rint x ≤ rint y := by
  have hf : ⌊x⌋ ≤ ⌊y⌋ := Int.floor_mono h
  have hx1 := Int.floor_le x
  have hx2 := Int.lt_floor_add_one x
  have hy1 := Int.floor_le y
  have hy2 := Int.lt_floor_add_one y
  rcases hf.lt_or_eq with hlt | heq
  · have hle : ⌊x⌋ + 1 ≤ ⌊y⌋ := hlt
    have a : rint x ≤ ⌊x⌋ + 1 := by unfold rint; split_ifs <;> omega
    have b : ⌊y⌋ ≤ rint y := by unfold rint; split_ifs <;> omega
    omega
  · unfold rint
    rw [← heq] at hy1 hy2 ⊢
    split_ifs <;> first | omega | (exfalso; linarith)

theorem roundDec_sub_le (d : ℕ) (x : ℝ) : |roundDec d x - x| ≤ 1 / 2 / 10 ^ d := by
  have hp : (0 : ℝ) < 10 ^ d := by positivity
  have h := rint_sub_le (x * 10 ^ d)
  unfold roundDec
  have e : (rint (x * 10 ^ d) : ℝ) / 10 ^ d - x = ((rint (x * 10 ^ d) : ℝ) - x * 10 ^ d) / 10 ^ d := by
    field_simp
  rw [e, abs_div, abs_of_pos hp]
  gcongr

theorem roundDec_mono (d : ℕ) {x y : ℝ} (h : x ≤ y) : roundDec d x ≤ roundDec d y := by
  unfold roundDec
  have : x * 10 ^ d ≤ y * 10 ^ d := by gcongr
  have := rint_mono this
  have : (rint (x * 10 ^ d) : ℝ) ≤ rint (y * 10 ^ d) := by exact_mod_cast this
  gcongr

theorem roundDec_grid (d : ℕ) (m : ℤ) : roundDec d ((m : ℝ) / 10 ^ d) = (m : ℝ) / 10 ^ d := by
  have hp : (10 : ℝ) ^ d ≠ 0 := by positivity
  unfold roundDec
  rw [div_mul_cancel₀ _ hp, rint_int]

theorem roundDec_idem (d : ℕ) (x : ℝ) : roundDec d (roundDec d x) = roundDec d x := by
  conv_lhs => rw [roundDec.eq_def d x]
  rw [roundDec_grid]; rfl

theorem roundDec_zero (d : ℕ) : roundDec d 0 = 0 := by
  have := roundDec_grid d 0; simpa using this

theorem roundDec_nonneg (d : ℕ) {x : ℝ} (h : 0 ≤ x) : 0 ≤ roundDec d x := by
  have := roundDec_mono d h; rwa [roundDec_zero] at this

/-- Rounding is exact on values with at most `d` decimals; `m` is the scaled integer. -/
theorem roundDec_eq_of_int (d : ℕ) {x : ℝ} (m : ℤ) (h : x * 10 ^ d = m) : roundDec d x = x := by
  have hp : (10 : ℝ) ^ d ≠ 0 := by positivity
  have : x = (m : ℝ) / 10 ^ d := by rw [← h]; field_simp
  rw [this, roundDec_grid]

/-- Value of a rounding, given a near integer. -/
theorem roundDec_eq_of_near (d : ℕ) {x : ℝ} (m : ℤ) (h : |x * 10 ^ d - m| < 1 / 2) :
    roundDec d x = (m : ℝ) / 10 ^ d := by
  unfold roundDec
  have : rint (x * 10 ^ d) = m := by
    have h2 := rint_sub_le (x * 10 ^ d)
    have h3 : |(rint (x * 10 ^ d) : ℝ) - m| < 1 := by
      have := abs_sub_le (rint (x * 10 ^ d) : ℝ) (x * 10 ^ d) m
      linarith
    have h4 : |rint (x * 10 ^ d) - m| < 1 := by exact_mod_cast h3
    have := Int.abs_lt_one_iff.mp h4
    omega
  rw [this]

end XR
end Disp
