import Mathlib.Data.Int.Log
import Verif.Lemmas.Laws
/-!
# IEEE 754 binary64

The finite doubles are the numbers `m * 2^e` with `|m| < 2^53` and `-1074 ≤ e ≤ 971`. Operations
round the exact result to nearest, ties to even, with gradual underflow and overflow to infinity.
`np.round` multiplies, rounds to an integer and divides, as NumPy does. Simplified: a single zero,
a single NaN, and elementary functions (`sqrt`, `pow`, `log`, `arctan`) that are correctly rounded.
-/

namespace Disp

/-- The finite doubles. -/
def IsDouble (x : ℝ) : Prop :=
  ∃ m e : ℤ, |m| < 2 ^ 53 ∧ -1074 ≤ e ∧ e ≤ 971 ∧ x = m * (2 : ℝ) ^ e

noncomputable section

/-- The exponent of the last place of a number. -/
def ulpExp (x : ℝ) : ℤ := max (Int.log 2 |x| - 52) (-1074)

/-- Rounding to 53 bits, ties to even; exponents are bounded below only. -/
def nearest (x : ℝ) : ℝ := (XR.rint (x / 2 ^ ulpExp x) : ℝ) * 2 ^ ulpExp x

theorem two_zpow_pos (e : ℤ) : (0 : ℝ) < 2 ^ e := zpow_pos (by norm_num) e

theorem abs_lt_zpow (x : ℝ) : |x| < 2 ^ (ulpExp x + 53) := by
  have h := Int.lt_zpow_succ_log_self (b := 2) (by norm_num) |x|
  refine lt_of_lt_of_le (by exact_mod_cast h) ?_
  refine zpow_le_zpow_right₀ (by norm_num) ?_
  have := le_max_left (Int.log 2 |x| - 52) (-1074)
  unfold ulpExp; omega

theorem scaled_lt (x : ℝ) : |x / 2 ^ ulpExp x| < 2 ^ 53 := by
  rw [abs_div, abs_of_pos (two_zpow_pos _), div_lt_iff₀ (two_zpow_pos _)]
  have h := abs_lt_zpow x
  rw [add_comm, zpow_add₀ (by norm_num)] at h
  exact_mod_cast h

theorem rint_abs_le {x : ℝ} {n : ℤ} (h : |x| ≤ n) : |XR.rint x| ≤ n := by
  obtain ⟨h1, h2⟩ := abs_le.1 h
  rw [abs_le]
  constructor
  · have := XR.rint_mono (show ((-n : ℤ) : ℝ) ≤ x by push_cast; exact h1)
    rwa [XR.rint_int] at this
  · have := XR.rint_mono h2
    rwa [XR.rint_int] at this

theorem rint_abs_ge {x : ℝ} {n : ℤ} (h : (n : ℝ) ≤ |x|) : n ≤ |XR.rint x| := by
  rcases le_abs.1 h with h | h
  · have := XR.rint_mono h
    rw [XR.rint_int] at this
    exact this.trans (le_abs_self _)
  · have := XR.rint_mono (show x ≤ ((-n : ℤ) : ℝ) by push_cast; linarith)
    rw [XR.rint_int] at this
    exact (by omega : n ≤ -XR.rint x).trans (neg_le_abs _)

theorem nearest_abs_le (x : ℝ) : |XR.rint (x / 2 ^ ulpExp x)| ≤ 2 ^ 53 := by
  have h := rint_abs_le (n := 2 ^ 53) (by exact_mod_cast (scaled_lt x).le)
  exact h

/-- A rounded number that does not overflow is a double. -/
theorem nearest_isDouble {x : ℝ} (h : |nearest x| < 2 ^ 1024) : IsDouble (nearest x) := by
  have hm := nearest_abs_le x
  have he : -1074 ≤ ulpExp x := le_max_right _ _
  have hle : ulpExp x ≤ 971 := by
    by_contra hc
    have hc : 972 ≤ ulpExp x := by omega
    have hlog : ulpExp x = Int.log 2 |x| - 52 := by
      unfold ulpExp at hc ⊢
      rcases le_total (Int.log 2 |x| - 52) (-1074) with h | h
      · rw [max_eq_right h] at hc; omega
      · exact max_eq_left h
    have hx0 : 0 < |x| := by
      rcases eq_or_lt_of_le (abs_nonneg x) with h0 | h0
      · rw [← h0, Int.log_zero_right] at hlog; omega
      · exact h0
    have hbig : (2 : ℝ) ^ (52 : ℤ) ≤ |x / 2 ^ ulpExp x| := by
      rw [abs_div, abs_of_pos (two_zpow_pos _), le_div_iff₀ (two_zpow_pos _),
        ← zpow_add₀ (by norm_num : (2 : ℝ) ≠ 0), hlog]
      have := Int.zpow_log_le_self (b := 2) (by norm_num) hx0
      have e : (52 : ℤ) + (Int.log 2 |x| - 52) = Int.log 2 |x| := by omega
      rw [e]; exact_mod_cast this
    have hr : (2 : ℤ) ^ 52 ≤ |XR.rint (x / 2 ^ ulpExp x)| :=
      rint_abs_ge (by push_cast; exact_mod_cast hbig)
    have hr' : (2 : ℝ) ^ 52 ≤ |(XR.rint (x / 2 ^ ulpExp x) : ℝ)| := by exact_mod_cast hr
    have h2 : (2 : ℝ) ^ (972 : ℤ) ≤ 2 ^ ulpExp x := zpow_le_zpow_right₀ (by norm_num) hc
    have : (2 : ℝ) ^ 1024 ≤ |nearest x| := by
      unfold nearest
      rw [abs_mul, abs_of_pos (two_zpow_pos (ulpExp x))]
      calc (2 : ℝ) ^ 1024 = 2 ^ 52 * 2 ^ (972 : ℤ) := by
            rw [show ((2 : ℝ) ^ (972 : ℤ)) = 2 ^ (972 : ℕ) from zpow_natCast 2 972, ← pow_add]
        _ ≤ _ := mul_le_mul hr' h2 (two_zpow_pos _).le (abs_nonneg _)
    linarith
  rcases lt_or_eq_of_le hm with hlt | heq
  · exact ⟨_, _, hlt, he, hle, rfl⟩
  · -- the mantissa 2^53 is written with a larger exponent
    have hs : XR.rint (x / 2 ^ ulpExp x) = 2 ^ 53 ∨ XR.rint (x / 2 ^ ulpExp x) = -2 ^ 53 := by
      rcases abs_choice (XR.rint (x / 2 ^ ulpExp x)) with h | h <;> rw [h] at heq
      · exact Or.inl heq
      · exact Or.inr (by omega)
    have hlt2 : ulpExp x ≤ 970 := by
      by_contra hc
      have hc : ulpExp x = 971 := by omega
      have hv : |nearest x| = 2 ^ 1024 := by
        unfold nearest
        rw [abs_mul, abs_of_pos (two_zpow_pos (ulpExp x)), hc]
        have : |(XR.rint (x / 2 ^ (971 : ℤ)) : ℝ)| = 2 ^ 53 := by
          rw [hc] at heq; exact_mod_cast heq
        rw [this, show ((2 : ℝ) ^ (971 : ℤ)) = 2 ^ (971 : ℕ) from zpow_natCast 2 971, ← pow_add]
      linarith
    have hz : (2 : ℝ) ^ (ulpExp x + 1) = 2 ^ ulpExp x * 2 := zpow_add_one₀ (by norm_num) _
    rcases hs with h | h
    · refine ⟨2 ^ 52, ulpExp x + 1, by norm_num, by omega, by omega, ?_⟩
      unfold nearest
      rw [h, hz]; push_cast; ring
    · refine ⟨-2 ^ 52, ulpExp x + 1, by norm_num, by omega, by omega, ?_⟩
      unfold nearest
      rw [h, hz]; push_cast; ring

/-- Is a value of the extended reals a double? -/
def XR.IsDbl : XR → Prop
  | .fin x => IsDouble x
  | _ => True

/-- Doubles, including the infinities and NaN. -/
def Dbl : Type := { x : XR // x.IsDbl }

namespace Dbl

/-- The value of a double. -/
def val (a : Dbl) : XR := a.1

/-- Rounding of an exact result. -/
def rnd : XR → Dbl
  | .fin x =>
    if h : |nearest x| < 2 ^ 1024 then ⟨.fin (nearest x), nearest_isDouble h⟩
    else if 0 < x then ⟨.pinf, trivial⟩ else ⟨.ninf, trivial⟩
  | .pinf => ⟨.pinf, trivial⟩
  | .ninf => ⟨.ninf, trivial⟩
  | .nan => ⟨.nan, trivial⟩

instance : Add Dbl := ⟨fun a b => rnd (a.val + b.val)⟩
instance : Sub Dbl := ⟨fun a b => rnd (a.val - b.val)⟩
instance : Mul Dbl := ⟨fun a b => rnd (a.val * b.val)⟩
instance : Div Dbl := ⟨fun a b => rnd (a.val / b.val)⟩
instance : Neg Dbl := ⟨fun a => rnd (-a.val)⟩

/-- The double nearest to a decimal literal. -/
def ofRat (q : ℚ) : Dbl := rnd (.fin q)

def lt (a b : Dbl) : Bool := PyFloat.lt a.val b.val
def le (a b : Dbl) : Bool := PyFloat.le a.val b.val
def abs (a : Dbl) : Dbl := rnd (PyFloat.abs a.val)

/-- C's `rint`. -/
def rint (a : Dbl) : Dbl := rnd (PyFloat.round 0 a.val)

/-- `np.round(a, decimals=d)`: `multiply`, `rint`, `divide`. -/
def round (d : ℕ) (a : Dbl) : Dbl := rint (a * ofRat (10 ^ d)) / ofRat (10 ^ d)

/-- `np.hypot`, correctly rounded. -/
def hypot (a b : Dbl) : Dbl := rnd (PyFloat.sqrt (a.val * a.val + b.val * b.val))

def sqrt (a : Dbl) : Dbl := rnd (PyFloat.sqrt a.val)

/-- NumPy's complex division (Smith's algorithm, `loops.c.src`). -/
def cdiv (a b : Cx Dbl) : Cx Dbl :=
  if le (abs b.im) (abs b.re) then
    if le (abs b.re) (ofRat 0) && le (abs b.im) (ofRat 0) then ⟨a.re / abs b.re, a.im / abs b.re⟩
    else
      let rat := b.im / b.re
      let scl := ofRat 1 / (b.re + b.im * rat)
      ⟨(a.re + a.im * rat) * scl, (a.im - a.re * rat) * scl⟩
  else
    let rat := b.re / b.im
    let scl := ofRat 1 / (b.im + b.re * rat)
    ⟨(a.re * rat + a.im) * scl, (a.im * rat - a.re) * scl⟩

/-- NumPy's complex square root (`npy_csqrt`) on finite values; the scaling of numbers near the
largest double is left out. -/
def csqrtFin (z : Cx Dbl) : Cx Dbl :=
  if le (abs z.re) (ofRat 0) && le (abs z.im) (ofRat 0) then ⟨ofRat 0, ofRat 0⟩
  else if le (ofRat 0) z.re then
    let t := sqrt ((z.re + hypot z.re z.im) * ofRat (1 / 2))
    ⟨t, z.im / (ofRat 2 * t)⟩
  else
    let t := sqrt ((-z.re + hypot z.re z.im) * ofRat (1 / 2))
    ⟨abs z.im / (ofRat 2 * t), if lt z.im (ofRat 0) then -t else t⟩

/-- NumPy's complex square root (`npy_csqrt`). -/
def csqrt (z : Cx Dbl) : Cx Dbl :=
  match z.re.val, z.im.val with
  | .fin _, .fin _ => csqrtFin z
  | a, b => ⟨rnd (PyFloat.csqrt (⟨a, b⟩ : Cx XR)).re, rnd (PyFloat.csqrt (⟨a, b⟩ : Cx XR)).im⟩

/-- On finite numbers. -/
theorem csqrt_fin {z : Cx Dbl} {a b : ℝ} (ha : z.re.val = .fin a) (hb : z.im.val = .fin b) :
    csqrt z = csqrtFin z := by
  unfold csqrt
  rw [ha, hb]

instance : PyFloat Dbl where
  lit := ofRat
  inf := ⟨.pinf, trivial⟩
  nan := ⟨.nan, trivial⟩
  pi := rnd PyFloat.pi
  abs := abs
  pow a b := rnd (PyFloat.pow a.val b.val)
  sqrt := sqrt
  log a := rnd (PyFloat.log a.val)
  atan a := rnd (PyFloat.atan a.val)
  atan2 a b := rnd (PyFloat.atan2 a.val b.val)
  round := round
  trunc a := rnd (PyFloat.trunc a.val)
  lt := lt
  le := le
  eq a b := PyFloat.eq a.val b.val
  isNaN a := PyFloat.isNaN a.val
  cdiv := cdiv
  csqrt := csqrt

end Dbl
end

end Disp
