import Mathlib.Analysis.SpecialFunctions.Pow.Real
import Mathlib.Analysis.SpecialFunctions.Complex.Arg
import Mathlib.Analysis.SpecialFunctions.Trigonometric.Arctan
import Mathlib.Analysis.SpecialFunctions.Sqrt
import Verif.Py.Float
/-!
# The ideal arithmetic

The reals extended by `+inf`, `-inf` and NaN. Arithmetic on finite values is exact, the
special values follow IEEE 754 except that there is a single zero (a quotient `x/0` has the
sign of `x`). `np.round` rounds half to even, as NumPy does. This instance is used for the
numerical theorems unless they are about doubles; binary64 is modelled in `Py/Double.lean`.
-/

namespace Disp

/-- Extended reals with NaN. -/
inductive XR
  | fin (x : ℝ)
  | pinf
  | ninf
  | nan

noncomputable section

open Classical

namespace XR

/-- Rounding to the nearest integer, ties to even. -/
def rint (x : ℝ) : ℤ :=
  if x - ⌊x⌋ < 1 / 2 then ⌊x⌋
  else if 1 / 2 < x - ⌊x⌋ then ⌊x⌋ + 1
  else if Even ⌊x⌋ then ⌊x⌋ else ⌊x⌋ + 1

/-- `np.round(x, decimals=d)` on a finite value. -/
def roundDec (d : ℕ) (x : ℝ) : ℝ := (rint (x * 10 ^ d) : ℝ) / 10 ^ d

/-- The infinity with the sign of `x`, NaN for zero. -/
def signInf (x : ℝ) : XR := if 0 < x then pinf else if x < 0 then ninf else nan

def neg : XR → XR
  | fin x => fin (-x)
  | pinf => ninf
  | ninf => pinf
  | nan => nan

def add : XR → XR → XR
  | fin x, fin y => fin (x + y)
  | fin _, y => y
  | x, fin _ => x
  | pinf, pinf => pinf
  | ninf, ninf => ninf
  | _, _ => nan

def mul : XR → XR → XR
  | fin x, fin y => fin (x * y)
  | fin x, pinf => signInf x
  | fin x, ninf => signInf (-x)
  | pinf, fin y => signInf y
  | ninf, fin y => signInf (-y)
  | pinf, pinf => pinf
  | ninf, ninf => pinf
  | pinf, ninf => ninf
  | ninf, pinf => ninf
  | nan, _ => nan
  | _, nan => nan

def div : XR → XR → XR
  | fin x, fin y => if y = 0 then signInf x else fin (x / y)
  | fin _, pinf => fin 0
  | fin _, ninf => fin 0
  | pinf, fin y => if y < 0 then ninf else pinf
  | ninf, fin y => if y < 0 then pinf else ninf
  | _, _ => nan

def pow : XR → XR → XR
  | fin x, fin y =>
    if (⌊y⌋ : ℝ) = y then (if x = 0 ∧ y < 0 then pinf else fin (x ^ ⌊y⌋))
    else if x < 0 then nan
    else if x = 0 then (if y < 0 then pinf else fin 0)
    else fin (x ^ y)
  | pinf, fin y => if 0 < y then pinf else if y < 0 then fin 0 else fin 1
  | ninf, fin y =>
    if 0 < y then (if (⌊y⌋ : ℝ) = y ∧ Odd ⌊y⌋ then ninf else pinf)
    else if y < 0 then fin 0 else fin 1
  | nan, fin y => if y = 0 then fin 1 else nan
  | fin x, pinf => if |x| < 1 then fin 0 else if |x| = 1 then fin 1 else pinf
  | fin x, ninf => if |x| < 1 then pinf else if |x| = 1 then fin 1 else fin 0
  | fin x, nan => if x = 1 then fin 1 else nan
  | pinf, pinf => pinf
  | pinf, ninf => fin 0
  | ninf, pinf => pinf
  | ninf, ninf => fin 0
  | _, _ => nan

def sqrt : XR → XR
  | fin x => if x < 0 then nan else fin (Real.sqrt x)
  | pinf => pinf
  | _ => nan

def log : XR → XR
  | fin x => if x < 0 then nan else if x = 0 then ninf else fin (Real.log x)
  | pinf => pinf
  | _ => nan

def atan : XR → XR
  | fin x => fin (Real.arctan x)
  | pinf => fin (Real.pi / 2)
  | ninf => fin (-(Real.pi / 2))
  | nan => nan

/-- `np.arctan2(y, x)`; only finite arguments are used. -/
def atan2 : XR → XR → XR
  | fin y, fin x => fin (Complex.arg ⟨x, y⟩)
  | _, _ => nan

def round (d : ℕ) : XR → XR
  | fin x => fin (roundDec d x)
  | x => x

/-- Truncation toward zero. -/
def trunc : XR → XR
  | fin x => fin (if x < 0 then ⌈x⌉ else ⌊x⌋)
  | x => x

def abs : XR → XR
  | fin x => fin |x|
  | pinf => pinf
  | ninf => pinf
  | nan => nan

def lt : XR → XR → Bool
  | fin x, fin y => decide (x < y)
  | fin _, pinf => true
  | ninf, fin _ => true
  | ninf, pinf => true
  | _, _ => false

def isNaN : XR → Bool
  | nan => true
  | _ => false

def le (x y : XR) : Bool := !isNaN x && !isNaN y && !lt y x

def eq (x y : XR) : Bool := le x y && le y x

/-- NumPy's complex division on finite values: by zero, both parts are divided by zero. A non-finite
operand gives NaN in both parts (simplified). -/
def cdiv : Cx XR → Cx XR → Cx XR
  | ⟨fin a, fin b⟩, ⟨fin c, fin d⟩ =>
    if c ^ 2 + d ^ 2 = 0 then ⟨signInf a, signInf b⟩
    else ⟨fin ((a * c + b * d) / (c ^ 2 + d ^ 2)), fin ((b * c - a * d) / (c ^ 2 + d ^ 2))⟩
  | _, _ => ⟨nan, nan⟩

/-- The principal complex square root (`np.sqrt` with imaginary part `+0` on the negative axis).
Non-finite numbers are treated as in NumPy's `npy_csqrt`. -/
def csqrt : Cx XR → Cx XR
  | ⟨fin a, fin b⟩ =>
    let m := Real.sqrt (a ^ 2 + b ^ 2)
    ⟨fin (Real.sqrt ((m + a) / 2)),
     fin (if b < 0 then -Real.sqrt ((m - a) / 2) else Real.sqrt ((m - a) / 2))⟩
  | ⟨_, pinf⟩ => ⟨pinf, pinf⟩
  | ⟨_, ninf⟩ => ⟨pinf, ninf⟩
  | ⟨nan, _⟩ => ⟨nan, nan⟩
  | ⟨pinf, fin _⟩ => ⟨pinf, fin 0⟩
  | ⟨pinf, nan⟩ => ⟨pinf, nan⟩
  | ⟨ninf, fin b⟩ => ⟨fin 0, if b < 0 then ninf else pinf⟩
  | ⟨ninf, nan⟩ => ⟨nan, pinf⟩
  | ⟨fin _, nan⟩ => ⟨nan, nan⟩

instance : PyFloat XR where
  add := add
  sub x y := add x (neg y)
  mul := mul
  div := div
  neg := neg
  lit q := fin q
  inf := pinf
  nan := nan
  pi := fin Real.pi
  abs := abs
  pow := pow
  sqrt := sqrt
  log := log
  atan := atan
  atan2 := atan2
  round := round
  trunc := trunc
  lt := lt
  le := le
  eq := eq
  isNaN := isNaN
  cdiv := cdiv
  csqrt := csqrt

end XR
end

end Disp
