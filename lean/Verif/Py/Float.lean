import Mathlib.Data.Rat.Init
import Mathlib.Algebra.Order.Field.Rat
import Verif.Py.Basic
/-!
# Python / NumPy floats

`PyFloat F` lists the operations on `float` / `np.float64` that the package uses. The model
is written against this class. Theorems stated for every `PyFloat F` hold for IEEE doubles.
-/

namespace Disp

/-- A NumPy / Python complex number: a pair of floats. -/
structure Cx (F : Type) where
  re : F
  im : F
  deriving DecidableEq, Repr

/-- Operations on floats. `lit q` is the float nearest to the decimal literal `q` of the
source text; `round d x` is `np.round(x, decimals=d)`; `pow` is `np.power`; `cdiv` and `csqrt`
are complex division and the complex square root; `trunc` is the cast to an integer dtype. -/
class PyFloat (F : Type) extends Add F, Sub F, Mul F, Div F, Neg F where
  lit : ℚ → F
  inf : F
  nan : F
  pi : F
  abs : F → F
  pow : F → F → F
  sqrt : F → F
  log : F → F
  atan : F → F
  atan2 : F → F → F
  round : Nat → F → F
  trunc : F → F
  lt : F → F → Bool
  le : F → F → Bool
  eq : F → F → Bool
  isNaN : F → Bool
  cdiv : Cx F → Cx F → Cx F
  csqrt : Cx F → Cx F

export PyFloat (lit)

/-- The laws of IEEE comparison that the package relies on: a NaN compares false with
everything, and on the other values `<` is a strict weak order with `==` as its
incomparability and `<=` as its complement. Holds for binary64 and for the ideal
arithmetic. -/
class LawfulCmp (F : Type) [PyFloat F] : Prop where
  lt_nan_left : ∀ x y : F, PyFloat.isNaN x = true → PyFloat.lt x y = false
  lt_nan_right : ∀ x y : F, PyFloat.isNaN y = true → PyFloat.lt x y = false
  lt_irrefl : ∀ x : F, PyFloat.lt x x = false
  lt_trans : ∀ x y z : F, PyFloat.lt x y = true → PyFloat.lt y z = true → PyFloat.lt x z = true
  lt_cotrans : ∀ x y z : F, PyFloat.isNaN y = false → PyFloat.lt x z = true →
    PyFloat.lt x y = true ∨ PyFloat.lt y z = true
  le_eq_not_lt : ∀ x y : F, PyFloat.isNaN x = false → PyFloat.isNaN y = false →
    PyFloat.le x y = !PyFloat.lt y x
  le_nan_left : ∀ x y : F, PyFloat.isNaN x = true → PyFloat.le x y = false
  le_nan_right : ∀ x y : F, PyFloat.isNaN y = true → PyFloat.le x y = false
  eq_iff : ∀ x y : F, PyFloat.eq x y = (PyFloat.le x y && PyFloat.le y x)

namespace Cx

variable {F : Type} [PyFloat F]

/-- A float used where a complex number is expected (`x + 0j`). -/
def ofReal (x : F) : Cx F := ⟨x, lit 0⟩

/-- The literal `1j`. -/
def I : Cx F := ⟨lit 0, lit 1⟩

/-- Complex addition, as computed by NumPy. -/
def add (a b : Cx F) : Cx F := ⟨a.re + b.re, a.im + b.im⟩

/-- Complex subtraction, as computed by NumPy. -/
def sub (a b : Cx F) : Cx F := ⟨a.re - b.re, a.im - b.im⟩

/-- Complex multiplication, as computed by NumPy. -/
def mul (a b : Cx F) : Cx F := ⟨a.re * b.re - a.im * b.im, a.re * b.im + a.im * b.re⟩

/-- `np.conj`. -/
def conj (a : Cx F) : Cx F := ⟨a.re, -a.im⟩

/-- `np.power(z, 2)` and `z**2`: NumPy evaluates this as `z*z`. -/
def sq (a : Cx F) : Cx F := mul a a

instance : Add (Cx F) := ⟨add⟩
instance : Sub (Cx F) := ⟨sub⟩
instance : Mul (Cx F) := ⟨mul⟩
instance : Div (Cx F) := ⟨PyFloat.cdiv⟩

end Cx

end Disp
