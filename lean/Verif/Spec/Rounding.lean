import Verif.Spec.Upwind

/-
The standard model of floating-point arithmetic with gradual underflow. Independent of the model.
-/
namespace Fidi.Spec

/-- `x` is a rounded value of `y`: within the relative error `r` if `y` is 0 or not smaller than `tiny` in absolute value, and
within the relative error `r` and the absolute error `η` in any case. -/
def RoundsTo {K : Type} [Field K] [LinearOrder K] (r η tiny x y : K) : Prop :=
  |x - y| ≤ r * |y| + η ∧ (y = 0 ∨ tiny ≤ |y| → |x - y| ≤ r * |y|)

/-- The numbers of `R` stand for the elements `val x` of the field `K`, and every operation gives a number that is a rounded
value of the exact result; conversions of integers have a relative error `r`. Holds for IEEE `double` as long as nothing
overflows, with `r = 2^-53`, `η = 2^-1075`, `tiny = 2^-1022`. -/
structure Rounded (R K : Type) [Zero R] [One R] [Add R] [Sub R] [Mul R] [Div R] [NatCast R] [IntCast R] [LT R]
    [Field K] [LinearOrder K] (val : R → K) (r η tiny : K) : Prop where
  r_nonneg : 0 ≤ r
  r_le : r ≤ 1 / 100
  η_nonneg : 0 ≤ η
  tiny_nonneg : 0 ≤ tiny
  zero : val 0 = 0
  one : val 1 = 1
  lt (x y : R) : x < y ↔ val x < val y
  add (x y : R) : RoundsTo r η tiny (val (x + y)) (val x + val y)
  sub (x y : R) : RoundsTo r η tiny (val (x - y)) (val x - val y)
  mul (x y : R) : RoundsTo r η tiny (val (x * y)) (val x * val y)
  div (x y : R) : RoundsTo r η tiny (val (x / y)) (val x / val y)
  nat (n : Nat) : |val (n : R) - (n : K)| ≤ r * |(n : K)|
  int (n : Int) : |val (n : R) - (n : K)| ≤ r * |(n : K)|

/-- `x` is 0 or well above the range where underflow occurs. -/
def Normal {K : Type} [Field K] [LinearOrder K] (tiny x : K) : Prop := x = 0 ∨ 2 * tiny ≤ |x|

/-- The quantities that the coefficients of the scheme are computed from do not underflow. -/
structure NormalCoeffs {K : Type} [Field K] [LinearOrder K] (tiny dt : K) (v lengths : List K) (dims : List Nat) :
    Prop where
  velocity (j : Nat) (h : j < dims.length) : Normal tiny (v.getD j 0)
  distance (j : Nat) (h : j < dims.length) : Normal tiny (dt * v.getD j 0)
  width (j : Nat) (h : j < dims.length) : Normal tiny (cellWidth lengths dims j)
  rate (j : Nat) (h : j < dims.length) : Normal tiny (v.getD j 0 / cellWidth lengths dims j)
  fraction (j : Nat) (h : j < dims.length) : Normal tiny (dt * v.getD j 0 / cellWidth lengths dims j)

/-- Relative error of one time step on `d` axes: at most `d + 18` times that of one operation, up to a factor close
to 1. -/
def stepError {K : Type} [Field K] (d : Nat) (r : K) : K := (1 + r) ^ d * ((d : K) + 18) * r

/-- Absolute error of one time step on `d` axes that comes from underflow, `z` being that of the change of one axis. -/
def stepUnderflow {K : Type} [Field K] (d : Nat) (r z : K) : K := (1 + r) ^ d * (d : K) * z

/-- Bound on a field of size `b` after `k` time steps with rounding. -/
def grown {K : Type} [Field K] (d : Nat) (r z : K) (k : Nat) (b : K) : K :=
  (1 + stepError d r) ^ k * (b + k * stepUnderflow d r z)

/-- `f` has a number for every cell of the grid `dims`, last axis fastest, that stands for a value within `e` of `w`. -/
def Near {R K : Type} [Field K] [LinearOrder K] (dims : List Nat) (val : R → K) (f : List R) (w : List Nat → K) (e : K) :
    Prop :=
  f.length = dims.prod ∧ ∀ g, InGrid dims g → ∃ x, f[rankOf dims g]? = some x ∧ |val x - w g| ≤ e

/-- The same, first axis fastest. -/
def NearCol {R K : Type} [Field K] [LinearOrder K] (dims : List Nat) (val : R → K) (f : List R) (w : List Nat → K) (e : K) :
    Prop :=
  f.length = dims.prod ∧ ∀ g, InGrid dims g → ∃ x, f[rankOf dims.reverse g.reverse]? = some x ∧ |val x - w g| ≤ e

end Fidi.Spec
