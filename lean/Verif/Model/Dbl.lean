import Mathlib.Data.Rat.Floor
import Mathlib.Algebra.Order.Ring.Unbundled.Rat

/-
Numbers with the rounding of IEEE `double`: 53 significant bits, round to nearest, ties to even, gradual underflow at 2^-1074.
The exponent is not limited upwards and there are no infinities, NaNs or signed zeros. Used to exhibit differences between
programs and as an instance of the standard model of floating-point arithmetic.

Not code of the repository.
-/
namespace Fidi

/-- Rounding of a nonnegative number to an integer, ties to even. -/
def rndInt (x : ℚ) : Nat :=
  let n := x.num.toNat / x.den
  let r := x.num.toNat % x.den
  if 2 * r < x.den then n else if x.den < 2 * r then n + 1 else if n % 2 = 0 then n else n + 1

/-- `x` times `2^e`. -/
def scale (x : ℚ) (e : Int) : ℚ := if 0 ≤ e then x * ((2 ^ e.toNat : Nat) : ℚ) else x / ((2 ^ (-e).toNat : Nat) : ℚ)

/-- Rounding of a positive number to 53 bits, and to multiples of 2^-1074. -/
def rndPos (x : ℚ) : ℚ :=
  let e : Int := (Nat.log2 x.num.toNat : Int) - (Nat.log2 x.den : Int) - 52
  let e := if scale x (-e) < ((2 ^ 52 : Nat) : ℚ) then e - 1 else e
  let e := max e (-1074)
  scale ((rndInt (scale x (-e)) : Nat) : ℚ) e

/-- Rounding to 53 bits, and to multiples of 2^-1074. -/
def rnd (x : ℚ) : ℚ := if x = 0 then 0 else if 0 < x then rndPos x else -rndPos (-x)

/-- A rounded number. -/
structure Dbl where
  val : ℚ
  deriving DecidableEq

namespace Dbl

instance instZero : Zero Dbl := ⟨⟨0⟩⟩
instance instOne : One Dbl := ⟨⟨1⟩⟩
instance instAdd : Add Dbl := ⟨fun x y => ⟨rnd (x.val + y.val)⟩⟩
instance instSub : Sub Dbl := ⟨fun x y => ⟨rnd (x.val - y.val)⟩⟩
instance instMul : Mul Dbl := ⟨fun x y => ⟨rnd (x.val * y.val)⟩⟩
instance instDiv : Div Dbl := ⟨fun x y => ⟨rnd (x.val / y.val)⟩⟩
instance instNatCast : NatCast Dbl := ⟨fun n => ⟨rnd (n : ℚ)⟩⟩
instance instIntCast : IntCast Dbl := ⟨fun n => ⟨rnd (n : ℚ)⟩⟩
instance instLT : LT Dbl := ⟨fun x y => x.val < y.val⟩
instance instDecLT : DecidableLT Dbl := fun x y => inferInstanceAs (Decidable (x.val < y.val))

end Dbl

/-- 0.1 is 3602879701896397 / 2^55. -/
example : rnd (1 / 10) = 3602879701896397 / 36028797018963968 := by decide +kernel

/-- 1/3 is 6004799503160661 / 2^54. -/
example : rnd (1 / 3) = 6004799503160661 / 18014398509481984 := by decide +kernel

/-- 2^53 + 1 is halfway between two numbers and goes to the even one. -/
example : rnd (2 ^ 53 + 1) = 2 ^ 53 ∧ rnd (-(2 ^ 53 + 3)) = -(2 ^ 53 + 4) := by decide +kernel

/-- Half the smallest positive number goes to 0, anything more to the smallest positive number. -/
example : rnd (1 / 2 ^ 1075) = 0 ∧ rnd (3 / 2 ^ 1076) = 1 / 2 ^ 1074 := by decide +kernel

/-- 0.1 + 0.2 is not 0.3. -/
example : (⟨rnd (1 / 10)⟩ + ⟨rnd (2 / 10)⟩ : Dbl) ≠ ⟨rnd (3 / 10)⟩ := by decide +kernel

end Fidi
