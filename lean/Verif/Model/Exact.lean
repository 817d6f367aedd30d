import Verif.Model.CubeDecomp
import Mathlib.Data.Rat.Defs
import Mathlib.Algebra.Order.Ring.Unbundled.Rat

/-
Exact arithmetic in place of `double`: rational numbers.
-/
namespace Fidi

/-- The largest finite `double`, (2^53 - 1) 2^971, as a rational number. -/
instance : HasMax ℚ := ⟨(2 ^ 53 - 1) * 2 ^ 971⟩

end Fidi
