import Mathlib.Data.Rat.Defs
import Mathlib.Data.Nat.Factorial.Basic
import Mathlib.Algebra.Field.Rat

/-
Specification of the field of a point source after few steps. Independent of the model.
-/
namespace Fidi.Spec

/-- The probability that in `k` draws 1/10 is drawn `x`, `y` and `z` times and 7/10 the other times. -/
def drawn (k : Nat) (g : List Nat) : ℚ :=
  match g with
  | [x, y, z] => if x + y + z ≤ k then
      (k.factorial : ℚ) / ((k - (x + y + z)).factorial * (x.factorial * y.factorial * z.factorial)) *
        ((7 / 10) ^ (k - (x + y + z)) * (1 / 10) ^ (x + y + z))
    else 0
  | _ => 0

end Fidi.Spec
