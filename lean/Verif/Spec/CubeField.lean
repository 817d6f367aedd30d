import Verif.Spec.Upwind
import Mathlib.Algebra.Field.Rat

/-
Specification of the field that all programs named upwind are meant to compute. Independent of the model.
-/
namespace Fidi.Spec

/-- The field after `k` steps of the exact upwind scheme with Courant number 1/10 along each of three axes with `n` cells, from 1 in
the low corner and 0 elsewhere. -/
def cubeField (n k : Nat) : List Nat → ℚ :=
  (upwindStep [n, n, n] (fun _ => -1) fun _ => -(1 / 10))^[k] cornerField

end Fidi.Spec
