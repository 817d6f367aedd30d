import Verif.Spec.Upwind
import Mathlib.Logic.Equiv.Defs

/-
Specification of the symmetries of the upwind scheme. Independent of the model.
-/
namespace Fidi.Spec

/-- The entries of `l` in another order: entry `i` is entry `σ i` of `l`. -/
def reorder {α : Type} (z : α) {d : Nat} (σ : Equiv.Perm (Fin d)) (l : List α) : List α :=
  (List.finRange d).map fun i => l.getD (σ i).val z

/-- The cell `g` seen in a mirror across the axes `M`. -/
def mirror (M : Nat → Bool) (dims g : List Nat) : List Nat :=
  (List.range g.length).map fun j => if M j then dims.getD j 0 - 1 - g.getD j 0 else g.getD j 0

/-- The velocity seen in the same mirror. -/
def mirrored {R : Type} [Zero R] [Neg R] (M : Nat → Bool) (v : List R) : List R :=
  (List.range v.length).map fun j => if M j then -v.getD j 0 else v.getD j 0

end Fidi.Spec
