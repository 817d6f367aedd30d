import Verif.Spec.GridSum

/-
What the sums of the array libraries (`numpy.sum`, `sum` of Fortran and Julia) are trusted to compute.
-/
namespace Fidi.Spec
variable {R : Type}

/-- `sum` adds the values of a list in some order and with some bracketing, together with at most `m` zeros. -/
def SumsUp [Zero R] [Add R] (m : Nat) (sum : List R → R) : Prop :=
  ∀ l, l ≠ [] → ∃ z, z ≤ m ∧ AnySum (List.replicate z 0 ++ l) (sum l)

end Fidi.Spec
