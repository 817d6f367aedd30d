import Verif.Spec.Decomp

/-
Specification vocabulary for the data that the ranks fetch from each other. Independent of the model.
-/
namespace Fidi.Spec

/-- A call of `MPI_Get`: the rank that makes it, the rank whose window is read, the number of elements. -/
structure GetCall where
  origin : Nat
  target : Nat
  count : Nat
  deriving DecidableEq, Repr

/-- Number of cells in the layer one cell thick that an offset with components 0 and ±1 needs from the next sub-domain:
the product of the extents `L` of the sub-domain along the axes where the offset is zero. -/
def layerCells : List Nat → List Int → Nat
  | l :: L, o :: off => (if o = 0 then l else 1) * layerCells L off
  | _, _ => 1

/-- The calls of the rank at coordinates `x` of the process grid `d` for one application of a stencil with the given
offsets: for every offset other than zero one call, to the rank displaced by the offset, of the cells of one layer. -/
def plannedCalls (d L : List Nat) (offs : List (List Int)) (x : List Nat) : List GetCall :=
  (offs.filter fun off => off.any (· ≠ 0)).map fun off => ⟨rankOf d x, rankOf d (shiftMod d x off), layerCells L off⟩

end Fidi.Spec
