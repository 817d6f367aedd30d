import Verif.Spec.Filter
import Verif.Spec.Neighbour

/-
Which offsets the filter computes on a grid of processes.
-/
namespace Fidi.Spec

/-- What an offset has to satisfy on the grid of processes `d` with sub-domains of extents `L`, if the layers that the
processes exchange are `m` cells wide: the components, each one step closer to zero, cancel in the number of the process; along
the axes that are decomposed the offset is one cell at most; and if it touches a decomposed axis, then along every other axis
it touches the sub-domains are as wide as the layers, and one cell wide if that axis is decomposed too. -/
structure OffsetWorksWith (m : Nat) (d L : List Nat) (off : List Int) : Prop where
  rank : rankOfInt d (off.map fun o => o - o.sign) = 0
  short : ∀ i, off.getD i 0 ≠ 0 → d.getD i 1 ≠ 1 → (off.getD i 0).natAbs = 1
  cover : ∀ i j, i ≠ j → off.getD i 0 ≠ 0 → off.getD j 0 ≠ 0 → d.getD i 1 = 1 ∨ L.getD j 1 = m ∧ (d.getD j 1 = 1 ∨ m = 1)

/-- The same if the layers are as wide as the largest component of the offset. -/
abbrev OffsetWorks (d L : List Nat) (off : List Int) : Prop := OffsetWorksWith (ghostWidth off) d L off

/-- The largest component of the first of the offsets that have the same signs as `off`. -/
def firstWidth (offs : List (List Int)) (off : List Int) : Nat :=
  ((offs.find? fun o => decide (o.map Int.sign = off.map Int.sign)).map ghostWidth).getD 0

end Fidi.Spec
