import Verif.Spec.Upwind

/-
Specification of a time step of upwind.cxx on grids with axes of 2^30 cells or more. Independent of the model.
-/
namespace Fidi.Spec
variable {R : Type}

/-- The cell that upwind.cxx takes for the one next to `g` along axis `j` in direction `s`: if the index plus the number of cells of the
axis does not fit in an `int`, the index is displaced by 2^64 - 2^32 before it is wrapped around. -/
def wideNeighbour (dims : List Nat) (j : Nat) (s : Int) (g : List Nat) : List Nat :=
  let x : Int := g.getD j 0
  let n : Int := dims.getD j 0
  g.set j (if x + s + n < 2 ^ 31 then (x + s) % n else (x + s + (2 ^ 64 - 2 ^ 32)) % n).toNat

/-- `upwindStep` with these cells. -/
def wideStep [Sub R] [Mul R] (dims : List Nat) (s : Nat → Int) (c : Nat → R) (u : List Nat → R) (g : List Nat) : R :=
  (List.range dims.length).foldl (fun acc j => acc - c j * (u (wideNeighbour dims j (s j) g) - u g)) (u g)

end Fidi.Spec
