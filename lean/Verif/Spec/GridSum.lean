import Verif.Spec.Decomp
import Verif.Spec.Print
import Verif.Spec.Mains

/-
The check sums a distributed field can have when the result of an addition depends on the order of the terms, and the texts of
the drivers with MPI.
-/
namespace Fidi.Spec
variable {R : Type}

/-- `s` is the sum of the values, added in some order and with some bracketing. -/
inductive AnySum [Add R] : List R → R → Prop where
  | one (x : R) : AnySum [x] x
  | add {xs ys : List R} {x y : R} : AnySum xs x → AnySum ys y → AnySum (xs ++ ys) (x + y)
  | perm {xs ys : List R} {x : R} : xs.Perm ys → AnySum xs x → AnySum ys x

/-- The values of a field in a box added to 0 in turn, first index fastest. -/
def boxSum [Zero R] [Add R] (lo hi : List Nat) (u : List Nat → R) : R := ((cellList lo hi).map u).foldl (· + ·) 0

/-- `s` is a check sum of the field `u` on the grid `dims` cut into `d` pieces along the axes: the sums over the pieces, added
in some order and with some bracketing. -/
def GridSum [Zero R] [Add R] (dims d : List Nat) (u : List Nat → R) (s : R) : Prop :=
  AnySum ((cellList (List.replicate d.length 0) d).map fun x =>
    boxSum (subLo (localExtents dims d) x) (subHi (localExtents dims d) x) u) s

/-- What upwindMpi writes in the time loop: for each step the check sums before and after it. -/
def sumsText (shw : R → List Char) (sums : List (R × R)) : List Char :=
  sums.zipIdx.flatMap fun p =>
    ("iter " ++ toString p.2 ++ " check sum  in/out = ").toList ++ shw p.1.1 ++ " / ".toList ++ shw p.1.2 ++ "\n".toList

/-- The stencil of upwindMpi for `n` cells along each axis, in the order in which its terms are added. -/
def mpiStencil [One R] [Sub R] [Mul R] [Div R] [NatCast R] [IntCast R] [LT R] [DecidableLT R] (top courant : R) (n : Nat) :
    List (List Int × R) :=
  let w := ((1 : Int) : R) * driverStep top courant (1 / (n : R)) * 1 / (1 / (n : R))
  [([-1, 0, 0], w), ([0, -1, 0], w), ([0, 0, -1], w), ([0, 0, 0], 1 - w - w - w)]

/-- The stencil of laplacian on `n` axes, in the order in which its terms are added. -/
def lapStencil [One R] [Mul R] [Neg R] [NatCast R] (n : Nat) : List (List Int × R) :=
  ((List.range n).map fun i => ((List.replicate n 0).set i (-1), 1)) ++
    [(List.replicate n 0, -((2 : Nat) : R) * (n : R))] ++
    (List.range n).reverse.map fun i => ((List.replicate n 0).set i 1, 1)

/-- The field laplacian starts from on the unit cube with `n` cells along each axis: the product of `sin(2 pi x)` over the
coordinates of the cell centre. -/
def lapInit [Zero R] [One R] [Add R] [Sub R] [Mul R] [Div R] [NatCast R] (sin : R → R) (pi : R) (n : Nat) (g : List Nat) : R :=
  g.foldl (fun (res : R) (i : Nat) =>
    res * sin (((2 : Nat) : R) * pi * (0 + ((i : R) + 1 / ((2 : Nat) : R)) * ((1 - 0) / (n : R))))) 1

end Fidi.Spec
