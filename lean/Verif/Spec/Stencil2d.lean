import Verif.Spec.Mains
import Verif.Spec.Print

/-
Specification vocabulary for the driver `testStencil2d`. Independent of the model.
-/
namespace Fidi.Spec
variable {R : Type}

/-- The names of the options. -/
def stencil2dNames : List (List Char) := ["-h", "-numCells", "-vtk"].map String.toList

/-- The help text. -/
def stencil2dHelp (exec : List Char) (cells : Int) (h v : Bool) : List Char :=
  helpText exec [helpLine "-numCells" " <int#>" "Number of cells along each axis" (toString cells),
    helpLine "-h" "" "Print help." (bit h), helpLine "-vtk" "" "Write output to VTK file" (bit v)]

/-- 1 on the cells with an index 0, and 0 elsewhere. -/
def edgeField [Zero R] [One R] (g : List Nat) : R := if 0 ∈ g then 1 else 0

/-- Offsets and weights, in the order in which the terms are added. -/
def stencil2d [Zero R] [One R] [Neg R] : List (List Int × R) := [([0, -1], -1), ([0, 0], 0), ([1, 0], 1)]

/-- The value of the next cell along the first axis minus that of the previous cell along the second one, on a periodic
grid of `n` by `n` cells. -/
def crossDifference [Sub R] (n : Nat) (u : List Nat → R) (g : List Nat) : R :=
  u [(g.getD 0 0 + 1) % n, g.getD 1 0] - u [g.getD 0 0, (g.getD 1 0 + (n - 1)) % n]

end Fidi.Spec
