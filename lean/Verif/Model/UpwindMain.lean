import Verif.Model.Upwind
import Verif.Model.CubeDecomp

/-
The computation performed by `main` of `upwind/cxx/upwind.cxx` once the command line is parsed.
-/
namespace Fidi

namespace Upwind
variable {R : Type} [Zero R] [One R] [Add R] [Sub R] [Mul R] [Div R] [NatCast R] [IntCast R] [LT R] [DecidableLT R]

/-- Computation of the time step, upwind.cxx:185-192; `courant` is the literal 0.1 of line 186. -/
def mainDt [HasMax R] (courant : R) (velocity lengths : List R) (numCells : List Nat) : M R :=
  forUp 0 velocity.length HasMax.dblMax fun j dt => do
    let dx := (← rd lengths j) / ((← rd numCells j : Nat) : R)
    let val := courant * dx / (← rd velocity j)
    pure (if val < dt then val else dt)

/-- The computing part of `main`, upwind.cxx:174 and 182-198: the object whose check sum, spread and field are output.
`numCells` and `numSteps` are the values of the options. -/
def mainRun [HasMax R] (courant : R) (numCells numSteps : Int) : M (Upwind R) := do
  let cells := List.replicate 3 (szOfInt numCells)
  let velocity : List R := List.replicate cells.length 1
  let lengths : List R := List.replicate cells.length 1
  let dt ← mainDt courant velocity lengths cells
  let up ← new 3 velocity lengths cells
  up.advect numSteps dt

end Upwind
end Fidi
