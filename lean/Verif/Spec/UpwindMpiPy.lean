import Verif.Spec.UpwindOther

/-
Specification of the step of upwindMPI.py. Independent of the model.
-/
namespace Fidi.Spec
variable {R : Type}

/-- One time step of a grid `dims` cut into boxes of shape `box`, the flow being towards increasing indices: the outflow
`c u g` is added to `u g`, then the inflow `w j u (up j g)` of each axis is subtracted, first for the axes along which the upwind
neighbour is in the same box, then for the others. -/
def splitStep [Add R] [Sub R] [Mul R] (dims box : List Nat) (c : R) (w : Nat → R) (u : List Nat → R) (g : List Nat) : R :=
  let same := (List.range dims.length).filter fun j => g.getD j 0 % box.getD j 0 ≠ 0
  let other := (List.range dims.length).filter fun j => g.getD j 0 % box.getD j 0 = 0
  (same ++ other).foldl (fun acc j => acc - w j * u (neighbour dims j (-1) g)) (u g + c * u g)

/-- `v*up/width` with `up = -1`. -/
def axisCoeff [Zero R] [Mul R] [Div R] [NatCast R] [IntCast R] (v lengths : List R) (dims : List Nat) (j : Nat) : R :=
  v.getD j 0 * ((-1 : Int) : R) / cellWidth lengths dims j

/-- The step of `splitStep` with time step `dt`, velocity `v` and domain size `lengths`; `sum` adds three numbers. -/
def boxStep [Zero R] [Add R] [Sub R] [Mul R] [Div R] [NatCast R] [IntCast R] (sum : List R → R) (dt : R) (v lengths : List R)
    (dims box : List Nat) : (List Nat → R) → List Nat → R :=
  splitStep dims box (dt * sum ((List.range dims.length).map (axisCoeff v lengths dims)))
    (fun j => dt * axisCoeff v lengths dims j)

/-- The cell that upwindMPI.py reads along axis `j` for the cell `g` of a grid `dims` cut into boxes of shape `box`, whatever the sign
of the velocity: the one before it; but in the first layer of a box, if the velocity is negative, the first one of the next box. -/
def readCell [Zero R] [LT R] [DecidableLT R] (v : List R) (dims box : List Nat) (j : Nat) (g : List Nat) : List Nat :=
  if v.getD j 0 < 0 ∧ g.getD j 0 % box.getD j 0 = 0 then g.set j ((g.getD j 0 + box.getD j 0) % dims.getD j 0)
  else neighbour dims j (-1) g

/-- `v*up/width` with the direction `up` of the upwind side, `1` if the velocity is negative. -/
def signedCoeff [Zero R] [LT R] [DecidableLT R] [Mul R] [Div R] [NatCast R] [IntCast R] (v lengths : List R) (dims : List Nat)
    (j : Nat) : R :=
  v.getD j 0 * (upDir v j : R) / cellWidth lengths dims j

/-- One time step of upwindMPI.py for velocities of any sign: `splitStep` with the cells of `readCell`. -/
def mpiStep [Zero R] [LT R] [DecidableLT R] [Add R] [Sub R] [Mul R] [Div R] [NatCast R] [IntCast R] (sum : List R → R) (dt : R)
    (v lengths : List R) (dims box : List Nat) (u : List Nat → R) (g : List Nat) : R :=
  let same := (List.range dims.length).filter fun j => g.getD j 0 % box.getD j 0 ≠ 0
  let other := (List.range dims.length).filter fun j => g.getD j 0 % box.getD j 0 = 0
  (same ++ other).foldl (fun acc j => acc - dt * signedCoeff v lengths dims j * u (readCell v dims box j g))
    (u g + dt * sum ((List.range dims.length).map (signedCoeff v lengths dims)) * u g)

/-- A text at the right of a column of `w` characters. -/
def atRight (w : Nat) (s : List Char) : List Char := List.replicate (w - s.length) ' ' ++ s

/-- What every process of upwindMPI.py prints about its box: the sizes in columns as wide as the widest. -/
def localText (rk : Nat) (box : Nat × Nat × Nat) : List Char :=
  let w := max (max (toString box.1).length (toString box.2.1).length) (toString box.2.2).length
  ("[" ++ toString rk ++ "] local number of cells: [").toList ++ atRight w (toString box.1).toList ++ " ".toList ++
    atRight w (toString box.2.1).toList ++ " ".toList ++ atRight w (toString box.2.2).toList ++ "]\n".toList

/-- The last line of process 0 of upwindMPI.py. -/
def sumLine (s : List Char) : List Char := "check sum: ".toList ++ s ++ "\n".toList

/-- What process 0 of upwindMPI.py prints on its own before the check sum. -/
def mpiText (n : Nat) (time : List Char) : List Char :=
  ("number of cells: [" ++ toString n ++ ", " ++ toString n ++ ", " ++ toString n ++
    "]\nWall clock time spent in advection loop: ").toList ++ time ++ " [sec]\n".toList

end Fidi.Spec
