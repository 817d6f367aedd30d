import Verif.Spec.CmdLine
import Verif.Spec.Vtk
import Verif.Spec.Upwind

/-
Specification vocabulary for the drivers: the options on a command line and the text of the help. Independent of the model.
-/
namespace Fidi.Spec

/-- The first argument that looks like an option and is none of the options of the program. -/
def FirstUnknown (names args : List (List Char)) (a : List Char) : Prop :=
  ∃ pre post, args = pre ++ a :: post ∧ LooksLikeOption a ∧ a ∉ names ∧ ∀ b ∈ pre, LooksLikeOption b → b ∈ names

/-- All arguments that look like options are options of the program. -/
def AllKnown (names args : List (List Char)) : Prop := ∀ a ∈ args, LooksLikeOption a → a ∈ names

/-- Value `z` of an integer option: that of the argument after its last occurrence, or the default. `denotes` says which
number an argument stands for; all arguments after the option must be numbers. -/
def IntValue (denotes : List Char → Int → Prop) (args : List (List Char)) (name : List Char) (default z : Int) : Prop :=
  (∀ v, Follows args name v → ∃ y, denotes v y) ∧
    (NeverFollowed args name ∧ z = default ∨ ∃ v, LastFollowing args name v ∧ denotes v z)

/-- Value of a flag that is off by default: each occurrence toggles it. -/
def flagValue (args : List (List Char)) (name : List Char) : Bool := decide (args.count name % 2 = 1)

/-- A line of the help for an option: name, type if it takes a value, explanation and current value. -/
def helpLine (name type text value : String) : String := "\t" ++ name ++ type ++ " " ++ text ++ " (" ++ value ++ ")\n"

/-- 0 or 1. -/
def bit (b : Bool) : String := if b then "1" else "0"

/-- The help text of a driver called as `exec`, from the lines of the options. -/
def helpText (exec : List Char) (lines : List String) : List Char :=
  "Purpose: benchmark finite difference operations.\n".toList ++ exec ++ " [options]\nUsage:\n".toList ++
    lines.flatMap String.toList ++ "\nReport bugs to alexander@gokliya.net\n\n".toList

/-- The names of the options of the upwind drivers; not all of them have `-std`. -/
def upwindNames (std : Bool) : List (List Char) :=
  (["-h", "-numCells", "-numSteps", "-vtk"] ++ if std then ["-std"] else []).map String.toList

/-- The help text of the upwind drivers. -/
def upwindHelp (std : Bool) (exec : List Char) (cells steps : Int) (h s v : Bool) : List Char :=
  helpText exec ([helpLine "-numCells" " <int#>" "Number of cells along each axis" (toString cells),
    helpLine "-numSteps" " <int#>" "Number of time steps" (toString steps), helpLine "-h" "" "Print help." (bit h)] ++
    (if std then [helpLine "-std" "" "Print out spread of solution" (bit s)] else []) ++
    [helpLine "-vtk" "" "Write output to VTK file" (bit v)])

/-- The names of the options of the laplacian driver. -/
def laplacianNames : List (List Char) := ["-h", "-numCells", "-numDims", "-vtk"].map String.toList

/-- The help text of the laplacian driver. -/
def laplacianHelp (exec : List Char) (cells dims : Int) (h v : Bool) : List Char :=
  helpText exec [helpLine "-numCells" " <int#>" "Number of cells along each axis" (toString cells),
    helpLine "-numDims" " <int#>" "Number of dimensions" (toString dims), helpLine "-h" "" "Print help." (bit h),
    helpLine "-vtk" "" "Write output to VTK file" (bit v)]

/-! ### Results -/

variable {R : Type}

/-- The text is that of a rectilinear grid with the axes of `dims` in reverse order, nodes at the multiples of the cell
widths, and in each cell the value of the field `u` there. `shw` formats numbers. -/
def RectFile [Zero R] [Add R] [Mul R] [NatCast R] (shw : R → List Char) (dims : List Nat) (width : Nat → R)
    (u : List Nat → R) (text : List Char) : Prop :=
  ∃ grid, readRect text = some grid ∧
    [grid.x, grid.y, grid.z] = [2, 1, 0].map (fun j =>
      if j < dims.length then (List.range (dims.getD j 0 + 1)).map fun i : Nat => shw (0 + width j * (i : R))
      else ["0.0".toList]) ∧
    grid.name = "f".toList ∧ grid.values.length = dims.prod ∧
    ∀ g, InGrid dims g → grid.value (g.getD 2 0) (g.getD 1 0) (g.getD 0 0) = some (shw (u g))

/-- Root mean square deviation from the mean, operation by operation. -/
def spread [Zero R] [Add R] [Sub R] [Mul R] [Div R] [NatCast R] (sqrt : R → R) (f : List R) : R :=
  sqrt (f.foldl (fun r x => r + (x - f.foldl (· + ·) 0 / (f.length : R)) * (x - f.foldl (· + ·) 0 / (f.length : R))) 0 /
    (f.length : R))

/-- The smallest of the numbers and `top`. -/
def smallest [LT R] [DecidableLT R] (top : R) (xs : List R) : R := xs.foldl (fun m x => if x < m then x else m) top

/-- The time step of the upwind drivers for cells of width `w`, speed 1 and three axes. -/
def driverStep [One R] [Mul R] [Div R] [LT R] [DecidableLT R] (top courant w : R) : R :=
  smallest top (List.replicate 3 (courant * w / 1))

/-- The field after `steps` steps of the scheme with unit velocity on the unit cube with `n` cells along each axis, from 1 in
the low corner and 0 elsewhere. `coeff` gives the coefficient of an axis. -/
def driverField [Zero R] [One R] [Sub R] [Mul R] [LT R] [DecidableLT R] (n : Nat) (coeff : Nat → R) (steps : Int) :
    List Nat → R :=
  (upwindStep [n, n, n] (upDir [(1 : R), 1, 1]) coeff)^[steps.toNat] cornerField

/-- What the threaded driver writes first: number of threads and its maximum, if there are threads. -/
def threadsText : Option (Int × Int) → List Char
  | none => []
  | some (n, m) => ("Running with OpenMP enabled\nnumber of threads: " ++ toString n ++ " max number of threads: " ++
      toString m ++ "\n").toList

/-- What an upwind driver writes to the terminal: number of cells along three axes, number of steps, check sum and, if asked
for, the spread of the final field `f`. -/
def resultText [Zero R] [Add R] [Sub R] [Mul R] [Div R] [NatCast R] (shw : R → List Char) (sqrt : R → R) (n : Nat)
    (steps : Int) (std : Bool) (f : List R) : List Char :=
  ("number of cells:  " ++ toString n ++ " " ++ toString n ++ " " ++ toString n ++ "\nnumber of time steps: " ++
    toString steps ++ "\ncheck sum: ").toList ++ shw (f.foldl (· + ·) 0) ++ "\n".toList ++
    if std then "std      : ".toList ++ shw (spread sqrt f) ++ "\n".toList else []

/-! ### Results of the drivers with MPI -/

/-- The text is that of a structured grid of at most three axes: nodes that divide the domain from `xmins` to `xmaxs` in equal
cells, the first axis varying fastest, and in each cell the value of the field `u` there. An axis that the grid lacks has one
cell from 0 to 1. -/
def StructFile [Zero R] [One R] [Add R] [Sub R] [Mul R] [Div R] [NatCast R] (shw : R → List Char) (dims : List Nat)
    (xmins xmaxs : List R) (u : List Nat → R) (text : List Char) : Prop :=
  ∃ grid, readStruct text = some grid ∧ [grid.nx, grid.ny, grid.nz] = [0, 1, 2].map (fun j => dims.getD j 1 + 1) ∧
    (∀ i j k, i ≤ dims.getD 0 1 → j ≤ dims.getD 1 1 → k ≤ dims.getD 2 1 → grid.point i j k =
      [shw (gridNode (xmins.getD 0 0) (xmaxs.getD 0 1) (dims.getD 0 1) i),
       shw (gridNode (xmins.getD 1 0) (xmaxs.getD 1 1) (dims.getD 1 1) j),
       shw (gridNode (xmins.getD 2 0) (xmaxs.getD 2 1) (dims.getD 2 1) k)]) ∧
    grid.name = "outData".toList ∧ grid.values.length = dims.prod ∧
    ∀ g, InGrid dims g → grid.value (g.getD 0 0) (g.getD 1 0) (g.getD 2 0) = some (shw (u g))

/-- What `upwindMpi` writes during the time steps: the check sums before and after each of them, all equal to `s`. -/
def stepsText (s : List Char) (steps : Nat) : List Char :=
  (List.range steps).flatMap fun i =>
    ("iter " ++ toString i ++ " check sum  in/out = ").toList ++ s ++ " / ".toList ++ s ++ "\n".toList

/-- The announcement of a file. -/
def fileNote (name : List Char) (vtk : Bool) : List Char :=
  if vtk then "Data will be written to file ".toList ++ name ++ "\n".toList else []

end Fidi.Spec
