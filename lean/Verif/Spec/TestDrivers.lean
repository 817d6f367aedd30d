import Verif.Spec.Print
import Verif.Spec.Decomp

/-
Specification vocabulary for the texts of the test drivers. Independent of the model.
-/
namespace Fidi.Spec

/-- The cells of the box `lo ≤ t < hi` in row-major order (last index fastest). -/
def rowList (lo hi : List Nat) : List (List Nat) := (rowCells (extents lo hi)).map (List.zipWith (· + ·) lo)

/-- One numbered line for each cell of a box, with its indices, in row-major or column-major order. -/
def boxText (rowMajor : Bool) (lo hi : List Nat) : List Char :=
  (if rowMajor then rowList lo hi else cellList lo hi).zipIdx.flatMap fun p =>
    (toString p.2 ++ ": ").toList ++ (p.1.flatMap fun x => (toString x ++ ", ").toList) ++ "\n".toList

/-- The direction of `n` components with `s` along axis `j` and 0 along the others. -/
def axisStep (n j : Nat) (s : Int) : List Int := (List.range n).map fun i => if i = j then s else 0

/-- The report on the process at coordinates `x` of the process grid `d`: its rank, the first cell of its sub-domain, one past
the last one, and its two neighbours along each axis. -/
def processText (dims d x : List Nat) : List Char :=
  ("\trank: " ++ toString (rankOf d x) ++ "\n\tlo = ").toList ++ blanks (subLo (localExtents dims d) x) ++
    "\n\thi = ".toList ++ blanks (subHi (localExtents dims d) x) ++ "\n".toList ++
    (List.range d.length).flatMap fun j => [-1, 1].flatMap fun s =>
      "\t\tneighbor in direction ".toList ++ blanks (axisStep d.length j s) ++
        (" is " ++ toString (rankOf d (shiftMod d x (axisStep d.length j s))) ++ "\n").toList

/-- The report on the decomposition `d`: all processes, in the order of their ranks. -/
def decompText (nprocs : Nat) (dims d : List Nat) : List Char :=
  (" [" ++ toString nprocs ++ "] decomp: ").toList ++ blanks d ++ "\n".toList ++ (rowCells d).flatMap (processText dims d)

end Fidi.Spec
