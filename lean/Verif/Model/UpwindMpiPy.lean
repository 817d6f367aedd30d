import Verif.Model.MainsOther
import Verif.Model.Mains
import Mathlib.Logic.Function.Iterate

/-
Model of upwind/python/upwindMPI.py: class `Upwind` and the time stepping of `main` on all processes.

The library mpinum is not part of the repository. What is assumed of it is in `MpiNum` and in the functions that follow it: a
uniform decomposition into boxes, `getSlab`, `getNeighborProc`, arrays with one layer of ghosts whose `getData` is collective
and fetches the layer of another process. Arrays have three axes (`f[0, 0, 0]` of line 62 and the slices of lines 86-96) and
are functions of the indices; whole-array operations are evaluated element by element, slices as conditions on the indices.
The processes make the same calls in the same order, so a time step is a function of the arrays of all processes. The text of
the measured time is a parameter. Not modelled: `printOut`, which nothing calls, and `free`.
-/
namespace Fidi
variable {R : Type}

/-- What the program uses of an object `mpinum.CubeDecomp` after a successful `getDecomp`: the number of processes along each
axis, the position of each rank and the rank at each position. -/
structure MpiNum where
  procs : Nat × Nat × Nat
  coords : Nat → Nat × Nat × Nat
  rankAt : Nat × Nat × Nat → Nat

/-- A `numpy` array with three axes. -/
abbrev Arr3 (R : Type) := Nat → Nat → Nat → R

namespace MpiNum

/-- What is assumed of the decomposition of `N` cells over `size` processes into boxes of shape `n`: it is uniform, every
position belongs to exactly one rank, and rank 0 is in the low corner. -/
structure Good (dc : MpiNum) (size : Nat) (n N : Nat × Nat × Nat) : Prop where
  pos : 0 < n.1 ∧ 0 < n.2.1 ∧ 0 < n.2.2
  cells : N = (dc.procs.1 * n.1, dc.procs.2.1 * n.2.1, dc.procs.2.2 * n.2.2)
  inside : ∀ rk, rk < size → (dc.coords rk).1 < dc.procs.1 ∧ (dc.coords rk).2.1 < dc.procs.2.1 ∧
    (dc.coords rk).2.2 < dc.procs.2.2
  rankOf : ∀ rk, rk < size → dc.rankAt (dc.coords rk) = rk
  posOf : ∀ a b c, a < dc.procs.1 → b < dc.procs.2.1 → c < dc.procs.2.2 →
    dc.rankAt (a, b, c) < size ∧ dc.coords (dc.rankAt (a, b, c)) = (a, b, c)
  root : dc.rankAt (0, 0, 0) = 0

/-- `dc.getSlab(rk)`: the first indices of the box of a process; `n` is the shape of the boxes. -/
def slabStart (dc : MpiNum) (n : Nat × Nat × Nat) (rk : Nat) : Nat × Nat × Nat :=
  ((dc.coords rk).1 * n.1, (dc.coords rk).2.1 * n.2.1, (dc.coords rk).2.2 * n.2.2)

/-- One component of the position of a neighbour with periodic boundaries. -/
def wrap (x : Nat) (d : Int) (p : Nat) : Nat := (((x : Int) + d) % (p : Int)).toNat

/-- `dc.getNeighborProc(rk, direction, periodic=[True, True, True])`. -/
def getNeighborProc (dc : MpiNum) (rk : Nat) (d : Int × Int × Int) : Nat :=
  dc.rankAt (wrap (dc.coords rk).1 d.1 dc.procs.1, wrap (dc.coords rk).2.1 d.2.1 dc.procs.2.1,
    wrap (dc.coords rk).2.2 d.2.2 dc.procs.2.2)

/-- Offset along one axis of the layer of width 1 at a side of an array of extent `n`: the high side if the component is
positive, otherwise the low side or the whole axis. -/
def layer (side : Int) (n : Nat) : Nat := if 0 < side then n - 1 else 0

/-- `a.getData(rk, side)` for the array `arrays rk` of shape `n`: the layer of that process at that side. -/
def getData (n : Nat × Nat × Nat) (arrays : Nat → Arr3 R) (rk : Nat) (side : Int × Int × Int) : Arr3 R := fun i j k =>
  arrays rk (layer side.1 n.1 + i) (layer side.2.1 n.2.1 + j) (layer side.2.2 n.2.2 + k)

end MpiNum

/-- Attributes of class `Upwind`, upwindMPI.py:18-73, that do not depend on the process. -/
structure PyMpi (R : Type) where
  dc : MpiNum
  nsLocal : Nat × Nat × Nat
  numCells : Nat × Nat × Nat
  upDirection : Int × Int × Int
  deltas : R × R × R
  coeff : R × R × R

namespace PyMpi
open MpiNum
variable [Zero R] [One R] [Add R] [Sub R] [Mul R] [Div R] [IntCast R] [LT R] [DecidableLT R]

/-- upwindMPI.py:49-50 for one axis. -/
def up (v : R) : Int := if v < 0 then 1 else -1

/-- The constructor, upwindMPI.py:18-54; the boxes have the shape `nsLocal`. -/
def new (dc : MpiNum) (nsLocal : Nat × Nat × Nat) (v lengths : R × R × R) (numCells : Nat × Nat × Nat) : PyMpi R :=
  let upDirection := (up v.1, up v.2.1, up v.2.2)
  let deltas := (lengths.1 / ((numCells.1 : Int) : R), lengths.2.1 / ((numCells.2.1 : Int) : R),
    lengths.2.2 / ((numCells.2.2 : Int) : R))
  { dc, nsLocal, numCells, upDirection, deltas
    coeff := (v.1 * (upDirection.1 : R) / deltas.1, v.2.1 * (upDirection.2.1 : R) / deltas.2.1,
      v.2.2 * (upDirection.2.2 : R) / deltas.2.2) }

/-- The initial field of process `rk`, upwindMPI.py:57-62. -/
def field (rk : Nat) : Arr3 R := fun i j k => if rk = 0 ∧ i = 0 ∧ j = 0 ∧ k = 0 then 1 else 0

/-- `neighbRk`, upwindMPI.py:65-73. -/
def neighbRk (self : PyMpi R) (rk axis : Nat) : Nat :=
  self.dc.getNeighborProc rk (if axis = 0 then self.upDirection.1 else 0, if axis = 1 then self.upDirection.2.1 else 0,
    if axis = 2 then self.upDirection.2.2 else 0)

/-- `neighbSide`, upwindMPI.py:65-73. -/
def neighbSide (self : PyMpi R) (axis : Nat) : Int × Int × Int :=
  (if axis = 0 then -self.upDirection.1 else 0, if axis = 1 then -self.upDirection.2.1 else 0,
    if axis = 2 then -self.upDirection.2.2 else 0)

/-- `advect(self, deltaTime)`, upwindMPI.py:75-96, on all processes: `f rk` is the array of process `rk`. `sum` is
`numpy.sum`. -/
def advect (sum : List R → R) (self : PyMpi R) (dt : R) (f : Nat → Arr3 R) : Nat → Arr3 R :=
  -- line 80, on every process before any of them fetches data
  let fOld := f
  let c := dt * sum [self.coeff.1, self.coeff.2.1, self.coeff.2.2]
  let ghost (rk axis : Nat) : Arr3 R := getData self.nsLocal fOld (self.neighbRk rk axis) (self.neighbSide axis)
  fun rk =>
    -- line 84
    let f := fun i j k => f rk i j k + c * fOld rk i j k
    -- lines 86-88
    let f := fun i j k => if 1 ≤ i then f i j k - dt * self.coeff.1 * fOld rk (i - 1) j k else f i j k
    let f := fun i j k => if 1 ≤ j then f i j k - dt * self.coeff.2.1 * fOld rk i (j - 1) k else f i j k
    let f := fun i j k => if 1 ≤ k then f i j k - dt * self.coeff.2.2 * fOld rk i j (k - 1) else f i j k
    -- lines 91-96
    let f := fun i j k => if i < 1 then f i j k - dt * self.coeff.1 * ghost rk 0 i j k else f i j k
    let f := fun i j k => if j < 1 then f i j k - dt * self.coeff.2.1 * ghost rk 1 i j k else f i j k
    fun i j k => if k < 1 then f i j k - dt * self.coeff.2.2 * ghost rk 2 i j k else f i j k

/-- The time stepping of `main`, upwindMPI.py:165-166. -/
def steps (sum : List R → R) (self : PyMpi R) (numTimeSteps : Int) (dt : R) (f : Nat → Arr3 R) : Nat → Arr3 R :=
  (self.advect sum dt)^[numTimeSteps.toNat] f

/-- The elements of an array in their order. -/
def flat (n : Nat × Nat × Nat) (a : Arr3 R) : List R :=
  (List.range n.1).flatMap fun i => (List.range n.2.1).flatMap fun j => (List.range n.2.2).map fun k => a i j k

/-- `checksum(self)` on process 0, upwindMPI.py:98-99: `reduce(operator.add, 0.0)` of the arrays of all processes. -/
def checksum (self : PyMpi R) (size : Nat) (f : Nat → Arr3 R) : R :=
  ((List.range size).flatMap fun rk => flat self.nsLocal (f rk)).foldl (· + ·) 0

/-- `gatherRoot(self)` on process 0, upwindMPI.py:109-125: the arrays of the processes are copied into their slabs of an array of zeros, one
after the other. -/
def gatherRoot (self : PyMpi R) (size : Nat) (f : Nat → Arr3 R) : Arr3 R :=
  (List.range size).foldl (fun res rk =>
    let b := self.dc.slabStart self.nsLocal rk
    fun i j k => if (b.1 ≤ i ∧ i < b.1 + self.nsLocal.1) ∧ (b.2.1 ≤ j ∧ j < b.2.1 + self.nsLocal.2.1) ∧
        (b.2.2 ≤ k ∧ k < b.2.2 + self.nsLocal.2.2)
      then f rk (i - b.1) (j - b.2.1) (k - b.2.2) else res i j k) (fun _ _ _ => 0)

/-- The time step of `main`, upwindMPI.py:150-154: `min(x, y)` is `x` unless `y < x`. -/
def mainDt (courant inf : R) (velocity lengths : R × R × R) (numCells : Nat × Nat × Nat) : R :=
  let one (l v : R) (n : Nat) (dt : R) : R :=
    let val := courant * (l / ((n : Int) : R)) / v
    if dt < val then dt else val
  one lengths.2.2 velocity.2.2 numCells.2.2 (one lengths.2.1 velocity.2.1 numCells.2.1 (one lengths.1 velocity.1 numCells.1 inf))

/-- The node coordinates that `main` passes to `saveVTK.rectilinear`, upwindMPI.py:179-181: the third axis has the cell width
of the second one. -/
def axes (self : PyMpi R) : List (List R) :=
  [(List.range (self.numCells.1 + 1)).map fun i : Nat => 0 + ((i : Int) : R) * self.deltas.1,
   (List.range (self.numCells.2.1 + 1)).map fun i : Nat => 0 + ((i : Int) : R) * self.deltas.2.1,
   (List.range (self.numCells.2.2 + 1)).map fun i : Nat => 0 + ((i : Int) : R) * self.deltas.2.1]

/-- The file written by process 0, upwindMPI.py:179-182; `data` is the array of the whole grid. -/
def saveVTK [DoubleText R] (self : PyMpi R) (data : Arr3 R) : M Str := do
  PyVtk.rectilinear (← rd self.axes 0) (← rd self.axes 1) (← rd self.axes 2)
    [(self.numCells.1 : Int), self.numCells.2.1, self.numCells.2.2] (flat self.numCells data)

/-- The text of a `numpy` array of integers: all of them at the right of columns as wide as the widest one. -/
def arrayText (l : List Int) : Str :=
  let words := l.map showInt
  let width := (words.map List.length).foldl max 0
  "[".toList ++ (" ".toList).intercalate (words.map fun s => List.replicate (width - s.length) ' ' ++ s) ++ "]".toList

/-- `main`, upwindMPI.py:128-182, on all processes: what each of them writes, with the text of the constructor (lines 25-28 and
35). `decomp` is the search for a decomposition, with the shape of the boxes; `time` is the text of the time measured on process
0. A number of cells that is not positive is not modelled. -/
def main [DoubleText R] (decomp : Nat → Nat → Option (MpiNum × (Nat × Nat × Nat))) (readInt : Str → Option Int) (time : Str)
    (courant inf : R) (sum : List R → R) (size : Nat) (argv : List Str) : M MpiExit := do
  if argv.length ≤ 1 then
    -- lines 131-133
    pure ⟨List.replicate size { out := "must specify number of cells in each direction.\n".toList, err := [], files := [], status := 1 }⟩
  else do
    let n ← PyUpwind.toInt readInt (← rd argv 1)
    let numTimeSteps ← PyUpwind.optInt readInt argv 2 100
    let doVtk ← PyUpwind.optVtk argv 3
    if n ≤ 0 then throw .badArgument
    let numCells := (n.toNat, n.toNat, n.toNat)
    let dt := mainDt courant inf (1, 1, 1) (1, 1, 1) numCells
    match decomp size n.toNat with
    | none =>
      -- lines 25-28
      pure ⟨List.replicate size {
        out := "*** No uniform decomposition could be found for ".toList ++ showInt size ++ " processes\n".toList ++
          "*** Please adjust the number of cells ".toList ++ PyUpwind.listText [n, n, n] ++ "\n".toList
        err := [], files := [], status := 1 }⟩
    | some (dc, nsLocal) =>
      let up := new dc nsLocal (1, 1, 1) (1, 1, 1) numCells
      let f := up.steps sum numTimeSteps dt field
      let files ← if doVtk then do pure [("upMPI.vtk".toList, ← up.saveVTK (up.gatherRoot size f))] else pure []
      pure ⟨(List.range size).map fun (rk : Nat) =>
        -- line 35
        let out := "[".toList ++ showInt rk ++ "] local number of cells: ".toList ++
          arrayText [(nsLocal.1 : Int), nsLocal.2.1, nsLocal.2.2] ++ "\n".toList
        if rk = 0 then
          -- lines 158, 170 and 174
          let out := out ++ "number of cells: ".toList ++ PyUpwind.listText [n, n, n] ++ "\n".toList
          let out := out ++ "Wall clock time spent in advection loop: ".toList ++ time ++ " [sec]\n".toList
          let out := out ++ "check sum: ".toList ++ DoubleText.showDouble (up.checksum size f) ++ "\n".toList
          { out, err := [], files, status := 0 }
        else { out, err := [], files := [], status := 0 }⟩

end PyMpi
end Fidi
