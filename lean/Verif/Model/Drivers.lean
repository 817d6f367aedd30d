import Verif.Model.FilterCalls

/-
The computing part of the drivers `laplacian/cxx/laplacian.cxx` and `upwind/cxx/upwindMpi.cxx`, once the command line is
parsed. `sz` is the number of processes. Timings are not modelled.
-/
namespace Fidi
variable {R : Type}

/-- `sin` and `M_PI`. -/
class HasSin (R : Type) where
  sin : R → R
  pi : R

/-- The branch `if (fltr.isDecompValid())` of both drivers, laplacian.cxx:80 and upwindMpi.cxx:106, taken by every rank on
its own. If some ranks take it and some do not, the first collective call never completes. -/
def ifDecompValid (w : World R) (body : World R → M (World R)) : M (World R) :=
  if w.all fun f => f.validDecomp then body w
  else if w.all fun f => !f.validDecomp then pure w
  else throw .mpiError

/-! ### laplacian.cxx -/

namespace Laplacian
variable [Zero R] [One R] [Add R] [Sub R] [Mul R] [Div R] [Neg R] [NatCast R] [LT R] [DecidableLT R]

/-- `func`, laplacian.cxx:22-28. -/
def func [HasSin R] (pos : List R) : R :=
  pos.foldl (fun res p => res * HasSin.sin (((2 : Nat) : R) * HasSin.pi * p)) 1

/-- Body of the loop over the axes, laplacian.cxx:59-65, on `stencil` and `offset`. -/
def axisBody (i : Nat) : StdMap (List Int) R × List Int → M (StdMap (List Int) R × List Int)
  | (stencil, offset) => do
    let offset ← wr offset i 1
    let stencil := StdMap.insert stencil offset 1
    let offset ← wr offset i (-1)
    let stencil := StdMap.insert stencil offset 1
    let offset ← wr offset i 0
    pure (stencil, offset)

/-- The stencil, laplacian.cxx:54-65. -/
def stencil (numDims : Nat) : M (StdMap (List Int) R) := do
  let offset := List.replicate numDims 0
  let st := StdMap.insert [] offset (-((2 : Nat) : R) * (numDims : R))
  let (st, _) ← forUp 0 numDims (st, offset) axisBody
  pure st

/-- The filters of all ranks, laplacian.cxx:50-75. A negative number of axes becomes a size larger than any vector can
have. -/
def start [HasMax R] (sz : Nat) (numCells numDims : Int) : M (World R) := do
  if numDims < 0 then throw .badArgument
  let n := szOfInt numDims
  World.new sz (List.replicate n (szOfInt numCells)) (List.replicate n 0) (List.replicate n 1) (← stencil n)

/-- laplacian.cxx:50-90: the filters after the timed loop. -/
def run [HasMax R] [HasSin R] (sz : Nat) (numCells numDims : Int) : M (World R) := do
  let w ← start sz numCells numDims
  ifDecompValid w fun w => do
    let w ← w.setInData func
    w.iterate 10

end Laplacian

/-! ### upwindMpi.cxx -/

namespace UpwindMpi
variable [Zero R] [One R] [Add R] [Sub R] [Mul R] [Div R] [NatCast R] [IntCast R] [LT R] [DecidableLT R]

/-- `initialCondition`, upwindMpi.cxx:22-28: the accumulator of `accumulate` is the `int` 0; each sum is formed as `size_t`
and narrowed to `int`. -/
def initialCondition (inds : List Nat) : R :=
  if inds.foldl (fun acc x => intOfSz (szAdd (szOfInt acc) x)) (0 : Int) = 0 then 1 else 0

/-- Body of the loop upwindMpi.cxx:65-72, on `deltas`, `signs` and `dt`. -/
def setupBody (courant : R) (numCells : Nat) (velocities lengths : List R) (j : Nat) :
    List R × List Int × R → M (List R × List Int × R)
  | (deltas, signs, dt) => do
    let dx := (← rd lengths j) / (numCells : R)
    let deltas ← wr deltas j dx
    let val := courant * dx / (← rd velocities j)
    let dt := if val < dt then val else dt
    let signs ← wr signs j (if 0 < (← rd velocities j) then 1 else -1)
    pure (deltas, signs, dt)

/-- `signs[i] * dt * velocities[i] / deltas[i]`, upwindMpi.cxx:81 and 89. -/
def weight (velocities deltas : List R) (signs : List Int) (dt : R) (i : Nat) : M R := do
  pure (((← rd signs i : Int) : R) * dt * (← rd velocities i) / (← rd deltas i))

/-- Body of the loop upwindMpi.cxx:86-92, on `stencil` and `offset`. -/
def axisBody (velocities deltas : List R) (signs : List Int) (dt : R) (i : Nat) :
    StdMap (List Int) R × List Int → M (StdMap (List Int) R × List Int)
  | (stencil, offset) => do
    let offset ← wr offset i (← mkInt (-(← rd signs i)))
    let stencil := StdMap.insert stencil offset (← weight velocities deltas signs dt i)
    let offset ← wr offset i 0
    pure (stencil, offset)

/-- The stencil, upwindMpi.cxx:54-92, for `numDims` axes; `courant` is the literal 0.1 of line 61. -/
def stencil [HasMax R] (courant : R) (numCells numDims : Nat) (velocities lengths : List R) :
    M (StdMap (List Int) R) := do
  let (deltas, signs, dt) ← forUp 0 velocities.length
    (List.replicate numDims (0 : R), List.replicate numDims (0 : Int), HasMax.dblMax)
    (setupBody courant numCells velocities lengths)
  let offset := List.replicate numDims (0 : Int)
  let val ← forUp 0 velocities.length (1 : R) fun i val => do
    pure (val - (← weight velocities deltas signs dt i))
  let st := StdMap.insert [] offset val
  let (st, _) ← forUp 0 numDims (st, offset) (axisBody velocities deltas signs dt)
  pure st

/-- The filters of all ranks, upwindMpi.cxx:46-101. -/
def start [HasMax R] (courant : R) (sz : Nat) (numCells : Int) : M (World R) := do
  let n := szOfInt numCells
  let velocities : List R := List.replicate 3 1
  let lengths : List R := List.replicate 3 1
  World.new sz (List.replicate 3 n) (List.replicate 3 0) lengths (← stencil courant n 3 velocities lengths)

/-- One time step up to `copyOutToIn`, upwindMpi.cxx:116-120: the filter is applied, then both check sums are formed. -/
def applyAndSum (w : World R) : M (World R) := do
  let w ← w.applyFilter
  let w ← Call.run w (.checkSum true)
  Call.run w (.checkSum false)

/-- The time loop, upwindMpi.cxx:115-126. -/
def advect (w : World R) : Nat → M (World R)
  | 0 => pure w
  | n + 1 => do
    let w ← applyAndSum w
    let w ← w.copyOutToIn
    advect w n

/-- upwindMpi.cxx:46-126: the filters after the timed loop. The number of steps is converted to `size_t`. -/
def run [HasMax R] (courant : R) (sz : Nat) (numCells numSteps : Int) : M (World R) := do
  let w ← start courant sz numCells
  ifDecompValid w fun w => do
    let w ← w.setInDataByIndices initialCondition
    advect w (szOfInt numSteps)

end UpwindMpi
end Fidi
