import Verif.Model.Upwind
import Verif.Model.Schedule

/-
Threaded execution of `Upwind<NDIMS>::advect` of `upwind/cxx/upwind.cxx` (and `upwindOMPTasks.cxx`, the same text).
The parallel region of line 56 encloses the time loop, which every thread executes; the two loops of lines 59-62 and
64-84 are work-sharing loops, each ending with a barrier. The members other than `f` and `oldF` are only read, so only
the elements of these two arrays are shared locations.
-/
namespace Fidi

/-- Arrays written by the threads. -/
inductive UpArr where
  | f
  | oldF
  deriving DecidableEq, Repr

/-- Element of an array. -/
abbrev UpLoc := UpArr × Nat

namespace Upwind
variable {R : Type} [Zero R] [One R] [Add R] [Sub R] [Mul R] [Div R] [NatCast R] [IntCast R] [LT R] [DecidableLT R]

/-- The private computations of one iteration of the loop over the axes, upwind.cxx:71-78 and 82: coefficient, upwind
index and restored `inds`. -/
def axisData (self : Upwind R) (deltaTime : R) (j : Nat) (inds : List Int) : M (R × Nat × List Int) := do
  let oldIndex ← rd inds j
  let c ← self.coeff deltaTime j
  let inds ← wr inds j (← self.shiftInd j oldIndex)
  let upI ← self.getFlatIndex inds
  let inds ← wr inds j oldIndex
  pure (c, upI, inds)

/-- Body of the first work-sharing loop, upwind.cxx:61. -/
def copyProg (i : Nat) : Prog UpLoc R := .read (.f, i) fun x => .write (.oldF, i) x .done

/-- The loop over the axes from axis `j` on, `n` axes being left, upwind.cxx:69-83. The compound assignment of line 80
reads `oldFPtr[upI]`, `oldFPtr[i]` and `fPtr[i]` and then writes `fPtr[i]`. -/
def axesProg (self : Upwind R) (deltaTime : R) (i : Nat) : (n j : Nat) → List Int → Prog UpLoc R
  | 0, _, _ => .done
  | n + 1, j, inds =>
    match self.axisData deltaTime j inds with
    | .error e => .fault e
    | .ok (c, upI, inds) =>
      .read (.oldF, upI) fun a => .read (.oldF, i) fun b => .read (.f, i) fun x =>
        .write (.f, i) (x - c * (a - b)) (axesProg self deltaTime i n (j + 1) inds)

/-- Body of the second work-sharing loop, upwind.cxx:67-83. -/
def cellProg (self : Upwind R) (deltaTime : R) (i : Nat) : Prog UpLoc R :=
  match self.getIndexSet i with
  | .error e => .fault e
  | .ok inds => self.axesProg deltaTime i self.ndims 0 inds

/-- The parallel region, upwind.cxx:56-85: two work-sharing loops for each time step. -/
def region (self : Upwind R) (numTimeSteps : Int) (deltaTime : R) : Region UpLoc R where
  phases := 2 * numTimeSteps.toNat
  count := fun _ => self.loopCount
  prog := fun k i => if k % 2 = 0 then copyProg i else self.cellProg deltaTime i

/-- The arrays seen as shared memory (locations outside the arrays hold 0, they are not allocated). -/
def memory (self : Upwind R) : Mem UpLoc R
  | (.f, i) => self.f.getD i 0
  | (.oldF, i) => self.oldF.getD i 0

/-- Allocated locations. -/
def allocated (self : Upwind R) : UpLoc → Prop
  | (.f, i) => i < self.f.length
  | (.oldF, i) => i < self.oldF.length

end Upwind
end Fidi
