import Verif.Model.Fortran
import Verif.Model.UpwindPar

/-
Model of the module `upwind_mod` of `upwind/fortran/upwind.F90` and of the versions `upwindF03.F90`, `upwindF08.F90` and
`upwindF08Gpu.F90`, which contain the same statements with type-bound procedures. `real(r8)` is an arbitrary type `R`
with the operations used; no law is assumed. Expressions are evaluated from left to right, as written (the language would
also allow a compiler to evaluate a mathematically equivalent expression).

The loop over the cells is an OpenMP work-sharing loop (F90, F03, F08Gpu), a `do concurrent` (F08) or an offloaded loop
(F08Gpu); the loop variables and `inds`, `oldIndex`, `upI` are private to the iterations. A build without any of these is
the execution with one thread. The increment of the variable of this loop past its bound is not modelled.
-/
namespace Fidi

/-- Derived type `upwind_type`, upwind.F90:7-34. -/
structure FUpwind (R : Type) where
  ndims : Nat
  ntot : Int
  numCells : List Int
  upDirection : List Int
  deltas : List R
  v : List R
  lengths : List R
  f : List R
  dimProd : List Int
  deriving DecidableEq, Repr

namespace FUpwind
open Fortran
variable {R : Type} [Zero R] [One R] [Add R] [Sub R] [Mul R] [Div R] [IntCast R] [LT R] [DecidableLT R]

/-- Body of the first loop of the constructor, upwind.F90:68-75, on `deltas`, `upDirection` and `ntot`. -/
def newBody (velocity lengths : List R) (numCells : List Int) (j : Nat) :
    List R × List Int × Int → M (List R × List Int × Int)
  | (deltas, up, ntot) => do
    let up ← wr1 up j (-1)
    let up ← if (← rd1 velocity j) < 0 then wr1 up j 1 else pure up
    let deltas ← wr1 deltas j ((← rd1 lengths j) / ((← rd1 numCells j : Int) : R))
    pure (deltas, up, ← mkInt (ntot * (← rd1 numCells j)))

/-- `upwind_new(obj, velocity, lengths, numCells)`, upwind.F90:43-89. -/
def new (velocity lengths : List R) (numCells : List Int) : M (FUpwind R) := do
  let ndims := velocity.length
  -- lines 66-75
  let (deltas, up, ntot) ← doUp ndims (List.replicate ndims (0 : R), List.replicate ndims (0 : Int), 1)
    (newBody velocity lengths numCells)
  -- lines 77-80
  let dp ← wr1 (List.replicate ndims (0 : Int)) ndims 1
  let dp ← forDown (ndims - 1) dp fun i dp => do
    wr1 dp (i + 1) (← mkInt ((← rd1 dp (i + 2)) * (← rd1 numCells (i + 2))))
  -- lines 82-87
  let f ← wr1 (List.replicate ntot.toNat (0 : R)) 1 1
  pure { ndims, ntot, numCells, upDirection := up, deltas, v := velocity, lengths, f, dimProd := dp }

/-- `upwind_getIndexSet(obj, flatIndex, res)`, upwind.F90:234-243. -/
def getIndexSet (self : FUpwind R) (flatIndex : Nat) : M (List Int) :=
  doUp self.ndims (List.replicate self.ndims 0) fun i res => do
    let q ← idiv (← mkInt ((flatIndex : Int) - 1)) (← rd1 self.dimProd i)
    wr1 res i (← mkInt ((← imod q (← rd1 self.numCells i)) + 1))

/-- `upwind_getFlatIndex(obj, inds, res)`, upwind.F90:245-252. -/
def getFlatIndex (self : FUpwind R) (inds : List Int) : M Int := do
  let acc ← forUp 0 self.ndims (0 : Int) fun j acc => do
    let x ← mkInt ((← rd inds j) - 1)
    mkInt (acc + (← mkInt ((← rd self.dimProd j) * x)))
  mkInt (acc + 1)

/-- Value of `inds(j)` after upwind.F90:135-138, from the value `x`. -/
def shiftInd (self : FUpwind R) (j : Nat) (x : Int) : M Int := do
  let y ← mkInt (x + (← rd1 self.upDirection j))
  let n ← rd1 self.numCells j
  let z ← imodulo (← mkInt ((← mkInt (y + n)) - 1)) n
  mkInt (z + 1)

/-- The private computations of one iteration of the loop over the axes, upwind.F90:131-141 and 148: upwind index,
restored `inds`, and `deltaTime*v(j)*upDirection(j)` and `deltas(j)` of line 145. -/
def axisData (self : FUpwind R) (deltaTime : R) (j : Nat) (inds : List Int) : M (Int × List Int × R × R) := do
  let oldIndex ← rd1 inds j
  let inds ← wr1 inds j (← self.shiftInd j oldIndex)
  let upI ← self.getFlatIndex inds
  let w := deltaTime * (← rd1 self.v j) * ((← rd1 self.upDirection j : Int) : R)
  let d ← rd1 self.deltas j
  let inds ← wr1 inds j oldIndex
  pure (upI, inds, w, d)

/-- The loop over the axes from axis `j` on, `n` axes being left, upwind.F90:129-149. Elements are numbered from 1. -/
def axesProg (self : FUpwind R) (deltaTime : R) (i : Nat) : (n j : Nat) → List Int → Prog UpLoc R
  | 0, _, _ => if endsPast self.ndims then .fault .signedOverflow else .done
  | n + 1, j, inds =>
    match self.axisData deltaTime j inds with
    | .error e => .fault e
    | .ok (upI, inds, w, d) =>
      .read (.f, i) fun x => .read (.oldF, upI.toNat) fun a => .read (.oldF, i) fun b =>
        .write (.f, i) (x - w * (a - b) / d) (axesProg self deltaTime i n (j + 1) inds)

/-- Body of the loop over the cells, upwind.F90:126-149. -/
def cellProg (self : FUpwind R) (deltaTime : R) (i : Nat) : Prog UpLoc R :=
  match self.getIndexSet i with
  | .error e => .fault e
  | .ok inds => self.axesProg deltaTime i self.ndims 1 inds

/-- The parallel loop of `upwind_advect` in upwind.F90:122-150, upwindF03.F90:131-159 and upwindF08.F90:131-162. -/
def region (self : FUpwind R) (deltaTime : R) : Region UpLoc R where
  phases := 1
  count := fun _ => self.ntot.toNat
  prog := fun _ i => self.cellProg deltaTime (i + 1)

/-- The two parallel loops of `upwind_advect` in upwindF08Gpu.F90:162-252. -/
def regionGpu (self : FUpwind R) (deltaTime : R) : Region UpLoc R where
  phases := 2
  count := fun _ => self.ntot.toNat
  prog := fun k i => if k = 0 then .read (.f, i + 1) fun x => .write (.oldF, i + 1) x .done
    else self.cellProg deltaTime (i + 1)

/-- Memory when the parallel loop of upwind.F90 starts: `oldF` is a copy of `f`, upwind.F90:118-119. Elements are
numbered from 1; locations outside the arrays are not allocated. -/
def memory (self : FUpwind R) : Mem UpLoc R
  | (.f, i) => self.f.getD (i - 1) 0
  | (.oldF, i) => self.f.getD (i - 1) 0

/-- Memory when the parallel loops of upwindF08Gpu.F90 start: the new array `oldF` holds anything. -/
def memoryGpu (self : FUpwind R) (junk : Nat → R) : Mem UpLoc R
  | (.f, i) => self.f.getD (i - 1) 0
  | (.oldF, i) => junk i

/-- Allocated locations. -/
def allocated (self : FUpwind R) : UpLoc → Prop
  | (.f, i) => 1 ≤ i ∧ i ≤ self.f.length
  | (.oldF, i) => 1 ≤ i ∧ (i : Int) ≤ self.ntot

/-- The object after the loops, given the final memory. -/
def after (self : FUpwind R) (m : Mem UpLoc R) : FUpwind R :=
  { self with f := (List.range self.f.length).map fun i => m (.f, i + 1) }

/-- `k` successive calls of `upwind_advect`, each with its own number of threads and schedule, can lead from the first to
the second object. -/
inductive Advances (deltaTime : R) : Nat → FUpwind R → FUpwind R → Prop where
  | none (self : FUpwind R) : Advances deltaTime 0 self self
  | call {k : Nat} {self mid : FUpwind R} (h : Advances deltaTime k self mid) (T : Nat) (hT : 0 < T)
      (may : Nat → Nat → Nat → Prop) (s : PState UpLoc R) (hs : PReach (mid.region deltaTime) T may mid.memory s)
      (hf : s.Final (mid.region deltaTime) T) : Advances deltaTime (k + 1) self (mid.after s.mem)
  | callGpu {k : Nat} {self mid : FUpwind R} (h : Advances deltaTime k self mid) (T : Nat) (hT : 0 < T)
      (may : Nat → Nat → Nat → Prop) (junk : Nat → R) (s : PState UpLoc R)
      (hs : PReach (mid.regionGpu deltaTime) T may (mid.memoryGpu junk) s)
      (hf : s.Final (mid.regionGpu deltaTime) T) : Advances deltaTime (k + 1) self (mid.after s.mem)

/-- Time step of the main program, upwind.F90:342-349; `courant` is 0.1_r8 and `big` is `huge(1.0_r8)`. -/
def mainDt (courant big : R) (velocity lengths : List R) (numCells : List Int) : M R :=
  doUp velocity.length big fun j dt => do
    let dx := (← rd1 lengths j) / ((← rd1 numCells j : Int) : R)
    let val := courant * dx / (← rd1 velocity j)
    pure (if dt < val then dt else val)

/-- `sum(up % f)` of upwind.F90:362, the elements added in their order. -/
def checksum (self : FUpwind R) : R := self.f.foldl (· + ·) 0

end FUpwind
end Fidi
