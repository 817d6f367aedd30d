import Verif.Model.Machine

/-
Model of the class `Upwind<NDIMS>` of `upwind/cxx/upwind.cxx`; `upwind/cxx/upwindOMPTasks.cxx` is the same text.
`double` is an arbitrary type `R` with the operations used; no law is assumed about them.
This file executes the loops in sequential order (a build without OpenMP); `Model/Schedule.lean` and
`Model/UpwindPar.lean` hold the threaded executions. Memory is unlimited (`resize` never fails).
-/
namespace Fidi

/-- Data members, upwind.cxx:112-120, and the template parameter `NDIMS`, upwind.cxx:19. -/
structure Upwind (R : Type) where
  ndims : Nat
  v : List R
  lengths : List R
  deltas : List R
  f : List R
  oldF : List R
  upDirection : List Int
  dimProd : List Nat
  numCells : List Nat
  ntot : Nat
  deriving DecidableEq, Repr

namespace Upwind
variable {R : Type} [Zero R] [One R] [Add R] [Sub R] [Mul R] [Div R] [NatCast R] [IntCast R] [LT R] [DecidableLT R]

/-- Body of the loop of the constructor, upwind.cxx:33-38, on `deltas`, `upDirection` and `ntot`. -/
def newBody (velocity lengths : List R) (numCells : List Nat) (j : Nat) :
    List R × List Int × Nat → M (List R × List Int × Nat)
  | (deltas, up, ntot) => do
    let up ← wr up j (-1)
    let up ← if (← rd velocity j) < 0 then wr up j 1 else pure up
    let deltas ← wr deltas j ((← rd lengths j) / ((← rd numCells j : Nat) : R))
    pure (deltas, up, szMul ntot (← rd numCells j))

/-- Constructor, upwind.cxx:23-49. -/
def new (ndims : Nat) (velocity lengths : List R) (numCells : List Nat) : M (Upwind R) := do
  -- lines 33-38
  let (deltas, up, ntot) ← forUp 0 ndims (List.replicate ndims (0 : R), List.replicate ndims (0 : Int), 1)
    (newBody velocity lengths numCells)
  -- lines 39-44
  let dp ← wr (List.replicate ndims 0) (szSub ndims 1) 1
  let dp ← forDown (ndims - 1) dp fun i dp => do
    wr dp i (szMul (← rd dp (i + 1)) (← rd numCells (i + 1)))
  -- lines 45-48
  let f ← wr (List.replicate ntot (0 : R)) 0 1
  pure { ndims, v := velocity, lengths, deltas, f, oldF := List.replicate ntot 0, upDirection := up, dimProd := dp,
         numCells, ntot }

/-- `getIndexSet(flatIndex)`, upwind.cxx:123-129: the quotients are narrowed to `int`. -/
def getIndexSet (self : Upwind R) (flatIndex : Nat) : M (List Int) :=
  forUp 0 self.ndims (List.replicate self.ndims 0) fun i res => do
    let q ← szDiv flatIndex (← rd self.dimProd i)
    wr res i (intOfSz (← szMod q (← rd self.numCells i)))

/-- `getFlatIndex(inds)`, upwind.cxx:132-134: the accumulator of `inner_product` is the `int` 0, each sum is formed
as `size_t` and narrowed to `int`. -/
def getFlatIndex (self : Upwind R) (inds : List Int) : M Nat := do
  let acc ← forUp 0 self.dimProd.length (0 : Int) fun j acc => do
    pure (intOfSz (szAdd (szOfInt acc) (szMul (← rd self.dimProd j) (szOfInt (← rd inds j)))))
  pure (szOfInt acc)

/-- Value of `inds[j]` after upwind.cxx:75-76: index `x` moved upwind; `int + size_t` is `size_t`. -/
def shiftInd (self : Upwind R) (j : Nat) (x : Int) : M Int := do
  let n ← rd self.numCells j
  let y := intOfSz (szAdd (szOfInt x) (szAdd (szOfInt (← rd self.upDirection j)) n))
  pure (intOfSz (← szMod (szOfInt y) n))

/-- `coeff` of upwind.cxx:72. -/
def coeff (self : Upwind R) (deltaTime : R) (j : Nat) : M R := do
  pure (deltaTime * (← rd self.v j) * ((← rd self.upDirection j : Int) : R) / (← rd self.deltas j))

/-- Body of the loop over the axes, upwind.cxx:69-83, on the arrays `f` and `inds`. -/
def axisBody (self : Upwind R) (deltaTime : R) (oldF : List R) (i j : Nat) (f : List R) (inds : List Int) :
    M (List R × List Int) := do
  let oldIndex ← rd inds j
  let c ← self.coeff deltaTime j
  let inds ← wr inds j (← self.shiftInd j oldIndex)
  let upI ← self.getFlatIndex inds
  let f ← wr f i ((← rd f i) - c * ((← rd oldF upI) - (← rd oldF i)))
  let inds ← wr inds j oldIndex
  pure (f, inds)

/-- Body of the second loop over the cells, upwind.cxx:65-84. -/
def cellBody (self : Upwind R) (deltaTime : R) (oldF : List R) (i : Nat) (f : List R) : M (List R) := do
  let inds ← self.getIndexSet i
  let (f, _) ← forUp 0 self.ndims (f, inds) fun j (f, inds) => self.axisBody deltaTime oldF i j f inds
  pure f

/-- Number of iterations of the loops `for (int i = 0; i < (int) this->ntot; ++i)`, upwind.cxx:60 and 65. -/
def loopCount (self : Upwind R) : Nat := (intOfSz self.ntot).toNat

/-- One time step, upwind.cxx:57-85. -/
def timeStep (self : Upwind R) (deltaTime : R) : M (Upwind R) := do
  let oldF ← forUp 0 self.loopCount self.oldF fun i oldF => do wr oldF i (← rd self.f i)
  let f ← forUp 0 self.loopCount self.f fun i f => self.cellBody deltaTime oldF i f
  pure { self with f, oldF }

/-- `advect(numTimeSteps, deltaTime)`, upwind.cxx:51-86. -/
def advect (self : Upwind R) (numTimeSteps : Int) (deltaTime : R) : M (Upwind R) :=
  forUp 0 numTimeSteps.toNat self fun _ s => s.timeStep deltaTime

/-- `checksum()`, upwind.cxx:91-93. -/
def checksum (self : Upwind R) : R := self.f.foldl (· + ·) 0

/-- The C library function `sqrt`. -/
class HasSqrt (R : Type) where
  sqrt : R → R

/-- `std()`, upwind.cxx:95-103. The counter of line 98 is an `int` compared with a `size_t`: incrementing it past
2^31 - 1 is undefined, which happens if there are at least 2^31 cells. -/
def std [HasSqrt R] (self : Upwind R) : M R := do
  let mean := self.checksum / (self.ntot : R)
  let res ← forUp 0 self.f.length (0 : R) fun i res => do
    let d := (← rd self.f i) - mean
    let res := res + d * d
    let _ ← mkInt ((i : Int) + 1)
    pure res
  pure (HasSqrt.sqrt (res / (self.ntot : R)))

end Upwind
end Fidi
