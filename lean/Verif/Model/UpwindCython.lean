import Verif.Model.UpwindPython
import Verif.Model.UpwindJulia

/-
Model of upwind/cython/upwind5.pyx: class `Upwind` with its constructor, `advect` and `checksum`.

The file is written for Python 2 and an old numpy; what newer ones do differently in it is in `NumpyRules`. Arrays of type
`numpy.int` have 64-bit elements; the attributes `ndims` and `ntot` are C integers of 32 bits, and a value out of their range
raises an exception. An exception is an error; the object is not used after one. Whole-array operations are evaluated element
by element. The elements of `upDirection` are 1.0 and -1.0; they are integers in the model, their addition to an index and the
conversion back are exact. `numCells` is an array of integers, `velocity` and `lengths` are arrays of `float64`; floating-point
numbers are values of an arbitrary type `R`. Not modelled: `offsetMat` and `numCellsExt` (never used).
`printOut` and `saveVTK` are in UpwindPrint.lean.
-/
namespace Fidi

/-- Rules of Python and numpy for operations in place on arrays of integers, `/=` by an integer (line 70) and `+=` with a
floating-point number (line 89). -/
structure NumpyRules where
  /-- `/` of integers is the true division, as in Python 3. Its result cannot be stored in an array of integers: exception. -/
  trueDivision : Bool
  /-- Only conversions `same_kind` are done in place, as in numpy since 1.10; from floating-point numbers to integers: exception. -/
  sameKind : Bool
  deriving DecidableEq, Repr

/-- Attributes of class `Upwind`, upwind5.pyx:17-32. -/
structure CyUpwind (R : Type) where
  numCells : List Int
  deltas : List R
  upDirection : List Int
  v : List R
  lengths : List R
  dimProd : List Int
  coeff : List R
  f : List R
  oldF : List R
  ndims : Nat
  ntot : Int
  inds : List (List Int)
  indsUp : List (List Int)
  flatIndsUp : List Int

namespace CyUpwind
variable {R : Type} [Zero R] [One R] [Add R] [Sub R] [Mul R] [Div R] [IntCast R] [LT R] [DecidableLT R]

/-- Body of the first loop of the constructor, upwind5.pyx:46-51, on `deltas`, `upDirection` and `ntot`. -/
def newBody (velocity lengths : List R) (numCells : List Int) (j : Nat) :
    List R × List Int × Int → M (List R × List Int × Int)
  | (deltas, up, ntot) => do
    let up ← wr up j (-1)
    let up ← if (← rd velocity j) < 0 then wr up j 1 else pure up
    let deltas ← wr deltas j ((← rd lengths j) / ((← rd numCells j : Int) : R))
    pure (deltas, up, ← mkInt (ntot * (← rd numCells j)))

/-- `self.inds[j, :] /= self.dimProd[j]`, upwind5.pyx:70, for one element. -/
def divInPlace (py : NumpyRules) (x y : Int) : M Int :=
  if py.trueDivision then .error .badArgument else floorDiv x y

/-- `self.indsUp[j, :] += self.upDirection[j]`, upwind5.pyx:89, for one element. -/
def addInPlace (py : NumpyRules) (x y : Int) : M Int :=
  if py.sameKind then .error .badArgument else mkInt64 (x + y)

/-- `__init__(self, velocity, lengths, numCells)`, upwind5.pyx:34-77. -/
def new (py : NumpyRules) (velocity lengths : List R) (numCells : List Int) : M (CyUpwind R) := do
  let ndims := velocity.length
  -- lines 39-51
  let (deltas, up, ntot) ← forUp 0 ndims (List.replicate ndims (0 : R), List.replicate ndims (0 : Int), 1)
    (newBody velocity lengths numCells)
  -- lines 53-56
  let dimProd ← forDown (ndims - 1) (List.replicate ndims (1 : Int)) fun i dp => do
    wr dp i (← mkInt64 ((← rd dp (i + 1)) * (← rd numCells (i + 1))))
  -- line 58
  let coeff ← (List.range ndims).mapM fun j => do
    pure ((← rd velocity j) * ((← rd up j : Int) : R) / (← rd deltas j))
  -- lines 61-64
  if ntot < 0 then throw .badArgument
  let oldF := List.replicate ntot.toNat (0 : R)
  let f ← wr (List.replicate ntot.toNat (0 : R)) 0 1
  -- lines 67-71
  let inds ← forUp 0 ndims (List.replicate ndims (List.replicate ntot.toNat (0 : Int))) fun j inds => do
    let row ← (List.range ntot.toNat).mapM fun c : Nat => do
      let q ← divInPlace py (← mkInt64 (c : Int)) (← rd dimProd j)
      floorMod q (← rd numCells j)
    wr inds j row
  -- lines 73-77
  pure { numCells, deltas, upDirection := up, v := velocity, lengths, dimProd, coeff, f, oldF, ndims, ntot, inds,
         indsUp := inds, flatIndsUp := List.replicate ntot.toNat (0 : Int) }

/-- `numpy.dot(self.dimProd, self.indsUp)`, upwind5.pyx:93. -/
def dotInds (self : CyUpwind R) (indsUp : List (List Int)) : M (List Int) :=
  (List.range self.ntot.toNat).mapM fun c : Nat => forUp 0 self.ndims (0 : Int) fun j acc => do
    mkInt64 (acc + (← mkInt64 ((← rd self.dimProd j) * (← rd (← rd indsUp j) c))))

/-- Body of the loop over the axes, upwind5.pyx:86-99. -/
def axisBody (py : NumpyRules) (deltaTime : R) (j : Nat) (self : CyUpwind R) : M (CyUpwind R) := do
  -- lines 89-90
  let up ← rd self.upDirection j
  let n ← rd self.numCells j
  let row ← (← rd self.indsUp j).mapM fun x => do floorMod (← addInPlace py x up) n
  let indsUp ← wr self.indsUp j row
  -- line 93
  let flatIndsUp ← self.dotInds indsUp
  -- line 96
  let c := deltaTime * (← rd self.coeff j)
  let f ← (List.range self.f.length).mapM fun i => do
    pure ((← rd self.f i) - c * ((← pyGet self.oldF (← rd flatIndsUp i)) - (← rd self.oldF i)))
  -- line 99
  let indsUp ← wr indsUp j (← rd self.inds j)
  pure { self with indsUp, flatIndsUp, f }

/-- `advect(self, deltaTime)`, upwind5.pyx:79-99. -/
def advect (py : NumpyRules) (self : CyUpwind R) (deltaTime : R) : M (CyUpwind R) := do
  -- line 83
  if self.oldF.length ≠ self.f.length then throw .badArgument
  forUp 0 self.ndims { self with oldF := self.f } (axisBody py deltaTime)

/-- Calls of `advect`, one after the other, with the given time steps. -/
def advects (py : NumpyRules) (self : CyUpwind R) (dts : List R) : M (CyUpwind R) :=
  dts.foldlM (fun s dt => s.advect py dt) self

/-- `checksum(self)`, upwind5.pyx:147-148; `sum` is the sum of all elements of an array, in an unspecified order. -/
def checksum (sum : List R → R) (self : CyUpwind R) : R := sum self.f

end CyUpwind
end Fidi
