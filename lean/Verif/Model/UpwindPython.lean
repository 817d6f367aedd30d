import Verif.Model.Machine

/-
Model of upwind/python/upwind.py: class `Upwind` and the time stepping of `main`.

Integers of numpy arrays of type `int32` are integers with a range check (numpy wraps around or raises an exception, neither
of which is modelled further: the outcome is an error). Python integers are integers. An exception is an error. Whole-array
operations are evaluated element by element. Floating-point numbers are values of an arbitrary type `R`, as in the model of
upwind.cxx; `velocity` and `lengths` are arrays of `float64`. Not modelled: `offsetMat` and `numCellsExt` (never used).
`printOut` is in UpwindPrint.lean, `saveVTK` is in VtkOther.lean, the command line and the check sum are in MainsOther.lean.
-/
namespace Fidi

/-- `x // y` of integers: rounded down. -/
def floorDiv (x y : Int) : M Int := if y = 0 then .error .divByZero else .ok (x.fdiv y)

/-- `x % y` of integers: sign of the divisor. -/
def floorMod (x y : Int) : M Int := if y = 0 then .error .divByZero else .ok (x.fmod y)

/-- `a[i]` for an integer index: negative ones count from the end. -/
def pyGet {α : Type} (a : List α) (i : Int) : M α :=
  if 0 ≤ i then rd a i.toNat
  else if 0 ≤ i + a.length then rd a (i + a.length).toNat
  else .error .outOfBounds

/-- Attributes of class `Upwind`, upwind.py:11-44. -/
structure PyUpwind (R : Type) where
  ndims : Nat
  ntot : Int
  numCells : List Int
  upDirection : List Int
  deltas : List R
  v : List R
  lengths : List R
  dimProd : List Int
  coeff : List R
  f : List R
  inds : List (List Int)

namespace PyUpwind
variable {R : Type} [Zero R] [One R] [Add R] [Sub R] [Mul R] [Div R] [IntCast R] [LT R] [DecidableLT R]

/-- Body of the first loop of the constructor, upwind.py:20-25, on `deltas`, `upDirection` and `ntot`. -/
def newBody (velocity lengths : List R) (numCells : List Int) (j : Nat) :
    List R × List Int × Int → M (List R × List Int × Int)
  | (deltas, up, ntot) => do
    let up ← wr up j (-1)
    let up ← if (← rd velocity j) < 0 then wr up j 1 else pure up
    let deltas ← wr deltas j ((← rd lengths j) / ((← rd numCells j : Int) : R))
    pure (deltas, up, ntot * (← rd numCells j))

/-- `__init__(self, velocity, lengths, numCells)`, upwind.py:10-44. -/
def new (velocity lengths : List R) (numCells : List Int) : M (PyUpwind R) := do
  let ndims := velocity.length
  -- lines 13-25
  let (deltas, up, ntot) ← forUp 0 ndims (List.replicate ndims (0 : R), List.replicate ndims (0 : Int), 1)
    (newBody velocity lengths numCells)
  -- lines 27-30
  let dimProd ← forDown (ndims - 1) (List.replicate ndims (1 : Int)) fun i dp => do
    wr dp i (← mkInt ((← rd dp (i + 1)) * (← rd numCells (i + 1))))
  -- line 32
  let coeff ← (List.range ndims).mapM fun j => do
    pure ((← rd velocity j) * ((← rd up j : Int) : R) / (← rd deltas j))
  -- lines 35-37
  if ntot < 0 then throw .badArgument
  let f ← wr (List.replicate ntot.toNat (0 : R)) 0 1
  -- lines 40-44
  let inds ← forUp 0 ndims (List.replicate ndims (List.replicate ntot.toNat (0 : Int))) fun j inds => do
    let row ← (List.range ntot.toNat).mapM fun c : Nat => do
      let q ← floorDiv (← mkInt (c : Int)) (← rd dimProd j)
      floorMod q (← mkInt (← rd numCells j))
    wr inds j row
  pure { ndims, ntot, numCells, upDirection := up, deltas, v := velocity, lengths, dimProd, coeff, f, inds }

/-- `numpy.dot(self.dimProd, indsUp)`, upwind.py:61. -/
def flatInds (self : PyUpwind R) (inds : List (List Int)) : M (List Int) :=
  (List.range self.ntot.toNat).mapM fun c : Nat => forUp 0 self.ndims (0 : Int) fun j acc => do
    mkInt (acc + (← mkInt ((← rd self.dimProd j) * (← rd (← rd inds j) c))))

/-- Body of the loop over the axes, upwind.py:54-67, on `indsUp` and `self.f`. -/
def axisBody (self : PyUpwind R) (deltaTime : R) (oldF : List R) (j : Nat) :
    List (List Int) × List R → M (List (List Int) × List R)
  | (indsUp, f) => do
    -- lines 57-58
    let up ← rd self.upDirection j
    let n ← rd self.numCells j
    let row ← (← rd indsUp j).mapM fun x => do floorMod (← mkInt (x + up)) n
    let indsUp ← wr indsUp j row
    -- line 61
    let flat ← self.flatInds indsUp
    -- line 64
    let c := deltaTime * (← rd self.coeff j)
    let f ← (List.range f.length).mapM fun i => do
      pure ((← rd f i) - c * ((← pyGet oldF (← rd flat i)) - (← rd oldF i)))
    -- line 67
    let indsUp ← wr indsUp j (← rd self.inds j)
    pure (indsUp, f)

/-- `advect(self, deltaTime)`, upwind.py:46-67. -/
def advect (self : PyUpwind R) (deltaTime : R) : M (PyUpwind R) := do
  let (_, f) ← forUp 0 self.ndims (self.inds, self.f) (self.axisBody deltaTime self.f)
  pure { self with f }

/-- The time stepping of `main`, upwind.py:120-121. -/
def steps (self : PyUpwind R) (numTimeSteps : Int) (deltaTime : R) : M (PyUpwind R) :=
  forUp 0 numTimeSteps.toNat self fun _ s => s.advect deltaTime

/-- Time step of `main`, upwind.py:113-117; `courant` is 0.1 and `inf` is `float('inf')`. -/
def mainDt (courant inf : R) (velocity lengths : List R) (numCells : List Int) : M R :=
  forUp 0 velocity.length inf fun j dt => do
    let dx := (← rd lengths j) / ((← rd numCells j : Int) : R)
    let val := courant * dx / (← rd velocity j)
    pure (if dt < val then dt else val)

end PyUpwind
end Fidi
