import Verif.Model.UpwindPython
import Verif.Model.Fortran

/-
Model of upwind/julia/upwind.jl and upwind/julia/upwind3.jl: `Upwind`, `advect!`, and the time stepping of the main programs.

`Int` is Int64: integers with a range check (Julia wraps around, which is not modelled further: the outcome is an error).
Arrays are numbered from 1 and an exception is an error. Whole-array operations are evaluated element by element.
Floating-point numbers are values of an arbitrary type `R`, as in the model of upwind.cxx; `velocity` and `lengths` are arrays of
`Float64`. The loops `for i = 1:n` have no overflow. The command line and the check sum are in
MainsOther.lean, with `save2VTK`.
-/
namespace Fidi

/-- Result of an operation on Int64. -/
def mkInt64 (x : Int) : M Int := if -(2 ^ 63) ≤ x ∧ x < 2 ^ 63 then .ok x else .error .signedOverflow

/-- `div(x, y)`: rounded towards 0. -/
def jlDiv (x y : Int) : M Int := if y = 0 then .error .divByZero else mkInt64 (x.tdiv y)

/-- `mod1(x, y)`: as `mod(x, y)`, but `y` instead of 0. -/
def jlMod1 (x y : Int) : M Int := do
  let m ← floorMod x y
  pure (if m = 0 then y else m)

/-- An integer converted to `Float64`: exact up to 2^53; larger ones, which may be rounded, are not modelled. -/
def jlFloat (x : Int) : M Int := if -(2 ^ 53) ≤ x ∧ x ≤ 2 ^ 53 then .ok x else .error .badArgument

/-- `a[i]` for an integer index, numbered from 1. -/
def jlGet {α : Type} (a : List α) (i : Int) : M α :=
  if 1 ≤ i then rd a (i.toNat - 1) else .error .outOfBounds

/-- Members of `Upwind`, upwind.jl:14-38, upwind3.jl:14-42. -/
structure JlUpwind (R : Type) where
  ndims : Nat
  velocity : List R
  lengths : List R
  numCells : List Int
  deltas : List R
  upDirection : List Int
  ntot : Int
  dimProd : List Int
  f : List R

namespace JlUpwind
open Fortran (rd1 wr1)
variable {R : Type} [Zero R] [One R] [Add R] [Sub R] [Mul R] [Div R] [IntCast R] [LT R] [DecidableLT R]

/-- Body of the first loop of the constructor, upwind.jl:54-61, on `deltas`, `upDirection` and `ntot`. -/
def newBody (velocity lengths : List R) (numCells : List Int) (i : Nat) :
    List R × List Int × Int → M (List R × List Int × Int)
  | (deltas, up, ntot) => do
    let up ← wr1 up i (-1)
    let up ← if (← rd1 velocity i) < 0 then wr1 up i 1 else pure up
    let deltas ← wr1 deltas i ((← rd1 lengths i) / ((← rd1 numCells i : Int) : R))
    pure (deltas, up, ← mkInt64 (ntot * (← rd1 numCells i)))

/-- `Upwind(ndims, velocity, lengths, numCells)`, upwind.jl:40-74, upwind3.jl:58-81. -/
def new (ndims : Nat) (velocity lengths : List R) (numCells : List Int) : M (JlUpwind R) := do
  -- lines 50-61
  let (deltas, up, ntot) ← forUp 0 ndims (List.replicate ndims (0 : R), List.replicate ndims (0 : Int), 1)
    fun i => newBody velocity lengths numCells (i + 1)
  -- lines 62-65
  let dimProd ← forUp 1 ndims (List.replicate ndims (1 : Int)) fun i dp => do
    wr1 dp (i + 1) (← mkInt64 ((← rd1 dp i) * (← rd1 numCells i)))
  -- lines 70-71
  if ntot < 0 then throw .badArgument
  let f ← wr1 (List.replicate ntot.toNat (0 : R)) 1 1
  pure { ndims, velocity, lengths, numCells, deltas, upDirection := up, ntot, dimProd, f }

/-- `getFlatIndex(this, inds)`, upwind.jl:99-107. -/
def getFlatIndex (this : JlUpwind R) (inds : List Int) : M Int := do
  if inds.length ≠ this.dimProd.length then throw .badArgument
  let acc ← forUp 0 inds.length (0 : Int) fun j acc => do
    let x ← mkInt64 ((← rd inds j) - 1)
    mkInt64 (acc + (← mkInt64 ((← rd this.dimProd j) * x)))
  mkInt64 (acc + 1)

/-- `getIndexSet(this, flatIndex)`, upwind.jl:109-121. -/
def getIndexSet (this : JlUpwind R) (flatIndex : Nat) : M (List Int) :=
  forUp 0 this.ndims (List.replicate this.ndims (0 : Int)) fun i res => do
    let q ← jlDiv (← mkInt64 ((flatIndex : Int) - 1)) (← rd1 this.dimProd (i + 1))
    wr1 res (i + 1) (← mkInt64 ((← floorMod q (← rd1 this.numCells (i + 1))) + 1))

/-- Body of the loop over the cells, upwind.jl:86-95. -/
def cellBody (up this : JlUpwind R) (oldF : List R) (j : Nat) (c : R) (i : Nat) (f : List R) : M (List R) := do
  let inds ← up.getIndexSet i
  let x ← mkInt64 ((← rd1 inds j) + (← rd1 this.upDirection j))
  let inds ← wr1 inds j (← jlMod1 x (← rd1 this.numCells j))
  let upI ← up.getFlatIndex inds
  wr1 f i ((← rd1 f i) - c * ((← jlGet oldF upI) - (← rd1 oldF i)))

/-- Body of the loop over the axes, upwind.jl:84-96. -/
def axisBody (up this : JlUpwind R) (deltaTime : R) (oldF : List R) (j : Nat) (f : List R) : M (List R) := do
  let c := deltaTime * (← rd1 this.velocity j) * ((← rd1 this.upDirection j : Int) : R) / (← rd1 this.deltas j)
  forUp 0 this.ntot.toNat f fun i => cellBody up this oldF j c (i + 1)

/-- `advect!(this, deltaTime)`, upwind.jl:77-97. Lines 87 and 92 use the global variable `up` instead of `this`. -/
def advect (up this : JlUpwind R) (deltaTime : R) : M (JlUpwind R) := do
  let f ← forUp 0 this.ndims this.f fun j => axisBody up this deltaTime this.f (j + 1)
  pure { this with f }

/-- The time stepping of the main program, upwind.jl:176-178: the object is the global variable `up`. -/
def steps (up : JlUpwind R) (numTimeSteps : Int) (deltaTime : R) : M (JlUpwind R) :=
  forUp 0 numTimeSteps.toNat up fun _ up => advect up up deltaTime

/-- Time step of the main programs, upwind.jl:165-170, upwind3.jl:155-160; `courant` is 0.1 and `inf` is `Inf`. -/
def mainDt (courant inf : R) (velocity lengths : List R) (numCells : List Int) : M R :=
  forUp 0 velocity.length inf fun j dt => do
    let dx := (← rd1 lengths (j + 1)) / ((← rd1 numCells (j + 1) : Int) : R)
    let val := courant * dx / (← rd1 velocity (j + 1))
    pure (if dt < val then dt else val)

/-! ### upwind3.jl -/

/-- Columns of `inds`, upwind3.jl:84-87. -/
def indexColumns (this : JlUpwind R) : M (List (List Int)) :=
  (List.range this.ndims).mapM fun j => (List.range this.ntot.toNat).mapM fun c : Nat => do
    floorMod (← jlDiv (← mkInt64 (c : Int)) (← rd1 this.dimProd (j + 1))) (← rd1 this.numCells (j + 1))

/-- `*(indsUp, this.dimProd) .+ 1`, upwind3.jl:112. -/
def flatInds (this : JlUpwind R) (inds : List (List Int)) : M (List Int) :=
  (List.range this.ntot.toNat).mapM fun c : Nat => do
    let acc ← forUp 0 this.ndims (0 : Int) fun j acc => do
      mkInt64 (acc + (← mkInt64 ((← rd (← rd inds j) c) * (← rd this.dimProd j))))
    mkInt64 (acc + 1)

/-- Body of the loop over the axes, upwind3.jl:107-120, on `indsUp` and `this.f`. -/
def axisBody3 (this : JlUpwind R) (inds : List (List Int)) (c oldF : List R) (j : Nat) :
    List (List Int) × List R → M (List (List Int) × List R)
  | (indsUp, f) => do
    -- line 109
    let up ← rd1 this.upDirection j
    let n ← rd1 this.numCells j
    let col ← (← rd1 inds j).mapM fun x => do floorMod (← jlFloat ((← jlFloat x) + up)) (← jlFloat n)
    let indsUp ← wr1 indsUp j col
    -- line 112
    let flat ← this.flatInds indsUp
    -- line 115
    let cj ← rd1 c j
    let f ← (List.range f.length).mapM fun i => do
      pure ((← rd f i) - cj * ((← jlGet oldF (← rd flat i)) - (← rd oldF i)))
    -- line 118
    let indsUp ← wr1 indsUp j (← rd1 inds j)
    pure (indsUp, f)

/-- `advect!(this, deltaTime)`, upwind3.jl:95-122, `inds` being the columns stored in the object. -/
def advect3 (inds : List (List Int)) (this : JlUpwind R) (deltaTime : R) : M (JlUpwind R) := do
  -- line 105
  let c ← (List.range this.ndims).mapM fun j => do
    pure (deltaTime * (← rd1 this.velocity (j + 1)) * ((← rd1 this.upDirection (j + 1) : Int) : R) /
      (← rd1 this.deltas (j + 1)))
  let (_, f) ← forUp 0 this.ndims (inds, this.f) fun j => this.axisBody3 inds c this.f (j + 1)
  pure { this with f }

/-- The constructor and the time stepping of `main`, upwind3.jl:152 and 163-165. -/
def run3 (ndims : Nat) (velocity lengths : List R) (numCells : List Int) (numTimeSteps : Int) (deltaTime : R) :
    M (JlUpwind R) := do
  let up ← new ndims velocity lengths numCells
  let inds ← up.indexColumns
  forUp 0 numTimeSteps.toNat up fun _ up => advect3 inds up deltaTime

end JlUpwind
end Fidi
