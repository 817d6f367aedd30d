import Verif.Model.MultiArrayIter

/-
Model of `cxx/CubeDecomp.h` and `cxx/CubeDecomp.cpp`.
`double` is an arbitrary type `R` with the operations used by the cost function.
-/
namespace Fidi

/-- `std::numeric_limits<double>::max()`. -/
class HasMax (R : Type) where
  dblMax : R

/-- Data members, CubeDecomp.h:84-89. The member `mit` is `none` until the first `build` that finds a
decomposition. -/
structure CubeDecomp where
  nprocs : Int
  ndims : Nat
  decomp : List Nat
  dims : List Nat
  localDims : List Nat
  mit : Option MultiArrayIter
  deriving DecidableEq, Repr

namespace CubeDecomp

/-- The default-constructed object, CubeDecomp.h:26. The scalars `nprocs` and `ndims` are indeterminate in the code;
no method reads them before `build` sets them, except queries, which are undefined because of `mit`. -/
def empty : CubeDecomp := { nprocs := 0, ndims := 0, decomp := [], dims := [], localDims := [], mit := none }

/-- `getPrimeFactors(n)`, CubeDecomp.cpp:138-149. -/
def getPrimeFactors (n : Nat) : M (List Nat) := do
  let res ← forUp 2 (n / 2 + 1) [1] fun k res => do
    let q ← szDiv n k
    pure (if szMul q k = n then res ++ [k] else res)
  pure (res ++ [n])

/-- `std::accumulate(decomp.begin(), decomp.end(), 1, std::multiplies<size_t>())`, CubeDecomp.cpp:58: the
accumulator has the type `int` of the initial value, so each product is narrowed to 32 bits. -/
def accumulateInt (decomp : List Nat) : Int :=
  decomp.foldl (fun acc x => intOfSz (szMul (szOfInt acc) x)) 1

/-- `computeCost(decomp)`, CubeDecomp.cpp:151-170. -/
def computeCost {R : Type} [Div R] [NatCast R] (self : CubeDecomp) (decomp : List Nat) : M R := do
  let localDims ← forUp 0 self.ndims (List.replicate self.ndims 0) fun i ld => do
    wr ld i (← szDiv (← rd self.dims i) (← rd decomp i))
  let (volume, surface) ← forUp 0 self.ndims (1, 0) fun i (volume, surface) => do
    let volume := szMul volume (← rd localDims i)
    let area ← forUp 0 self.ndims 1 fun j area => do
      if j ≠ i then pure (szMul area (← rd localDims j)) else pure area
    pure (volume, szAdd surface area)
  pure ((surface : R) / (volume : R))

/-- The loop of CubeDecomp.cpp:49-63 that gathers the valid decompositions. -/
def gatherValid (self : CubeDecomp) (primeNumbers : List (List Nat)) (it : MultiArrayIter) :
    M (List (List Nat)) := do
  let (_, valid) ← forUp 0 it.getNumberOfTerms (it, []) fun _ (it, valid) => do
    let decompInds ← it.getIndices
    let decomp ← forUp 0 self.ndims (List.replicate self.ndims 0) fun j decomp => do
      wr decomp j (← rd (← rd primeNumbers j) (← rd decompInds j))
    let n := szOfInt (accumulateInt decomp)
    let valid := if n = szOfInt self.nprocs then valid ++ [decomp] else valid
    pure (it.next, valid)
  pure valid

/-- The loop of CubeDecomp.cpp:71-80 that selects a decomposition; it starts at index 1. -/
def selectBest (R : Type) [Div R] [NatCast R] [LT R] [DecidableLT R] [HasMax R]
    (self : CubeDecomp) (valid : List (List Nat)) : M (List Nat) := do
  let best ← rd valid 0
  let (_, best) ← forUp 1 valid.length ((HasMax.dblMax : R), best) fun i (minCost, best) => do
    let d ← rd valid i
    let cost : R ← self.computeCost d
    pure (if cost < minCost then (cost, d) else (minCost, best))
  pure best

/-- `computeOptimalDecomp()`, CubeDecomp.cpp:33-86; returns the decomposition and the updated object. -/
def computeOptimalDecomp (R : Type) [Div R] [NatCast R] [LT R] [DecidableLT R] [HasMax R]
    (self : CubeDecomp) : M (List Nat × CubeDecomp) := do
  let primeNumbers ← forUp 0 self.ndims [] fun i pn => do
    pure (pn ++ [← getPrimeFactors (← rd self.dims i)])
  let zeros := List.replicate self.ndims 0
  let ns ← forUp 0 self.ndims (List.replicate self.ndims 0) fun i ns => do
    wr ns i (← rd primeNumbers i).length
  let it ← MultiArrayIter.new zeros ns false
  let valid ← self.gatherValid primeNumbers it
  if valid.length = 0 then
    pure ([], self)
  else do
    let best ← selectBest R self valid
    let mit ← MultiArrayIter.build self.mit zeros best true
    pure (best, { self with mit := some mit })

/-- `build(nprocs, dims)`, CubeDecomp.cpp:11-31; `self` is the object before the call. -/
def build (R : Type) [Div R] [NatCast R] [LT R] [DecidableLT R] [HasMax R]
    (self : CubeDecomp) (nprocs : Int) (dims : List Nat) : M (Bool × CubeDecomp) := do
  let self := { self with nprocs := nprocs, ndims := dims.length, dims := dims }
  let (decomp, self) ← self.computeOptimalDecomp R
  let self := { self with decomp := decomp }
  if decomp.length = 0 then
    pure (false, self)
  else do
    let localDims ← forUp 0 decomp.length (resize self.localDims decomp.length 0) fun i ld => do
      wr ld i (← szDiv (← rd dims i) (← rd self.decomp i))
    pure (true, { self with localDims := localDims })

/-- `this->mit.move(rk); this->mit.getIndices()` as done by the three queries; a default-constructed `mit` has an
indeterminate `ndims`. -/
def moveMit (self : CubeDecomp) (rk : Int) : M (List Nat × CubeDecomp) :=
  match self.mit with
  | none => throw .uninitialized
  | some mit => do
    let mit := mit.move (szOfInt rk)
    let inds ← mit.getIndices
    pure (inds, { self with mit := some mit })

/-- `getBegIndices(rk)`, CubeDecomp.cpp:88-98. -/
def getBegIndices (self : CubeDecomp) (rk : Int) : M (List Nat × CubeDecomp) := do
  let (inds, self) ← self.moveMit rk
  let res ← forUp 0 self.ndims (List.replicate self.ndims 0) fun i res => do
    wr res i (szMul (← rd inds i) (← rd self.localDims i))
  pure (res, self)

/-- `getEndIndices(rk)`, CubeDecomp.cpp:100-109. -/
def getEndIndices (self : CubeDecomp) (rk : Int) : M (List Nat × CubeDecomp) := do
  let (inds, self) ← self.moveMit rk
  let res ← forUp 0 self.ndims (List.replicate self.ndims 0) fun i res => do
    wr res i (szMul (szAdd (← rd inds i) 1) (← rd self.localDims i))
  pure (res, self)

/-- The body of CubeDecomp.cpp:119-127 for one axis: `ind` is a `size_t`, `dir` an `int`, the result an `int`.
The compound assignments are computed in `size_t` and narrowed to `int`. -/
def shiftIndex (ind : Nat) (dir : Int) (d : Nat) : Int :=
  let o := intOfSz (szAdd ind (szOfInt dir))
  if o < 0 then intOfSz (szAdd (szOfInt o) d)
  else if d ≤ szOfInt o then intOfSz (szSub (szOfInt o) d)
  else o

/-- `getNeighborRank(rk, dir)`, CubeDecomp.cpp:111-131. -/
def getNeighborRank (self : CubeDecomp) (rk : Int) (dir : List Int) : M (Int × CubeDecomp) := do
  let (inds, self) ← self.moveMit rk
  let indOffset ← forUp 0 self.ndims (List.replicate inds.length (0 : Int)) fun i indOffset => do
    wr indOffset i (shiftIndex (← rd inds i) (← rd dir i) (← rd self.decomp i))
  match self.mit with
  | none => throw .uninitialized
  | some mit => pure (← mit.computeBigIndexInt indOffset, self)

/-- `getDecomp()`, CubeDecomp.cpp:133-136. -/
def getDecomp (self : CubeDecomp) : List Nat := self.decomp

end CubeDecomp
end Fidi
