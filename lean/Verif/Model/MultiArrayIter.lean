import Verif.Model.Machine

/-
Model of `cxx/MultiArrayIter.h` and `cxx/MultiArrayIter.cpp`.
-/
namespace Fidi

/-- A built `MultiArrayIter` (data members, MultiArrayIter.h:103-123).
A default-constructed object (MultiArrayIter.h:24) has empty vectors and indeterminate scalars; users of the
class hold an `Option MultiArrayIter`, with `none` for the default-constructed state. -/
structure MultiArrayIter where
  lo : List Nat
  hi : List Nat
  dims : List Nat
  dimProd : List Nat
  rowMajor : Bool
  ntot : Nat
  ndims : Nat
  bigIndex : Nat
  deriving DecidableEq, Repr

namespace MultiArrayIter

/-- `begin()`, MultiArrayIter.cpp:59-62. -/
def begin' (it : MultiArrayIter) : MultiArrayIter := { it with bigIndex := 0 }

/-- `next()`, MultiArrayIter.cpp:64-67. -/
def next (it : MultiArrayIter) : MultiArrayIter := { it with bigIndex := szAdd it.bigIndex 1 }

/-- `move(bi)`, MultiArrayIter.cpp:69-72. -/
def move (it : MultiArrayIter) (bi : Nat) : MultiArrayIter := { it with bigIndex := bi }

/-- `getNumberOfTerms()`, MultiArrayIter.cpp:54-57. -/
def getNumberOfTerms (it : MultiArrayIter) : Nat := it.ntot

/-- `getLBegIndices()`, MultiArrayIter.cpp:74-77. -/
def getLBegIndices (it : MultiArrayIter) : List Nat := it.lo

/-- `getEndIndices()`, MultiArrayIter.cpp:79-82. -/
def getEndIndices (it : MultiArrayIter) : List Nat := it.hi

/-- The vectors of the object before `build` (empty if default-constructed). -/
def oldDims (self : Option MultiArrayIter) : List Nat := (self.map (·.dims)).getD []
/-- see `oldDims` -/
def oldDimProd (self : Option MultiArrayIter) : List Nat := (self.map (·.dimProd)).getD []

/-- `build(lo, hi, rowMajor)`, MultiArrayIter.cpp:17-52; `self` is the object before the call.
With no axis `ndims - 1` wraps to 2^64-1 and the write of line 39 is out of bounds; so is the one of
line 45. The loop counter of line 40 is an `int`; the model uses a natural number (fewer than 2^31 axes). -/
def build (self : Option MultiArrayIter) (lo hi : List Nat) (rowMajor : Bool) : M MultiArrayIter := do
  let ndims := lo.length
  -- lines 24-27
  let dims ← forUp 0 ndims (resize (oldDims self) ndims 0) fun i dims => do
    wr dims i (szSub (← rd hi i) (← rd lo i))
  -- lines 32-35
  let ntot ← forUp 0 ndims 1 fun i ntot => do
    pure (szMul ntot (← rd dims i))
  -- lines 37-49
  let dp := resize (oldDimProd self) ndims 0
  let dimProd ←
    if rowMajor then do
      let dp ← wr dp (szSub ndims 1) 1
      forDown (ndims - 1) dp fun i dp => do
        wr dp i (szMul (← rd dp (i + 1)) (← rd dims (i + 1)))
    else do
      let dp ← wr dp 0 1
      forUp 1 ndims dp fun i dp => do
        wr dp i (szMul (← rd dp (i - 1)) (← rd dims (i - 1)))
  -- line 51
  pure (begin' { lo, hi, dims, dimProd, rowMajor, ntot, ndims, bigIndex := 0 })

/-- The three-argument constructor, MultiArrayIter.cpp:13-15. -/
def new (lo hi : List Nat) (rowMajor : Bool) : M MultiArrayIter := build none lo hi rowMajor

/-- `getIndices()`, MultiArrayIter.h:51-57. -/
def getIndices (it : MultiArrayIter) : M (List Nat) :=
  forUp 0 it.ndims (List.replicate it.ndims 0) fun i res => do
    let q ← szDiv it.bigIndex (← rd it.dimProd i)
    let r ← szMod q (← rd it.dims i)
    wr res i (szAdd (← rd it.lo i) r)

/-- The accumulation of `computeBigIndex<T>`, MultiArrayIter.h:94-97, with the conversion `T → size_t`
applied to `inds[i]` by the usual arithmetic conversions in `inds[i] - lo[i]`. -/
def bigIndexAcc {T : Type} (toSz : T → Nat) (it : MultiArrayIter) (inds : List T) : M Nat :=
  forUp 0 it.ndims 0 fun i bi => do
    pure (szAdd bi (szMul (← rd it.dimProd i) (szSub (toSz (← rd inds i)) (← rd it.lo i))))

/-- `computeBigIndex<size_t>`, MultiArrayIter.h:92-99. -/
def computeBigIndexSz (it : MultiArrayIter) (inds : List Nat) : M Nat :=
  bigIndexAcc id it inds

/-- `computeBigIndex<int>`, MultiArrayIter.h:92-99: the result is narrowed to `int` on return. -/
def computeBigIndexInt (it : MultiArrayIter) (inds : List Int) : M Int := do
  pure (intOfSz (← bigIndexAcc szOfInt it inds))

end MultiArrayIter
end Fidi
