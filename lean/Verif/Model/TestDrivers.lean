import Verif.Model.CubeDecomp
import Verif.Model.FilterPrint

/-
Model of the test drivers `laplacian/cxx/testCubeDecomp.cxx` and `laplacian/cxx/testMultiArrayIter.cxx`: the text they write
to `std::cout`. What is written before an undefined operation is not kept.
-/
namespace Fidi
namespace TestDrivers

/-- The body of testCubeDecomp.cxx:40-51 for one value of `pm`. -/
def neighborLine (rk : Int) (dim : Nat) (pm : Int) (st : List Int × Str × CubeDecomp) : M (List Int × Str × CubeDecomp) := do
  let (dir, s, dc) := st
  let dir ← wr dir dim pm
  let ds ← Filter.listText showInt dir.length dir
  let (neighborRk, dc) ← dc.getNeighborRank rk dir
  let s := s ++ "\t\tneighbor in direction ".toList ++ ds ++ " is ".toList ++ showInt neighborRk ++ ['\n']
  let dir ← wr dir dim 0
  pure (dir, s, dc)

/-- The loops of testCubeDecomp.cxx:38-52. -/
def neighborLines (ndims : Nat) (rk : Int) (dc : CubeDecomp) : M (Str × CubeDecomp) := do
  let (_, s, dc) ← forUp 0 ndims (List.replicate ndims (0 : Int), ([] : Str), dc) fun dim st => do
    let st ← neighborLine rk dim (-1) st
    neighborLine rk dim 1 st
  pure (s, dc)

/-- The body of testCubeDecomp.cxx:23-53 for one rank. -/
def rankText (ndims : Nat) (rk : Int) (dc : CubeDecomp) : M (Str × CubeDecomp) := do
  let (lo, dc) ← dc.getBegIndices rk
  let (hi, dc) ← dc.getEndIndices rk
  let los ← Filter.listText showSz lo.length lo
  let his ← Filter.listText showSz hi.length hi
  let (nb, dc) ← neighborLines ndims rk dc
  pure ("\trank: ".toList ++ showInt rk ++ ['\n'] ++ "\tlo = ".toList ++ los ++ ['\n'] ++ "\thi = ".toList ++ his ++ ['\n'] ++ nb, dc)

/-- `test(sz, dims)`, testCubeDecomp.cxx:14-54. The constructor of line 16 (CubeDecomp.h:33-36) calls `build` and ignores
its result. -/
def testCubeDecomp (R : Type) [Div R] [NatCast R] [LT R] [DecidableLT R] [HasMax R] (sz : Int) (dims : List Nat) : M Str := do
  let (_, dc) ← CubeDecomp.empty.build R sz dims
  let decomp := dc.getDecomp
  let ds ← Filter.listText showSz decomp.length decomp
  let (s, _) ← forUp 0 sz.toNat (" [".toList ++ showInt sz ++ "] decomp: ".toList ++ ds ++ ['\n'], dc) fun rk (s, dc) => do
    let (t, dc) ← rankText dims.length (rk : Int) dc
    pure (s ++ t, dc)
  pure s

/-- `main()`, testCubeDecomp.cxx:56-78. -/
def mainCubeDecomp (R : Type) [Div R] [NatCast R] [LT R] [DecidableLT R] [HasMax R] : M Str := do
  let s1 ← testCubeDecomp R 2 [10]
  let s2 ← testCubeDecomp R 6 [3, 2]
  let s3 ← testCubeDecomp R 6 [2, 3, 4]
  pure (s1 ++ s2 ++ s3)

/-- `test(rowMajor)`, testMultiArrayIter.cxx:14-30; the box, fixed at lines 15-18, is a parameter here. -/
def testMultiArrayIter (lo hi : List Nat) (rowMajor : Bool) : M Str := do
  let it ← MultiArrayIter.new lo hi rowMajor
  let (s, _) ← forUp 0 it.getNumberOfTerms (([] : Str), it) fun i (s, it) => do
    let inds ← it.getIndices
    let t ← forUp 0 inds.length (s ++ showSz i ++ ": ".toList) fun j s => do
      pure (s ++ showSz (← rd inds j) ++ ", ".toList)
    pure (t ++ ['\n'], it.next)
  pure s

/-- `main()`, testMultiArrayIter.cxx:32-37. -/
def mainMultiArrayIter : M Str := do
  let s1 ← testMultiArrayIter [1, 2, 3] [4, 7, 8] true
  let s2 ← testMultiArrayIter [1, 2, 3] [4, 7, 8] false
  pure ("row major test:\n".toList ++ s1 ++ "column major test:\n".toList ++ s2)

end TestDrivers
end Fidi
