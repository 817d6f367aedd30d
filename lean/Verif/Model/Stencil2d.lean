import Verif.Model.Mains
import Verif.Model.FilterPrint

/-
The whole of `laplacian/cxx/testStencil2d.cxx`. `sz` is the number of processes. The function of positions, lines 22-28, is
not used by `main`.
-/
namespace Fidi
variable {R : Type}

namespace Stencil2d
variable [Zero R] [One R] [Add R] [Sub R] [Mul R] [Div R] [Neg R] [NatCast R] [LT R] [DecidableLT R]

/-- The function of indices, testStencil2d.cxx:30-38. -/
def func (inds : List Nat) : R := if inds.foldl szMul 1 = 0 then 1 else 0

/-- The options, testStencil2d.cxx:49-52. -/
def options : CmdLineArgParser R :=
  ((CmdLineArgParser.new.setPurpose "Purpose: benchmark finite difference operations.".toList).setInt
    "-numCells".toList 8 "Number of cells along each axis".toList).setBool
    "-vtk".toList false "Write output to VTK file".toList

/-- The stencil, testStencil2d.cxx:63-75. -/
def stencil : M (StdMap (List Int) R) := do
  let offset := List.replicate 2 0
  let st := StdMap.insert [] offset 0
  let offset ← wr offset 0 1
  let st := StdMap.insert st offset 1
  let offset ← wr offset 0 0
  let offset ← wr offset 1 (-1)
  let st := StdMap.insert st offset (-1)
  let _ ← wr offset 1 0
  pure st

/-- The filters of all ranks, testStencil2d.cxx:59-85. -/
def start [HasMax R] (sz : Nat) (numCells : Int) : M (World R) := do
  let n := szOfInt numCells
  World.new sz (List.replicate 2 n) (List.replicate 2 0) (List.replicate 2 1) (← stencil)

/-- testStencil2d.cxx:87-94: the message of rank 0 and the filters. If some ranks have a decomposition and some do not, the
first collective call never completes. -/
def compute (w : World R) : M (Str × World R) :=
  if w.all fun f => f.validDecomp then do
    let w ← w.setInDataByIndices func
    let w ← w.applyFilter
    pure ([], w)
  else if w.all fun f => !f.validDecomp then pure ("Decomposition is invalid\n".toList, w)
  else throw .mpiError

/-- testStencil2d.cxx:87-107. -/
def body [DoubleText R] (doVtk : Bool) (w : World R) : M MpiExit := do
  let (msg, w) ← compute w
  let ps ← w.mapM fun f => f.printDataText false
  let (note, files, _) ← mpiVtk "stencil2d.vtk".toList doVtk (ps.map Prod.snd)
  pure ⟨ps.zipIdx.map fun (p, rk) =>
    { out := if rk = 0 then note else [], err := (if rk = 0 then msg else []) ++ p.1,
      files := if rk = 0 then files else [], status := 0 }⟩

/-- `main`, testStencil2d.cxx:41-119, on `sz` ranks. -/
def main [HasMax R] [DoubleText R] (sz : Nat) (argv : List Str) : M MpiExit := do
  let (success, args, msg) ← (options (R := R)).parse argv
  if success && !args.getBool "-h".toList then do
    let w ← start (R := R) sz (args.getInt "-numCells".toList)
    body (args.getBool "-vtk".toList) w
  else mpiUsage sz success args msg

end Stencil2d
end Fidi
