import Verif.Model.Upwind
import Verif.Model.FilterCalls
import Verif.Model.CmdLine

/-
Model of the files written by `upwind/cxx/saveVTK.h` and `cxx/writeVTK.cpp`. The result is the text of the file; opening
the file is assumed to succeed. Doubles are formatted by `DoubleText.showDouble`.
-/
namespace Fidi
variable {R : Type}

/-- `file << size_t`. -/
def showSz (n : Nat) : Str := Nat.toDigits 10 n

namespace Upwind
variable [Zero R] [Add R] [Mul R] [NatCast R] [DoubleText R]

/-- ` numCells[j] + 1` of the `DIMENSIONS` line if there is an axis `j`, else ` 1`; saveVTK.h:12-23. -/
def vtkDim (self : Upwind R) (j : Nat) : M Str := do
  if self.ndims > j then pure (' ' :: showSz (szAdd (← rd self.numCells j) 1)) else pure " 1".toList

/-- The loops saveVTK.h:28-30, 39-41 and 49-51. -/
def vtkCoordLoop (self : Upwind R) (j : Nat) : M Str := do
  let n := szAdd (← rd self.numCells j) 1
  forUp 0 n (showSz n ++ " double\n".toList) fun i text => do
    pure (text ++ ' ' :: DoubleText.showDouble (0 + (← rd self.deltas j) * (i : R)))

/-- The coordinates along axis `j` for `j > 0`, saveVTK.h:26-35 and 37-46. -/
def vtkCoords (self : Upwind R) (j : Nat) : M Str := do
  if self.ndims > j then self.vtkCoordLoop j else pure ("1 double\n".toList ++ "0.0\n".toList)

/-- The values, saveVTK.h:55-58. -/
def vtkValues (self : Upwind R) : M Str :=
  forUp 0 self.ntot [] fun i text => do
    let text := text ++ DoubleText.showDouble (← rd self.f i) ++ " ".toList
    pure (if szAdd i 1 % 10 = 0 then text ++ "\n".toList else text)

/-- `saveVTK(filename)`, saveVTK.h:1-61: the text of the file. -/
def saveVTK (self : Upwind R) : M Str := do
  let text := "# vtk DataFile Version 2.0\n".toList ++ "upwind.cxx\n".toList ++ "ASCII\n".toList
    ++ "DATASET RECTILINEAR_GRID\n".toList ++ "DIMENSIONS".toList
  let text := text ++ (← self.vtkDim 2)
  let text := text ++ (← self.vtkDim 1)
  let n0 ← rd self.numCells 0
  let text := text ++ ' ' :: showSz (szAdd n0 1)
  let text := text ++ "\nX_COORDINATES ".toList ++ (← self.vtkCoords 2)
  let text := text ++ "\nY_COORDINATES ".toList ++ (← self.vtkCoords 1)
  let text := text ++ "\nZ_COORDINATES ".toList ++ (← self.vtkCoordLoop 0)
  let text := text ++ "\nCELL_DATA ".toList ++ showSz self.ntot ++ "\n".toList
  let text := text ++ "SCALARS f double 1\n".toList ++ "LOOKUP_TABLE default\n".toList
  let text := text ++ (← self.vtkValues)
  pure (text ++ "\n".toList)

end Upwind

variable [Zero R] [One R] [Add R] [Sub R] [Mul R] [Div R] [NatCast R] [DoubleText R]

/-- The three axes of the file, writeVTK.cpp:24-59: extents, low and high ends. Axis `j` is that of the grid if there is
one, else one cell from 0 to 1. -/
def vtkAxis (globalDims : List Nat) (xmins xmaxs : List R) (j : Nat) : M (Nat × R × R) := do
  if globalDims.length > j then pure (← rd globalDims j, ← rd xmins j, ← rd xmaxs j) else pure (1, 0, 1)

/-- One coordinate, writeVTK.cpp:76-78. -/
def vtkNode (axis : Nat × R × R) (i : Nat) : R := axis.2.1 + (axis.2.2 - axis.2.1) * (i : R) / (axis.1 : R)

/-- Body of the loop over the nodes, writeVTK.cpp:74-81. -/
def vtkNodeBody (ax ay az : Nat × R × R) (_ : Nat) : MultiArrayIter × Str → M (MultiArrayIter × Str)
  | (pit, text) => do
    let inds ← pit.getIndices
    let x := vtkNode ax (← rd inds 0)
    let y := vtkNode ay (← rd inds 1)
    let z := vtkNode az (← rd inds 2)
    pure (pit.next, text ++ DoubleText.showDouble x ++ " ".toList ++ DoubleText.showDouble y ++ " ".toList
      ++ DoubleText.showDouble z ++ "\n".toList)

/-- Body of the loop over the cells, writeVTK.cpp:89-92. -/
def vtkCellBody (field : List R) (i : Nat) : MultiArrayIter × Str → M (MultiArrayIter × Str)
  | (fit, text) => do
    pure (fit.next, text ++ DoubleText.showDouble (← rd field i) ++ "\n".toList)

/-- The file up to the nodes, writeVTK.cpp:62-69. -/
def vtkHead (nx1 ny1 nz1 numPoints : Nat) : Str :=
  "# vtk DataFile Version 2.0\n".toList ++ "produced by laplacian\n".toList ++ "ASCII\n".toList
    ++ "DATASET STRUCTURED_GRID\n".toList ++ "DIMENSIONS ".toList ++ showSz nx1 ++ " ".toList ++ showSz ny1
    ++ " ".toList ++ showSz nz1 ++ "\n".toList ++ "POINTS ".toList ++ showSz numPoints ++ " float\n".toList

/-- The lines between the nodes and the values, writeVTK.cpp:84-86. -/
def vtkMid (numCells : Nat) (name : Str) : Str :=
  "CELL_DATA ".toList ++ showSz numCells ++ "\n".toList ++ "SCALARS ".toList ++ name ++ " float\n".toList
    ++ "LOOKUP_TABLE default\n".toList

/-- writeVTK.cpp:60-96 for the axes `ax`, `ay` and `az`. -/
def writeGrid (ax ay az : Nat × R × R) (field : List R) (name : Str) : M Str := do
  let nx1 := szAdd ax.1 1
  let ny1 := szAdd ay.1 1
  let nz1 := szAdd az.1 1
  let numPoints := szMul (szMul nx1 ny1) nz1
  let numCells := szMul (szMul ax.1 ay.1) az.1
  let pit ← MultiArrayIter.new (List.replicate 3 0) [nx1, ny1, nz1] false
  let (_, text) ← forUp 0 pit.getNumberOfTerms (pit, vtkHead nx1 ny1 nz1 numPoints) (vtkNodeBody ax ay az)
  let fit ← MultiArrayIter.new (List.replicate 3 0) [ax.1, ay.1, az.1] false
  let (_, text) ← forUp 0 fit.getNumberOfTerms (fit, text ++ vtkMid numCells name) (vtkCellBody field)
  pure text

/-- `writeVTK(filename, globalDims, xmins, xmaxs, field, name)`, writeVTK.cpp:12-96: the text of the file, or `none` if
no file is written. -/
def writeVTK (globalDims : List Nat) (xmins xmaxs field : List R) (name : Str) : M (Option Str) := do
  if globalDims.length > 3 then pure none
  else do
    let ax ← vtkAxis globalDims xmins xmaxs 0
    let ay ← vtkAxis globalDims xmins xmaxs 1
    let az ← vtkAxis globalDims xmins xmaxs 2
    pure (some (← writeGrid ax ay az field name))

namespace World

/-- `saveVTK` on every rank including the file, Filter.cpp:489-537, if the address computed from the empty receive buffer
on the other ranks is harmless (see `saveField`). -/
def saveFile (w : World R) : M (Option Str × World R) := do
  let (field, w) ← w.saveField
  match w with
  | [] => throw .mpiError
  | root :: others => do
    let text ← writeVTK root.globalDims root.xmins root.xmaxs field "outData".toList
    pure (text, root :: others)

end World
end Fidi
