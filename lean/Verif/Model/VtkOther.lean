import Verif.Model.Vtk
import Verif.Model.UpwindFortran
import Verif.Model.UpwindJulia

/-
Model of the VTK files of the other versions of the upwind solver: `upwind_saveVTK` of the Fortran versions,
`upwind/python/saveVTK.py` with `Upwind.saveVTK` of upwind.py, and `upwind/julia/saveVTK.jl`. The result is the text of the
file; opening the file is assumed to succeed. `DoubleText.showDouble` stands for the digits of a floating-point number in
each of the formats used (`e20.7` before the padding, `str`, `%f`).
-/
namespace Fidi
variable {R : Type}

namespace Fortran

/-- A text in a field of `w` characters: blanks in front, or asterisks if it does not fit. -/
def inField (w : Nat) (s : Str) : Str :=
  if s.length ≤ w then List.replicate (w - s.length) ' ' ++ s else List.replicate w '*'

/-- Edit descriptor `iw`. -/
def fmtI (w : Nat) (x : Int) : Str := inField w (showInt x)

/-- The record written by format `(e20.7)`. -/
def recE [DoubleText R] (x : R) : Str := inField 20 (DoubleText.showDouble x) ++ ['\n']

end Fortran

namespace FUpwind
open Fortran
variable [Zero R] [Add R] [Mul R] [IntCast R] [DoubleText R]

/-- `numCells(j) + 1`. -/
def nodes (self : FUpwind R) (j : Nat) : M Int := do mkInt ((← rd1 self.numCells j) + 1)

/-- The record of the dimensions, upwind.F90:173-183. -/
def vtkDims (self : FUpwind R) : M Str := do
  if self.ndims > 2 then
    pure ("DIMENSIONS ".toList ++ fmtI 10 (← self.nodes 3) ++ fmtI 10 (← self.nodes 2) ++ fmtI 10 (← self.nodes 1) ++ ['\n'])
  else if self.ndims > 1 then
    pure ("DIMENSIONS 1".toList ++ fmtI 10 (← self.nodes 2) ++ fmtI 10 (← self.nodes 1) ++ ['\n'])
  else
    pure ("DIMENSIONS 1 1".toList ++ fmtI 10 (← self.nodes 1) ++ ['\n'])

/-- The coordinates of axis `j`, `name` being the keyword, upwind.F90:185-188, 192-195 and 203-206. -/
def vtkCoordLoop (self : FUpwind R) (name : Str) (j : Nat) : M Str := do
  let n ← self.nodes j
  doUp n.toNat (name ++ fmtI 10 n ++ " double".toList ++ ['\n']) fun i text => do
    pure (text ++ recE (0 + (← rd1 self.deltas j) * ((← mkInt ((i : Int) - 1) : Int) : R)))

/-- The coordinates of axis 2 or 3, upwind.F90:191-199 and 202-210. -/
def vtkCoords (self : FUpwind R) (name : Str) (j : Nat) : M Str := do
  if self.ndims > j - 1 then self.vtkCoordLoop name j else pure (name ++ "1 double\n".toList ++ "0.0\n".toList)

/-- The values, upwind.F90:215-217. -/
def vtkValues (self : FUpwind R) : M Str :=
  doUp self.ntot.toNat [] fun i text => do pure (text ++ recE (← rd1 self.f i))

/-- `upwind_saveVTK(obj, filename)`, upwind.F90:155-221, upwindF03.F90:163-229, upwindF08.F90:167-233,
upwindF08Gpu.F90:260-326: the text of the file. A list-directed record without items is a blank line. -/
def saveVTK (self : FUpwind R) : M Str := do
  let text := "# vtk DataFile Version 2.0\n".toList ++ "upwind.f90\n".toList ++ "ASCII\n".toList
    ++ "DATASET RECTILINEAR_GRID\n".toList
  let text := text ++ (← self.vtkDims)
  let text := text ++ (← self.vtkCoordLoop "X_COORDINATES ".toList 1) ++ ['\n']
  let text := text ++ (← self.vtkCoords "Y_COORDINATES ".toList 2) ++ ['\n']
  let text := text ++ (← self.vtkCoords "Z_COORDINATES ".toList 3)
  let text := text ++ "CELL_DATA ".toList ++ fmtI 20 self.ntot ++ ['\n']
  let text := text ++ "SCALARS f double 1\n".toList ++ "LOOKUP_TABLE default\n".toList
  pure (text ++ (← self.vtkValues))

end FUpwind

namespace PyVtk
variable [DoubleText R]

/-- ` numCells[j] + 1` of the `DIMENSIONS` line if there is an axis `j`, else ` 1`; saveVTK.py:24-31. -/
def dim (numCells : List Int) (j : Nat) : M Str := do
  if numCells.length > j then pure (' ' :: showInt ((← rd numCells j) + 1)) else pure " 1".toList

/-- The coordinates of axis `j`, saveVTK.py:35-37, 42-44 and 48-50. -/
def coordLoop (numCells : List Int) (axis : List R) (j : Nat) : M Str := do
  let n := (← rd numCells j) + 1
  forUp 0 n.toNat (showInt n ++ " double".toList) fun i text => do
    pure (text ++ ' ' :: DoubleText.showDouble (← rd axis i))

/-- The coordinates of axis 1 or 2 of the data, saveVTK.py:34-39 and 41-46. -/
def coords (numCells : List Int) (axis : List R) (j : Nat) : M Str := do
  if numCells.length > j then coordLoop numCells axis j else pure "1 double 0.0".toList

/-- The values, saveVTK.py:59-62. -/
def values (flat : List R) : M Str :=
  forUp 0 flat.length [] fun i text => do
    let text := text ++ DoubleText.showDouble (← rd flat i)
    pure (if (i + 1) % 10 = 0 then text ++ ['\n'] else text)

/-- `rectilinear(fname, xAxis, yAxis, zAxis, data)`, saveVTK.py:3-62, `numCells` being the shape of `data` and `flat` its
elements: the text of the file. -/
def rectilinear (xAxis yAxis zAxis : List R) (numCells : List Int) (flat : List R) : M Str := do
  let text := "# vtk DataFile Version 2.0\n".toList ++ "upwind\n".toList ++ "ASCII\n".toList
    ++ "DATASET RECTILINEAR_GRID\n".toList ++ "DIMENSIONS".toList
  let text := text ++ (← dim numCells 2)
  let text := text ++ (← dim numCells 1)
  let text := text ++ ' ' :: showInt ((← rd numCells 0) + 1)
  let text := text ++ "\nX_COORDINATES ".toList ++ (← coords numCells xAxis 2)
  let text := text ++ "\nY_COORDINATES ".toList ++ (← coords numCells yAxis 1)
  let text := text ++ "\nZ_COORDINATES ".toList ++ (← coordLoop numCells zAxis 0)
  let text := text ++ "\nCELL_DATA ".toList ++ showSz flat.length ++ "\n".toList
  let text := text ++ "SCALARS f double 1\n".toList ++ "LOOKUP_TABLE default\n".toList
  pure (text ++ (← values flat))

end PyVtk

namespace PyUpwind
variable [Zero R] [Add R] [Mul R] [IntCast R] [DoubleText R]

/-- The nodes of axis `j`, upwind.py:70-78. -/
def vtkAxis (self : PyUpwind R) (j : Nat) : M (List R) := do
  if self.ndims > j then
    let n := (← rd self.numCells j) + 1
    (List.range n.toNat).mapM fun i : Nat => do pure (0 + (← rd self.deltas j) * ((i : Int) : R))
  else pure [0]

/-- `saveVTK(self, fname)`, upwind.py:69-79; `reshape` raises an exception if the shape does not match. -/
def saveVTK (self : PyUpwind R) : M Str := do
  let xAxis ← self.vtkAxis 2
  let yAxis ← self.vtkAxis 1
  let zAxis ← self.vtkAxis 0
  if self.numCells.prod ≠ self.f.length then throw .badArgument
  PyVtk.rectilinear xAxis yAxis zAxis self.numCells self.f

end PyUpwind

namespace JlVtk
open Fortran (rd1)
variable [DoubleText R]

/-- The coordinates of an axis, saveVTK.jl:30-33, 36-39 and 42-45. -/
def coords (axis : List R) : M Str :=
  forUp 0 axis.length (showInt ((axis.length : Int) - 1 + 1) ++ " double\n".toList) fun i text => do
    pure (text ++ DoubleText.showDouble (← rd1 axis (i + 1)) ++ " ".toList)

/-- The values, saveVTK.jl:50-55. -/
def values (data : List R) : M Str :=
  forUp 0 data.length [] fun i text => do
    let text := text ++ DoubleText.showDouble (← rd1 data (i + 1)) ++ " ".toList
    pure (if (i + 1) % 10 = 0 then text ++ ['\n'] else text)

/-- `rectilinear(fname, xAxis, yAxis, zAxis, data)`, saveVTK.jl:3-61, the elements of `data` in the order of their linear
indices: the text of the file. -/
def rectilinear (xAxis yAxis zAxis data : List R) : M Str := do
  let text := "# vtk DataFile Version 2.0\n".toList ++ "upwind.jl\n".toList ++ "ASCII\n".toList
    ++ "DATASET RECTILINEAR_GRID\n".toList ++ "DIMENSIONS".toList
  let text := text ++ ' ' :: showInt ((xAxis.length : Int) - 1 + 1) ++ ' ' :: showInt ((yAxis.length : Int) - 1 + 1)
    ++ ' ' :: showInt ((zAxis.length : Int) - 1 + 1) ++ "\n".toList
  let text := text ++ "X_COORDINATES ".toList ++ (← coords xAxis)
  let text := text ++ "\nY_COORDINATES ".toList ++ (← coords yAxis)
  let text := text ++ "\nZ_COORDINATES ".toList ++ (← coords zAxis)
  let text := text ++ "\nCELL_DATA ".toList ++ showSz data.length ++ "\n".toList
  let text := text ++ "SCALARS f double 1\n".toList ++ "LOOKUP_TABLE default\n".toList
  pure (text ++ (← values data) ++ "\n".toList)

end JlVtk
end Fidi
