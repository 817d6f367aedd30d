import Verif.Model.UpwindAcc
import Verif.Model.UpwindCython
import Verif.Model.VtkOther

/-
The methods of the upwind solvers that print the field, and `saveVTK` of upwind5.pyx. The result is the text on the standard
output, or of the file; opening the file is assumed to succeed. `DoubleText.showDouble` stands for the digits of a
floating-point number in each of the formats used (`<<`, `str`, `%f`, `e20.13` before the padding).
-/
namespace Fidi
variable {R : Type} [DoubleText R]

/-- `print()`, upwind.cxx:105-109, upwindOMPTasks.cxx:105-109. -/
def Upwind.print (self : Upwind R) : M Str :=
  forUp 0 self.f.length [] fun i text => do
    pure (text ++ showSz i ++ " ".toList ++ DoubleText.showDouble (← rd self.f i) ++ ['\n'])

/-- `print()`, upwindAcc.cxx:98-102, upwindAcc2.cxx:117-121, upwindOMP5.cxx:117-121. -/
def UpwindAcc.print (self : UpwindAcc R) : M Str :=
  forUp 0 self.f.length [] fun i text => do
    pure (text ++ showSz i ++ " ".toList ++ DoubleText.showDouble (← rd self.f i) ++ ['\n'])

/-- `printOut(self)`, upwind.py:84-86. Python writes a blank between the three items, the second of which is a blank. -/
def PyUpwind.printOut (self : PyUpwind R) : M Str :=
  forUp 0 self.f.length [] fun i text => do
    pure (text ++ showSz i ++ "   ".toList ++ DoubleText.showDouble (← rd self.f i) ++ ['\n'])

/-- `upwind_print(obj)`, upwind.F90:223-232, upwindF03.F90:231-239, upwindF08.F90:235-242, upwindF08Gpu.F90:328-335. -/
def FUpwind.print (self : FUpwind R) : M Str :=
  Fortran.doUp self.ntot.toNat [] fun i text => do
    pure (text ++ "i = ".toList ++ Fortran.fmtI 10 (i : Int) ++ " f = ".toList
      ++ Fortran.inField 20 (DoubleText.showDouble (← Fortran.rd1 self.f i)) ++ ['\n'])

namespace CyUpwind

/-- `printOut(self)`, upwind5.pyx:150-152. -/
def printOut (self : CyUpwind R) : M Str :=
  forUp 0 self.ntot.toNat [] fun i text => do
    pure (text ++ showSz i ++ "   ".toList ++ DoubleText.showDouble (← rd self.f i) ++ ['\n'])

variable [Zero R] [Add R] [Mul R] [IntCast R]

/-- `' %d' % (self.numCells[j] + 1)` if there is an axis `j`, else `" 1"`; upwind5.pyx:111-118. The comma at the end of the
`print` statement: no line feed, a blank before the next item. -/
def vtkDim (self : CyUpwind R) (j : Nat) : M Str := do
  if self.ndims > j then pure (' ' :: showInt (← mkInt64 ((← rd self.numCells j) + 1)) ++ [' ']) else pure " 1 ".toList

/-- The coordinates of axis `j`, upwind5.pyx:122-124, 130-132 and 137-139. -/
def vtkCoordLoop (self : CyUpwind R) (j : Nat) : M Str := do
  let n ← mkInt64 ((← rd self.numCells j) + 1)
  forUp 0 n.toNat (showInt n ++ "  double\n".toList) fun i text => do
    pure (text ++ ' ' :: DoubleText.showDouble (0 + (← rd self.deltas j) * ((i : Int) : R)) ++ ['\n'])

/-- The coordinates of axis 2 or 1 of the grid, upwind5.pyx:121-127 and 129-135. -/
def vtkCoords (self : CyUpwind R) (j : Nat) : M Str := do
  if self.ndims > j then self.vtkCoordLoop j else pure ("1 double\n".toList ++ "0.0\n".toList)

/-- The values, upwind5.pyx:143-144. -/
def vtkValues (self : CyUpwind R) : M Str :=
  forUp 0 self.ntot.toNat [] fun i text => do
    pure (text ++ DoubleText.showDouble (← rd self.f i) ++ ['\n'])

/-- `saveVTK(self, fname)`, upwind5.pyx:102-145: the text of the file. -/
def saveVTK (self : CyUpwind R) : M Str := do
  let text := "# vtk Data Version 2.0\n".toList ++ "upwind.cxx\n".toList ++ "ASCII\n".toList
    ++ "DATASET RECTILINEAR_GRID\n".toList ++ "DIMENSIONS\n".toList
  let text := text ++ (← self.vtkDim 2)
  let text := text ++ (← self.vtkDim 1)
  let text := text ++ ' ' :: showInt (← mkInt64 ((← rd self.numCells 0) + 1)) ++ "\n\n".toList
  let text := text ++ "X_COORDINATES \n".toList ++ (← self.vtkCoords 2)
  let text := text ++ "Y_COORDINATES \n".toList ++ (← self.vtkCoords 1)
  let text := text ++ "Z_COORDINATES \n".toList ++ (← self.vtkCoordLoop 0)
  let text := text ++ "CELL_DATA ".toList ++ showInt self.ntot ++ "\n".toList
  let text := text ++ "SCALARS f double 1\n".toList ++ "LOOKUP_TABLE default\n".toList
  pure (text ++ (← self.vtkValues))

end CyUpwind
end Fidi
