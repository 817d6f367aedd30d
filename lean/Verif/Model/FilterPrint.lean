import Verif.Model.FilterCalls
import Verif.Model.Vtk

/-
The text that the print methods of `cxx/Filter.cpp` write to `std::cerr`. The lines are those of `Filter.printData` and
`Filter.printWindow`; what is written before an undefined operation is not kept.
-/
namespace Fidi
variable {R : Type}

namespace Filter

/-- Numbers followed by blanks, as in Filter.cpp:373-374: `for (j < ndims) std::cerr << inds[j] << ' '`. -/
def listText {α : Type} (shw : α → Str) (n : Nat) (v : List α) : M Str :=
  forUp 0 n [] fun j s => do pure (s ++ shw (← rd v j) ++ [' '])

/-- One line, Filter.cpp:372-375, 396-399, 414-417, 431-434. -/
def lineText [DoubleText R] (self : Filter R) (name : String) (line : List Nat × R) : M Str := do
  pure ("\t[".toList ++ showInt self.rk ++ "] inds = ".toList ++ (← listText showSz self.ndims line.1) ++
    (" " ++ name ++ " = ").toList ++ DoubleText.showDouble line.2 ++ ['\n'])

/-- `printInData()` and `printOutData()`, Filter.cpp:406-421 and 423-438; `input` selects. -/
def printDataText [DoubleText R] (self : Filter R) (input : Bool) : M (Str × Filter R) := do
  let name := if input then "inData" else "outData"
  let (lines, f) ← self.printData input
  let ls ← lines.mapM (self.lineText name)
  pure ("[".toList ++ showInt self.rk ++ ("] " ++ name ++ ": \n").toList ++ ls.flatten, f)

/-- `printSrcDataWindow(side)` and `printDstDataWindow(side)`, Filter.cpp:358-379 and 382-403; `src` selects. The latter
has a line break before the side. -/
def printWindowText [DoubleText R] (self : Filter R) (side : List Int) (src : Bool) : M (Str × Filter R) := do
  let name := if src then "srcData" else "dstData"
  let (lines, f) ← self.printWindow side src
  let sd ← listText showInt self.ndims side
  let ls ← lines.mapM (self.lineText name)
  pure ("[".toList ++ showInt self.rk ++ (if src then "] srcData for side: " else "] dstData for side: \n").toList ++ sd ++
    ['\n'] ++ ls.flatten, f)

end Filter
end Fidi
