import Verif.Spec.Filter

/-
Specification vocabulary for listings of cells. Independent of the model.
-/
namespace Fidi.Spec
variable {R : Type}

/-- The cells of the box `lo ≤ t < hi` in column-major order (first index fastest). -/
def cellList : List Nat → List Nat → List (List Nat)
  | l :: lo, h :: hi => (cellList lo hi).flatMap fun t => (List.range' l (h - l)).map (· :: t)
  | _, _ => [[]]

/-- Numbers, each followed by a blank. -/
def blanks {α : Type} [ToString α] (xs : List α) : List Char := xs.flatMap fun x => (toString x).toList ++ [' ']

/-- The line for the cell `t` with value `v`, printed by process `rk`. `shw` formats numbers. -/
def cellLine (shw : R → List Char) (rk : Nat) (name : String) (t : List Nat) (v : R) : List Char :=
  ("\t[" ++ toString rk ++ "] inds = ").toList ++ blanks t ++ (" " ++ name ++ " = ").toList ++ shw v ++ "\n".toList

/-- The lines for the cells of a box, in column-major order, with the values of the field `u`. -/
def listing (shw : R → List Char) (rk : Nat) (name : String) (lo hi : List Nat) (u : List Nat → R) : List Char :=
  (cellList lo hi).flatMap fun t => cellLine shw rk name t (u t)

/-- The cells of a grid in row-major order (last index fastest). -/
def rowCells : List Nat → List (List Nat)
  | [] => [[]]
  | n :: N => (List.range n).flatMap fun i => (rowCells N).map (i :: ·)

/-- One text for each cell of a grid, in row-major order; the cells are numbered from `first` on. `line` makes the text from the
number of the cell and the value there. -/
def numbered (line : Nat → R → List Char) (first : Nat) (N : List Nat) (u : List Nat → R) : List Char :=
  ((rowCells N).zipIdx first).flatMap fun p => line p.2 (u p.1)

/-- A text with blanks in front, `w` characters in all unless it is longer. -/
def padLeft (w : Nat) (s : List Char) : List Char := List.replicate (w - s.length) ' ' ++ s

end Fidi.Spec
