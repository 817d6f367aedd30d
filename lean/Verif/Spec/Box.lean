import Mathlib.Algebra.BigOperators.Group.List.Basic

/-
Specification vocabulary for boxes of integer points. Independent of the model.
-/
namespace Fidi.Spec

/-- `t` is an integer point of the box `lo ≤ t < hi` (componentwise, same number of components). -/
def InBox : List Nat → List Nat → List Nat → Prop
  | [], [], [] => True
  | l :: lo, h :: hi, x :: t => l ≤ x ∧ x < h ∧ InBox lo hi t
  | _, _, _ => False

/-- `lo < hi` componentwise, same number of components: the box has at least one point. -/
abbrev BoxLt (lo hi : List Nat) : Prop := List.Forall₂ (· < ·) lo hi

/-- Extents of the box. -/
def extents (lo hi : List Nat) : List Nat := List.zipWith (fun l h => h - l) lo hi

/-- Number of points of the box. -/
def volume (lo hi : List Nat) : Nat := (extents lo hi).prod

/-- `t` is a cell of the grid `0 ≤ t < dims`. -/
def InGrid : List Nat → List Nat → Prop
  | [], [] => True
  | d :: ds, x :: t => x < d ∧ InGrid ds t
  | _, _ => False

/-- Extents as 64-bit words: `hi - lo` modulo 2^64 (also when `hi < lo`). -/
def wordExtents (lo hi : List Nat) : List Nat :=
  List.zipWith (fun l h : Nat => (((h : Int) - (l : Int)) % 2 ^ 64).toNat) lo hi

/-- Distance between cells adjacent along axis `i`: the number of cells in the axes that vary faster
(the later ones in row-major order, the earlier ones in column-major order). -/
def axisStride (rowMajor : Bool) (extents : List Nat) (i : Nat) : Nat :=
  if rowMajor then (extents.drop (i + 1)).prod else (extents.take i).prod

/-- Operations that move an iterator. -/
inductive IterOp where
  | begin
  | next
  | move (k : Nat)

/-- A plain counter obeying the operations, starting at 0. -/
def counter : List IterOp → Nat
  | ops => ops.foldl (fun c op => match op with | .begin => 0 | .next => c + 1 | .move k => k) 0

instance decInBox : (lo hi t : List Nat) → Decidable (InBox lo hi t)
  | [], [], [] => isTrue trivial
  | l :: lo, h :: hi, x :: t =>
    have := decInBox lo hi t
    inferInstanceAs (Decidable (l ≤ x ∧ x < h ∧ InBox lo hi t))
  | [], [], _ :: _ => isFalse id
  | [], _ :: _, _ => isFalse id
  | _ :: _, [], _ => isFalse id
  | _ :: _, _ :: _, [] => isFalse id

instance decInGrid : (ds t : List Nat) → Decidable (InGrid ds t)
  | [], [] => isTrue trivial
  | d :: ds, x :: t =>
    have := decInGrid ds t
    inferInstanceAs (Decidable (x < d ∧ InGrid ds t))
  | [], _ :: _ => isFalse id
  | _ :: _, [] => isFalse id

end Fidi.Spec
