import Verif.Model.Fortran
import Verif.Model.Schedule

/-
Model of `matmult/fortran/matmult.F90`. `real(8)` is an arbitrary type `R` with the operations used; no law is assumed.
-/
namespace Fidi.Matmult
open Fortran

/-- Array of rank 2 with lower bounds 1, stored column after column. -/
structure Mat (R : Type) where
  rows : Nat
  cols : Nat
  data : List R
  deriving DecidableEq, Repr

namespace Mat
variable {R : Type}

/-- Position of element `(i, j)`, if it exists. -/
def pos (a : Mat R) (i j : Nat) : M Nat :=
  if 1 ≤ i ∧ i ≤ a.rows ∧ 1 ≤ j ∧ j ≤ a.cols then pure ((j - 1) * a.rows + (i - 1)) else throw .outOfBounds

/-- `a(i, j)`. -/
def get (a : Mat R) (i j : Nat) : M R := do rd a.data (← a.pos i j)

/-- `a(i, j) = x`. -/
def put (a : Mat R) (i j : Nat) (x : R) : M (Mat R) := do
  let data ← wr a.data (← a.pos i j) x
  pure { a with data }

end Mat

variable {R : Type} [Zero R] [One R] [Add R] [Sub R] [Mul R]

/-- `initmat(a, b)`, matmult.F90:6-31. -/
def initmat (a b : Mat R) : M (Mat R × Mat R) := do
  let n := a.rows
  let m := b.rows
  let el := b.cols
  -- lines 17-23
  let (a, count) ← doUp m (a, (1 : R)) fun j s => doUp n s fun i (a, count) => do
    pure (← a.put i j count, count + 1)
  -- lines 24-29
  let (b, _) ← doUp el (b, count) fun k s => doUp m s fun j (b, count) => do
    pure (← b.put j k count, count + 1)
  pure (a, b)

/-- `matmult0(a, b, c)`, matmult.F90:34-52. -/
def matmult0 (a b c : Mat R) : M (Mat R) := do
  let n := a.rows
  let m := b.rows
  let el := c.cols
  doUp el c fun k c => doUp n c fun i c => do
    let c ← c.put i k 0
    doUp m c fun j c => do c.put i k ((← c.get i k) + (← a.get i j) * (← b.get j k))

/-- The arrays shared by the concurrent iterations of `matmult1`. -/
inductive Arr where
  | a
  | b
  | c
  deriving DecidableEq, Repr

/-- Array element. -/
abbrev Loc := Arr × Nat × Nat

/-- End of a loop `do i = 1, n`. -/
def endDo (n : Nat) (rest : Prog Loc R) : Prog Loc R := if endsPast n then .fault .signedOverflow else rest

/-- Loop over `j` from `j` on, `l` iterations being left, matmult.F90:68-70. -/
def termsProg (i k : Nat) (rest : Prog Loc R) : (l j : Nat) → Prog Loc R
  | 0, _ => rest
  | l + 1, j => .read (.c, i, k) fun x => .read (.a, i, j) fun y => .read (.b, j, k) fun z =>
      .write (.c, i, k) (x + y * z) (termsProg i k rest l (j + 1))

/-- Loop over `i` from `i` on, `l` iterations being left, matmult.F90:66-71. -/
def rowsProg (m k : Nat) (rest : Prog Loc R) : (l i : Nat) → Prog Loc R
  | 0, _ => rest
  | l + 1, i => .write (.c, i, k) 0 (termsProg i k (endDo m (rowsProg m k rest l (i + 1))) m 1)

/-- Iteration `k` of `do concurrent`, matmult.F90:65-72. The variables `i` and `j` are assigned before they are used in
every iteration, so that each iteration has its own. -/
def columnProg (n m k : Nat) : Prog Loc R := rowsProg m k (endDo n .done) n 1

/-- `matmult1(a, b, c)`, matmult.F90:55-73: one concurrent loop over the columns of `c`. -/
def matmult1 (a b c : Mat R) : Region Loc R where
  phases := 1
  count := fun _ => c.cols
  prog := fun _ i => columnProg a.rows b.rows (i + 1)

/-- Element of an array, 0 outside. -/
def Mat.elem (a : Mat R) (i j : Nat) : R := a.data.getD ((j - 1) * a.rows + (i - 1)) 0

/-- The arrays seen as shared memory. -/
def memory (a b c : Mat R) : Mem Loc R
  | (.a, i, j) => a.elem i j
  | (.b, i, j) => b.elem i j
  | (.c, i, j) => c.elem i j

/-- Elements of the arrays. -/
def allocated (a b c : Mat R) : Loc → Prop
  | (.a, i, j) => 1 ≤ i ∧ i ≤ a.rows ∧ 1 ≤ j ∧ j ≤ a.cols
  | (.b, i, j) => 1 ≤ i ∧ i ≤ b.rows ∧ 1 ≤ j ∧ j ≤ b.cols
  | (.c, i, j) => 1 ≤ i ∧ i ≤ c.rows ∧ 1 ≤ j ∧ j ≤ c.cols

/-- `diff` of matmult.F90:128: the sum of the absolute differences (in the order of the elements). -/
def diff [LT R] [DecidableLT R] [Neg R] (c0 c1 : Mat R) : R :=
  (List.zipWith (fun x y => if x - y < 0 then -(x - y) else x - y) c0.data c1.data).foldl (· + ·) 0

/-- The loop over the arguments, matmult.F90:94-115, from argument number `argc` on. `readInt` is the list-directed
`read` of line 100 (no value: the program stops with a runtime error); a blank argument (or the end of the arguments)
ends the loop; `ier` is the value of the variable of this name, none if it has not been assigned. -/
def parse (readInt : List Char → Option Int) (ier : Option Int) :
    List (List Char) → (argc : Nat) → Int × Int × Int → M (Int × Int × Int)
  | [], _, s => pure s
  | argv :: args, argc, (n, m, el) =>
    if argv.all (· = ' ') then pure (n, m, el)
    else match readInt argv with
      | none => throw .badArgument
      | some val => match ier with
        | none => throw .uninitialized
        | some ier =>
          parse readInt (some ier) args (argc + 1)
            (if ier = 0 then
              (if argc = 1 then (val, m, el) else if argc = 2 then (n, val, el)
               else if argc = 3 then (n, m, val) else (n, m, el))
             else (n, m, el))

/-- Sizes used by the main program, matmult.F90:88-115: nothing assigns `ier`. -/
def sizes (readInt : List Char → Option Int) (args : List (List Char)) : M (Int × Int × Int) :=
  parse readInt none args 1 (3, 4, 5)

/-- `allocate (a(n, m))`, matmult.F90:118-121: a negative extent gives an empty array; the elements are whatever the
memory holds. -/
def allocate (junk : List R) (n m : Int) : Mat R :=
  { rows := n.toNat, cols := m.toNat, data := junk.take (n.toNat * m.toNat) ++
      List.replicate (n.toNat * m.toNat - junk.length) 0 }

end Fidi.Matmult
