import Verif.Model.Matmult
import Verif.Model.Mains

/-
The main program of `matmult/fortran/matmult.F90` with what it writes. `print *` begins a record with a blank and writes texts as they
are; how it writes numbers is left to the compiler, and is a parameter here.
-/
namespace Fidi.Matmult
variable {R : Type} [Zero R] [One R] [Add R] [Sub R] [Mul R] [Neg R] [LT R] [DecidableLT R]

/-- The end of the program, matmult.F90:117 and 128-133, from the two products. `stop` leaves the status 0. -/
def finish (num : Int → Str) (real : R → Str) (tol : R) (n m el : Int) (c0 c1 : Mat R) : Exit :=
  let out := " matrix sizes: ".toList ++ num n ++ " x".toList ++ num m ++ " x".toList ++ num el ++ "\n".toList
  let d := diff c0 c1
  if tol < d then
    { out := out ++ " ERROR: signifiant difference diff=".toList ++ real d ++ "\n".toList, err := [], files := [], status := 0 }
  else { out := out ++ " SUCCESS.\n".toList, err := [], files := [], status := 0 }

/-- The first part of the program, matmult.F90:118-125: the matrices and the product of `matmult0`. The memory holds any values `j1`,
`j2`, `j3` when it is allocated. -/
def prepare (n m el : Int) (j1 j2 j3 : List R) : M (Mat R × Mat R × Mat R) := do
  let (a, b) ← initmat (allocate j1 n m) (allocate j2 m el)
  let c0 ← matmult0 a b (allocate j3 n el)
  pure (a, b, c0)

/-- The elements of `c` at the end of an execution of `matmult1`. -/
def result (c : Mat R) (s : PState Loc R) : Mat R :=
  { c with data := (List.range (c.rows * c.cols)).map fun p => s.mem (.c, p % c.rows + 1, p / c.rows + 1) }

/-- The main program, matmult.F90:78-135: `x` is the outcome of an execution with `T` threads. `ier` is the value of the variable of
this name, none if using it is undefined behaviour. -/
def Main (readInt : Str → Option Int) (ier : Option Int) (num : Int → Str) (real : R → Str) (tol : R) (T : Nat)
    (may : Nat → Nat → Nat → Prop) (args : List Str) (x : M Exit) : Prop :=
  match parse readInt ier args 1 (3, 4, 5) with
  | .error e => x = .error e
  | .ok (n, m, el) => ∃ j1 j2 j3 j4 : List R,
    match prepare n m el j1 j2 j3 with
    | .error e => x = .error e
    | .ok (a, b, c0) => ∃ s, PReach (matmult1 a b (allocate j4 n el)) T may (memory a b (allocate j4 n el)) s ∧
        ((s.Faulty (allocated a b (allocate j4 n el)) T ∧ ∃ e, x = .error e) ∨
          (s.Final (matmult1 a b (allocate j4 n el)) T ∧
            x = .ok (finish num real tol n m el c0 (result (allocate j4 n el) s))))

end Fidi.Matmult
