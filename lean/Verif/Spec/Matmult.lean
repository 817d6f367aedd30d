import Mathlib.Data.Matrix.Mul

/-
Specification of matrices stored column after column. Independent of the model.
-/
namespace Fidi.Spec

variable {R : Type}

/-- `data` stores the matrix `X` column after column. -/
def StoresMat {n m : Nat} (data : List R) (X : Matrix (Fin n) (Fin m) R) : Prop :=
  data.length = n * m ∧ ∀ (i : Fin n) (j : Fin m), data[j.val * n + i.val]? = some (X i j)

/-- Row times column, the products added from left to right starting with 0. -/
def rowTimesColumn [Zero R] [Add R] [Mul R] {n m l : Nat} (X : Matrix (Fin n) (Fin m) R) (Y : Matrix (Fin m) (Fin l) R)
    (i : Fin n) (k : Fin l) : R :=
  (List.finRange m).foldl (fun acc j => acc + X i j * Y j k) 0

/-- The matrix that counts its elements column after column, from `c` on. -/
def countingMat [NatCast R] {n m : Nat} (c : Nat) : Matrix (Fin n) (Fin m) R :=
  fun i j => ((c + j.val * n + i.val : Nat) : R)

/-- 1 with 1 added `t` times. -/
def countUp [One R] [Add R] : Nat → R
  | 0 => 1
  | t + 1 => countUp t + 1

/-- The sum of the absolute values of the differences of the elements of a matrix from themselves, column after column: 0 unless there
is an infinity or no number. -/
def selfDifference [Zero R] [Add R] [Sub R] [Neg R] [LT R] [DecidableLT R] {n el : Nat}
    (X : Matrix (Fin n) (Fin el) R) : R :=
  ((List.finRange el).flatMap fun k => (List.finRange n).map fun i =>
    if X i k - X i k < 0 then -(X i k - X i k) else X i k - X i k).foldl (· + ·) 0

/-- The matrices of the program: the elements of the first, then those of the second are counted up. -/
def firstMatrix [One R] [Add R] (n m : Nat) : Matrix (Fin n) (Fin m) R := fun i j => countUp (j.val * n + i.val)
def secondMatrix [One R] [Add R] (n m el : Nat) : Matrix (Fin m) (Fin el) R := fun j k => countUp (n * m + k.val * m + j.val)

/-- What matmult writes: the sizes, and whether the products differ. `num` and `real` are the texts of an integer and of a number. -/
def matmultText (num : Int → List Char) (real : R → List Char) (n m el : Int) (differ : Option R) : List Char :=
  " matrix sizes: ".toList ++ num n ++ " x".toList ++ num m ++ " x".toList ++ num el ++ "\n".toList ++
    match differ with
    | some d => " ERROR: signifiant difference diff=".toList ++ real d ++ "\n".toList
    | none => " SUCCESS.\n".toList

/-- Sizes wanted by the numbers on the command line: the first three replace the defaults 3, 4 and 5. -/
def wantedSizes : List Int → Int × Int × Int
  | [] => (3, 4, 5)
  | [n] => (n, 4, 5)
  | [n, m] => (n, m, 5)
  | n :: m :: el :: _ => (n, m, el)

end Fidi.Spec
