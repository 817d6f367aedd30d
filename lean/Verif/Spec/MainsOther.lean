import Verif.Spec.Mains
import Verif.Spec.UpwindOther

/-
Specification vocabulary for the programs that take their arguments by position. Independent of the model.
-/
namespace Fidi.Spec
variable {R : Type}

/-- The command line asks for `n` cells along each axis (first argument) and `steps` time steps (second argument, with a
default), and for a file if `vtk` is true (third argument). `denotes` says which number an argument stands for. -/
structure Asks (denotes : List Char → Int → Prop) (default : Int) (args : List (List Char)) (n steps : Int) (vtk : Bool) :
    Prop where
  first : ∃ a, args[0]? = some a ∧ denotes a n
  second : (args[1]? = none ∧ steps = default) ∨ ∃ a, args[1]? = some a ∧ denotes a steps
  third : vtk = true ↔ args[2]? = some "vtk".toList

/-- An argument that fits in `w` characters and does not end with a blank. -/
def FitsIn (w : Nat) (a : List Char) : Prop := a.length ≤ w ∧ ∃ c, a.getLast? = some c ∧ c ≠ ' '

/-- The text filled up with blanks to `w` characters. -/
def filled (w : Nat) (a : List Char) : List Char := a ++ List.replicate (w - a.length) ' '

/-- A text at the right of a field of `w` characters, or asterisks if it is longer. -/
def inWidth (w : Nat) (s : List Char) : List Char :=
  if s.length ≤ w then List.replicate (w - s.length) ' ' ++ s else List.replicate w '*'

/-- The smallest of the numbers and `top`; of equal ones, the last. -/
def smallestLast [LT R] [DecidableLT R] (top : R) (xs : List R) : R := xs.foldl (fun m x => if m < x then m else x) top

/-- The time step of these programs for cells of width `w`, speed 1 and three axes. -/
def programStep [One R] [Mul R] [Div R] [LT R] [DecidableLT R] (top courant w : R) : R :=
  smallestLast top (List.replicate 3 (courant * w / 1))

/-- The field after `steps` steps with unit velocity on the unit cube with `n` cells along each axis, from 1 in the low corner
and 0 elsewhere. `chg` gives the change of an axis. -/
def programField [Zero R] [One R] [Sub R] [LT R] [DecidableLT R] (n : Nat) (chg : Nat → R → R → R) (steps : Int) : List Nat → R :=
  (schemeStep [n, n, n] (upDir [(1 : R), 1, 1]) chg)^[steps.toNat] cornerField

/-- What the Fortran programs write: number of cells along three axes, number of steps and the check sum `s`. `rest` ends
the first line. -/
def fortranText (rest : List Char) (n : Nat) (steps : Int) (s : List Char) : List Char :=
  "number of cells: ".toList ++ inWidth 10 (toString n).toList ++ " ".toList ++ inWidth 10 (toString n).toList ++ " ".toList ++
    inWidth 10 (toString n).toList ++ " ".toList ++ rest ++ "\nnumber of time steps: ".toList ++
    inWidth 10 (toString steps).toList ++ "\ncheck sum: ".toList ++ inWidth 15 s ++ "\n".toList

/-- What the Python and Julia programs write, `sep` being the blanks after each colon. -/
def scriptText (sep : String) (n : Nat) (steps : Int) (s : List Char) : List Char :=
  ("number of cells:" ++ sep ++ "[" ++ toString n ++ ", " ++ toString n ++ ", " ++ toString n ++ "]\nnumber of time steps:" ++ sep ++
    toString steps ++ "\ncheck sum:" ++ sep).toList ++ s ++ "\n".toList

end Fidi.Spec
