import Verif.Model.Machine

/-
The parts of the Fortran machine used by the models of the Fortran programs: default integers are 32 bit and their
overflow is an error of the program, arrays start at index 1, `do` loops increment their variable past the upper bound.

Not code of the repository.
-/
namespace Fidi.Fortran

/-- `v(i)`, checked. -/
def rd1 {α : Type} (v : List α) (i : Nat) : M α := if i = 0 then throw .outOfBounds else rd v (i - 1)

/-- `v(i) = x`, checked. -/
def wr1 {α : Type} (v : List α) (i : Nat) (x : α) : M (List α) :=
  if i = 0 then throw .outOfBounds else wr v (i - 1) x

/-- The increment of the variable of `do i = 1, n` after the last iteration overflows. -/
def endsPast (n : Nat) : Bool := decide (0 < n) && decide (intLim ≤ n + 1)

/-- `do i = 1, n`. -/
def doUp {σ : Type} (n : Nat) (s : σ) (f : Nat → σ → M σ) : M σ := do
  let s ← forUp 1 (n + 1) s f
  if endsPast n then throw .signedOverflow else pure s

/-- `a / b` on integers, truncated. -/
def idiv (a b : Int) : M Int := if b = 0 then throw .divByZero else mkInt (a.tdiv b)

/-- `mod(a, b)`: sign of `a`. -/
def imod (a b : Int) : M Int := if b = 0 then throw .divByZero else pure (a.tmod b)

/-- `modulo(a, b)`: sign of `b`. -/
def imodulo (a b : Int) : M Int := if b = 0 then throw .divByZero else pure (a.fmod b)

end Fidi.Fortran
