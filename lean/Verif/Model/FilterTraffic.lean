import Verif.Model.FilterRun
import Verif.Spec.Traffic

/-
Executions of the ranks (`Model/FilterRun.lean`) with a record of the calls of `MPI_Get` (Filter.cpp:124).
-/
namespace Fidi
namespace Run
open Spec
variable {R : Type}

/-- The call of `MPI_Get` that rank `r` makes in a step from `p` to `p'`, if any; all its elements remain to be moved. -/
def calls (r : Nat) (p p' : Proc R) : List GetCall :=
  match p.phase, p'.phase with
  | .opened _, .issued _ g => [⟨r, g.target, g.todo.length⟩]
  | _, _ => []

/-- Some interleaving leads to this state with these calls, in this order. -/
inductive Logged [Zero R] [Add R] [Mul R] (strong : Bool) (prog : List (Op R)) (w : World R) :
    List GetCall → List (Proc R) → Prop where
  | start : Logged strong prog w [] (start w)
  | step {log : List GetCall} {s : List (Proc R)} {r : Nat} {p p' : Proc R} : Logged strong prog w log s →
      s[r]? = some p → RankStep strong prog s r p p' → Logged strong prog w (log ++ calls r p p') (s.set r p')

end Run
end Fidi
