import Verif.Spec.Decomp

/-
Ranks of tuples outside of the process grid. Independent of the model.
-/
namespace Fidi.Spec

/-- Horner's rule of `rankOf` for tuples of any integers. -/
def rankOfInt (d : List Nat) (t : List Int) : Int := (d.zip t).foldl (fun acc p => acc * (p.1 : Int) + p.2) 0

/-- An index wrapped once: one period is added if it is negative, subtracted if it is too large. -/
def wrapOnce (n : Nat) (t : Int) : Int := if t < 0 then t + n else if (n : Int) ≤ t then t - n else t

/-- A direction along axis `a` of `n`. -/
def axisDir (n a : Nat) (s : Int) : List Int := (List.replicate n 0).set a s

end Fidi.Spec
