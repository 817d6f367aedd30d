import Verif.Spec.Upwind

/-
Specification of the versions of the upwind scheme in other languages: the same step, with the change of an axis evaluated
in another order, and fields stored with the first axis fastest. Independent of the model.
-/
namespace Fidi.Spec

variable {R : Type}

/-- One time step, axis after axis: the change of axis `j` is `chg j a b`, `a` being the value in the upwind neighbour and
`b` that in the cell, both before the step. -/
def schemeStep [Sub R] (dims : List Nat) (s : Nat → Int) (chg : Nat → R → R → R) (u : List Nat → R) (g : List Nat) : R :=
  (List.range dims.length).foldl (fun acc j => acc - chg j (u (neighbour dims j (s j) g)) (u g)) (u g)

variable [Zero R] [LT R] [DecidableLT R] [Sub R] [Mul R] [Div R] [NatCast R] [IntCast R]

/-- `dt*v*up*(a - b)/width`: the division comes last. -/
def changeDivLast (dt : R) (v lengths : List R) (dims : List Nat) (j : Nat) (a b : R) : R :=
  dt * v.getD j 0 * (upDir v j : R) * (a - b) / cellWidth lengths dims j

/-- `(dt*(v*up/width))*(a - b)`: the time step is multiplied last. -/
def changeTimeLast (dt : R) (v lengths : List R) (dims : List Nat) (j : Nat) (a b : R) : R :=
  dt * (v.getD j 0 * (upDir v j : R) / cellWidth lengths dims j) * (a - b)

/-- `f` stores the field `u` of the grid `dims`, first axis fastest. -/
def StoresCol (dims : List Nat) (f : List R) (u : List Nat → R) : Prop :=
  f.length = dims.prod ∧ ∀ g, InGrid dims g → f[rankOf dims.reverse g.reverse]? = some (u g)

end Fidi.Spec
