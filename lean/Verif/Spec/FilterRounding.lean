import Verif.Spec.Rounding
import Verif.Spec.Filter

/-
Sizes of stencils and of iterated stencils, for the rounding errors of the filter. Independent of the model.
-/
namespace Fidi.Spec
variable {R K : Type} [Field K] [LinearOrder K]

/-- The stencil with the values of its weights. -/
def stencilVal (val : R → K) (st : List (List Int × R)) : List (List Int × K) := st.map fun p => (p.1, val p.2)

/-- Sum of the absolute values of the weights. -/
def weightSum (st : List (List Int × K)) : K := (st.map fun p => |p.2|).sum

/-- The two stencils have the same offsets and the weights of `st` are those of `st'` up to the relative error `ε`. -/
def StencilNear (val : R → K) (ε : K) (st : List (List Int × R)) (st' : List (List Int × K)) : Prop :=
  List.Forall₂ (fun p p' => p.1 = p'.1 ∧ |val p.2 - p'.2| ≤ ε * |p'.2|) st st'

/-- Bound on a field of size `b` after `k` applications of something that multiplies the size by at most `q` and adds at most
`z`. -/
def iterBound (q z : K) : Nat → K → K
  | 0, b => b
  | k + 1, b => q * iterBound q z k b + z

/-- Growth of one application of a stencil with `m` weights that are known up to the relative error `ε`: a product and at most
`m` additions for every term. -/
def stencilGrowth (m : Nat) (r ε : K) : K := (1 + r) ^ (m + 1) * (1 + ε)

/-- Absolute error of one application that comes from underflow. -/
def stencilUnderflow (m : Nat) (r η : K) : K := 2 * m * (1 + r) ^ m * η

end Fidi.Spec
