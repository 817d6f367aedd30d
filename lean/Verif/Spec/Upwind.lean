import Verif.Spec.Decomp
import Mathlib.Algebra.Order.Field.Basic
import Mathlib.Algebra.Order.Group.Abs

/-
Specification of the first-order upwind scheme on a periodic grid. Independent of the model.
-/
namespace Fidi.Spec

variable {R : Type}

/-- The cell next to `g` along axis `j` in direction `s`, periodically. -/
def neighbour (dims : List Nat) (j : Nat) (s : Int) (g : List Nat) : List Nat :=
  g.set j (((g.getD j 0 : Int) + s) % (dims.getD j 0 : Int)).toNat

/-- One time step of the scheme with coefficients `c j` and upwind directions `s j`, axis after axis:
`u g - c 0 (u (up 0 g) - u g) - c 1 (u (up 1 g) - u g) - ...`. -/
def upwindStep [Sub R] [Mul R] (dims : List Nat) (s : Nat → Int) (c : Nat → R) (u : List Nat → R) (g : List Nat) : R :=
  (List.range dims.length).foldl (fun acc j => acc - c j * (u (neighbour dims j (s j) g) - u g)) (u g)

/-- Upwind direction along axis `j`: against the velocity. -/
def upDir [Zero R] [LT R] [DecidableLT R] (v : List R) (j : Nat) : Int := if v.getD j 0 < 0 then 1 else -1

/-- Cell width along axis `j`. -/
def cellWidth [Zero R] [Div R] [NatCast R] (lengths : List R) (dims : List Nat) (j : Nat) : R :=
  lengths.getD j 0 / (dims.getD j 0 : R)

/-- Coefficient of axis `j`: time step times velocity times direction over cell width. -/
def upCoeff [Zero R] [LT R] [DecidableLT R] [Mul R] [Div R] [NatCast R] [IntCast R] (dt : R) (v lengths : List R)
    (dims : List Nat) (j : Nat) : R :=
  dt * v.getD j 0 * (upDir v j : R) / cellWidth lengths dims j

/-- `f` stores the field `u` of the grid `dims`, last axis fastest (`rankOf` is Horner's rule). -/
def Stores (dims : List Nat) (f : List R) (u : List Nat → R) : Prop :=
  f.length = dims.prod ∧ ∀ g, InGrid dims g → f[rankOf dims g]? = some (u g)

/-- The field that is 1 in the low corner and 0 elsewhere. -/
def cornerField [Zero R] [One R] (g : List Nat) : R := if ∀ x ∈ g, x = 0 then 1 else 0

/-- Total Courant number: the sum over the axes of the fraction of a cell travelled in a time step. -/
def courant {K : Type} [Field K] [LinearOrder K] (dt : K) (v lengths : List K) (dims : List Nat) : K :=
  ((List.range dims.length).map fun j => dt * |v.getD j 0| / cellWidth lengths dims j).sum

/-- The same, leaving out the axes of one cell, along which nothing can move. -/
def effectiveCourant {K : Type} [Field K] [LinearOrder K] (dt : K) (v lengths : List K) (dims : List Nat) : K :=
  ((List.range dims.length).map fun j =>
    if 2 ≤ dims.getD j 0 then dt * |v.getD j 0| / cellWidth lengths dims j else 0).sum

/-- The cell `m j` cells upstream of `g` along each axis `j`, periodically. -/
def upstream [Zero R] [LT R] [DecidableLT R] (dims : List Nat) (v : List R) (m : Nat → Nat) (g : List Nat) : List Nat :=
  shiftMod dims g ((List.range dims.length).map fun j => upDir v j * (m j : Int))

/-- The discrete Laplacian with unit spacing: the sum over the axes of the differences to both neighbours. -/
def laplace {K : Type} [Field K] (dims : List Nat) (u : List Nat → K) (g : List Nat) : K :=
  ((List.range dims.length).map fun j => u (neighbour dims j 1 g) + u (neighbour dims j (-1) g) - 2 * u g).sum

/-- Mean of a list of numbers. -/
def mean {K : Type} [Field K] (f : List K) : K := f.sum / (f.length : K)

/-- Population variance. -/
def variance {K : Type} [Field K] (f : List K) : K := (f.map fun x => (x - mean f) ^ 2).sum / (f.length : K)

end Fidi.Spec
