import Verif.Spec.Box
import Mathlib.Data.Rat.Defs
import Mathlib.Data.Nat.Cast.Defs

/-
Specification vocabulary for domain decompositions and periodic index arithmetic. Independent of the model.
-/
namespace Fidi.Spec

/-- `d` decomposes the grid `dims` among `nprocs` processes: one entry per axis, each dividing the extent, with product
`nprocs`. -/
def ValidDecomp (nprocs : Nat) (dims d : List Nat) : Prop :=
  List.Forall₂ (fun n k => k ∣ n) dims d ∧ d.prod = nprocs

/-- Rank of the process at coordinates `x` of the process grid `d`: last coordinate fastest (Horner's rule). -/
def rankOf (d x : List Nat) : Nat := (d.zip x).foldl (fun acc p => acc * p.1 + p.2) 0

/-- Periodic shift: componentwise `(x + s) mod n`. -/
def shiftMod : List Nat → List Nat → List Int → List Nat
  | n :: ns, x :: xs, s :: ss => (((x : Int) + s) % (n : Int)).toNat :: shiftMod ns xs ss
  | _, _, _ => []

/-- Extents of a sub-domain. -/
def localExtents (dims d : List Nat) : List Nat := List.zipWith (· / ·) dims d

/-- Surface of a box of extents `L`: the sum over the axes of the areas of the faces normal to the axis
(one face per axis). -/
def surface (L : List Nat) : Nat := ((List.range L.length).map fun i => (L.eraseIdx i).prod).sum

/-- Surface to volume ratio of the sub-domains of a decomposition, exactly. -/
def surfaceToVolume (dims d : List Nat) : ℚ :=
  (surface (localExtents dims d) : ℚ) / ((localExtents dims d).prod : ℚ)

/-- First cell of the sub-domain at process coordinates `x`. -/
def subLo (L x : List Nat) : List Nat := List.zipWith (· * ·) x L
/-- One past the last cell of the sub-domain at process coordinates `x`. -/
def subHi (L x : List Nat) : List Nat := List.zipWith (fun c l => (c + 1) * l) x L

end Fidi.Spec
