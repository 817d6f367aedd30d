import Verif.Spec.Decomp

/-
Specification vocabulary for periodic stencils on distributed grids. Independent of the model.
-/
namespace Fidi.Spec

/-- Position of the cell with indices `x` in column-major order (first index fastest) in a grid of extents `ns`. -/
def colMajor : List Nat → List Nat → Nat
  | n :: ns, x :: xs => x + n * colMajor ns xs
  | _, _ => 0

/-- Position of cell `t` in the data of the box `lo ≤ t < hi`, column-major. -/
def cellPos (lo hi t : List Nat) : Nat := colMajor (extents lo hi) (List.zipWith (· - ·) t lo)

/-- One application of a periodic stencil, a list of (offset, weight): the terms are added to 0 in the order of the list. -/
def stencilStep {R : Type} [Zero R] [Add R] [Mul R] (dims : List Nat) (stencil : List (List Int × R))
    (u : List Nat → R) (g : List Nat) : R :=
  stencil.foldl (fun acc p => acc + p.2 * u (shiftMod dims g p.1)) 0

/-- `n` applications. -/
def stencilIter {R : Type} [Zero R] [Add R] [Mul R] (dims : List Nat) (stencil : List (List Int × R))
    (u : List Nat → R) : Nat → List Nat → R
  | 0 => u
  | n + 1 => stencilStep dims stencil (stencilIter dims stencil u n)

/-- The cell displaced by `s` when negative indices are first reduced modulo 2^64 and then modulo the extent: as
`shiftMod` on the inside and where the extent is a power of two. -/
def shift64 : List Nat → List Nat → List Int → List Nat
  | n :: ns, x :: xs, s :: ss => (((x : Int) + s) % 2 ^ 64).toNat % n :: shift64 ns xs ss
  | _, _, _ => []

/-- One application of a stencil with the displacement `shift64`. -/
def stencilStep64 {R : Type} [Zero R] [Add R] [Mul R] (dims : List Nat) (stencil : List (List Int × R))
    (u : List Nat → R) (g : List Nat) : R :=
  stencil.foldl (fun acc p => acc + p.2 * u (shift64 dims g p.1)) 0

/-- `n` applications. -/
def stencilIter64 {R : Type} [Zero R] [Add R] [Mul R] (dims : List Nat) (stencil : List (List Int × R))
    (u : List Nat → R) : Nat → List Nat → R
  | 0 => u
  | n + 1 => stencilStep64 dims stencil (stencilIter64 dims stencil u n)

/-- The side opposite to an offset: minus the sign, componentwise. -/
def sideOf (off : List Int) : List Int := off.map fun o => -o.sign

/-- Largest absolute component. -/
def ghostWidth (off : List Int) : Nat := off.foldl (fun m o => max m o.natAbs) 0

/-- First cell of the layer of `m` cells along the faces `side` of the box `lo ≤ t < hi`. -/
def faceLo : List Nat → List Nat → List Int → Nat → List Nat
  | l :: lo, h :: hi, s :: ss, m => (if 0 < s then h - m else l) :: faceLo lo hi ss m
  | _, _, _, _ => []

/-- One past the last cell of the layer of `m` cells along the faces `side` of the box `lo ≤ t < hi`. -/
def faceHi : List Nat → List Nat → List Int → Nat → List Nat
  | l :: lo, h :: hi, s :: ss, m => (if s < 0 then l + m else h) :: faceHi lo hi ss m
  | _, _, _, _ => []

/-- An offset 0, or ±1 along one axis, of a grid with `n` axes. -/
def AxisOffset (n : Nat) (off : List Int) : Prop :=
  off.length = n ∧ (∀ o ∈ off, o = -1 ∨ o = 0 ∨ o = 1) ∧ ∃ a, ∀ i, i ≠ a → off.getD i 0 = 0

/-- An offset with components 0 and ±1. -/
def UnitOffset (n : Nat) (off : List Int) : Prop := off.length = n ∧ ∀ o ∈ off, o = -1 ∨ o = 0 ∨ o = 1

/-- With decomposition `d` and local extents `L`, an offset that leaves a sub-domain along one axis never needs a cell
that is interior along another: of any two axes the offset touches, the first is not decomposed or sub-domains are one
cell wide along the second. Holds for every offset along one axis. -/
def OneHalo (d L : List Nat) (off : List Int) : Prop :=
  ∀ i j, i ≠ j → off.getD i 0 ≠ 0 → off.getD j 0 ≠ 0 → d.getD i 1 = 1 ∨ L.getD j 1 = 1

/-- Along the axes on which the offset is negative the extent divides 2^64, i.e. is a power of two. -/
def WrapExact (dims : List Nat) (off : List Int) : Prop := ∀ i, off.getD i 0 < 0 → dims.getD i 1 ∣ 2 ^ 64

/-- With decomposition `d`, along each axis on which the offset is negative the extent divides 2^64, or the remainder of
2^64 - 1 by it is a cell of the first sub-domain. -/
def WrapLocal (dims d : List Nat) (off : List Int) : Prop :=
  ∀ i, off.getD i 0 < 0 → dims.getD i 1 ∣ 2 ^ 64 ∨ (2 ^ 64 - 1) % dims.getD i 1 < (localExtents dims d).getD i 1

/-- Sizes for which no count overflows: at most 2^30 processes, at most 2^32 cells on fewer than 32 axes, extents
and number of cells per process below 2^31. -/
structure InRange (nprocs : Nat) (dims : List Nat) : Prop where
  procs1 : 1 ≤ nprocs
  procs : nprocs ≤ 2 ^ 30
  ne : dims ≠ []
  pos : ∀ n ∈ dims, 0 < n
  axes : dims.length < 32
  cells : dims.prod ≤ 2 ^ 32
  ext : ∀ n ∈ dims, n < 2 ^ 31
  loc : dims.prod < 2 ^ 31 * nprocs

/-- The offset fits the sub-domains of decomposition `d`: along the axes it touches they are at least as wide as its
largest component. -/
def OffsetFits (dims d : List Nat) (off : List Int) : Prop :=
  off.length = dims.length ∧ (∀ o ∈ off, -(2 : Int) ^ 31 < o ∧ o < 2 ^ 31) ∧
    ∀ i, off.getD i 0 ≠ 0 → ghostWidth off ≤ (localExtents dims d).getD i 0

/-- The sum of the components of an offset, each taken one step closer to zero. It is 0 for offsets with components 0 and
±1. -/
def detour (off : List Int) : Int := (off.map fun o => o - o.sign).sum

end Fidi.Spec
