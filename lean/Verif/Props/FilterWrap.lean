import Verif.Lemmas.FilterWrap
import Verif.Props.Filter

/-
Properties C16, C18, C22 on one process, for grids of any extents: what the filter computes, and that powers of two are
exactly the extents for which it is the periodic stencil.
-/
namespace Fidi
open Spec

section
variable {R : Type} [Zero R] [Add R] [Mul R] [Div R] [NatCast R] [LT R] [DecidableLT R] [HasMax R]

theorem one_process (dims : List Nat) (xmins xmaxs : List R) (st : StdMap (List Int) R) (u : List Nat → R)
    (hr : InRange 1 dims) (hu : ∀ kv ∈ st, UnitOffset dims.length kv.1) :
    ∃ w w1 w2, World.new 1 dims xmins xmaxs st = .ok w ∧ w.setInDataByIndices u = .ok w1 ∧
      w1.applyFilter = .ok w2 ∧ Partition w2 1 dims ∧ OutputIs w2 (stencilStep64 dims st u) ∧
      ∀ f ∈ w2, ∀ g, InBox f.lo f.hi g → InGrid dims g := by
  obtain ⟨d, hf, hb⟩ := unit_of_range hr xmins xmaxs st hu
  obtain ⟨w, e, h0⟩ := world_new hf.toGood hb
  obtain ⟨w1, e1, h1⟩ := world_set hf.toGood h0 u
  obtain ⟨w2, e2, h2⟩ := world_apply64 hf (fun x hx => one_cells hf rfl hx) h1
  refine ⟨w, w1, w2, e, e1, e2, partition_of hf.toGood h2 (fun x f h => h.1.shape),
    output_of hf.toGood h2 (fun x f h => ⟨h.1.shape, h.2⟩), ?_⟩
  intro f hf' g hg
  obtain ⟨x, hx, _, hs⟩ := h2.mem hf.toGood hf'
  rw [hs.1.shape.lo, hs.1.shape.hi] at hg
  exact hf.toGood.grid hx hg

/-- C16, C22 (part): on one process, for every grid, stencil of offsets with components 0 and ±1 and input, the filter
ends normally and the result is that of the stencil whose negative indices are reduced modulo 2^64 and then modulo the
extent (`shift64`). No condition on the extents. -/
theorem C16_any_extents_partial (dims : List Nat) (xmins xmaxs : List R) (st : StdMap (List Int) R) (u : List Nat → R)
    (hr : InRange 1 dims) (hu : ∀ kv ∈ st, UnitOffset dims.length kv.1) :
    ∃ w w1 w2, World.new 1 dims xmins xmaxs st = .ok w ∧ w.setInDataByIndices u = .ok w1 ∧
      w1.applyFilter = .ok w2 ∧ Partition w2 1 dims ∧ OutputIs w2 (stencilStep64 dims st u) := by
  obtain ⟨w, w1, w2, e, e1, e2, hp, ho, _⟩ := one_process dims xmins xmaxs st u hr hu
  exact ⟨w, w1, w2, e, e1, e2, hp, ho⟩

/-- C18 (part): on one process `n` rounds of `applyFilter` and `copyOutToIn` give the `n`-fold application of that
stencil, for every grid. -/
theorem C18_any_extents_partial (dims : List Nat) (xmins xmaxs : List R) (st : StdMap (List Int) R) (u : List Nat → R)
    (n : Nat) (hr : InRange 1 dims) (hu : ∀ kv ∈ st, UnitOffset dims.length kv.1) :
    ∃ w w1 w2, World.new 1 dims xmins xmaxs st = .ok w ∧ w.setInDataByIndices u = .ok w1 ∧
      w1.iterate n = .ok w2 ∧ Partition w2 1 dims ∧ InputIs w2 (stencilIter64 dims st u n) := by
  obtain ⟨d, hf, hb⟩ := unit_of_range hr xmins xmaxs st hu
  obtain ⟨w, e, h0⟩ := world_new hf.toGood hb
  obtain ⟨w1, e1, h1⟩ := world_set hf.toGood h0 u
  obtain ⟨w2, e2, h2⟩ := world_iterate64 hf (fun x hx => one_cells hf rfl hx) n h1
  exact ⟨w, w1, w2, e, e1, e2, partition_of hf.toGood h2 (fun x f h => h.shape),
    input_of hf.toGood h2 (fun x f h => ⟨h.shape, h.data⟩)⟩

/-- On one process the filter computes the periodic stencil of `u` exactly if the two displacements give the same
values. -/
theorem computes_iff (dims : List Nat) (xmins xmaxs : List R) (st : StdMap (List Int) R) (u : List Nat → R)
    (hr : InRange 1 dims) (hu : ∀ kv ∈ st, UnitOffset dims.length kv.1) :
    ComputesStencil 1 dims xmins xmaxs st u ↔
      ∀ g, InGrid dims g → stencilStep64 dims st u g = stencilStep dims st u g := by
  obtain ⟨w, w1, w2, e, e1, e2, hp, ho, hin⟩ := one_process dims xmins xmaxs st u hr hu
  constructor
  · rintro ⟨v, v1, v2, a, a1, a2, _, ho'⟩ g hg
    rw [e] at a
    obtain rfl := Except.ok.inj a
    rw [e1] at a1
    obtain rfl := Except.ok.inj a1
    rw [e2] at a2
    obtain rfl := Except.ok.inj a2
    obtain ⟨r, ⟨f, hf, hb⟩, _⟩ := hp.2 g hg
    have hm := List.mem_of_getElem? hf
    have b1 := ho f hm g hb
    rw [ho' f hm g hb, Option.some_inj] at b1
    exact b1.symm
  · intro h
    refine ⟨w, w1, w2, e, e1, e2, hp, fun f hf g hb => ?_⟩
    rw [ho f hf g hb, h g (hin f hf g hb)]

end

section
variable {K : Type} [Field K] [LT K] [DecidableLT K] [HasMax K]

/-- C16, C22: on one process, for every grid, offset with components 0 and ±1 and weight other than 0, the filter
computes the periodic stencil of all inputs if, and only if, the extents along which the offset is negative are powers
of two. -/
theorem C16_one_offset_iff (dims : List Nat) (xmins xmaxs : List K) (off : List Int) (a : K) (ha : a ≠ 0)
    (hr : InRange 1 dims) (hu : UnitOffset dims.length off) :
    (∀ u : List Nat → K, ComputesStencil 1 dims xmins xmaxs [(off, a)] u) ↔ WrapExact dims off := by
  have hu' : ∀ kv ∈ [(off, a)], UnitOffset dims.length kv.1 := by
    intro kv hkv
    rw [List.mem_singleton] at hkv
    subst hkv
    exact hu
  constructor
  · intro h
    by_contra hw
    have hg : InGrid dims (List.replicate dims.length 0) :=
      inGrid_iff_getElem.2 ⟨by simp, fun i h1 _ => by simpa using hr.pos _ (List.getElem_mem h1)⟩
    have h1 := (computes_iff dims xmins xmaxs _ _ hr hu').1 (h fun t =>
      if t = shiftMod dims (List.replicate dims.length 0) off then 1 else 0) _ hg
    unfold stencilStep64 stencilStep at h1
    simp only [List.foldl_cons, List.foldl_nil, if_pos, if_neg (shift_ne hr.pos hu hw)] at h1
    apply ha
    simpa using h1.symm
  · intro hw u
    refine C22_one_process_partial dims xmins xmaxs _ u hr hu' ?_
    intro kv hkv
    rw [List.mem_singleton] at hkv
    subst hkv
    exact hw

end

/-! ### Examples -/

/-- Three cells on an axis, the stencil that takes the left neighbour: on the left the code takes cell 0 itself,
because 2^64 - 1 is a multiple of 3. -/
example : InRange 1 [3] ∧ UnitOffset [3].length [-1] ∧ ¬ WrapExact [3] [-1] ∧
    shift64 [3] [0] [-1] = [0] ∧ shiftMod [3] [0] [-1] = [2] ∧ shift64 [3] [1] [-1] = [0] := by
  refine ⟨⟨by decide, by decide, by decide, by decide, by decide, by decide, by decide, by decide⟩,
    ⟨rfl, by decide⟩, ?_, by decide, by decide, by decide⟩
  intro h
  exact absurd (h 0 (by decide)) (by decide)

/-- A diagonal offset on a grid of 4 x 3 cells, negative along the axis of 4 cells only: the filter is right. -/
example : InRange 1 [4, 3] ∧ UnitOffset [4, 3].length [-1, 1] ∧ WrapExact [4, 3] [-1, 1] := by
  refine ⟨⟨by decide, by decide, by decide, by decide, by decide, by decide, by decide, by decide⟩,
    ⟨rfl, by decide⟩, ?_⟩
  intro i hi
  match i with
  | 0 => decide
  | 1 => exact absurd hi (by decide)
  | i + 2 => simp at hi

end Fidi
