import Verif.Lemmas.FilterOne
import Verif.Props.FilterWrap

/-
Property C22 on one process, for offsets of any shape that fit the grid.
-/
namespace Fidi
open Spec

section
variable {R : Type} [Zero R] [Add R] [Mul R] [Div R] [NatCast R] [LT R] [DecidableLT R] [HasMax R]

private theorem one_process_any (dims : List Nat) (xmins xmaxs : List R) (st : StdMap (List Int) R) (hr : InRange 1 dims)
    (hfit : ∀ kv ∈ st, OffsetFits dims (List.replicate dims.length 1) kv.1) :
    ∃ w, World.new 1 dims xmins xmaxs st = .ok w ∧ ∀ u, ∃ w1, w.setInDataByIndices u = .ok w1 ∧
      ((∀ kv ∈ st, (kv.1.map fun o => o - o.sign).sum = 0) → ∃ w2, w1.applyFilter = .ok w2 ∧ Partition w2 1 dims ∧
        OutputIs w2 (stencilStep64 dims st u) ∧ ∀ f ∈ w2, ∀ g, InBox f.lo f.hi g → InGrid dims g) ∧
      ((∃ kv ∈ st, (kv.1.map fun o => o - o.sign).sum ≠ 0) → ∀ w2, w1.applyFilter ≠ .ok w2) := by
  obtain ⟨d, hg, hb⟩ := build_found (R := R) hr.procs1 (by decide) hr.ne hr.pos hr.axes hr.cells (valid_one dims)
  have hd : d = List.replicate dims.length 1 :=
    List.eq_replicate_iff.2 ⟨hg.length_eq, ones_of_prod hg.valid.2⟩
  subst hd
  have h := good_of_range hr hg xmins xmaxs st hfit
  obtain ⟨w, e, h0⟩ := world_new h hb
  refine ⟨w, e, fun u => ?_⟩
  obtain ⟨w1, e1, h1⟩ := world_set h h0 u
  refine ⟨w1, e1, fun hz => ?_, ?_⟩
  · obtain ⟨w2, e2, h2⟩ := world_one h rfl hz h1
    refine ⟨w2, e2, partition_of h h2 (fun x f h => h.1.shape), output_of h h2 (fun x f h => ⟨h.1.shape, h.2⟩), ?_⟩
    intro f hf g hg
    obtain ⟨x, hx, _, hs⟩ := h2.mem h hf
    rw [hs.1.shape.lo, hs.1.shape.hi] at hg
    exact h.grid hx hg
  · rintro ⟨kv, hkv, hz⟩
    exact world_never h h1 (fun x f h => h.shape) hkv (one_never h rfl hkv hz)

/-- C22: on one process, for every grid, stencil of offsets no larger than the grid along the axes they touch, and input.
If the components of every offset, each taken one step closer to zero, add up to 0, the filter ends normally and the result
is that of the stencil whose negative indices are reduced modulo 2^64 and then modulo the extent. If they do not for one
offset, the filter is constructed and its input set, but `applyFilter` does not end normally. -/
theorem C22_one_process_iff (dims : List Nat) (xmins xmaxs : List R) (st : StdMap (List Int) R) (hr : InRange 1 dims)
    (hfit : ∀ kv ∈ st, OffsetFits dims (List.replicate dims.length 1) kv.1) :
    ∃ w, World.new 1 dims xmins xmaxs st = .ok w ∧ ∀ u, ∃ w1, w.setInDataByIndices u = .ok w1 ∧
      ((∀ kv ∈ st, (kv.1.map fun o => o - o.sign).sum = 0) → ∃ w2, w1.applyFilter = .ok w2 ∧ Partition w2 1 dims ∧
        OutputIs w2 (stencilStep64 dims st u)) ∧
      ((∃ kv ∈ st, (kv.1.map fun o => o - o.sign).sum ≠ 0) → ∀ w2, w1.applyFilter ≠ .ok w2) := by
  obtain ⟨w, e, h⟩ := one_process_any dims xmins xmaxs st hr hfit
  refine ⟨w, e, fun u => ?_⟩
  obtain ⟨w1, e1, h1, h2⟩ := h u
  refine ⟨w1, e1, fun hz => ?_, h2⟩
  obtain ⟨w2, e2, hp, ho, _⟩ := h1 hz
  exact ⟨w2, e2, hp, ho⟩

end

section
variable {K : Type} [Field K] [LT K] [DecidableLT K] [HasMax K]

/-- C22: on one process, for every grid, offset no larger than the grid along the axes it touches and weight other than
0, the filter computes the periodic stencil of all inputs if, and only if, the components of the offset, each taken one
step closer to zero, add up to 0 and the extents along which the offset is negative are powers of two. -/
theorem C22_one_offset_iff (dims : List Nat) (xmins xmaxs : List K) (off : List Int) (a : K) (ha : a ≠ 0)
    (hr : InRange 1 dims) (hfit : OffsetFits dims (List.replicate dims.length 1) off) :
    (∀ u : List Nat → K, ComputesStencil 1 dims xmins xmaxs [(off, a)] u) ↔
      (off.map fun o => o - o.sign).sum = 0 ∧ WrapExact dims off := by
  have hfit' : ∀ kv ∈ [(off, a)], OffsetFits dims (List.replicate dims.length 1) kv.1 := by
    intro kv hkv
    rw [List.mem_singleton] at hkv
    subst hkv
    exact hfit
  obtain ⟨w, e, hall⟩ := one_process_any dims xmins xmaxs [(off, a)] hr hfit'
  have hpart : ∀ {w : World K}, Partition w 1 dims → ∀ g, InGrid dims g → ∃ f ∈ w, InBox f.lo f.hi g := by
    intro w hp g hg
    obtain ⟨r, ⟨f, hf, hb⟩, _⟩ := hp.2 g hg
    exact ⟨f, List.mem_of_getElem? hf, hb⟩
  constructor
  · intro h
    have hz : (off.map fun o => o - o.sign).sum = 0 := by
      by_contra hz
      obtain ⟨w1, e1, _, hn⟩ := hall fun _ => 0
      obtain ⟨v, v1, v2, a, a1, a2, _⟩ := h fun _ => 0
      rw [e] at a
      obtain rfl := Except.ok.inj a
      rw [e1] at a1
      obtain rfl := Except.ok.inj a1
      exact hn ⟨_, List.mem_singleton.2 rfl, hz⟩ v2 a2
    refine ⟨hz, ?_⟩
    by_contra hw
    have hg : InGrid dims (List.replicate dims.length 0) :=
      inGrid_iff_getElem.2 ⟨by simp, fun i h1 _ => by simpa using hr.pos _ (List.getElem_mem h1)⟩
    obtain ⟨w1, e1, hy, _⟩ := hall fun t => if t = shiftMod dims (List.replicate dims.length 0) off then 1 else 0
    obtain ⟨w2, e2, hp, ho, hin⟩ := hy (by
      intro kv hkv
      rw [List.mem_singleton] at hkv
      subst hkv
      exact hz)
    obtain ⟨v, v1, v2, a, a1, a2, _, ho'⟩ := h fun t =>
      if t = shiftMod dims (List.replicate dims.length 0) off then 1 else 0
    rw [e] at a
    obtain rfl := Except.ok.inj a
    rw [e1] at a1
    obtain rfl := Except.ok.inj a1
    rw [e2] at a2
    obtain rfl := Except.ok.inj a2
    obtain ⟨f, hf, hb⟩ := hpart hp _ hg
    have b1 := ho f hf _ hb
    rw [ho' f hf _ hb, Option.some_inj] at b1
    unfold stencilStep64 stencilStep at b1
    simp only [List.foldl_cons, List.foldl_nil, if_pos,
      if_neg (shift_ne_any hr.pos hfit.1 (fun o ho => (hfit.2.1 o ho).1) hw)] at b1
    apply ha
    simpa using b1
  · rintro ⟨hz, hw⟩ u
    obtain ⟨w1, e1, hy, _⟩ := hall u
    obtain ⟨w2, e2, hp, ho, hin⟩ := hy (by
      intro kv hkv
      rw [List.mem_singleton] at hkv
      subst hkv
      exact hz)
    refine ⟨w, w1, w2, e, e1, e2, hp, fun f hf g hb => ?_⟩
    rw [ho f hf g hb]
    unfold stencilStep64 stencilStep
    simp only [List.foldl_cons, List.foldl_nil]
    rw [shift64_eq_any (hin f hf g hb) hr.ext hfit.1 (fun o ho => (hfit.2.1 o ho).2) hw]

end

/-! ### Examples -/

/-- The hypotheses of `C22_one_offset_iff` with offsets that are computed and one that is not: on 4 x 5 cells the cell two to the
left and two up, on 5 x 5 x 4 cells a displacement by (2, 1, -2), but on 8 x 8 cells not the displacement by (2, 1). -/
example : (InRange 1 [4, 5] ∧ OffsetFits [4, 5] (List.replicate [4, 5].length 1) [-2, 2] ∧
      (([-2, 2] : List Int).map fun o => o - o.sign).sum = 0 ∧ WrapExact [4, 5] [-2, 2]) ∧
    (InRange 1 [5, 5, 4] ∧ OffsetFits [5, 5, 4] (List.replicate [5, 5, 4].length 1) [2, 1, -2] ∧
      (([2, 1, -2] : List Int).map fun o => o - o.sign).sum = 0 ∧ WrapExact [5, 5, 4] [2, 1, -2]) ∧
    (InRange 1 [8, 8] ∧ OffsetFits [8, 8] (List.replicate [8, 8].length 1) [2, 1] ∧
      (([2, 1] : List Int).map fun o => o - o.sign).sum ≠ 0) := by
  refine ⟨⟨⟨by decide, by decide, by decide, by decide, by decide, by decide, by decide, by decide⟩,
    ⟨rfl, by decide, ?_⟩, by decide, ?_⟩, ⟨⟨by decide, by decide, by decide, by decide, by decide, by decide, by decide,
    by decide⟩, ⟨rfl, by decide, ?_⟩, by decide, ?_⟩, ⟨by decide, by decide, by decide, by decide, by decide, by decide,
    by decide, by decide⟩, ⟨rfl, by decide, ?_⟩, by decide⟩
  · rintro (_ | _ | i) h
    · decide
    · decide
    · simp at h
  · rintro (_ | _ | i) h
    · decide
    · simp at h
    · simp at h
  · rintro (_ | _ | _ | i) h
    · decide
    · decide
    · decide
    · simp at h
  · rintro (_ | _ | _ | i) h
    · simp at h
    · simp at h
    · decide
    · simp at h
  · rintro (_ | _ | i) h
    · decide
    · decide
    · simp at h

end Fidi
