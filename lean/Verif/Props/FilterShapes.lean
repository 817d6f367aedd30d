import Verif.Lemmas.FilterShapesNever
import Verif.Props.Filter

/-
Property C22: which shapes of stencils the filter supports.
-/
namespace Fidi
open Spec

section
variable {R : Type} [Zero R] [Add R] [Mul R] [Div R] [NatCast R] [LT R] [DecidableLT R] [HasMax R]

/-- C22: for every grid of up to 2^31 cells, process count with a valid decomposition and stencil of offsets with
components 0 and ±1 (the extents along which they are negative being powers of two), let `d` be the decomposition the
filter finds. For every input the filter computes the stencil if no offset that leaves a sub-domain through one face needs
cells that are interior along another axis (`OneHalo`), and otherwise `applyFilter` does not end normally. -/
theorem C22_unit_offsets_iff (nprocs : Nat) (dims : List Nat) (xmins xmaxs : List R) (st : StdMap (List Int) R)
    (hr : InRange nprocs dims) (hex : ∃ d, ValidDecomp nprocs dims d) (hcells : dims.prod ≤ 2 ^ 31)
    (hu : ∀ kv ∈ st, UnitOffset dims.length kv.1) (hw : ∀ kv ∈ st, WrapExact dims kv.1) :
    ∃ d, ValidDecomp nprocs dims d ∧ ∃ w, World.new nprocs dims xmins xmaxs st = .ok w ∧
      (∀ f ∈ w, extents f.lo f.hi = localExtents dims d) ∧
      ∀ u, ∃ w1, w.setInDataByIndices u = .ok w1 ∧
        ((∀ kv ∈ st, OneHalo d (localExtents dims d) kv.1) → ∃ w2, w1.applyFilter = .ok w2 ∧
          Partition w2 nprocs dims ∧ OutputIs w2 (stencilStep dims st u)) ∧
        ((∃ kv ∈ st, ¬ OneHalo d (localExtents dims d) kv.1) → ∀ w2, w1.applyFilter ≠ .ok w2) := by
  have hp := hr.procs
  obtain ⟨d, hg, hb⟩ := build_found (R := R) hr.procs1 (by omega) hr.ne hr.pos hr.axes hr.cells hex
  have h := good_of_range hr hg xmins xmaxs st (fun kv hkv => unit_offsetFits hg.valid.1 hr.pos (hu kv hkv))
  obtain ⟨w, e, h0⟩ := world_new h hb
  refine ⟨d, hg.valid, w, e, ?_, fun u => ?_⟩
  · intro f hm
    obtain ⟨x, hx, _, hs⟩ := h0.mem h hm
    rw [hs.1.lo, hs.1.hi]
    exact h.ext hx
  · obtain ⟨w1, e1, h1⟩ := world_set h h0 u
    refine ⟨w1, e1, fun hh => ?_, ?_⟩
    · have hf : Cfg.Fine ⟨nprocs, dims, d, xmins, xmaxs, st⟩ := { h with unit := hu, halo := hh, wrap := hw }
      obtain ⟨w2, e2, h2⟩ := world_apply hf h1
      exact ⟨w2, e2, partition_of h h2 (fun x f h => h.1.shape), output_of h h2 (fun x f h => ⟨h.1.shape, h.2⟩)⟩
    · rintro ⟨kv, hkv, hh⟩
      obtain ⟨x, hx, hn⟩ := diagonal_never h hu hcells hkv (hw kv hkv) hh
      exact world_never h h1 (fun x f h => h.shape) hkv ⟨x, hx, fun f f' get hs _ => hn f f' get hs⟩

/-- C22: an offset of two cells or more along an axis is supported for no grid (of up to 2^31 cells), no process count with
a valid decomposition, not even one process, and no input: in a stencil of offsets that fit the sub-domains, whatever the
other offsets are, the filter is constructed and its input set, but `applyFilter` does not end normally. -/
theorem C22_wide_axis_never (nprocs : Nat) (dims : List Nat) (xmins xmaxs : List R) (st : StdMap (List Int) R)
    (hr : InRange nprocs dims) (hex : ∃ d, ValidDecomp nprocs dims d) (hcells : dims.prod ≤ 2 ^ 31)
    (hfit : ∀ d, ValidDecomp nprocs dims d → ∀ kv ∈ st, OffsetFits dims d kv.1)
    (hwide : ∃ kv ∈ st, ∃ a, (∀ k, k ≠ a → kv.1.getD k 0 = 0) ∧ 2 ≤ (kv.1.getD a 0).natAbs) :
    ∃ w, World.new nprocs dims xmins xmaxs st = .ok w ∧
      ∀ u, ∃ w1, w.setInDataByIndices u = .ok w1 ∧ ∀ w2, w1.applyFilter ≠ .ok w2 := by
  have hp := hr.procs
  obtain ⟨d, hg, hb⟩ := build_found (R := R) hr.procs1 (by omega) hr.ne hr.pos hr.axes hr.cells hex
  have h := good_of_range hr hg xmins xmaxs st (hfit d hg.valid)
  obtain ⟨w, e, h0⟩ := world_new h hb
  refine ⟨w, e, fun u => ?_⟩
  obtain ⟨w1, e1, h1⟩ := world_set h h0 u
  obtain ⟨kv, hkv, a, hax, hw⟩ := hwide
  exact ⟨w1, e1, world_never h h1 (fun x f h => h.shape) hkv (wide_never h hcells hkv hax hw)⟩

end

/-! ### Examples -/

/-- 4 x 2 cells on two processes: the decomposition is 2 x 1 or 1 x 2. -/
private theorem decomp_eight {d : List Nat} (h : ValidDecomp 2 [4, 2] d) : d = [2, 1] ∨ d = [1, 2] := by
  obtain ⟨h1, h2⟩ := h
  match d, h1, h2 with
  | [a, b], h1, h2 =>
    have h3 : a * b = 2 := by simpa using h2
    have ha : a ∣ 2 := ⟨b, h3.symm⟩
    have := Nat.le_of_dvd (by decide) ha
    have : a = 0 ∨ a = 1 ∨ a = 2 := by omega
    rcases this with rfl | rfl | rfl
    · omega
    · right; simp; omega
    · left; simp; omega

/-- The hypotheses of `C22_unit_offsets_iff` with a stencil for which the filter does not end normally, whichever of the
two decompositions it finds. -/
example : InRange 2 [4, 2] ∧ (∃ d, ValidDecomp 2 [4, 2] d) ∧ [4, 2].prod ≤ 2 ^ 31 ∧ UnitOffset [4, 2].length [1, -1] ∧
    WrapExact [4, 2] [1, -1] ∧ ∀ d, ValidDecomp 2 [4, 2] d → ¬ OneHalo d (localExtents [4, 2] d) [1, -1] := by
  refine ⟨⟨by decide, by decide, by decide, by decide, by decide, by decide, by decide, by decide⟩,
    ⟨[2, 1], .cons (by decide) (.cons (by decide) .nil), rfl⟩, by decide, ⟨rfl, by decide⟩, ?_, ?_⟩
  · intro i hi
    match i, hi with
    | 0, hi => simp at hi
    | 1, _ => decide
    | i + 2, hi => simp at hi
  · intro d hd h
    rcases decomp_eight hd with rfl | rfl
    · rcases h 0 1 (by decide) (by decide) (by decide) with h | h <;> exact absurd h (by decide)
    · rcases h 1 0 (by decide) (by decide) (by decide) with h | h <;> exact absurd h (by decide)

/-- The same stencil on 2 x 2 cells and four processes of one cell each is computed. -/
example : InRange 4 [2, 2] ∧ ValidDecomp 4 [2, 2] [2, 2] ∧ OneHalo [2, 2] (localExtents [2, 2] [2, 2]) [1, -1] := by
  refine ⟨⟨by decide, by decide, by decide, by decide, by decide, by decide, by decide, by decide⟩,
    ⟨.cons (by decide) (.cons (by decide) .nil), rfl⟩, ?_⟩
  intro i j _ _ hj
  right
  match j, hj with
  | 0, _ => decide
  | 1, _ => decide
  | j + 2, hj => simp at hj

/-- The hypotheses of `C22_wide_axis_never`: 10 cells on one process, the second neighbour on the left. -/
example : InRange 1 [10] ∧ (∃ d, ValidDecomp 1 [10] d) ∧
    (∀ d, ValidDecomp 1 [10] d → ∀ kv ∈ [(([-2] : List Int), (1 : ℚ)), ([1], 1)], OffsetFits [10] d kv.1) := by
  refine ⟨⟨by decide, by decide, by decide, by decide, by decide, by decide, by decide, by decide⟩,
    ⟨[1], .cons (by decide) .nil, rfl⟩, ?_⟩
  intro d hd kv hkv
  obtain ⟨k, rfl⟩ : ∃ k, d = [k] := by
    match d, hd.1 with
    | [k], _ => exact ⟨k, rfl⟩
  have hk : k = 1 := by simpa using hd.2
  subst hk
  simp only [List.mem_cons, List.not_mem_nil, or_false] at hkv
  rcases hkv with rfl | rfl
  all_goals
    refine ⟨rfl, by decide, ?_⟩
    intro i hi
    match i, hi with
    | 0, _ => decide
    | i + 1, hi => simp at hi

/-- What these runs do. -/
example : (World.new 1 [10] [0] [1] [(([-2] : List Int), (1 : ℚ)), ([1], 1)] >>= fun w =>
      w.setInDataByIndices (fun g => (g.getD 0 0 : ℚ)) >>= fun w => w.applyFilter >>= fun w =>
      pure (w.map fun f => f.outData)).isOk = false ∧
    (World.new 4 [2, 2] [0, 0] [1, 1] [(([1, -1] : List Int), (1 : ℚ))] >>= fun w =>
      w.setInDataByIndices (fun g => (g.getD 0 0 + 10 * g.getD 1 0 : ℚ)) >>= fun w => w.applyFilter >>= fun w =>
      pure (w.map fun f => (f.lo, f.outData))) = .ok [([0, 0], [11]), ([0, 1], [1]), ([1, 0], [10]), ([1, 1], [0])] := by
  constructor <;> decide +kernel

end Fidi
