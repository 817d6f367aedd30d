import Verif.Lemmas.FilterAlgebra
import Verif.Props.FilterCalls
import Verif.Props.Drivers

/-
Property C77: the distributed filter as an operator on fields, in exact arithmetic.
-/
namespace Fidi
open Spec Upwind

section
variable {K : Type} [Field K] [LT K] [DecidableLT K] [HasMax K]

/-- `setInDataByIndices(u)` and `n` rounds of `applyFilter` and `copyOutToIn` on `nprocs` processes end normally, and then
the ranks hold the field `U`. -/
def RunsTo (nprocs : Nat) (dims : List Nat) (xmins xmaxs : List K) (st : StdMap (List Int) K) (n : Nat)
    (u U : List Nat → K) : Prop :=
  ∃ w w1 w2, World.new nprocs dims xmins xmaxs st = .ok w ∧ w.setInDataByIndices u = .ok w1 ∧
    w1.iterate n = .ok w2 ∧ Partition w2 nprocs dims ∧ InputIs w2 U

/-- What the process count, the grid and the stencil have to satisfy: some decomposition exists, the offsets are 0 or one
cell along one axis, and extents along which they are negative are powers of two. -/
structure Fits (nprocs : Nat) (dims : List Nat) (st : StdMap (List Int) K) : Prop where
  range : InRange nprocs dims
  decomp : ∃ d, ValidDecomp nprocs dims d
  axis : ∀ kv ∈ st, AxisOffset dims.length kv.1
  wrap : ∀ kv ∈ st, WrapExact dims kv.1

/-- A run holds the iterated stencil and nothing else. -/
private theorem runsTo_iff {nprocs : Nat} {dims : List Nat} {xmins xmaxs : List K} {st : StdMap (List Int) K}
    (h : Fits nprocs dims st) (n : Nat) (u U : List Nat → K) :
    RunsTo nprocs dims xmins xmaxs st n u U ↔ ∀ g, InGrid dims g → U g = stencilIter dims st u n g := by
  obtain ⟨d, hf, hb⟩ := fine_of_range h.range h.decomp xmins xmaxs st (fun kv hk => axis_unit (h.axis kv hk))
    (fun d _ kv hk => axis_oneHalo (h.axis kv hk) d _) h.wrap
  obtain ⟨w, e, h0⟩ := world_new hf.toGood hb
  obtain ⟨w1, e1, h1⟩ := world_set hf.toGood h0 u
  obtain ⟨w2, e2, h2⟩ := world_iterate hf n h1
  have hpart := partition_of hf.toGood h2 (fun x f h => h.shape)
  have hin := input_of hf.toGood h2 (fun x f h => ⟨h.shape, h.data⟩)
  constructor
  · rintro ⟨a, a1, a2, f, f1, f2, _, hU⟩ g hg
    rw [e] at f
    obtain rfl := Except.ok.inj f
    rw [e1] at f1
    obtain rfl := Except.ok.inj f1
    rw [e2] at f2
    obtain rfl := Except.ok.inj f2
    obtain ⟨r, ⟨f, hr, hbox⟩, _⟩ := hpart.2 g hg
    have b1 := hU f (List.mem_of_getElem? hr) g hbox
    rw [hin f (List.mem_of_getElem? hr) g hbox, Option.some_inj] at b1
    exact b1.symm
  · intro hU
    refine ⟨w, w1, w2, e, e1, e2, hpart, ?_⟩
    intro f hf' g hbox
    rw [hin f hf' g hbox, hU g]
    obtain ⟨x, hx, _, hs⟩ := h2.mem hf.toGood hf'
    rw [hs.shape.lo, hs.shape.hi] at hbox
    exact hf.toGood.grid hx hbox

/-- C77: for every process count, grid and stencil of axis offsets, and number of rounds, every input has a result; the
result of a combination of two inputs is the combination of their results; and the result of an input displaced by any
vector, periodically, is the displaced result. -/
theorem C77_linear (nprocs : Nat) (dims : List Nat) (xmins xmaxs : List K) (st : StdMap (List Int) K) (n : Nat)
    (h : Fits nprocs dims st) :
    (∀ u, ∃ U, RunsTo nprocs dims xmins xmaxs st n u U) ∧
    (∀ (a b : K) (u U v V : List Nat → K), RunsTo nprocs dims xmins xmaxs st n u U →
      RunsTo nprocs dims xmins xmaxs st n v V →
      RunsTo nprocs dims xmins xmaxs st n (fun g => a * u g + b * v g) (fun g => a * U g + b * V g)) ∧
    ∀ (s : List Int) (u U : List Nat → K), s.length = dims.length → RunsTo nprocs dims xmins xmaxs st n u U →
      RunsTo nprocs dims xmins xmaxs st n (fun g => u (shiftMod dims g s)) (fun g => U (shiftMod dims g s)) := by
  have hs : ∀ kv ∈ st, kv.1.length = dims.length := fun kv hk => (h.axis kv hk).1
  refine ⟨fun u => ⟨_, (runsTo_iff h n u _).2 fun g _ => rfl⟩, ?_, ?_⟩
  · intro a b u U v V hu hv
    rw [runsTo_iff h] at hu hv ⊢
    intro g hg
    rw [hu g hg, hv g hg, iter_step_linear hs a b u v n g hg]
  · intro s u U hl hu
    rw [runsTo_iff h] at hu ⊢
    intro g hg
    rw [hu _ (shiftMod_inGrid hg hl), iter_step_shift hs u hl n g hg]

/-- C77: two filters on the same grid can be exchanged, whatever their process counts: `n` rounds of the one and then `m`
rounds of the other give what `m` rounds of the other and then `n` rounds of the one give. -/
theorem C77_commute (p q : Nat) (dims : List Nat) (xmins xmaxs xmins' xmaxs' : List K) (st st' : StdMap (List Int) K)
    (n m : Nat) (h : Fits p dims st) (h' : Fits q dims st') (u U V U' V' : List Nat → K)
    (h1 : RunsTo p dims xmins xmaxs st n u U) (h2 : RunsTo q dims xmins' xmaxs' st' m U V)
    (h3 : RunsTo q dims xmins' xmaxs' st' m u U') (h4 : RunsTo p dims xmins xmaxs st n U' V') :
    ∀ g, InGrid dims g → V g = V' g := by
  have hs : ∀ kv ∈ st, kv.1.length = dims.length := fun kv hk => (h.axis kv hk).1
  have hs' : ∀ kv ∈ st', kv.1.length = dims.length := fun kv hk => (h'.axis kv hk).1
  rw [runsTo_iff h] at h1 h4
  rw [runsTo_iff h'] at h2 h3
  intro g hg
  rw [h2 g hg, h4 g hg, iter_step_congr hs' h1 m g hg, iter_step_congr hs h3 n g hg, iter_step_comm hs hs' u n m g hg]

/-- C77: after `n` rounds the check sum on rank 0 is the one of the input times the `n`-th power of the sum of the weights;
the result of a uniform field is uniform with that factor. -/
theorem C77_check_sum (nprocs : Nat) (dims : List Nat) (xmins xmaxs : List K) (st : StdMap (List Int) K) (n : Nat)
    (h : Fits nprocs dims st) (cells : List (List Nat)) (hnd : cells.Nodup) (hmem : ∀ g, g ∈ cells ↔ InGrid dims g) :
    (∀ u, ∃ w w1 w2, World.new nprocs dims xmins xmaxs st = .ok w ∧ w.setInDataByIndices u = .ok w1 ∧
      w1.iterate n = .ok w2 ∧ (∃ rs w3, w2.CheckSum true rs w3) ∧
      ∀ rs w3, w2.CheckSum true rs w3 → rs[0]? = some ((st.map Prod.snd).sum ^ n * (cells.map u).sum)) ∧
    ∀ a : K, RunsTo nprocs dims xmins xmaxs st n (fun _ => a) (fun _ => (st.map Prod.snd).sum ^ n * a) := by
  have hs : ∀ kv ∈ st, kv.1.length = dims.length := fun kv hk => (h.axis kv hk).1
  constructor
  · intro u
    obtain ⟨d, hf, hb⟩ := fine_of_range h.range h.decomp xmins xmaxs st (fun kv hk => axis_unit (h.axis kv hk))
      (fun d _ kv hk => axis_oneHalo (h.axis kv hk) d _) h.wrap
    obtain ⟨w, e, h0⟩ := world_new hf.toGood hb
    obtain ⟨w1, e1, h1⟩ := world_set hf.toGood h0 u
    obtain ⟨w2, e2, h2⟩ := world_iterate hf n h1
    have hin := input_of hf.toGood h2 (fun x f h => ⟨h.shape, h.data⟩)
    obtain ⟨c1, c2⟩ := check_sum_of hf.toGood h.range.procs1 ⟨h2.1, fun x f hx hf => (h2.2 x f hx hf).shape⟩ true
    refine ⟨w, w1, w2, e, e1, e2, c1, fun rs w3 hc => ?_⟩
    have := (c2 rs w3 hc).2.2 (stencilIter dims st u n) cells hin hnd hmem
    rw [this, sum_cells h.range.pos hnd hmem, sum_cells h.range.pos hnd hmem, total_stencilIter h.range.pos hs]
  · intro a
    rw [runsTo_iff h]
    intro g _
    exact (stencilIter_const st a n g).symm

end

section
variable {K : Type} [Field K] [LinearOrder K] [IsStrictOrderedRing K] [HasMax K]

/-- C77: the result grows at most like the `n`-th power of the sum of the absolute weights. If no weight is negative, larger
inputs have larger results, and if moreover the weights add up to 1 the values stay in the range of the input. -/
theorem C77_bounds (nprocs : Nat) (dims : List Nat) (xmins xmaxs : List K) (st : StdMap (List Int) K) (n : Nat)
    (h : Fits nprocs dims st) :
    (∀ (u U : List Nat → K) (b : K), RunsTo nprocs dims xmins xmaxs st n u U → (∀ g, InGrid dims g → |u g| ≤ b) →
      ∀ g, InGrid dims g → |U g| ≤ (st.map fun kv => |kv.2|).sum ^ n * b) ∧
    ((∀ kv ∈ st, 0 ≤ kv.2) →
      (∀ u U v V : List Nat → K, RunsTo nprocs dims xmins xmaxs st n u U → RunsTo nprocs dims xmins xmaxs st n v V →
        (∀ g, InGrid dims g → u g ≤ v g) → ∀ g, InGrid dims g → U g ≤ V g) ∧
      ((st.map Prod.snd).sum = 1 → ∀ (u U : List Nat → K) (a b : K), RunsTo nprocs dims xmins xmaxs st n u U →
        (∀ g, InGrid dims g → a ≤ u g ∧ u g ≤ b) → ∀ g, InGrid dims g → a ≤ U g ∧ U g ≤ b)) := by
  have hs : ∀ kv ∈ st, kv.1.length = dims.length := fun kv hk => (h.axis kv hk).1
  refine ⟨?_, fun h0 => ⟨?_, ?_⟩⟩
  · intro u U b hu hb g hg
    rw [runsTo_iff h] at hu
    rw [hu g hg]
    exact stencilIter_abs hs hb n g hg
  · intro u U v V hu hv hle g hg
    rw [runsTo_iff h] at hu hv
    rw [hu g hg, hv g hg]
    exact stencilIter_mono hs h0 hle n g hg
  · intro h1 u U a b hu hab g hg
    rw [runsTo_iff h] at hu
    rw [hu g hg]
    have e : ∀ c : K, stencilIter dims st (fun _ => c) n g = c := by
      intro c; rw [stencilIter_const, h1, one_pow, one_mul]
    constructor
    · rw [← e a]; exact stencilIter_mono hs h0 (fun g hg => (hab g hg).1) n g hg
    · rw [← e b]; exact stencilIter_mono hs h0 (fun g hg => (hab g hg).2) n g hg

end

/-! ### Examples -/

/-- The hypotheses with two processes on 4 x 3 cells: a mean over the cells before and behind along the first axis, with
weights of sum 1, and a forward difference along the second. -/
private def meanStencil : StdMap (List Int) ℚ := [([-1, 0], 1/2), ([1, 0], 1/2)]
private def diffStencil : StdMap (List Int) ℚ := [([0, 0], -1), ([0, 1], 1)]

private theorem axis2 {a b : Int} (h1 : a = -1 ∨ a = 0 ∨ a = 1) (h2 : b = -1 ∨ b = 0 ∨ b = 1) (h : a = 0 ∨ b = 0) :
    AxisOffset 2 [a, b] := by
  refine ⟨rfl, by simpa using ⟨h1, h2⟩, ?_⟩
  rcases h with rfl | rfl
  · refine ⟨1, ?_⟩
    rintro (_ | _ | i) hi
    · rfl
    · exact absurd rfl hi
    · simp
  · refine ⟨0, ?_⟩
    rintro (_ | _ | i) hi
    · exact absurd rfl hi
    · rfl
    · simp

private theorem range43 : InRange 2 [4, 3] :=
  ⟨by decide, by decide, by decide, by decide, by decide, by decide, by decide, by decide⟩

example : Fits 2 [4, 3] meanStencil ∧ Fits 2 [4, 3] diffStencil ∧ (meanStencil.map Prod.snd).sum = 1 ∧
    (∀ kv ∈ meanStencil, 0 ≤ kv.2) := by
  have hd : ∃ d, ValidDecomp 2 [4, 3] d := ⟨[2, 1], .cons (by decide) (.cons (by decide) .nil), rfl⟩
  refine ⟨⟨range43, hd, ?_, ?_⟩, ⟨range43, hd, ?_, ?_⟩, by norm_num [meanStencil], ?_⟩
  · intro kv hkv
    simp only [meanStencil, List.mem_cons, List.not_mem_nil, or_false] at hkv
    rcases hkv with rfl | rfl <;> exact axis2 (by decide) (by decide) (by decide)
  · intro kv hkv
    simp only [meanStencil, List.mem_cons, List.not_mem_nil, or_false] at hkv
    rcases hkv with rfl | rfl <;> rintro (_ | _ | i) hi <;> revert hi <;> simp
  · intro kv hkv
    simp only [diffStencil, List.mem_cons, List.not_mem_nil, or_false] at hkv
    rcases hkv with rfl | rfl <;> exact axis2 (by decide) (by decide) (by decide)
  · intro kv hkv
    simp only [diffStencil, List.mem_cons, List.not_mem_nil, or_false] at hkv
    rcases hkv with rfl | rfl <;> rintro (_ | _ | i) hi <;> revert hi <;> simp
  · intro kv hkv
    simp only [meanStencil, List.mem_cons, List.not_mem_nil, or_false] at hkv
    rcases hkv with rfl | rfl <;> norm_num

/-- Two rounds of the mean on two processes: the input is the first index, the sum 18 is kept. -/
example : (World.new 2 [4, 3] [0, 0] [1, 1] meanStencil >>= fun w =>
      w.setInDataByIndices (fun g => (g.getD 0 0 : ℚ)) >>= fun w => w.iterate 2 >>= fun w =>
      pure (w.map fun f => f.inData)) = .ok [[1, 2, 1, 2, 1, 2], [1, 2, 1, 2, 1, 2]] := by
  decide +kernel

end Fidi
