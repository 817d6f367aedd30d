import Verif.Lemmas.FilterSetup
import Mathlib.Algebra.Order.Ring.Rat

/-
Properties C16-C18, C22, C23, C28: the distributed stencil filter.
`R` stands for `double`: any type with the operations used. No law of arithmetic is assumed, so equalities of values
are bit for bit.
-/
namespace Fidi
open Spec

section
variable {R : Type}

/-- Every cell of the grid belongs to exactly one rank. -/
def Partition (w : World R) (nprocs : Nat) (dims : List Nat) : Prop :=
  w.length = nprocs ∧ ∀ g, InGrid dims g → ∃! r : Nat, ∃ f : Filter R, w[r]? = some f ∧ InBox f.lo f.hi g

/-- The output data of the ranks are the field `v`: each rank has, at the column-major position of each of its cells,
the value of `v`. -/
def OutputIs (w : World R) (v : List Nat → R) : Prop :=
  ∀ f ∈ w, ∀ g, InBox f.lo f.hi g → f.outData[cellPos f.lo f.hi g]? = some (v g)

/-- The input data of the ranks are the field `v`. -/
def InputIs (w : World R) (v : List Nat → R) : Prop :=
  ∀ f ∈ w, ∀ g, InBox f.lo f.hi g → f.inData[cellPos f.lo f.hi g]? = some (v g)

theorem partition_of {c : Cfg R} (h : c.Good) {P : List Nat → Filter R → Prop} {w : World R} (hw : Ranks c P w)
    (hP : ∀ x f, P x f → Shape c x c.tab f) : Partition w c.nprocs c.dims :=
  ⟨hw.1, fun _ hg => owner h hw (fun x f hp => ⟨(hP x f hp).lo, (hP x f hp).hi⟩) hg⟩

theorem output_of {c : Cfg R} (h : c.Good) {w : World R} {v : List Nat → R} {P : List Nat → Filter R → Prop}
    (hw : Ranks c P w) (hP : ∀ x f, P x f → Shape c x c.tab f ∧ f.outData = boxData (c.lo x) (c.hi x) v) :
    OutputIs w v := by
  intro f hf g hg
  obtain ⟨x, hx, _, hp⟩ := hw.mem h hf
  obtain ⟨h1, h2⟩ := hP x f hp
  rw [h1.lo, h1.hi] at hg ⊢
  rw [h2]
  exact holds_cell h hx hg

theorem input_of {c : Cfg R} (h : c.Good) {w : World R} {v : List Nat → R} {P : List Nat → Filter R → Prop}
    (hw : Ranks c P w) (hP : ∀ x f, P x f → Shape c x c.tab f ∧ f.inData = boxData (c.lo x) (c.hi x) v) :
    InputIs w v := by
  intro f hf g hg
  obtain ⟨x, hx, _, hp⟩ := hw.mem h hf
  obtain ⟨h1, h2⟩ := hP x f hp
  rw [h1.lo, h1.hi] at hg ⊢
  rw [h2]
  exact holds_cell h hx hg

variable [Zero R] [Add R] [Mul R] [Div R] [NatCast R] [LT R] [DecidableLT R] [HasMax R]

/-! ### C16, C22 -/

/-- The filter computes the stencil: construction, `setInDataByIndices(u)` and `applyFilter` on all ranks end normally,
every cell has one owner, and the owners hold the stencil applied to `u`, the terms being added in the order of the
map. -/
def ComputesStencil (nprocs : Nat) (dims : List Nat) (xmins xmaxs : List R) (st : StdMap (List Int) R)
    (u : List Nat → R) : Prop :=
  ∃ w w1 w2, World.new nprocs dims xmins xmaxs st = .ok w ∧ w.setInDataByIndices u = .ok w1 ∧
    w1.applyFilter = .ok w2 ∧ Partition w2 nprocs dims ∧ OutputIs w2 (stencilStep dims st u)

/-- C22 (part): the filter computes every stencil of offsets with components 0 and ±1, along one or several axes,
provided that no offset that leaves a sub-domain through one face needs cells that are interior along another axis
(`OneHalo`; true for every offset along one axis, and for all offsets if there is one process), and that the extents
along which offsets are negative are powers of two (`WrapExact`).
Missing: wider offsets, other diagonal offsets, other extents; all fail (`C22_*_fails`, `C16_periodic_stencil_fails`). -/
theorem C22_unit_offsets_partial (nprocs : Nat) (dims : List Nat) (xmins xmaxs : List R) (st : StdMap (List Int) R)
    (u : List Nat → R) (hr : InRange nprocs dims) (hex : ∃ d, ValidDecomp nprocs dims d)
    (hu : ∀ kv ∈ st, UnitOffset dims.length kv.1)
    (hh : ∀ d, ValidDecomp nprocs dims d → ∀ kv ∈ st, OneHalo d (localExtents dims d) kv.1)
    (hw : ∀ kv ∈ st, WrapExact dims kv.1) : ComputesStencil nprocs dims xmins xmaxs st u := by
  obtain ⟨d, hf, hb⟩ := fine_of_range hr hex xmins xmaxs st hu hh hw
  obtain ⟨w, e, h0⟩ := world_new hf.toGood hb
  obtain ⟨w1, e1, h1⟩ := world_set hf.toGood h0 u
  obtain ⟨w2, e2, h2⟩ := world_apply hf h1
  exact ⟨w, w1, w2, e, e1, e2, partition_of hf.toGood h2 (fun x f h => h.1.shape),
    output_of hf.toGood h2 (fun x f h => ⟨h.1.shape, h.2⟩)⟩

/-- C22 (part): with one process every stencil of offsets with components 0 and ±1 is supported. -/
theorem C22_one_process_partial (dims : List Nat) (xmins xmaxs : List R) (st : StdMap (List Int) R)
    (u : List Nat → R) (hr : InRange 1 dims) (hu : ∀ kv ∈ st, UnitOffset dims.length kv.1)
    (hw : ∀ kv ∈ st, WrapExact dims kv.1) : ComputesStencil 1 dims xmins xmaxs st u := by
  apply C22_unit_offsets_partial 1 dims xmins xmaxs st u hr _ hu _ hw
  · refine ⟨List.replicate dims.length 1, ?_, by simp⟩
    refine List.forall₂_iff_get.2 ⟨by simp, fun i h1 h2 => ?_⟩
    simp
  · intro d hd kv _ i j _ _ _
    left
    have h1 : ∀ k ∈ d, k = 1 := fun k hk => Nat.dvd_one.1 (hd.2 ▸ List.dvd_prod hk)
    by_cases hi : i < d.length
    · rw [getD_of_lt hi]; exact h1 _ (List.getElem_mem hi)
    · simp [Nat.le_of_not_lt hi]

/-- C16 (part): for every grid, process count with a valid decomposition, stencil of offsets along one axis and input,
the filter computes the periodic stencil if the extents along which offsets are negative are powers of two.
Missing: other extents, for which the claim is false (`C16_periodic_stencil_fails`). -/
theorem C16_periodic_stencil_partial (nprocs : Nat) (dims : List Nat) (xmins xmaxs : List R) (st : StdMap (List Int) R)
    (u : List Nat → R) (hr : InRange nprocs dims) (hex : ∃ d, ValidDecomp nprocs dims d)
    (hu : ∀ kv ∈ st, AxisOffset dims.length kv.1) (hw : ∀ kv ∈ st, WrapExact dims kv.1) :
    ComputesStencil nprocs dims xmins xmaxs st u :=
  C22_unit_offsets_partial nprocs dims xmins xmaxs st u hr hex (fun kv h => axis_unit (hu kv h))
    (fun d _ kv h => axis_oneHalo (hu kv h) d _) hw

/-! ### C17, C18 -/

/-- The filter iterates the stencil `n` times. -/
def IteratesStencil (nprocs : Nat) (dims : List Nat) (xmins xmaxs : List R) (st : StdMap (List Int) R)
    (u : List Nat → R) (n : Nat) : Prop :=
  ∃ w w1 w2, World.new nprocs dims xmins xmaxs st = .ok w ∧ w.setInDataByIndices u = .ok w1 ∧
    w1.iterate n = .ok w2 ∧ Partition w2 nprocs dims ∧ InputIs w2 (stencilIter dims st u n)

/-- C18 (part): `setInDataByIndices(u)` followed by `n` rounds of `applyFilter` and `copyOutToIn` gives the `n`-fold
application of the stencil to `u`, under the conditions of C16. -/
theorem C18_iterates_partial (nprocs : Nat) (dims : List Nat) (xmins xmaxs : List R) (st : StdMap (List Int) R)
    (u : List Nat → R) (n : Nat) (hr : InRange nprocs dims) (hex : ∃ d, ValidDecomp nprocs dims d)
    (hu : ∀ kv ∈ st, AxisOffset dims.length kv.1) (hw : ∀ kv ∈ st, WrapExact dims kv.1) :
    IteratesStencil nprocs dims xmins xmaxs st u n := by
  obtain ⟨d, hf, hb⟩ := fine_of_range hr hex xmins xmaxs st (fun kv h => axis_unit (hu kv h))
    (fun d _ kv h => axis_oneHalo (hu kv h) d _) hw
  obtain ⟨w, e, h0⟩ := world_new hf.toGood hb
  obtain ⟨w1, e1, h1⟩ := world_set hf.toGood h0 u
  obtain ⟨w2, e2, h2⟩ := world_iterate hf n h1
  exact ⟨w, w1, w2, e, e1, e2, partition_of hf.toGood h2 (fun x f h => h.shape),
    input_of hf.toGood h2 (fun x f h => ⟨h.shape, h.data⟩)⟩

/-- C17 (part): the value of every cell after any number of iterations is bit for bit the same for any two process
counts, under the conditions of C16: the runs end normally and, if a rank of the one run and a rank of the other own
a cell, they hold the same value. -/
theorem C17_independent_of_processes_partial (p q : Nat) (dims : List Nat) (xmins xmaxs : List R)
    (st : StdMap (List Int) R) (u : List Nat → R) (n : Nat) (hp : InRange p dims) (hq : InRange q dims)
    (hexp : ∃ d, ValidDecomp p dims d) (hexq : ∃ d, ValidDecomp q dims d)
    (hu : ∀ kv ∈ st, AxisOffset dims.length kv.1) (hw : ∀ kv ∈ st, WrapExact dims kv.1) :
    ∃ wp wq,
      (World.new p dims xmins xmaxs st >>= fun w => w.setInDataByIndices u >>= fun w => w.iterate n) = .ok wp ∧
      (World.new q dims xmins xmaxs st >>= fun w => w.setInDataByIndices u >>= fun w => w.iterate n) = .ok wq ∧
      Partition wp p dims ∧ Partition wq q dims ∧
      ∀ fp ∈ wp, ∀ fq ∈ wq, ∀ g, InBox fp.lo fp.hi g → InBox fq.lo fq.hi g →
        ∃ v, fp.inData[cellPos fp.lo fp.hi g]? = some v ∧ fq.inData[cellPos fq.lo fq.hi g]? = some v := by
  obtain ⟨a, a1, a2, e, e1, e2, h1, h2⟩ := C18_iterates_partial p dims xmins xmaxs st u n hp hexp hu hw
  obtain ⟨b, b1, b2, e', e1', e2', h1', h2'⟩ := C18_iterates_partial q dims xmins xmaxs st u n hq hexq hu hw
  refine ⟨a2, b2, ?_, ?_, h1, h1', ?_⟩
  · rw [e, M.ok_bind, e1, M.ok_bind, e2]
  · rw [e', M.ok_bind, e1', M.ok_bind, e2']
  · intro fp hfp fq hfq g hg hg'
    exact ⟨_, h2 fp hfp g hg, h2' fq hfq g hg'⟩

/-! ### C28 -/

omit [Zero R] [Add R] [Mul R] [Div R] [NatCast R] [LT R] [DecidableLT R] [HasMax R] in
/-- C28: for an offset with one `int` component per axis, none the least `int`, `getSideFromOffset` returns a vector of
the same length with the opposite signs, and `getNumberOfGhostsFromOffset` the largest absolute component. -/
theorem C28_side_and_ghosts (f : Filter R) (off : List Int) (hl : off.length = f.ndims)
    (hi : ∀ o ∈ off, -(2 : Int) ^ 31 < o ∧ o < 2 ^ 31) :
    (∃ s, f.getSideFromOffset off = .ok s ∧ s.length = off.length ∧
      ∀ i, (0 < off.getD i 0 → s.getD i 0 = -1) ∧ (off.getD i 0 < 0 → s.getD i 0 = 1) ∧
        (off.getD i 0 = 0 → s.getD i 0 = 0)) ∧
    (∃ m, Filter.getNumberOfGhostsFromOffset off = .ok m ∧ (∀ o ∈ off, o.natAbs ≤ m) ∧
      (off ≠ [] → ∃ o ∈ off, o.natAbs = m) ∧ (off = [] → m = 0)) := by
  constructor
  · refine ⟨_, getSideFromOffset_eq f off hl hi, length_sideOf off, ?_⟩
    intro i
    rw [getD_sideOf]
    generalize off.getD i 0 = o
    refine ⟨fun h => ?_, fun h => ?_, fun h => ?_⟩
    · rw [Int.sign_eq_one_of_pos h]
    · rw [Int.sign_eq_neg_one_of_neg h]; rfl
    · rw [h]; rfl
  · refine ⟨_, getNumberOfGhostsFromOffset_eq off hi, ?_, ?_, ?_⟩
    · unfold ghostWidth
      have key : ∀ (l : List Int) (m : Nat), m ≤ l.foldl (fun m o => max m o.natAbs) m ∧
          ∀ o ∈ l, o.natAbs ≤ l.foldl (fun m o => max m o.natAbs) m := by
        intro l
        induction l with
        | nil => intro m; simp
        | cons a l ih =>
          intro m
          have := ih (max m a.natAbs)
          refine ⟨Nat.le_trans (Nat.le_max_left _ _) this.1, ?_⟩
          intro o ho
          rcases List.mem_cons.1 ho with rfl | ho
          · exact Nat.le_trans (Nat.le_max_right _ _) this.1
          · exact this.2 o ho
      exact (key off 0).2
    · unfold ghostWidth
      have key : ∀ (l : List Int) (m : Nat), l.foldl (fun m o => max m o.natAbs) m = m ∨
          ∃ o ∈ l, o.natAbs = l.foldl (fun m o => max m o.natAbs) m := by
        intro l
        induction l with
        | nil => intro m; simp
        | cons a l ih =>
          intro m
          simp only [List.foldl_cons]
          rcases ih (max m a.natAbs) with h | ⟨o, ho, h⟩
          · rw [h]
            rcases Nat.le_total m a.natAbs with h1 | h1
            · right; exact ⟨a, by simp, by omega⟩
            · left; omega
          · right; exact ⟨o, by simp [ho], h⟩
      intro hne
      rcases key off 0 with h | h
      · obtain ⟨o, off', rfl⟩ := List.exists_cons_of_ne_nil hne
        refine ⟨o, by simp, ?_⟩
        have : ∀ (l : List Int) (m : Nat), m ≤ l.foldl (fun m o => max m o.natAbs) m := by
          intro l
          induction l with
          | nil => intro m; simp
          | cons a l ih => intro m; exact Nat.le_trans (Nat.le_max_left _ _) (ih _)
        have h3 := this off' (max 0 o.natAbs)
        simp only [List.foldl_cons] at h ⊢
        omega
      · exact h
    · rintro rfl; rfl

/-! ### C23 -/

omit [Zero R] [Add R] [Mul R] [Div R] [NatCast R] [LT R] [DecidableLT R] [HasMax R] in
/-- C23 (part): the index computed by `applyFilter` along axis `j` (extent `n`) for index `g` and displacement `o` is
`(g + o) mod n` if `g + o` is not negative; if `g + o` is negative it is `(g + o) mod n` if and only if `n` divides
2^64. `ind` and `inside` are the state of the loop over the axes; the flag that the cell is local is set correctly for
the index computed.
Missing: negative indices for other `n`, where the claim is false (`C23_wrap_fails`). -/
theorem C23_wrap_iff_partial (f : Filter R) (off : List Int) (inds : List Nat) (ind : List Int) (inside : Bool) (j : Nat)
    (n g lo hi : Nat) (o : Int) (hn : f.globalDims[j]? = some n) (hg : inds[j]? = some g) (ho : off[j]? = some o)
    (hlo : f.lo[j]? = some lo) (hhi : f.hi[j]? = some hi) (hj : j < ind.length) (h1 : g < n) (h2 : n < 2 ^ 31)
    (hhi' : hi ≤ n) (hlo' : lo ≤ hi) (h3 : (g : Int) + o < 2 ^ 31) (h4 : -(2 : Int) ^ 31 ≤ (g : Int) + o) :
    ∃ i : Nat, i < n ∧
      f.offsetBody off inds j (ind, inside) = .ok (ind.set j i, inside && (decide (lo ≤ i) && decide (i < hi))) ∧
      (0 ≤ (g : Int) + o → (i : Int) = ((g : Int) + o) % n) ∧
      ((g : Int) + o < 0 → ((i : Int) = ((g : Int) + o) % n ↔ n ∣ 2 ^ 64)) := by
  have e1 : mkInt (intOfSz g + o) = .ok ((g : Int) + o) := by
    rw [intOfSz_small (by omega)]
    exact mkInt_ok (by rw [intLim_eq]; omega) (by rw [intLim_eq]; omega)
  have hmod : szOfInt ((g : Int) + o) % n < n := Nat.mod_lt _ (by omega)
  refine ⟨_, hmod, ?_, ?_, ?_⟩
  · unfold Filter.offsetBody
    dsimp only
    rw [rd_of_some hg, M.ok_bind, rd_of_some ho, M.ok_bind, e1, M.ok_bind, rd_of_some hn, M.ok_bind,
      szMod_of_pos (by omega), M.ok_bind, wr_of_lt hj, M.ok_bind, rd_of_some hlo, M.ok_bind, rd_of_some hhi, M.ok_bind,
      M.pure_eq, intOfSz_small (by omega), intOfSz_small (by omega), intOfSz_small (by omega)]
    generalize szOfInt ((g : Int) + o) % n = i
    rw [Bool.and_assoc]
    simp only [Nat.cast_le, Nat.cast_lt]
  · intro h0
    obtain ⟨a, ha⟩ : ∃ a : Nat, (g : Int) + o = a := ⟨((g : Int) + o).toNat, by omega⟩
    rw [ha, szOfInt_ofNat (by unfold W; omega), Int.natCast_mod]
  · intro h0
    obtain ⟨k, hk⟩ : ∃ k : Nat, (g : Int) + o = -(k : Int) := ⟨(-((g : Int) + o)).toNat, by omega⟩
    have e2 : szOfInt ((g : Int) + o) = 2 ^ 64 - k := by
      unfold szOfInt
      simp only [W]
      omega
    have e3 : ((2 ^ 64 - k : Nat) : Int) = 2 ^ 64 + -(k : Int) := by omega
    rw [e2, hk, Int.natCast_mod, e3, Int.emod_eq_emod_iff_emod_sub_eq_zero, Int.add_sub_cancel, ← Int.dvd_iff_emod_eq_zero]
    exact_mod_cast Iff.rfl

end

/-! ### Examples and counterexamples -/

/-- The field `u` used below: the first index. -/
private def first (t : List Nat) : ℚ := (t.headD 0 : Nat)

/-- The hypotheses of C16-C18 and C22 are met by an 8 x 6 grid on 4 processes with a stencil that goes down along the
first axis and both ways along the second (forward only), and by diagonal offsets on one process. -/
example : InRange 4 [8, 6] ∧ (∃ d, ValidDecomp 4 [8, 6] d) ∧
    (∀ kv ∈ ([([-1, 0], 2), ([0, 0], -3), ([0, 1], 5), ([1, 0], 7)] : StdMap (List Int) ℚ),
      AxisOffset 2 kv.1 ∧ WrapExact [8, 6] kv.1) ∧
    InRange 1 [4, 3] ∧ (∀ kv ∈ ([([-1, 1], 2), ([1, 1], 5)] : StdMap (List Int) ℚ),
      UnitOffset 2 kv.1 ∧ WrapExact [4, 3] kv.1) := by
  refine ⟨⟨by decide, by decide, by decide, by decide, by decide, by decide, by decide, by decide⟩,
    ⟨[2, 2], .cons (by decide) (.cons (by decide) .nil), rfl⟩, ?_,
    ⟨by decide, by decide, by decide, by decide, by decide, by decide, by decide, by decide⟩, ?_⟩
  · intro kv hkv
    simp only [List.mem_cons, List.not_mem_nil, or_false] at hkv
    rcases hkv with rfl | rfl | rfl | rfl
    · refine ⟨⟨rfl, by decide, 0, ?_⟩, ?_⟩
      · intro i hi
        match i, hi with
        | 1, _ => rfl
        | i + 2, _ => simp
      · intro i hi
        match i, hi with
        | 0, _ => decide
        | 1, h => simp at h
        | i + 2, h => simp at h
    · refine ⟨⟨rfl, by decide, 0, ?_⟩, ?_⟩
      · intro i hi
        match i, hi with
        | 1, _ => rfl
        | i + 2, _ => simp
      · intro i hi
        match i, hi with
        | 0, h => simp at h
        | 1, h => simp at h
        | i + 2, h => simp at h
    · refine ⟨⟨rfl, by decide, 1, ?_⟩, ?_⟩
      · intro i hi
        match i, hi with
        | 0, _ => rfl
        | i + 2, _ => simp
      · intro i hi
        match i, hi with
        | 0, h => simp at h
        | 1, h => simp at h
        | i + 2, h => simp at h
    · refine ⟨⟨rfl, by decide, 0, ?_⟩, ?_⟩
      · intro i hi
        match i, hi with
        | 1, _ => rfl
        | i + 2, _ => simp
      · intro i hi
        match i, hi with
        | 0, h => simp at h
        | 1, h => simp at h
        | i + 2, h => simp at h
  · intro kv hkv
    simp only [List.mem_cons, List.not_mem_nil, or_false] at hkv
    rcases hkv with rfl | rfl
    · refine ⟨⟨rfl, by decide⟩, ?_⟩
      intro i hi
      match i, hi with
      | 0, _ => decide
      | 1, h => simp at h
      | i + 2, h => simp at h
    · refine ⟨⟨rfl, by decide⟩, ?_⟩
      intro i hi
      match i, hi with
      | 0, h => simp at h
      | 1, h => simp at h
      | i + 2, h => simp at h

/-- What a run of the filter leaves in the output data, rank by rank, with the bounds of the sub-domains. -/
private def runOut (nprocs : Nat) (dims : List Nat) (st : StdMap (List Int) ℚ) :
    M (List (List Nat × List Nat × List ℚ)) := do
  let w ← World.new nprocs dims [0] [1] st
  let w ← w.setInDataByIndices first
  let w ← w.applyFilter
  pure (w.map fun f => (f.lo, f.hi, f.outData))

private theorem runOut_of {nprocs : Nat} {dims : List Nat} {st : StdMap (List Int) ℚ}
    (h : ComputesStencil nprocs dims [0] [1] st first) :
    ∃ r, runOut nprocs dims st = .ok r ∧ ∀ q ∈ r, ∀ g, InBox q.1 q.2.1 g →
      q.2.2[cellPos q.1 q.2.1 g]? = some (stencilStep dims st first g) := by
  obtain ⟨w, w1, w2, e, e1, e2, _, h2⟩ := h
  refine ⟨w2.map fun f => (f.lo, f.hi, f.outData), ?_, ?_⟩
  · unfold runOut
    rw [e, M.ok_bind, e1, M.ok_bind, e2, M.ok_bind]
    rfl
  · intro q hq g hg
    obtain ⟨f, hf, rfl⟩ := List.mem_map.1 hq
    exact h2 f hf g hg

/-- Along one axis every offset 0, ±1 is of the required form. -/
private theorem axis1 {o : Int} (h : o = -1 ∨ o = 0 ∨ o = 1) : AxisOffset 1 [o] := by
  refine ⟨rfl, by simpa using h, 0, ?_⟩
  intro i hi
  match i, hi with
  | i + 1, _ => simp

/-- C23 is false: along an axis of 3 cells index -1 becomes 0, not 2 (2^64 - 1 is a multiple of 3). -/
theorem C23_wrap_fails : ¬ ∀ (f : Filter ℚ) (n : Nat), 1 ≤ n → n < 2 ^ 31 → f.globalDims = [n] → f.lo = [0] → f.hi = [n] →
    ∃ inside', f.offsetBody [-1] [0] 0 ([0], true) = .ok ([(n : Int) - 1], inside') := by
  intro h
  obtain ⟨i, hi⟩ := h { Filter.initial 0 1 [3] [0] [1] with lo := [0], hi := [3] } 3 (by decide) (by decide) rfl rfl rfl
  have e : ({ Filter.initial 0 1 [3] [0] [1] with lo := [0], hi := [3] } : Filter ℚ).offsetBody [-1] [0] 0 ([0], true) =
      .ok ([0], true) := by decide +kernel
  rw [e] at hi
  simp at hi

/-- C23 is met by non-trivial cases: an axis of 8 cells, where 8 divides 2^64, and of 10 cells, where it does not. -/
example : (8 ∣ 2 ^ 64) ∧ ¬ (10 ∣ 2 ^ 64) := by decide

/-- C16 is false: 3 cells with values 0, 1, 2 on one process and the stencil that takes the left neighbour. The first
cell gets 0 instead of 2. -/
theorem C16_periodic_stencil_fails : ¬ ∀ (nprocs : Nat) (dims : List Nat) (xmins xmaxs : List ℚ)
    (st : StdMap (List Int) ℚ) (u : List Nat → ℚ), InRange nprocs dims → (∃ d, ValidDecomp nprocs dims d) →
    (∀ kv ∈ st, AxisOffset dims.length kv.1) → ComputesStencil nprocs dims xmins xmaxs st u := by
  intro h
  obtain ⟨r, e, h2⟩ := runOut_of (h 1 [3] [0] [1] [([-1], 1)] first
    ⟨by decide, by decide, by decide, by decide, by decide, by decide, by decide, by decide⟩
    ⟨[1], .cons (by decide) .nil, rfl⟩ (by
      intro kv hkv
      rw [List.mem_singleton] at hkv
      subst hkv
      exact axis1 (by decide)))
  have e1 : runOut 1 [3] [([-1], 1)] = .ok [([0], [3], [0, 0, 1])] := by decide +kernel
  rw [e1] at e
  obtain rfl := Except.ok.inj e
  have h3 := h2 _ (List.mem_singleton.2 rfl) [0] (by decide)
  have h4 : ¬ ([0, 0, 1] : List ℚ)[cellPos [0] [3] [0]]? = some (stencilStep [3] [([-1], 1)] first [0]) := by
    decide +kernel
  exact h4 h3

/-- C17 and C18 are false without the condition on the extents: with 6 cells and the stencil that takes the left
neighbour one process runs, and two processes read outside a window. -/
theorem C17_independent_of_processes_fails : ¬ ∀ (p q : Nat) (dims : List Nat) (xmins xmaxs : List ℚ)
    (st : StdMap (List Int) ℚ) (u : List Nat → ℚ), InRange p dims → InRange q dims → (∃ d, ValidDecomp p dims d) →
    (∃ d, ValidDecomp q dims d) → (∀ kv ∈ st, AxisOffset dims.length kv.1) →
    ((World.new p dims xmins xmaxs st >>= fun w => w.setInDataByIndices u >>= fun w => w.iterate 1).isOk = true ↔
      (World.new q dims xmins xmaxs st >>= fun w => w.setInDataByIndices u >>= fun w => w.iterate 1).isOk = true) := by
  intro h
  have h1 := h 1 2 [6] [0] [1] [([-1], 1)] first
    ⟨by decide, by decide, by decide, by decide, by decide, by decide, by decide, by decide⟩
    ⟨by decide, by decide, by decide, by decide, by decide, by decide, by decide, by decide⟩
    ⟨[1], .cons (by decide) .nil, rfl⟩ ⟨[2], .cons (by decide) .nil, rfl⟩ (by
      intro kv hkv
      rw [List.mem_singleton] at hkv
      subst hkv
      exact axis1 (by decide))
  exact absurd (h1.1 (by decide +kernel)) (by decide +kernel)

/-- C18 is false without the condition on the extents: after one iteration the first of 3 cells is 0 instead of 2. -/
theorem C18_iterates_fails : ¬ ∀ (nprocs : Nat) (dims : List Nat) (xmins xmaxs : List ℚ)
    (st : StdMap (List Int) ℚ) (u : List Nat → ℚ) (n : Nat), InRange nprocs dims → (∃ d, ValidDecomp nprocs dims d) →
    (∀ kv ∈ st, AxisOffset dims.length kv.1) → IteratesStencil nprocs dims xmins xmaxs st u n := by
  intro h
  obtain ⟨w, w1, w2, e, e1, e2, _, h2⟩ := h 1 [3] [0] [1] [([-1], 1)] first 1
    ⟨by decide, by decide, by decide, by decide, by decide, by decide, by decide, by decide⟩
    ⟨[1], .cons (by decide) .nil, rfl⟩ (by
      intro kv hkv
      rw [List.mem_singleton] at hkv
      subst hkv
      exact axis1 (by decide))
  have e3 : (World.new 1 [3] [0] [1] [([-1], 1)] >>= fun w => w.setInDataByIndices first >>= fun w =>
      w.iterate 1 >>= fun w => pure (w.map fun f => (f.lo, f.hi, f.inData))) = .ok [([0], [3], [0, 0, 1])] := by
    decide +kernel
  rw [e, M.ok_bind, e1, M.ok_bind, e2, M.ok_bind] at e3
  obtain ⟨f, rfl, e4⟩ := List.map_eq_singleton_iff.1 (Except.ok.inj e3)
  obtain ⟨e5, e6, e7⟩ : f.lo = [0] ∧ f.hi = [3] ∧ f.inData = [0, 0, 1] := by simpa using e4
  have h3 := h2 f (List.mem_singleton.2 rfl) [0] (by rw [e5, e6]; decide)
  rw [e5, e6, e7] at h3
  have h4 : ¬ ([0, 0, 1] : List ℚ)[cellPos [0] [3] [0]]? = some (stencilIter [3] [([-1], 1)] first 1 [0]) := by
    decide +kernel
  exact h4 h3

/-- C22 is false for offsets wider than one cell, although all extents are powers of two and sub-domains are wide
enough: 8 cells on 4 processes and the offset 2. -/
theorem C22_wide_offsets_fails : ¬ ∀ (nprocs : Nat) (dims : List Nat) (xmins xmaxs : List ℚ)
    (st : StdMap (List Int) ℚ) (u : List Nat → ℚ), InRange nprocs dims → (∃ d, ValidDecomp nprocs dims d) →
    (∀ d, ValidDecomp nprocs dims d → ∀ kv ∈ st, OffsetFits dims d kv.1) → (∀ kv ∈ st, WrapExact dims kv.1) →
    ComputesStencil nprocs dims xmins xmaxs st u := by
  intro h
  obtain ⟨r, e, _⟩ := runOut_of (h 4 [8] [0] [1] [([2], 1)] first
    ⟨by decide, by decide, by decide, by decide, by decide, by decide, by decide, by decide⟩
    ⟨[4], .cons (by decide) .nil, rfl⟩ (by
      intro d hd kv hkv
      rw [List.mem_singleton] at hkv
      subst hkv
      obtain ⟨k, rfl⟩ : ∃ k, d = [k] := by
        match d, hd.1 with
        | [k], _ => exact ⟨k, rfl⟩
      have hk : k = 4 := by simpa using hd.2
      subst hk
      refine ⟨rfl, by decide, ?_⟩
      intro i hi
      match i, hi with
      | 0, _ => decide
      | i + 1, hi => simp at hi) (by
      intro kv hkv
      rw [List.mem_singleton] at hkv
      subst hkv
      intro i hi
      match i, hi with
      | 0, hi => simp at hi
      | i + 1, hi => simp at hi))
  have e1 : (runOut 4 [8] [([2], 1)]).isOk = false := by decide +kernel
  rw [e] at e1
  exact Bool.noConfusion e1

/-- C22 is false for diagonal offsets: 4 x 4 cells on 4 processes and the offset (1, 1). -/
theorem C22_diagonal_offsets_fails : ¬ ∀ (nprocs : Nat) (dims : List Nat) (xmins xmaxs : List ℚ)
    (st : StdMap (List Int) ℚ) (u : List Nat → ℚ), InRange nprocs dims → (∃ d, ValidDecomp nprocs dims d) →
    (∀ kv ∈ st, UnitOffset dims.length kv.1) → (∀ kv ∈ st, WrapExact dims kv.1) →
    ComputesStencil nprocs dims xmins xmaxs st u := by
  intro h
  obtain ⟨r, e, _⟩ := runOut_of (h 4 [4, 4] [0] [1] [([1, 1], 1)] first
    ⟨by decide, by decide, by decide, by decide, by decide, by decide, by decide, by decide⟩
    ⟨[2, 2], .cons (by decide) (.cons (by decide) .nil), rfl⟩ (by
      intro kv hkv
      rw [List.mem_singleton] at hkv
      subst hkv
      exact ⟨rfl, by decide⟩) (by
      intro kv hkv
      rw [List.mem_singleton] at hkv
      subst hkv
      intro i hi
      match i, hi with
      | 0, hi => simp at hi
      | 1, hi => simp at hi
      | i + 2, hi => simp at hi))
  have e1 : (runOut 4 [4, 4] [([1, 1], 1)]).isOk = false := by decide +kernel
  rw [e] at e1
  exact Bool.noConfusion e1

end Fidi
