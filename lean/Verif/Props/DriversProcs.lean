import Verif.Lemmas.DriversProcs
import Verif.Props.DriversWrap

/-
Properties C29, C30 and C31 on any number of processes: what `laplacian` and `upwindMpi` do for all numbers of cells per
axis, on grids of up to 2^31 cells.
-/
namespace Fidi
open Spec

/-! ### C29 -/

section
variable {K : Type} [Field K] [CharZero K] [LT K] [DecidableLT K] [HasMax K] [HasSin K]

omit [CharZero K] in
/-- C29: for every process count with a decomposition, number of axes and number of cells per axis, what `laplacian` does.
Let `d` be the decomposition it finds. If the number of cells is a power of two, or the remainder of 2^64 - 1 on division
by it is less than the extents of the sub-domains, the driver ends normally with the 10-fold application of its stencil,
displacements being reduced modulo 2^64 and then modulo the number of cells. Otherwise it reads outside of an array. -/
theorem C29_every_process_count (sz N n : Nat) (hr : InRange sz (List.replicate n N))
    (hex : ∃ d, ValidDecomp sz (List.replicate n N) d) (hcells : N ^ n ≤ 2 ^ 31) :
    ∃ d st, ValidDecomp sz (List.replicate n N) d ∧ Laplacian.stencil n = .ok st ∧
      ((N ∣ 2 ^ 64 ∨ ∀ m ∈ localExtents (List.replicate n N) d, (2 ^ 64 - 1) % N < m) →
        ∃ w u, Laplacian.run (R := K) sz N n = .ok w ∧ Partition w sz (List.replicate n N) ∧
          InputIs w (stencilIter64 (List.replicate n N) st u 10) ∧
          ∀ g, InGrid (List.replicate n N) g →
            u g = (g.map fun i : Nat => HasSin.sin (2 * HasSin.pi * (((i : K) + 1 / 2) / (N : K)))).prod) ∧
      (¬ (N ∣ 2 ^ 64 ∨ ∀ m ∈ localExtents (List.replicate n N) d, (2 ^ 64 - 1) % N < m) →
        Laplacian.run (R := K) sz N n = .error .outOfBounds) := by
  obtain ⟨d, st, w, hv, est, hperm, haxis, hiff, hf, hstart, h0⟩ := lap_procs (K := K) sz N n hr hex
  have hg := hf.toGood
  obtain ⟨w1, e1, h1⟩ := world_setInData hg (by simp) (by simp) h0 Laplacian.func
  refine ⟨d, st, hv, est, fun hl => ?_, fun hl => ?_⟩
  · rw [← hiff] at hl
    obtain ⟨w2, e2, h2⟩ := world_iterate64 hf
      (fun x hx kv hkv => cell_local hf hkv (haxis kv hkv) (hl kv hkv) hx) 10 h1
    refine ⟨w2, _, ?_, partition_of hg h2 (fun x f h => h.shape), input_of hg h2 (fun x f h => ⟨h.shape, h.data⟩), ?_⟩
    · unfold Laplacian.run
      rw [hstart, M.ok_bind, ifDecompValid_of hg h0 (fun x f h => h.1.valid), e1, M.ok_bind, e2]
    · intro g hgrid
      have hop : ∀ u g, InGrid (List.replicate n N) g →
          stencilStep (List.replicate n N) st u g = laplace (List.replicate n N) u g := by
        obtain ⟨st', e', hop⟩ := C29_laplacian_operator (K := K) n
        rw [est] at e'
        obtain rfl := Except.ok.inj e'
        exact (hop (List.replicate n N) (by simp) hr.pos).1
      exact lap_field (fun kv hkv => (haxis kv hkv).1) hop 0 hgrid
  · rw [← hiff] at hl
    have he := world_error hf haxis (by simpa using hcells) (by simpa only [not_forall, exists_prop] using hl) h1
    unfold Laplacian.run
    rw [hstart, M.ok_bind, ifDecompValid_of hg h0 (fun x f h => h.1.valid), e1, M.ok_bind]
    unfold World.iterate
    rw [he]
    rfl

/-- C29: on every process count with a decomposition the check sum of the output of the filter of `laplacian` is 0 for all
inputs if, and only if, the number of cells per axis is a power of two. -/
theorem C29_zero_sum_procs_iff (sz N n : Nat) (hr : InRange sz (List.replicate n N))
    (hex : ∃ d, ValidDecomp sz (List.replicate n N) d) (hcells : N ^ n ≤ 2 ^ 31) :
    (∀ u : List Nat → K, ∃ w w1 w2, Laplacian.start sz N n = .ok w ∧ w.setInDataByIndices u = .ok w1 ∧
      w1.applyFilter = .ok w2 ∧ ∀ rs w3, w2.CheckSum false rs w3 → rs[0]? = some 0) ↔ N ∣ 2 ^ 64 := by
  have hN := replicate_pos hr
  have hn : n ≠ 0 := fun e => hr.ne (by rw [e]; rfl)
  have hN31 : N < 2 ^ 31 := hr.ext N (List.mem_replicate.2 ⟨hn, rfl⟩)
  constructor
  · intro h
    by_contra hdiv
    obtain ⟨d, st, w, hv, est, hperm, haxis, hiff, hf, hstart, h0⟩ := lap_procs (K := K) sz N n hr hex
    obtain ⟨v, v1, v2, a, a1, a2, ha⟩ := h (lastCell n N)
    have hg := hf.toGood
    obtain ⟨w1, e1, h1⟩ := world_set hg h0 (lastCell n N)
    rw [hstart] at a
    obtain rfl := Except.ok.inj a
    rw [e1] at a1
    obtain rfl := Except.ok.inj a1
    by_cases hl : ∀ kv ∈ st, WrapLocal (List.replicate n N) d kv.1
    · obtain ⟨w2, e2, h2⟩ := world_apply64 hf
        (fun x hx kv hkv => cell_local hf hkv (haxis kv hkv) (hl kv hkv) hx) h1
      rw [e2] at a2
      obtain rfl := Except.ok.inj a2
      have hsh : Ranks _ (fun x f => Shape _ x (Cfg.tab _) f) w2 := ⟨h2.1, fun x f hx hf => (h2.2 x f hx hf).1.shape⟩
      obtain ⟨⟨rs, w3, hc⟩, c2⟩ := check_sum_of hg hr.procs1 hsh false
      obtain ⟨b1, b2⟩ := all_cells hg hsh
      have := (c2 rs w3 hc).2.2 _ _ (output_of hg h2 fun x f h => ⟨h.1.shape, h.2⟩) b1 b2
      rw [ha rs w3 hc, sum_cells hr.pos b1 b2] at this
      have e3 := total_lap64 (K := K) hN hN31 hdiv hperm
      dsimp only at this
      rw [e3, Option.some_inj] at this
      apply hn
      have : (n : K) = 0 := neg_eq_zero.1 this.symm
      exact_mod_cast this
    · rw [world_error hf haxis (by simpa using hcells) (by simpa only [not_forall, exists_prop] using hl) h1] at a2
      cases a2
  · intro hdiv u
    obtain ⟨w, e, _, hall, _⟩ := C29_driver_partial (K := K) sz N n hr hdiv hex
    obtain ⟨w1, w2, e1, e2, _, _, _, hc⟩ := hall u
    exact ⟨w, w1, w2, e, e1, e2, fun rs w3 h => hc rs w3 h 0 hr.procs1⟩

/-- C29: on every process count with a decomposition the filter of `laplacian` gives the discrete Laplacian of all inputs
if, and only if, the number of cells per axis is a power of two. -/
theorem C29_operator_procs_iff (sz N n : Nat) (hr : InRange sz (List.replicate n N))
    (hex : ∃ d, ValidDecomp sz (List.replicate n N) d) (hcells : N ^ n ≤ 2 ^ 31) :
    (∀ u : List Nat → K, ∃ w w1 w2, Laplacian.start sz N n = .ok w ∧ w.setInDataByIndices u = .ok w1 ∧
      w1.applyFilter = .ok w2 ∧ OutputIs w2 (laplace (List.replicate n N) u)) ↔ N ∣ 2 ^ 64 := by
  constructor
  · intro h
    rw [← C29_zero_sum_procs_iff (K := K) sz N n hr hex hcells]
    intro u
    obtain ⟨v, v1, v2, a, a1, a2, ha⟩ := h u
    refine ⟨v, v1, v2, a, a1, a2, ?_⟩
    obtain ⟨d, st, w, hv, est, hperm, haxis, hiff, hf, hstart, h0⟩ := lap_procs (K := K) sz N n hr hex
    have hg := hf.toGood
    obtain ⟨w1, e1, h1⟩ := world_set hg h0 u
    rw [hstart] at a
    obtain rfl := Except.ok.inj a
    rw [e1] at a1
    obtain rfl := Except.ok.inj a1
    by_cases hl : ∀ kv ∈ st, WrapLocal (List.replicate n N) d kv.1
    · obtain ⟨w2, e2, h2⟩ := world_apply64 hf
        (fun x hx kv hkv => cell_local hf hkv (haxis kv hkv) (hl kv hkv) hx) h1
      rw [e2] at a2
      obtain rfl := Except.ok.inj a2
      intro rs w3 hc
      have hsh : Ranks _ (fun x f => Shape _ x (Cfg.tab _) f) w2 := ⟨h2.1, fun x f hx hf => (h2.2 x f hx hf).1.shape⟩
      obtain ⟨_, c2⟩ := check_sum_of hg hr.procs1 hsh false
      obtain ⟨b1, b2⟩ := all_cells hg hsh
      rw [(c2 rs w3 hc).2.2 _ _ ha b1 b2, Option.some_inj]
      obtain ⟨st', _, hop⟩ := C29_laplacian_operator (K := K) n
      obtain ⟨hst, _, hsum⟩ := hop (List.replicate n N) (by simp) hr.pos
      rw [← (hsum _ b1 b2).1 u]
      congr 1
      exact List.map_congr_left fun g hg => (hst u g ((b2 g).1 hg)).symm
    · rw [world_error hf haxis (by simpa using hcells) (by simpa only [not_forall, exists_prop] using hl) h1] at a2
      cases a2
  · intro hdiv u
    obtain ⟨w, e, _, hall, _⟩ := C29_driver_partial (K := K) sz N n hr hdiv hex
    obtain ⟨w1, w2, e1, e2, _, ho, _⟩ := hall u
    exact ⟨w, w1, w2, e, e1, e2, ho⟩

end

/-! ### C30, C31 -/

section
variable {K : Type} [Field K] [LinearOrder K] [IsStrictOrderedRing K] [HasMax K]

/-- The sum of the field of the code is above 1 after a number of steps. -/
theorem mpiCode_gt_one {courant : K} (hc0 : 0 < courant) (hc1 : 3 * courant ≤ 1) (hmax : (0 : K) < HasMax.dblMax)
    {N : Nat} (hN0 : 0 < N) (hN11 : N ≤ 2 ^ 11) (hN : ¬ N ∣ 2 ^ 64) :
    1 < total [N, N, N] (mpiCode N (driverWeight courant N) UpwindMpi.initialCondition ((2 ^ 64 - 1) % N + 1)) := by
  have hpos : ∀ n ∈ [N, N, N], 0 < n := by simp; exact hN0
  have hc := driverWeight_pos hc0 hmax hN0
  have hic : ∀ a b c, a < N → b < N → c < N → UpwindMpi.initialCondition (R := K) [a, b, c] = cornerField [a, b, c] := by
    intro a b c ha hb hc
    apply initialCondition_eq
    simp only [List.sum_cons, List.sum_nil]
    omega
  have ht : total [N, N, N] UpwindMpi.initialCondition = (1 : K) := by
    rw [← mpiField_total courant hpos 0]
    refine total_congr hpos fun g hg => ?_
    obtain ⟨a, b, c, rfl, ha, hb, hc⟩ := cell3 hg
    exact hic a b c ha hb hc
  have := mpi_total_gt (u := UpwindMpi.initialCondition (R := K)) hN0 (by omega) hN hc.1 (by linarith [hc.2]) ?_ ?_ ?_
  · rw [ht] at this
    exact this
  · intro a b c ha hb hc
    rw [hic a b c ha hb hc]
    unfold cornerField
    split
    · exact zero_le_one
    · exact le_refl _
  · rw [hic 0 0 0 hN0 hN0 hN0]
    unfold cornerField
    rw [if_pos (by simp)]
    exact zero_lt_one
  · intro a b c ha hb hc h
    rw [hic a b c ha hb hc]
    unfold cornerField
    rw [if_neg]
    intro hz
    have h1 := hz a (by simp)
    have h2 := hz b (by simp)
    have h3 := hz c (by simp)
    omega

theorem le_2048 {N : Nat} (h : N * N * N < 2 ^ 31 + 1) : N ≤ 2 ^ 11 := by
  by_contra hlt
  have h1 : 2 ^ 11 ≤ N := by omega
  have h2 : 2 ^ 11 * 2 ^ 11 * 2 ^ 11 ≤ N * N * N := Nat.mul_le_mul (Nat.mul_le_mul h1 h1) h1
  omega

/-- C30: for every process count with a decomposition and number of cells per axis that is not a power of two (Courant
number above 0 and at most 1/3; the driver uses 1/10), `upwindMpi` does not conserve the sum. Let `d` be the decomposition
it finds and `r` the remainder of 2^64 - 1 on division by the number of cells. If `r` is less than the extents of the
sub-domains, the run ends normally, and after `r + 1` steps the check sum is larger than 1. Otherwise the first step reads
outside of an array. -/
theorem C30_every_process_count (courant : K) (hc0 : 0 < courant) (hc1 : 3 * courant ≤ 1) (hmax : (0 : K) < HasMax.dblMax)
    (sz N : Nat) (hr : InRange sz [N, N, N]) (hex : ∃ d, ValidDecomp sz [N, N, N] d) (hcells : N * N * N ≤ 2 ^ 31)
    (hN : ¬ N ∣ 2 ^ 64) :
    ∃ d, ValidDecomp sz [N, N, N] d ∧
      ((∀ m ∈ localExtents [N, N, N] d, (2 ^ 64 - 1) % N < m) →
        ∃ wk, UpwindMpi.run courant sz N ((2 ^ 64 - 1) % N + 1 : Nat) = .ok wk ∧ (∃ rs w', wk.CheckSum true rs w') ∧
          ∀ rs w', wk.CheckSum true rs w' → ∃ s, rs[0]? = some s ∧ 1 < s) ∧
      ((∃ m ∈ localExtents [N, N, N] d, m ≤ (2 ^ 64 - 1) % N) → ∀ k < 2 ^ 31, 0 < k →
        UpwindMpi.run courant sz N (k : Nat) = .error .outOfBounds) := by
  have hN0 : 0 < N := hr.pos N (by simp)
  have hN11 := le_2048 (by omega : N * N * N < 2 ^ 31 + 1)
  have hlt := Nat.mod_lt (2 ^ 64 - 1) hN0
  obtain ⟨d, hv, hok, herr⟩ := mpi_procs courant sz N hr hex (by simpa [Nat.mul_assoc] using hcells)
  refine ⟨d, hv, fun hl => ?_, fun hl k hk hk0 => herr ?_ k hk hk0⟩
  · obtain ⟨wk, e, _, _, c1, c2⟩ := hok (.inr hl) ((2 ^ 64 - 1) % N + 1) (by omega)
    exact ⟨wk, e, c1, fun rs w' h => ⟨_, c2 rs w' h, mpiCode_gt_one hc0 hc1 hmax hN0 hN11 hN⟩⟩
  · rintro (h | h)
    · exact hN h
    · obtain ⟨m, hm, hle⟩ := hl
      have := h m hm
      omega

/-- C30: on every process count with a decomposition the check sum of `upwindMpi` is 1 after every number of steps if, and
only if, the number of cells per axis is a power of two. -/
theorem C30_sum_procs_iff (courant : K) (hc0 : 0 < courant) (hc1 : 3 * courant ≤ 1) (hmax : (0 : K) < HasMax.dblMax)
    (sz N : Nat) (hr : InRange sz [N, N, N]) (hex : ∃ d, ValidDecomp sz [N, N, N] d) (hcells : N * N * N ≤ 2 ^ 31) :
    (∀ k < 2 ^ 31, ∃ wk, UpwindMpi.run courant sz N (k : Nat) = .ok wk ∧
      ∀ rs w', wk.CheckSum true rs w' → rs[0]? = some 1) ↔ N ∣ 2 ^ 64 := by
  have hN0 : 0 < N := hr.pos N (by simp)
  have hN31 : N < 2 ^ 31 := hr.ext N (by simp)
  have hlt := Nat.mod_lt (2 ^ 64 - 1) hN0
  constructor
  · intro h
    by_contra hN
    obtain ⟨d, _, hok, herr⟩ := C30_every_process_count courant hc0 hc1 hmax sz N hr hex hcells hN
    by_cases hl : ∀ m ∈ localExtents [N, N, N] d, (2 ^ 64 - 1) % N < m
    · obtain ⟨wk, e, ⟨rs, w', hc⟩, c2⟩ := hok hl
      obtain ⟨vk, e', hv⟩ := h ((2 ^ 64 - 1) % N + 1) (by omega)
      rw [e] at e'
      obtain rfl := Except.ok.inj e'
      obtain ⟨s, hs, hs1⟩ := c2 rs w' hc
      rw [hv rs w' hc, Option.some_inj] at hs
      exact absurd hs (ne_of_lt hs1)
    · obtain ⟨vk, e', _⟩ := h 1 (by decide)
      rw [herr (by simpa using hl) 1 (by decide) (by decide)] at e'
      cases e'
  · intro hN k hk
    obtain ⟨c, hf, hcn, hcd, _, _, hfield, w, w0, es, _, e0, _, hall⟩ := mpi_states courant sz N hr hN hex
    obtain ⟨wk, ek, hval, hwk⟩ := hall k
    have hg := hf.toGood
    have hsh : Ranks c (fun x f => Shape c x c.tab f) wk := ⟨hwk.1, fun x f hx hf => (hwk.2 x f hx hf).shape⟩
    obtain ⟨_, c2⟩ := check_sum_of hg (by rw [hcn]; exact hr.procs1) hsh true
    obtain ⟨b1, b2⟩ := all_cells hg hsh
    refine ⟨wk, ?_, fun rs w' hc => ?_⟩
    · unfold UpwindMpi.run
      rw [es, M.ok_bind, hval, e0, M.ok_bind, szOfInt_ofNat (by unfold W; omega), ek]
    · rw [(c2 rs w' hc).2.2 _ _ (input_of hg hwk fun x f h => ⟨h.shape, h.data⟩) b1 b2]
      rw [hcd] at b2
      rw [sum_cells hr.pos b1 b2, total_congr hr.pos (fun g hg => hfield g hg k), mpiField_total courant hr.pos]

/-- C31: on every process count with a decomposition `upwindMpi` and `upwind` end with the same field after every number of
steps if, and only if, the number of cells per axis is a power of two (Courant number above 0 and at most 1/3). -/
theorem C31_same_field_iff (courant : K) (hc0 : 0 < courant) (hc1 : 3 * courant ≤ 1) (hmax : (0 : K) < HasMax.dblMax)
    (sz N : Nat) (hr : InRange sz [N, N, N]) (hex : ∃ d, ValidDecomp sz [N, N, N] d) (hcells : N * N * N < 2 ^ 31) :
    (∀ k < 2 ^ 31, ∃ w s u, UpwindMpi.run courant sz N (k : Nat) = .ok w ∧ Upwind.mainRun courant N (k : Nat) = .ok s ∧
      Partition w sz [N, N, N] ∧ InputIs w u ∧ Stores [N, N, N] s.f u) ↔ N ∣ 2 ^ 64 := by
  have hN0 : 0 < N := hr.pos N (by simp)
  have hlt := Nat.mod_lt (2 ^ 64 - 1) hN0
  have hN11 := le_2048 (by omega : N * N * N < 2 ^ 31 + 1)
  constructor
  · intro h
    by_contra hN
    obtain ⟨d, _, hok, herr⟩ := mpi_procs courant sz N hr hex (by simpa [Nat.mul_assoc] using hcells.le)
    by_cases hl : N ∣ 2 ^ 64 ∨ ∀ m ∈ localExtents [N, N, N] d, (2 ^ 64 - 1) % N < m
    · obtain ⟨wk, e, hpart, hin, _⟩ := hok hl ((2 ^ 64 - 1) % N + 1) (by omega)
      obtain ⟨w, s, u, a1, a2, _, a3, a4⟩ := h ((2 ^ 64 - 1) % N + 1) (by omega)
      rw [e] at a1
      obtain rfl := Except.ok.inj a1
      obtain ⟨s', b1, b2⟩ := upwind_mpiField courant N hN0 hcells ((2 ^ 64 - 1) % N + 1)
      rw [a2] at b1
      obtain rfl := Except.ok.inj b1
      have heq : ∀ g, InGrid [N, N, N] g →
          mpiCode N (driverWeight courant N) UpwindMpi.initialCondition ((2 ^ 64 - 1) % N + 1) g =
            mpiField courant N ((2 ^ 64 - 1) % N + 1) g := by
        intro g hg
        obtain ⟨r, ⟨f, hf, hb⟩, _⟩ := hpart.2 g hg
        have hm := List.mem_of_getElem? hf
        have c1 := hin f hm g hb
        rw [a3 f hm g hb, Option.some_inj] at c1
        have c2 := a4.2 g hg
        rw [b2.2 g hg, Option.some_inj] at c2
        rw [← c1, c2]
      have := mpiCode_gt_one hc0 hc1 hmax hN0 hN11 hN
      rw [total_congr hr.pos heq, mpiField_total courant hr.pos] at this
      exact lt_irrefl _ this
    · obtain ⟨w, s, u, a1, _⟩ := h 1 (by decide)
      rw [herr hl 1 (by decide) (by decide)] at a1
      cases a1
  · intro hN k hk
    exact C31_same_field_partial courant sz N hr hN hex hcells k hk

end

/-! ### Examples -/

/-- Six cells per axis on two processes: 2^64 - 1 leaves 3, the sub-domains have 3 cells along one axis, so the driver
reads outside of an array. On one process it ends, with a wrong sum. -/
example : InRange 2 [6, 6, 6] ∧ ValidDecomp 2 [6, 6, 6] [2, 1, 1] ∧ ¬ 6 ∣ 2 ^ 64 ∧ (2 ^ 64 - 1) % 6 = 3 ∧
    localExtents [6, 6, 6] [2, 1, 1] = [3, 6, 6] ∧ 6 * 6 * 6 ≤ 2 ^ 31 :=
  ⟨⟨by decide, by decide, by decide, by decide, by decide, by decide, by decide, by decide⟩,
    ⟨by simp, by simp⟩, by decide, by decide, by decide, by decide⟩

/-- Twelve cells per axis on two processes: 2^64 - 1 leaves 3, which is less than the 6 cells of the sub-domains, so the
driver ends, with a wrong sum. -/
example : InRange 2 [12, 12, 12] ∧ ValidDecomp 2 [12, 12, 12] [2, 1, 1] ∧ ¬ 12 ∣ 2 ^ 64 ∧ (2 ^ 64 - 1) % 12 = 3 ∧
    ∀ m ∈ localExtents [12, 12, 12] [2, 1, 1], 3 < m :=
  ⟨⟨by decide, by decide, by decide, by decide, by decide, by decide, by decide, by decide⟩,
    ⟨by simp, by simp⟩, by decide, by decide, by decide⟩

/-- Six cells on each of two axes, for `laplacian` on two processes. -/
example : InRange 2 (List.replicate 2 6) ∧ ValidDecomp 2 (List.replicate 2 6) [2, 1] ∧ 6 ^ 2 ≤ 2 ^ 31 ∧
    ¬ (6 ∣ 2 ^ 64 ∨ ∀ m ∈ localExtents (List.replicate 2 6) [2, 1], (2 ^ 64 - 1) % 6 < m) :=
  ⟨⟨by decide, by decide, by decide, by decide, by decide, by decide, by decide, by decide⟩,
    ⟨by simp, by simp⟩, by decide, by decide⟩

end Fidi
