import Verif.Lemmas.DriversWrap
import Verif.Lemmas.FilterProcs

/-
`laplacian` and `upwindMpi` on any number of processes, for all numbers of cells per axis.
-/
namespace Fidi
open Spec Finset

/-- On a grid with the same number of cells on all axes, for a stencil with negative offsets on all axes. -/
theorem uniform_wrapLocal {R : Type} {n N : Nat} {d : List Nat} (hd : d.length = n) {st : List (List Int × R)}
    (ha : ∀ kv ∈ st, AxisOffset n kv.1) (hneg : ∀ j < n, ∃ kv ∈ st, kv.1.getD j 0 < 0) :
    (∀ kv ∈ st, WrapLocal (List.replicate n N) d kv.1) ↔
      N ∣ 2 ^ 64 ∨ ∀ m ∈ localExtents (List.replicate n N) d, (2 ^ 64 - 1) % N < m := by
  have hl : (localExtents (List.replicate n N) d).length = n := by simp [localExtents, hd]
  have hget : ∀ j < n, (List.replicate n N).getD j 1 = N := by intro j hj; simp [hj]
  constructor
  · intro h
    by_cases hN : N ∣ 2 ^ 64
    · exact .inl hN
    refine .inr fun m hm => ?_
    obtain ⟨j, hj, rfl⟩ := List.mem_iff_getElem.1 hm
    obtain ⟨kv, hkv, hlt⟩ := hneg j (by omega)
    rcases h kv hkv j hlt with h1 | h1
    · rw [hget j (by omega)] at h1; exact absurd h1 hN
    · rw [hget j (by omega), getD_of_lt hj] at h1; exact h1
  · intro h kv hkv j hlt
    have hj : j < n := by
      by_contra hc
      have : kv.1.length = n := (ha kv hkv).1
      simp [List.getD_eq_getElem?_getD, List.getElem?_eq_none (by omega : kv.1.length ≤ j)] at hlt
    rw [hget j hj]
    rcases h with h | h
    · exact .inl h
    · right
      rw [getD_of_lt (by omega)]
      exact h _ (List.getElem_mem _)

section
variable {K : Type} [Field K] [LT K] [DecidableLT K] [HasMax K]

/-- The filter of `laplacian` on any number of processes. -/
theorem lap_procs [HasSin K] (sz N n : Nat) (hr : InRange sz (List.replicate n N))
    (hex : ∃ d, ValidDecomp sz (List.replicate n N) d) :
    ∃ (d : List Nat) (st : StdMap (List Int) K) (w : World K), ValidDecomp sz (List.replicate n N) d ∧
      Laplacian.stencil n = .ok st ∧ st.Perm (lapEntries K n n) ∧
      (∀ kv ∈ st, AxisOffset (List.replicate n N).length kv.1) ∧
      ((∀ kv ∈ st, WrapLocal (List.replicate n N) d kv.1) ↔
        N ∣ 2 ^ 64 ∨ ∀ m ∈ localExtents (List.replicate n N) d, (2 ^ 64 - 1) % N < m) ∧
      (lapCfg sz N n d st).Unit ∧ Laplacian.start sz N n = .ok w ∧
      Ranks (lapCfg sz N n d st) (fun x f => Shape (lapCfg sz N n d st) x (lapCfg sz N n d st).tab f ∧
        f.inData = List.replicate (lapCfg sz N n d st).L.prod 0 ∧
        f.outData = List.replicate (lapCfg sz N n d st).L.prod 0) w := by
  obtain ⟨st, e, hperm⟩ := laplacian_stencil (R := K) n
  have haxis : ∀ kv ∈ st, AxisOffset (List.replicate n N).length kv.1 := by
    intro kv hkv
    rw [List.length_replicate]
    rcases mem_lapEntries (hperm.mem_iff.1 hkv) with h | ⟨i, _, h | h⟩
    · rw [h]; exact zeroOff_axis n
    · rw [h]; exact axisOff_axis (.inr (.inr rfl))
    · rw [h]; exact axisOff_axis (.inl rfl)
  obtain ⟨d, hf, hv, hb⟩ := axis_of_range hr hex (List.replicate n (0 : K)) (List.replicate n 1) st haxis
  obtain ⟨w, ew, h0⟩ := world_new hf.toGood hb
  have hax := hr.axes
  rw [List.length_replicate] at hax
  have hN31 : N < 2 ^ 31 := hr.ext N (List.mem_replicate.2 ⟨fun e => hr.ne (by rw [e]; rfl), rfl⟩)
  have hstart : Laplacian.start sz N n = .ok w := by
    unfold Laplacian.start
    dsimp only
    rw [if_neg (by omega), szOfInt_ofNat (by unfold W; omega), e, M.ok_bind,
      szOfInt_ofNat (by unfold W; omega)]
    exact ew
  refine ⟨d, st, w, hv, e, hperm, haxis, ?_, hf, hstart, h0⟩
  refine uniform_wrapLocal (by simpa using hv.1.length_eq.symm) (by simpa using haxis) fun j hj => ?_
  have hm : ∀ m, j < m → (axisOff n j (-1), (1 : K)) ∈ lapEntries K n m := by
    intro m
    induction m with
    | zero => intro h; omega
    | succ m ih =>
      intro h
      rw [lapEntries_succ, List.mem_append]
      by_cases e : j = m
      · subst e; right; simp
      · exact .inl (ih (by omega))
  refine ⟨_, hperm.mem_iff.2 (hm n hj), ?_⟩
  have := getElem?_axisOff n j j (-1) hj
  rw [List.getD_eq_getElem?_getD, this]
  simp

end

section
variable {K : Type} [Field K] [LinearOrder K] [IsStrictOrderedRing K] [HasMax K]

/-- `upwindMpi` on any number of processes, for every number of cells per axis. -/
theorem mpi_procs (courant : K) (sz N : Nat) (hr : InRange sz [N, N, N]) (hex : ∃ d, ValidDecomp sz [N, N, N] d)
    (hcells : [N, N, N].prod ≤ 2 ^ 31) :
    ∃ d, ValidDecomp sz [N, N, N] d ∧
      ((N ∣ 2 ^ 64 ∨ ∀ m ∈ localExtents [N, N, N] d, (2 ^ 64 - 1) % N < m) → ∀ k < 2 ^ 31,
        ∃ wk, UpwindMpi.run courant sz N (k : Nat) = .ok wk ∧ Partition wk sz [N, N, N] ∧
          InputIs wk (mpiCode N (driverWeight courant N) UpwindMpi.initialCondition k) ∧
          (∃ rs w', wk.CheckSum true rs w') ∧ ∀ rs w', wk.CheckSum true rs w' →
            rs[0]? = some (total [N, N, N] (mpiCode N (driverWeight courant N) UpwindMpi.initialCondition k))) ∧
      (¬ (N ∣ 2 ^ 64 ∨ ∀ m ∈ localExtents [N, N, N] d, (2 ^ 64 - 1) % N < m) → ∀ k < 2 ^ 31, 0 < k →
        UpwindMpi.run courant sz N (k : Nat) = .error .outOfBounds) := by
  have hst := upwindMpi_stencil (R := K) zero_lt_one courant N
  have haxis : ∀ kv ∈ mpiSt (driverWeight courant N), AxisOffset [N, N, N].length kv.1 := by
    intro kv hkv
    simp only [mpiSt, List.mem_cons, List.not_mem_nil, or_false] at hkv
    rcases hkv with rfl | rfl | rfl | rfl
    · exact axisOff_axis (n := 3) (j := 0) (.inl rfl)
    · exact axisOff_axis (n := 3) (j := 1) (.inl rfl)
    · exact axisOff_axis (n := 3) (j := 2) (.inl rfl)
    · exact zeroOff_axis 3
  obtain ⟨d, hf, hv, hb⟩ := axis_of_range hr hex (List.replicate 3 (0 : K)) (List.replicate 3 1)
    (mpiSt (driverWeight courant N)) haxis
  have hiff : (∀ kv ∈ mpiSt (driverWeight courant N), WrapLocal [N, N, N] d kv.1) ↔
      N ∣ 2 ^ 64 ∨ ∀ m ∈ localExtents [N, N, N] d, (2 ^ 64 - 1) % N < m := by
    refine uniform_wrapLocal (n := 3) (by simpa using hv.1.length_eq.symm) haxis fun j hj => ?_
    match j, hj with
    | 0, _ => exact ⟨_, List.mem_cons_self, by simp⟩
    | 1, _ => exact ⟨_, List.mem_cons_of_mem _ List.mem_cons_self, by simp⟩
    | 2, _ => exact ⟨_, List.mem_cons_of_mem _ (List.mem_cons_of_mem _ List.mem_cons_self), by simp⟩
  have hg := hf.toGood
  obtain ⟨w, ew, h0⟩ := world_new hg hb
  obtain ⟨w0, e0, h0'⟩ := world_set hg h0 UpwindMpi.initialCondition
  have hN31 : N < 2 ^ 31 := hr.ext N (by simp)
  have es : UpwindMpi.start courant sz N = .ok w := by
    unfold UpwindMpi.start
    dsimp only
    rw [szOfInt_ofNat (by unfold W; omega), hst, M.ok_bind]
    exact ew
  have hval := fun body => ifDecompValid_of hg h0 (fun x f h => h.1.valid) body
  generalize hcc : (⟨sz, [N, N, N], d, List.replicate 3 (0 : K), List.replicate 3 1, mpiSt (driverWeight courant N)⟩ : Cfg K) = c
    at hf hg h0 h0' hval
  have h1p : c.nprocs = sz := by rw [← hcc]
  have hcd : c.dims = [N, N, N] := by rw [← hcc]
  have hcdd : c.d = d := by rw [← hcc]
  have hcs : c.st = mpiSt (driverWeight courant N) := by rw [← hcc]
  refine ⟨d, hv, fun hl k hk => ?_, fun hl k hk hk0 => ?_⟩
  · rw [← hiff, ← hcs, ← hcd, ← hcdd] at hl
    have hcell : ∀ x, InGrid c.d x → c.Cells x := fun x hx kv hkv =>
      cell_local hf hkv (by rw [hcd]; exact haxis kv (hcs ▸ hkv)) (hl kv hkv) hx
    have key : ∀ (k : Nat) (u : List Nat → K) (w0 : World K), Ranks c (fun x f => Holds c x u f) w0 →
        ∃ wk, UpwindMpi.advect w0 k = .ok wk ∧
          Ranks c (fun x f => Holds c x (stencilIter64 c.dims c.st u k) f) wk := by
      intro k
      induction k with
      | zero => intro u w0 h; exact ⟨w0, rfl, h⟩
      | succ k ih =>
        intro u w0 h
        obtain ⟨w1, e1, h1⟩ := world_apply64 hf hcell h
        obtain ⟨w2, e2, h2⟩ := localSum_call hg (Q := fun o x => o = boxData (c.lo x) (c.hi x) _) h1 true
        obtain ⟨w3, e3, h3⟩ := localSum_call hg (Q := fun o x => o = boxData (c.lo x) (c.hi x) _) h2 false
        obtain ⟨w4, e4, h4⟩ := world_copy hg h3
        obtain ⟨wk, e5, h5⟩ := ih _ w4 ⟨h4.1, fun x f hx hf => (h4.2 x f hx hf).1⟩
        refine ⟨wk, ?_, ?_⟩
        · unfold UpwindMpi.advect UpwindMpi.applyAndSum
          rw [e1, M.ok_bind, e2, M.ok_bind, e3, M.ok_bind, e4, M.ok_bind, e5]
        · rw [← stencilIter64_succ]
          exact h5
    obtain ⟨wk, ek, hwk⟩ := key k _ w0 h0'
    have hsh : Ranks c (fun x f => Shape c x c.tab f) wk := ⟨hwk.1, fun x f hx hf => (hwk.2 x f hx hf).shape⟩
    obtain ⟨c1, c2⟩ := check_sum_of hg (by rw [h1p]; exact hr.procs1) hsh true
    obtain ⟨b1, b2⟩ := all_cells hg hsh
    have hin := input_of hg hwk fun x f h => ⟨h.shape, h.data⟩
    have hpart := partition_of hg hwk (fun x f h => h.shape)
    have hcode : stencilIter64 c.dims c.st UpwindMpi.initialCondition k =
        mpiCode N (driverWeight courant N) UpwindMpi.initialCondition k := by
      rw [hcd, hcs]; rfl
    rw [hcode] at hin
    rw [hcd, h1p] at hpart
    refine ⟨wk, ?_, hpart, hin, c1, fun rs w' hc => ?_⟩
    · unfold UpwindMpi.run
      rw [es, M.ok_bind, hval, e0, M.ok_bind, szOfInt_ofNat (by unfold W; omega), ek]
    · rw [(c2 rs w' hc).2.2 _ _ hin b1 b2]
      rw [hcd] at b2
      rw [sum_cells hr.pos b1 b2]
  · rw [← hiff, ← hcs, ← hcd, ← hcdd] at hl
    have he := world_error hf (fun kv hkv => by rw [hcd]; exact haxis kv (hcs ▸ hkv)) (by rw [hcd]; exact hcells)
      (by simpa only [not_forall, exists_prop] using hl) h0'
    obtain ⟨k, rfl⟩ : ∃ j, k = j + 1 := ⟨k - 1, by omega⟩
    unfold UpwindMpi.run
    rw [es, M.ok_bind, hval, e0, M.ok_bind, szOfInt_ofNat (by unfold W; omega)]
    unfold UpwindMpi.advect UpwindMpi.applyAndSum
    rw [he]
    rfl

/-- `upwind` with the parameters of its main program, for every number of cells per axis. -/
theorem upwind_mpiField (courant : K) (N : Nat) (hN0 : 0 < N) (hcells : N * N * N < 2 ^ 31) (k : Nat) :
    ∃ s, Upwind.mainRun courant N k = .ok s ∧ Stores [N, N, N] s.f (mpiField courant N k) := by
  have hNlt : N < 2 ^ 30 := by
    by_contra h
    have h1 : 2 ^ 30 ≤ N := by omega
    have h2 : N * N ≤ N * N * N := Nat.le_mul_of_pos_right _ hN0
    have h3 : 2 ^ 30 * 2 ^ 30 ≤ N * N := Nat.mul_le_mul h1 h1
    omega
  have hgood : Upwind.GoodGrid [N, N, N] := ⟨by simp; exact hN0, by simpa [Nat.mul_assoc] using hcells, by simp; exact hNlt⟩
  obtain ⟨s0, hnew, hst⟩ := C32_constructor (R := K) [N, N, N] (by simp) (by simp) hgood.1 hgood.2 hgood.3
    (List.replicate 3 1) (List.replicate 3 1) rfl rfl
  obtain ⟨s, eadv, hs⟩ := C32_advect_is_upwind_scheme [N, N, N] (by simp) (by simp) hgood.1 hgood.2 hgood.3
    (List.replicate 3 (1 : K)) (List.replicate 3 1) rfl rfl s0 hnew s0.f cornerField hst (k : Int) (driverDt courant N)
  have hstep := mpi_upwindStep courant N
  rw [hstep, Int.toNat_natCast] at hs
  refine ⟨s, ?_, hs⟩
  unfold Upwind.mainRun
  dsimp only
  rw [szOfInt_ofNat (by unfold W; omega)]
  have hd : Upwind.mainDt courant (List.replicate (List.replicate 3 N).length 1)
      (List.replicate (List.replicate 3 N).length 1) (List.replicate 3 N) = .ok (driverDt courant N) :=
    mainDt_driver courant N
  rw [hd, M.ok_bind]
  have hn : Upwind.new 3 (List.replicate (List.replicate 3 N).length (1 : K))
    (List.replicate (List.replicate 3 N).length 1) (List.replicate 3 N) = .ok s0 := hnew
  rw [hn, M.ok_bind]
  exact eadv

end
end Fidi
