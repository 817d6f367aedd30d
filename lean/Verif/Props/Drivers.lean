import Verif.Lemmas.DriversRun
import Verif.Props.FilterCalls
import Verif.Props.Upwind

/-
Properties C29-C31: the drivers `laplacian` and `upwindMpi`. `K` is a field (exact arithmetic).
-/
namespace Fidi
open Spec

theorem replicate_pos {n N sz : Nat} (h : InRange sz (List.replicate n N)) : 0 < N :=
  h.pos N (List.mem_replicate.2 ⟨fun e => h.ne (by rw [e]; rfl), rfl⟩)

theorem replicate_wrap {n N : Nat} (hN : N ∣ 2 ^ 64) (off : List Int) : WrapExact (List.replicate n N) off := by
  intro i _
  rw [List.getD_eq_getElem?_getD, List.getElem?_replicate]
  split
  · exact hN
  · exact one_dvd _

/-! ### C29 -/

section
variable {K : Type} [Field K]

theorem sum_laplace {dims : List Nat} (hp : ∀ m ∈ dims, 0 < m) (u v : List Nat → K) :
    total dims (fun g => v g * laplace dims u g) = total dims (fun g => u g * laplace dims v g) := by
  have key : ∀ (u v : List Nat → K) (m : Nat), total dims (fun g => v g * ((List.range m).map fun j =>
      u (neighbour dims j 1 g) + u (neighbour dims j (-1) g) - 2 * u g).sum) =
      ((List.range m).map fun j => total dims (fun g => v g * u (neighbour dims j 1 g)) +
        total dims (fun g => v (neighbour dims j 1 g) * u g) - 2 * total dims (fun g => v g * u g)).sum := by
    intro u v m
    induction m with
    | zero => simp [total]
    | succ m ih =>
      rw [List.range_succ, List.map_append, List.sum_append, ← ih]
      have hback : total dims (fun g => v (neighbour dims m 1 g) * u g) =
          total dims (fun g => v g * u (neighbour dims m (-1) g)) := by
        rw [← total_neighbour hp m (-1) (fun g => v (neighbour dims m 1 g) * u g)]
        refine total_congr hp fun g hg => ?_
        have := neighbour_neg hg m (-1)
        rw [neg_neg] at this
        rw [this]
      simp only [List.map_cons, List.map_nil, List.sum_cons, List.sum_nil, List.map_append, List.sum_append]
      rw [hback]
      unfold total
      rw [add_zero, Finset.mul_sum, ← Finset.sum_add_distrib, ← Finset.sum_sub_distrib, ← Finset.sum_add_distrib]
      exact Finset.sum_congr rfl fun i _ => by ring
  unfold laplace
  rw [key u v, key v u]
  congr 1
  apply List.map_congr_left
  intro j _
  have e1 : ∀ a b : List Nat → K, total dims (fun g => a g * b g) = total dims (fun g => b g * a g) :=
    fun a b => total_congr hp fun g _ => mul_comm _ _
  rw [e1 v u, e1 v (fun g => u (neighbour dims j 1 g)), e1 u (fun g => v (neighbour dims j 1 g))]
  ring

/-- C29: for every number of axes the stencil assembled by `laplacian` is, on every periodic grid, the discrete
Laplacian; it annihilates constants, the sum of its result over all cells is 0, and it is symmetric. `cells` is any
enumeration of the cells. -/
theorem C29_laplacian_operator (n : Nat) : ∃ st : StdMap (List Int) K, Laplacian.stencil n = .ok st ∧
    ∀ dims : List Nat, dims.length = n → (∀ m ∈ dims, 0 < m) →
      (∀ u g, InGrid dims g → stencilStep dims st u g = laplace dims u g) ∧
      (∀ (a : K) g, InGrid dims g → stencilStep dims st (fun _ => a) g = 0) ∧
      ∀ cells : List (List Nat), cells.Nodup → (∀ g, g ∈ cells ↔ InGrid dims g) →
        (∀ u, (cells.map (stencilStep dims st u)).sum = 0) ∧
        ∀ u v : List Nat → K, (cells.map fun g => v g * stencilStep dims st u g).sum =
          (cells.map fun g => u g * stencilStep dims st v g).sum := by
  obtain ⟨st, e, hperm⟩ := laplacian_stencil (R := K) n
  refine ⟨st, e, ?_⟩
  rintro dims rfl hp
  have hst : ∀ u g, InGrid dims g → stencilStep dims st u g = laplace dims u g := fun u g hg => by
    rw [stencilStep_perm hperm, stencilStep_lap hg]
  have hconst : ∀ (a : K) g, laplace dims (fun _ => a) g = 0 := by
    intro a g
    unfold laplace
    have : (List.range dims.length).map (fun _ : Nat => a + a - 2 * a) = List.replicate dims.length 0 := by
      rw [List.map_const', List.length_range]
      congr 1; ring
    rw [this]
    simp
  refine ⟨hst, fun a g hg => by rw [hst _ _ hg, hconst], ?_⟩
  intro cells hnd hmem
  have hsym : ∀ u v : List Nat → K, (cells.map fun g => v g * stencilStep dims st u g).sum =
      (cells.map fun g => u g * stencilStep dims st v g).sum := by
    intro u v
    rw [sum_cells hp hnd hmem, sum_cells hp hnd hmem, total_congr hp (fun g hg => by rw [hst u g hg]),
      total_congr (u := fun g => u g * stencilStep dims st v g) hp (fun g hg => by rw [hst v g hg]), sum_laplace hp]
  refine ⟨fun u => ?_, hsym⟩
  have h1 := hsym u (fun _ => 1)
  simp only [one_mul] at h1
  rw [h1]
  rw [sum_cells hp hnd hmem, total_congr hp (fun g hg => by rw [hst _ g hg, hconst])]
  simp [total]

variable [LT K] [DecidableLT K] [HasMax K]

/-- The configuration of `laplacian` on the unit cube with `N` cells along each of `n` axes. -/
abbrev lapCfg (sz N n : Nat) (d : List Nat) (st : StdMap (List Int) K) : Cfg K :=
  ⟨sz, List.replicate n N, d, List.replicate n 0, List.replicate n 1, st⟩

/-- The filters of `laplacian`: their configuration, and what the stencil does. -/
theorem lap_states [HasSin K] (sz N n : Nat) (hr : InRange sz (List.replicate n N)) (hN : N ∣ 2 ^ 64)
    (hex : ∃ d, ValidDecomp sz (List.replicate n N) d) :
    ∃ (d : List Nat) (st : StdMap (List Int) K) (w : World K),
      (lapCfg sz N n d st).Fine ∧
      (∀ kv ∈ st, kv.1.length = (List.replicate n N).length) ∧
      (∀ u g, InGrid (List.replicate n N) g → stencilStep (List.replicate n N) st u g = laplace (List.replicate n N) u g) ∧
      (∀ cells : List (List Nat), cells.Nodup → (∀ g, g ∈ cells ↔ InGrid (List.replicate n N) g) →
        ∀ u, (cells.map (stencilStep (List.replicate n N) st u)).sum = 0) ∧
      Laplacian.start sz N n = .ok w ∧
      Ranks (lapCfg sz N n d st) (fun x f => Shape (lapCfg sz N n d st) x (lapCfg sz N n d st).tab f ∧
        f.inData = List.replicate (lapCfg sz N n d st).L.prod 0 ∧
        f.outData = List.replicate (lapCfg sz N n d st).L.prod 0) w := by
  obtain ⟨st, e, hperm⟩ := laplacian_stencil (R := K) n
  have haxis : ∀ kv ∈ st, AxisOffset (List.replicate n N).length kv.1 := by
    intro kv hkv
    rw [List.length_replicate]
    rcases mem_lapEntries (hperm.mem_iff.1 hkv) with h | ⟨i, _, h | h⟩
    · rw [h]; exact zeroOff_axis n
    · rw [h]; exact axisOff_axis (.inr (.inr rfl))
    · rw [h]; exact axisOff_axis (.inl rfl)
  have hpos := hr.pos
  obtain ⟨st', e', hop⟩ := C29_laplacian_operator (K := K) n
  rw [e] at e'
  obtain rfl := Except.ok.inj e'
  obtain ⟨hst, _, hsum⟩ := hop (List.replicate n N) (by simp) hpos
  have hlen : ∀ kv ∈ st, kv.1.length = (List.replicate n N).length := fun kv hkv => (haxis kv hkv).1
  obtain ⟨d, hf, hb⟩ := fine_of_range hr hex (List.replicate n (0 : K)) (List.replicate n 1) st
    (fun kv h => axis_unit (haxis kv h)) (fun d _ kv h => axis_oneHalo (haxis kv h) d _)
    (fun kv _ => replicate_wrap hN kv.1)
  have hg := hf.toGood
  obtain ⟨w, ew, h0⟩ := world_new hg hb
  have hax := hr.axes
  rw [List.length_replicate] at hax
  have hN31 : N < 2 ^ 31 := hr.ext N (List.mem_replicate.2 ⟨fun e => hr.ne (by rw [e]; rfl), rfl⟩)
  have hstart : Laplacian.start sz N n = .ok w := by
    unfold Laplacian.start
    dsimp only
    rw [if_neg (by omega), szOfInt_ofNat (by unfold W; omega), e, M.ok_bind,
      szOfInt_ofNat (by unfold W; omega)]
    exact ew
  exact ⟨d, st, w, hf, hlen, hst, fun cells h1 h2 => (hsum cells h1 h2).1, hstart, h0⟩

omit [LT K] [DecidableLT K] [HasMax K] in
/-- What the stencil of `laplacian` makes of the initial field. -/
theorem lap_field [HasSin K] {N n : Nat} {st : StdMap (List Int) K} (hlen : ∀ kv ∈ st, kv.1.length = (List.replicate n N).length)
    (hst : ∀ u g, InGrid (List.replicate n N) g → stencilStep (List.replicate n N) st u g = laplace (List.replicate n N) u g)
    (k : Nat) {g : List Nat} (hgrid : InGrid (List.replicate n N) g) :
    stencilIter (List.replicate n N) st (fun g => Laplacian.func ((List.range (List.replicate n N).length).map fun i =>
      (List.replicate n (0 : K)).getD i 0 + (((g.getD i 0 : Nat) : K) + 1 / ((2 : Nat) : K)) *
        (((List.replicate n (1 : K)).getD i 0 - (List.replicate n (0 : K)).getD i 0) / (((List.replicate n N).getD i 0 : Nat) : K)))) k g =
    ((laplace (List.replicate n N))^[k] fun g =>
      (g.map fun i : Nat => HasSin.sin (2 * HasSin.pi * (((i : K) + 1 / 2) / (N : K)))).prod) g := by
  rw [stencilIter_congr hlen hst _ k g hgrid]
  have hcongr : ∀ (k : Nat) (u u' : List Nat → K), (∀ g, InGrid (List.replicate n N) g → u g = u' g) →
      ∀ g, InGrid (List.replicate n N) g →
        (laplace (List.replicate n N))^[k] u g = (laplace (List.replicate n N))^[k] u' g := by
    intro k
    induction k with
    | zero => intro u u' h g hg; exact h g hg
    | succ k ih =>
      intro u u' h g hg
      rw [Function.iterate_succ_apply, Function.iterate_succ_apply]
      refine ih _ _ (fun g hg => ?_) g hg
      unfold laplace
      congr 1
      apply List.map_congr_left
      intro j _
      rw [h _ (neighbour_inGrid hg j 1), h _ (neighbour_inGrid hg j (-1)), h g hg]
  refine hcongr k _ _ (fun g hg => ?_) g hgrid
  unfold Laplacian.func
  have hfold : ∀ (l : List K) (a : K), l.foldl (fun res p => res * HasSin.sin (((2 : Nat) : K) * HasSin.pi * p)) a =
      a * (l.map fun p => HasSin.sin (((2 : Nat) : K) * HasSin.pi * p)).prod := by
    intro l
    induction l with
    | nil => intro a; simp
    | cons y l ih => intro a; rw [List.foldl_cons, ih, List.map_cons, List.prod_cons, mul_assoc]
  rw [hfold, one_mul, List.map_map]
  congr 1
  have hl := hg.length_eq
  rw [List.length_replicate] at hl
  apply List.ext_getElem
  · simp [hl]
  · intro i h1 h2
    have hi : i < n := by simpa using h1
    simp only [List.getElem_map, List.getElem_range, Function.comp_apply]
    rw [getD_of_lt (by simpa using hi : i < (List.replicate n (0 : K)).length),
      getD_of_lt (by simpa using hi : i < (List.replicate n (1 : K)).length),
      getD_of_lt (by simpa using hi : i < (List.replicate n N).length),
      getD_of_lt (by omega : i < g.length)]
    simp only [List.getElem_replicate]
    have : (0 : K) + ((g[i] : K) + 1 / ((2 : Nat) : K)) * ((1 - 0) / (N : K)) = ((g[i] : K) + 1 / 2) / (N : K) := by
      push_cast
      ring
    rw [this]
    push_cast
    rfl

/-- C29 (part): if the number of cells per axis is a power of two and a decomposition exists, the filter built by
`laplacian` maps every input to its discrete Laplacian, the check sum of the output is 0 on all ranks, and the driver
ends with the 10-fold Laplacian of the product of `sin(2 pi x)` over the coordinates of the cell centres.
Missing: other numbers of cells, for which the claim is false (`C29_zero_sum_fails`). -/
theorem C29_driver_partial [HasSin K] (sz N n : Nat) (hr : InRange sz (List.replicate n N)) (hN : N ∣ 2 ^ 64)
    (hex : ∃ d, ValidDecomp sz (List.replicate n N) d) :
    ∃ w : World K, Laplacian.start sz N n = .ok w ∧ (∀ f ∈ w, f.validDecomp = true) ∧
      (∀ u, ∃ w1 w2, w.setInDataByIndices u = .ok w1 ∧ w1.applyFilter = .ok w2 ∧
        Partition w2 sz (List.replicate n N) ∧ OutputIs w2 (laplace (List.replicate n N) u) ∧
        (∃ rs w3, w2.CheckSum false rs w3) ∧ ∀ rs w3, w2.CheckSum false rs w3 → ∀ r < sz, rs[r]? = some 0) ∧
      ∃ w', Laplacian.run sz N n = .ok w' ∧ Partition w' sz (List.replicate n N) ∧
        InputIs w' ((laplace (List.replicate n N))^[10] fun g =>
          (g.map fun i : Nat => HasSin.sin (2 * HasSin.pi * (((i : K) + 1 / 2) / (N : K)))).prod) := by
  obtain ⟨d, st, w, hf, hlen, hst, hsum, hstart, h0⟩ := lap_states (K := K) sz N n hr hN hex
  have hg := hf.toGood
  refine ⟨w, hstart, ?_, ?_, ?_⟩
  · intro f hf'
    obtain ⟨x, _, _, hs⟩ := h0.mem hg hf'
    exact hs.1.valid
  · intro u
    obtain ⟨w1, e1, h1⟩ := world_set hg h0 u
    obtain ⟨w2, e2, h2⟩ := world_apply hf h1
    have hout := output_of hg h2 (fun x f h => ⟨h.1.shape, h.2⟩)
    have hsh : Ranks _ (fun x f => Shape _ x (Cfg.tab _) f) w2 := ⟨h2.1, fun x f hx hf => (h2.2 x f hx hf).1.shape⟩
    obtain ⟨c1, c2⟩ := check_sum_of hg hr.procs1 hsh false
    refine ⟨w1, w2, e1, e2, partition_of hg h2 (fun x f h => h.1.shape), ?_, c1, ?_⟩
    · intro f hf' g hgb
      rw [hout f hf' g hgb]
      obtain ⟨x, hx, _, hs⟩ := hsh.mem hg hf'
      rw [hs.lo, hs.hi] at hgb
      rw [Option.some_inj]
      exact hst u g (sub_inGrid hg.good.valid.1 hx hgb)
    · intro rs w3 hc r hr'
      obtain ⟨c3, c4, c5⟩ := c2 rs w3 hc
      by_cases hr0 : r = 0
      · subst hr0
        obtain ⟨a1, a2⟩ := all_cells hg hsh
        rw [c5 _ _ hout a1 a2]
        rw [hsum _ a1 a2]
      · exact c4 r (by omega) hr'
  · obtain ⟨w1, e1, h1⟩ := world_setInData hg (by simp) (by simp) h0 Laplacian.func
    obtain ⟨w2, e2, h2⟩ := world_iterate hf 10 h1
    refine ⟨w2, ?_, partition_of hg h2 (fun x f h => h.shape), ?_⟩
    · unfold Laplacian.run
      rw [hstart, M.ok_bind, ifDecompValid_of hg h0 (fun x f h => h.1.valid), e1, M.ok_bind, e2]
    · intro f hf' g hgb
      rw [input_of hg h2 (fun x f h => ⟨h.shape, h.data⟩) f hf' g hgb]
      obtain ⟨x, hx, _, hs⟩ := h2.mem hg hf'
      rw [hs.shape.lo, hs.shape.hi] at hgb
      have hgrid : InGrid (List.replicate n N) g := sub_inGrid hg.good.valid.1 hx hgb
      rw [Option.some_inj]
      exact lap_field hlen hst 10 hgrid

end

section
variable {R : Type} [Zero R] [One R] [Add R] [Sub R] [Mul R] [Div R] [NatCast R]

theorem localSum_call {c : Cfg R} (h : c.Good) {w : World R} {u : List Nat → R} {Q : List R → List Nat → Prop}
    (hw : Ranks c (fun x f => Holds c x u f ∧ Q f.outData x) w) (input : Bool) :
    ∃ w', Call.run w (.checkSum input) = .ok w' ∧ Ranks c (fun x f => Holds c x u f ∧ Q f.outData x) w' :=
  ranks_mapM h hw _ fun x f hx hf => by
    obtain ⟨f', e⟩ := localSum_fold h hx hf.1.shape input
    obtain ⟨h1, h2⟩ := localSum_holds hf.1 e
    refine ⟨f', ?_, h1, by rw [h2]; exact hf.2⟩
    rw [e, M.ok_bind]
    rfl

theorem checkSum_world {w w' : World R} {input : Bool} {rs : List R} (hc : w.CheckSum input rs w') :
    Call.run w (.checkSum input) = .ok w' := by
  obtain ⟨ps, _, e, rfl, _⟩ := hc
  show (w.mapM fun f => (do pure (← f.localSum input).2 : M (Filter R))) = _
  rename_i h
  clear h
  induction w generalizing ps with
  | nil => obtain rfl := Except.ok.inj e; rfl
  | cons f w ih =>
    rw [List.mapM_cons] at e
    obtain ⟨p, e1, e⟩ := (M.bind_ok_iff _ _ _).1 e
    obtain ⟨ps', e2, e⟩ := (M.bind_ok_iff _ _ _).1 e
    obtain rfl := Except.ok.inj e
    rw [List.mapM_cons, e1, M.ok_bind, M.pure_eq, M.ok_bind, ih ps' e2, M.ok_bind]
    rfl

/-- The states of `upwindMpi`, for any number type, and the decomposition. -/
theorem mpi_runs_build [IntCast R] [LT R] [DecidableLT R] [HasMax R] (h01 : (0 : R) < 1) (courant : R) (sz N : Nat) (hr : InRange sz [N, N, N]) (hN : N ∣ 2 ^ 64)
    (hex : ∃ d, ValidDecomp sz [N, N, N] d) :
    ∃ c : Cfg R, CubeDecomp.build R CubeDecomp.empty sz [N, N, N] = .ok (true, movedDecomp sz [N, N, N] c.d 0) ∧
      c.Fine ∧ c.nprocs = sz ∧ c.dims = [N, N, N] ∧ c.xmins = [0, 0, 0] ∧ c.xmaxs = [1, 1, 1] ∧
      c.st = [([-1, 0, 0], driverWeight courant N), ([0, -1, 0], driverWeight courant N),
        ([0, 0, -1], driverWeight courant N),
        ([0, 0, 0], 1 - driverWeight courant N - driverWeight courant N - driverWeight courant N)] ∧
      (∀ kv ∈ c.st, AxisOffset [N, N, N].length kv.1) ∧
    ∃ w w0, UpwindMpi.start courant sz N = .ok w ∧ (∀ f ∈ w, f.validDecomp = true) ∧
      w.setInDataByIndices UpwindMpi.initialCondition = .ok w0 ∧
      Ranks c (fun x f => Holds c x UpwindMpi.initialCondition f ∧ f.outData = boxData (c.lo x) (c.hi x) fun _ => 0) w0 ∧
      ∀ k, ∃ wk, UpwindMpi.advect w0 k = .ok wk ∧ (∀ body, ifDecompValid w body = body w) ∧
        Ranks c (fun x f => Holds c x (stencilIter c.dims c.st UpwindMpi.initialCondition k) f) wk := by
  have hst := upwindMpi_stencil h01 courant N
  generalize hstv : ([([-1, 0, 0], driverWeight courant N), ([0, -1, 0], driverWeight courant N),
    ([0, 0, -1], driverWeight courant N),
    ([0, 0, 0], 1 - driverWeight courant N - driverWeight courant N - driverWeight courant N)] :
      StdMap (List Int) R) = st at hst
  have haxis : ∀ kv ∈ st, AxisOffset [N, N, N].length kv.1 := by
    intro kv hkv
    rw [← hstv] at hkv
    simp only [List.mem_cons, List.not_mem_nil, or_false] at hkv
    rcases hkv with rfl | rfl | rfl | rfl
    · exact axisOff_axis (n := 3) (j := 0) (.inl rfl)
    · exact axisOff_axis (n := 3) (j := 1) (.inl rfl)
    · exact axisOff_axis (n := 3) (j := 2) (.inl rfl)
    · exact zeroOff_axis 3
  have hwrap : ∀ kv ∈ st, WrapExact [N, N, N] kv.1 := fun kv _ => replicate_wrap (n := 3) hN kv.1
  obtain ⟨d, hf, hb⟩ := fine_of_range hr hex (List.replicate 3 (0 : R)) (List.replicate 3 1) st
    (fun kv h => axis_unit (haxis kv h)) (fun d _ kv h => axis_oneHalo (haxis kv h) d _) hwrap
  have hg := hf.toGood
  obtain ⟨w, ew, h0⟩ := world_new hg hb
  obtain ⟨w0, e0, h0'⟩ := world_set_out hg (v := fun _ => (0 : R))
    ⟨h0.1, fun x f hx hf => ⟨(h0.2 x f hx hf).1, by rw [boxData_zero hg hx]; exact (h0.2 x f hx hf).2.2⟩⟩
    UpwindMpi.initialCondition
  have hN31 : N < 2 ^ 31 := hr.ext N (by simp)
  refine ⟨_, hb, hf, rfl, rfl, rfl, rfl, rfl, haxis, w, w0, ?_, ?_, e0, h0', ?_⟩
  · unfold UpwindMpi.start
    dsimp only
    rw [szOfInt_ofNat (by unfold W; omega), hst, M.ok_bind]
    exact ew
  · intro f hf'
    obtain ⟨x, _, _, hs⟩ := h0.mem hg hf'
    exact hs.1.valid
  · generalize (⟨sz, [N, N, N], d, List.replicate 3 (0 : R), List.replicate 3 1, st⟩ : Cfg R) = c at *
    have hval := fun body => ifDecompValid_of hg h0 (fun x f h => h.1.valid) body
    have key : ∀ (k m : Nat) (w0 : World R),
        Ranks c (fun x f => Holds c x (stencilIter c.dims c.st UpwindMpi.initialCondition m) f) w0 →
        ∃ wk, UpwindMpi.advect w0 k = .ok wk ∧
          Ranks c (fun x f => Holds c x (stencilIter c.dims c.st UpwindMpi.initialCondition (m + k)) f) wk := by
      intro k
      induction k with
      | zero => intro m w0 h; exact ⟨w0, rfl, h⟩
      | succ k ih =>
        intro m w0 h
        obtain ⟨w1, e1, h1⟩ := world_apply hf h
        obtain ⟨w2, e2, h2⟩ := localSum_call hg (Q := fun o x => o = boxData (c.lo x) (c.hi x) _) h1 true
        obtain ⟨w3, e3, h3⟩ := localSum_call hg (Q := fun o x => o = boxData (c.lo x) (c.hi x) _) h2 false
        obtain ⟨w4, e4, h4⟩ := world_copy hg h3
        obtain ⟨wk, e5, h5⟩ := ih (m + 1) w4 ⟨h4.1, fun x f hx hf => (h4.2 x f hx hf).1⟩
        refine ⟨wk, ?_, by rw [show m + (k + 1) = m + 1 + k by omega]; exact h5⟩
        unfold UpwindMpi.advect UpwindMpi.applyAndSum
        rw [e1, M.ok_bind, e2, M.ok_bind, e3, M.ok_bind, e4, M.ok_bind, e5]
    intro k
    obtain ⟨wk, e1, h1⟩ := key k 0 w0 ⟨h0'.1, fun x f hx hf => (h0'.2 x f hx hf).1⟩
    rw [Nat.zero_add] at h1
    exact ⟨wk, e1, hval, h1⟩

/-- The states of `upwindMpi`, for any number type. -/
theorem mpi_runs [IntCast R] [LT R] [DecidableLT R] [HasMax R] (h01 : (0 : R) < 1) (courant : R) (sz N : Nat) (hr : InRange sz [N, N, N]) (hN : N ∣ 2 ^ 64)
    (hex : ∃ d, ValidDecomp sz [N, N, N] d) :
    ∃ c : Cfg R, c.Fine ∧ c.nprocs = sz ∧ c.dims = [N, N, N] ∧ c.xmins = [0, 0, 0] ∧ c.xmaxs = [1, 1, 1] ∧
      c.st = [([-1, 0, 0], driverWeight courant N), ([0, -1, 0], driverWeight courant N),
        ([0, 0, -1], driverWeight courant N),
        ([0, 0, 0], 1 - driverWeight courant N - driverWeight courant N - driverWeight courant N)] ∧
      (∀ kv ∈ c.st, AxisOffset [N, N, N].length kv.1) ∧
    ∃ w w0, UpwindMpi.start courant sz N = .ok w ∧ (∀ f ∈ w, f.validDecomp = true) ∧
      w.setInDataByIndices UpwindMpi.initialCondition = .ok w0 ∧
      Ranks c (fun x f => Holds c x UpwindMpi.initialCondition f ∧ f.outData = boxData (c.lo x) (c.hi x) fun _ => 0) w0 ∧
      ∀ k, ∃ wk, UpwindMpi.advect w0 k = .ok wk ∧ (∀ body, ifDecompValid w body = body w) ∧
        Ranks c (fun x f => Holds c x (stencilIter c.dims c.st UpwindMpi.initialCondition k) f) wk := by
  obtain ⟨c, _, h⟩ := mpi_runs_build h01 courant sz N hr hN hex
  exact ⟨c, h⟩

end

/-! ### C30, C31 -/

section
variable {K : Type} [Field K] [LinearOrder K] [IsStrictOrderedRing K] [HasMax K]

/-- The field of `upwindMpi` after `k` steps. -/
def mpiField (courant : K) (N k : Nat) : List Nat → K :=
  (upwindStep [N, N, N] (fun _ => -1) (fun _ => -driverWeight courant N))^[k] cornerField

/-- Everything about the states of `upwindMpi`. -/
theorem mpi_states (courant : K) (sz N : Nat) (hr : InRange sz [N, N, N]) (hN : N ∣ 2 ^ 64)
    (hex : ∃ d, ValidDecomp sz [N, N, N] d) :
    ∃ c : Cfg K, c.Fine ∧ c.nprocs = sz ∧ c.dims = [N, N, N] ∧ c.xmins = [0, 0, 0] ∧ c.xmaxs = [1, 1, 1] ∧
      (∀ g, InGrid [N, N, N] g → ∀ k, stencilIter c.dims c.st UpwindMpi.initialCondition k g = mpiField courant N k g) ∧
    ∃ w w0, UpwindMpi.start courant sz N = .ok w ∧ (∀ f ∈ w, f.validDecomp = true) ∧
      w.setInDataByIndices UpwindMpi.initialCondition = .ok w0 ∧
      Ranks c (fun x f => Holds c x UpwindMpi.initialCondition f ∧ f.outData = boxData (c.lo x) (c.hi x) fun _ => 0) w0 ∧
      ∀ k, ∃ wk, UpwindMpi.advect w0 k = .ok wk ∧ (∀ body, ifDecompValid w body = body w) ∧
        Ranks c (fun x f => Holds c x (stencilIter c.dims c.st UpwindMpi.initialCondition k) f) wk := by
  obtain ⟨c, hf, h1, h2, h3, h4, hst, haxis, h5⟩ := mpi_runs zero_lt_one courant sz N hr hN hex
  refine ⟨c, hf, h1, h2, h3, h4, ?_, h5⟩
  have hN31 : N < 2 ^ 31 := hr.ext N (by simp)
  rw [h2]
  intro g hgrid k
  have hcells : N * (N * N) ≤ 2 ^ 32 := by
    have := hr.cells
    simpa using this
  have hN11 : N ≤ 2 ^ 11 := by
    by_contra hlt
    have h1 : 2 ^ 11 ≤ N := by omega
    have h2 : (2 ^ 11) * (2 ^ 11 * 2 ^ 11) ≤ N * (N * N) := Nat.mul_le_mul h1 (Nat.mul_le_mul h1 h1)
    omega
  have hic : ∀ g, InGrid [N, N, N] g → UpwindMpi.initialCondition (R := K) g = cornerField g := by
    intro g hg
    apply initialCondition_eq
    match g, hg with
    | [a, b, c], hg =>
      obtain ⟨_, hb⟩ := inGrid_iff_getElem.1 hg
      have h1 : a < N := hb 0 (by simp) (by simp)
      have h2 : b < N := hb 1 (by simp) (by simp)
      have h3 : c < N := hb 2 (by simp) (by simp)
      simp only [List.sum_cons, List.sum_nil]
      omega
  have h1 := stencilIter_congr (F := upwindStep [N, N, N] (fun _ => -1) (fun _ => -driverWeight courant N))
    (fun kv hkv => (haxis kv hkv).1) (fun u g hg => by rw [hst]; exact mpi_step rfl hg _ u)
    UpwindMpi.initialCondition k g hgrid
  exact h1.trans (iter_congr _ _ k hic g hgrid)

omit [IsStrictOrderedRing K] in
/-- The sum of the field of `upwindMpi` is 1. -/
theorem mpiField_total (courant : K) {N : Nat} (hpos : ∀ n ∈ [N, N, N], 0 < n) (k : Nat) :
    total [N, N, N] (mpiField courant N k) = (1 : K) := by
  unfold mpiField
  rw [total_iter hpos]
  unfold total
  rw [Finset.sum_eq_single_of_mem 0 (Finset.mem_range.2 (List.prod_pos hpos))]
  · have : cellAt [N, N, N] 0 = [0, 0, 0] := by
      have h0 : InGrid [N, N, N] [0, 0, 0] := by
        have := hpos N (by simp)
        exact inGrid_iff_getElem.2 ⟨rfl, by intro i h1 _; match i, h1 with | 0, _ => exact this | 1, _ => exact this | 2, _ => exact this⟩
      have := cellAt_rankOf h0
      simpa [rankOf] using this
    rw [this]
    unfold cornerField
    rw [if_pos (by simp)]
  · intro i hi hne
    unfold cornerField
    rw [if_neg]
    intro hz
    apply hne
    have h1 := rankOf_cellAt hpos (Finset.mem_range.1 hi)
    have h2 := (cellAt_inGrid hpos i).length_eq
    match hcell : cellAt [N, N, N] i, h2 with
    | [a, b, c], _ =>
      rw [hcell] at h1 hz
      have ha := hz a (by simp)
      have hb := hz b (by simp)
      have hc := hz c (by simp)
      subst ha hb hc
      rw [← h1]
      simp [rankOf]

/-- C30 (part): if the number of cells per axis is a power of two and a decomposition exists, for every Courant number
between 0 and 1/3 (the driver uses 1/10) and number of steps: the driver ends normally, all values are between 0 and 1,
and in a further step both check sums printed by the driver are 1.
Missing: other numbers of cells, for which the claim is false (`C30_check_sum_fails`). -/
theorem C30_conserves_partial (courant : K) (hc0 : 0 ≤ courant) (hc1 : 3 * courant ≤ 1) (hmax : (0 : K) ≤ HasMax.dblMax)
    (sz N : Nat) (hr : InRange sz [N, N, N]) (hN : N ∣ 2 ^ 64) (hex : ∃ d, ValidDecomp sz [N, N, N] d) (k : Nat)
    (hk : k < 2 ^ 31) :
    ∃ wk u, UpwindMpi.run courant sz N k = .ok wk ∧ Partition wk sz [N, N, N] ∧ InputIs wk u ∧
      (∀ g, InGrid [N, N, N] g → 0 ≤ u g ∧ u g ≤ 1) ∧
      ∃ w1, wk.applyFilter = .ok w1 ∧
        (∃ rs w2, w1.CheckSum true rs w2) ∧
        ∀ rs w2, w1.CheckSum true rs w2 → rs[0]? = some 1 ∧
          (∃ rs' w3, w2.CheckSum false rs' w3) ∧
          ∀ rs' w3, w2.CheckSum false rs' w3 → rs'[0]? = some 1 := by
  obtain ⟨c, hf, hcn, hcd, _, _, hfield, w, w0, es, _, e0, _, hall⟩ := mpi_states courant sz N hr hN hex
  obtain ⟨wk, ek, hval, hwk⟩ := hall k
  have hg := hf.toGood
  have hpos := hr.pos
  have hNpos : (0 : K) < N := by exact_mod_cast hr.pos N (by simp)
  have hin := input_of hg hwk (fun x f h => ⟨h.shape, h.data⟩)
  -- the weight is between 0 and 1/3
  have hw : 0 ≤ driverWeight courant N ∧ driverWeight courant N ≤ courant := by
    have hv : courant * (1 / (N : K)) / 1 = courant / N := by ring
    have hcl : ∀ v m : K, clip v m = min v m := by
      intro v m
      unfold clip
      split
      · next h => exact (min_eq_left (le_of_lt h)).symm
      · next h => exact (min_eq_right (not_lt.1 h)).symm
    have hdt : 0 ≤ driverDt courant N ∧ driverDt courant N ≤ courant / N := by
      unfold driverDt
      rw [hcl, hcl, hcl, hv]
      have : 0 ≤ courant / (N : K) := div_nonneg hc0 (le_of_lt hNpos)
      exact ⟨le_min this (le_min this (le_min this hmax)), min_le_left _ _⟩
    have he : driverWeight courant N = driverDt courant N * N := by
      unfold driverWeight
      push_cast
      field_simp
    rw [he]
    refine ⟨mul_nonneg hdt.1 (le_of_lt hNpos), ?_⟩
    calc driverDt courant N * N ≤ courant / N * N := mul_le_mul_of_nonneg_right hdt.2 (le_of_lt hNpos)
      _ = courant := by field_simp
  have hsum1 : ∑ _j ∈ Finset.range [N, N, N].length, driverWeight courant N ≤ 1 := by
    simp only [List.length_cons, List.length_nil, Finset.sum_const, Finset.card_range, nsmul_eq_mul]
    push_cast
    linarith [hw.2]
  have hbound : ∀ k g, InGrid [N, N, N] g → 0 ≤ mpiField courant N k g ∧ mpiField courant N k g ≤ 1 := by
    intro k
    induction k with
    | zero =>
      intro g _
      show 0 ≤ cornerField g ∧ cornerField g ≤ (1 : K)
      unfold cornerField
      split
      · exact ⟨zero_le_one, le_refl _⟩
      · exact ⟨le_refl _, zero_le_one⟩
    | succ k ih =>
      intro g hg
      unfold mpiField at ih ⊢
      rw [Function.iterate_succ_apply']
      exact ⟨le_step _ (fun _ _ => hw.1) hsum1 (fun g hg => (ih g hg).1) hg,
        step_le _ (fun _ _ => hw.1) hsum1 (fun g hg => (ih g hg).2) hg⟩
  have htotal : ∀ k, total [N, N, N] (stencilIter c.dims c.st UpwindMpi.initialCondition k) = (1 : K) := by
    intro k
    rw [total_congr hpos (fun g hg => hfield g hg k)]
    exact mpiField_total courant hpos k
  refine ⟨wk, _, ?_, ?_, hin, ?_, ?_⟩
  · unfold UpwindMpi.run
    rw [es, M.ok_bind, hval, e0, M.ok_bind, szOfInt_ofNat (by unfold W; omega), ek]
  · have := partition_of hg hwk (fun x f h => h.shape)
    rw [hcn, hcd] at this
    exact this
  · intro g hgrid
    rw [hfield g hgrid k]
    exact hbound k g hgrid
  · obtain ⟨w1, e1, h1⟩ := world_apply hf hwk
    have shape : ∀ {w : World K}, Ranks c (fun x f => Holds c x (stencilIter c.dims c.st UpwindMpi.initialCondition k) f ∧
        f.outData = boxData (c.lo x) (c.hi x) (stencilStep c.dims c.st
          (stencilIter c.dims c.st UpwindMpi.initialCondition k))) w →
        Ranks c (fun x f => Shape c x c.tab f) w := fun h => ⟨h.1, fun x f hx hf => (h.2 x f hx hf).1.shape⟩
    have hp1 : 1 ≤ c.nprocs := by rw [hcn]; exact hr.procs1
    obtain ⟨a1, a2⟩ := all_cells hg (shape h1)
    rw [hcd] at a2
    obtain ⟨c1, c2⟩ := check_sum_of hg hp1 (shape h1) true
    refine ⟨w1, e1, c1, fun rs w2 hs => ⟨?_, ?_⟩⟩
    · rw [(c2 rs w2 hs).2.2 _ _ (input_of hg h1 fun x f h => ⟨h.1.shape, h.1.data⟩) a1 (by rw [hcd]; exact a2)]
      rw [sum_cells hpos a1 a2, htotal]
    · obtain ⟨w2', e2, h2⟩ := localSum_call hg (Q := fun o x => o = boxData (c.lo x) (c.hi x) _) h1 true
      rw [checkSum_world hs] at e2
      obtain rfl := Except.ok.inj e2
      obtain ⟨c3, c4⟩ := check_sum_of hg hp1 (shape h2) false
      refine ⟨c3, fun rs' w3 hs' => ?_⟩
      rw [(c4 rs' w3 hs').2.2 _ _ (output_of hg h2 fun x f h => ⟨h.1.shape, h.2⟩) a1 (by rw [hcd]; exact a2)]
      rw [sum_cells hpos a1 a2]
      exact congrArg some (htotal (k + 1))

/-- The scheme of `upwindMpi` is that of `upwind`. -/
theorem mpi_upwindStep (courant : K) (N : Nat) : upwindStep [N, N, N] (upDir (List.replicate 3 (1 : K)))
    (upCoeff (driverDt courant N) (List.replicate 3 1) (List.replicate 3 1) [N, N, N]) =
    upwindStep [N, N, N] (fun _ => -1) (fun _ => -driverWeight courant N) := by
  funext u g
  rw [upwindStep_eq, upwindStep_eq]
  congr 1
  apply Finset.sum_congr rfl
  intro j hj
  have hj3 : j < 3 := Finset.mem_range.1 hj
  have hdir : upDir (List.replicate 3 (1 : K)) j = -1 := by
    unfold upDir
    rw [if_neg]
    match j, hj3 with
    | 0, _ => simp
    | 1, _ => simp
    | 2, _ => simp
  have hco : upCoeff (driverDt courant N) (List.replicate 3 1) (List.replicate 3 1) [N, N, N] j =
      -driverWeight courant N := by
    unfold upCoeff
    rw [hdir]
    unfold cellWidth driverWeight
    match j, hj3 with
    | 0, _ => simp
    | 1, _ => simp
    | 2, _ => simp
  rw [hdir, hco]

/-- C31 (part): if the number of cells per axis is a power of two, a decomposition exists and the grid has fewer than 2^31
cells, `upwindMpi` and `upwind` end with the same field, for every Courant number and number of steps.
Missing: other numbers of cells, for which the claim is false (`C31_same_field_fails`). -/
theorem C31_same_field_partial (courant : K) (sz N : Nat) (hr : InRange sz [N, N, N]) (hN : N ∣ 2 ^ 64)
    (hex : ∃ d, ValidDecomp sz [N, N, N] d) (hcells : N * N * N < 2 ^ 31) (k : Nat) (hk : k < 2 ^ 31) :
    ∃ w s u, UpwindMpi.run courant sz N k = .ok w ∧ Upwind.mainRun courant N k = .ok s ∧ Partition w sz [N, N, N] ∧
      InputIs w u ∧ Stores [N, N, N] s.f u := by
  obtain ⟨c, hf, hcn, hcd, _, _, hfield, w, w0, es, _, e0, _, hall⟩ := mpi_states courant sz N hr hN hex
  obtain ⟨wk, ek, hval, hwk⟩ := hall k
  have hg := hf.toGood
  have hpos := hr.pos
  have hN0 := hr.pos N (by simp)
  have hNlt : N < 2 ^ 30 := by
    by_contra h
    have h1 : 2 ^ 30 ≤ N := by omega
    have h2 : N * N ≤ N * N * N := Nat.le_mul_of_pos_right _ hN0
    have h3 : 2 ^ 30 * 2 ^ 30 ≤ N * N := Nat.mul_le_mul h1 h1
    omega
  have hgood : Upwind.GoodGrid [N, N, N] := ⟨hpos, by simpa [Nat.mul_assoc] using hcells, by simp; exact hNlt⟩
  obtain ⟨s0, hnew, hst⟩ := C32_constructor (R := K) [N, N, N] (by simp) (by simp) hgood.1 hgood.2 hgood.3
    (List.replicate 3 1) (List.replicate 3 1) rfl rfl
  obtain ⟨s, eadv, hs⟩ := C32_advect_is_upwind_scheme [N, N, N] (by simp) (by simp) hgood.1 hgood.2 hgood.3
    (List.replicate 3 (1 : K)) (List.replicate 3 1) rfl rfl s0 hnew s0.f cornerField hst (k : Int) (driverDt courant N)
  have hstep := mpi_upwindStep courant N
  rw [hstep, Int.toNat_natCast] at hs
  refine ⟨wk, s, _, ?_, ?_, ?_, input_of hg hwk (fun x f h => ⟨h.shape, h.data⟩), ?_⟩
  · unfold UpwindMpi.run
    rw [es, M.ok_bind, hval, e0, M.ok_bind, szOfInt_ofNat (by unfold W; omega), ek]
  · unfold Upwind.mainRun
    dsimp only
    rw [szOfInt_ofNat (by unfold W; omega)]
    have hd : Upwind.mainDt courant (List.replicate (List.replicate 3 N).length 1)
        (List.replicate (List.replicate 3 N).length 1) (List.replicate 3 N) = .ok (driverDt courant N) :=
      mainDt_driver courant N
    rw [hd, M.ok_bind]
    have hn : Upwind.new 3 (List.replicate (List.replicate 3 N).length (1 : K))
      (List.replicate (List.replicate 3 N).length 1) (List.replicate 3 N) = .ok s0 := hnew
    rw [hn, M.ok_bind]
    exact eadv
  · have := partition_of hg hwk (fun x f h => h.shape)
    rw [hcn, hcd] at this
    exact this
  · exact ⟨hs.1, fun g hgrid => by rw [hfield g hgrid k]; exact hs.2 g hgrid⟩

end

/-! ### Decompositions that do not exist -/

section
variable {R : Type} [Zero R] [One R] [Add R] [Sub R] [Mul R] [Div R] [NatCast R] [LT R] [DecidableLT R] [HasMax R]

theorem world_invalid {sz : Nat} {dims : List Nat} (hr : InRange sz dims) (hno : ¬ ∃ d, ValidDecomp sz dims d)
    (xmins xmaxs : List R) (st : StdMap (List Int) R) :
    ∃ w, World.new sz dims xmins xmaxs st = .ok w ∧ w.length = sz ∧
      ∀ f ∈ w, f.validDecomp = false ∧ f.windows = [] ∧ f.trace = [] := by
  have hp := hr.procs
  unfold World.new
  obtain ⟨w, e, hl, hP⟩ := mapM_ok (List.range sz) (fun (r : Nat) => Filter.new (r : Int) sz dims xmins xmaxs st)
    (fun _ f => f.validDecomp = false ∧ f.windows = [] ∧ f.trace = []) (by
    intro i r _
    obtain ⟨f, e, h1, h2, h3, _⟩ := (C24_invalid_decomposition_partial (R := R) (r : Int) sz dims xmins xmaxs st hr.procs1
      (by omega) hr.ne hr.pos hr.axes hr.cells).1 hno
    exact ⟨f, e, h1, h2, h3⟩)
  refine ⟨w, e, by rw [hl]; simp, ?_⟩
  intro f hf
  obtain ⟨i, hi⟩ := List.mem_iff_getElem?.1 hf
  exact hP i f hi

omit [Zero R] [One R] [Add R] [Sub R] [Mul R] [Div R] [NatCast R] [LT R] [DecidableLT R] [HasMax R] in
theorem ifDecompValid_none {w : World R} (hne : w ≠ []) (h : ∀ f ∈ w, f.validDecomp = false)
    (body : World R → M (World R)) : ifDecompValid w body = .ok w := by
  unfold ifDecompValid
  rw [if_neg, if_pos]
  · rfl
  · rw [List.all_eq_true]
    intro f hf
    rw [h f hf]; rfl
  · rw [List.all_eq_true]
    obtain ⟨f, w', rfl⟩ := List.exists_cons_of_ne_nil hne
    intro hall
    have := hall f (by simp)
    rw [h f (by simp)] at this
    cases this

/-- C24 (part): if no decomposition exists (grids of at most 2^32 cells), both drivers end normally; no rank acquires a
window or any memory of one, and no collective call is made (`ifDecompValid` takes the same branch on all ranks).
Missing: larger grids. -/
theorem C24_drivers_end_partial [Neg R] [IntCast R] [HasSin R] (h01 : (0 : R) < 1)
    (sz N n : Nat) (courant : R) (numSteps : Int) :
    (InRange sz (List.replicate n N) → (¬ ∃ d, ValidDecomp sz (List.replicate n N) d) →
      ∃ w : World R, Laplacian.start sz N n = .ok w ∧ Laplacian.run sz N n = .ok w ∧ w.length = sz ∧
        ∀ f ∈ w, f.validDecomp = false ∧ f.windows = [] ∧ f.trace = []) ∧
    (InRange sz [N, N, N] → (¬ ∃ d, ValidDecomp sz [N, N, N] d) →
      ∃ w : World R, UpwindMpi.start courant sz N = .ok w ∧ UpwindMpi.run courant sz N numSteps = .ok w ∧
        w.length = sz ∧ ∀ f ∈ w, f.validDecomp = false ∧ f.windows = [] ∧ f.trace = []) := by
  constructor
  · intro hr hno
    obtain ⟨st, e, _⟩ := laplacian_stencil (R := R) n
    obtain ⟨w, ew, hl, hw⟩ := world_invalid hr hno (List.replicate n (0 : R)) (List.replicate n 1) st
    have hax := hr.axes
    rw [List.length_replicate] at hax
    have hN31 : N < 2 ^ 31 := hr.ext N (List.mem_replicate.2 ⟨fun e => hr.ne (by rw [e]; rfl), rfl⟩)
    have hstart : Laplacian.start sz N n = .ok w := by
      unfold Laplacian.start
      dsimp only
      rw [if_neg (by omega), szOfInt_ofNat (by unfold W; omega), e, M.ok_bind, szOfInt_ofNat (by unfold W; omega)]
      exact ew
    refine ⟨w, hstart, ?_, hl, hw⟩
    unfold Laplacian.run
    have hp1 := hr.procs1
    rw [hstart, M.ok_bind, ifDecompValid_none (by rintro rfl; simp at hl; omega) (fun f hf => (hw f hf).1)]
  · intro hr hno
    have hst := upwindMpi_stencil (R := R) h01 courant N
    obtain ⟨w, ew, hl, hw⟩ := world_invalid hr hno (List.replicate 3 (0 : R)) (List.replicate 3 1) _
    have hN31 : N < 2 ^ 31 := hr.ext N (by simp)
    have hstart : UpwindMpi.start courant sz N = .ok w := by
      unfold UpwindMpi.start
      dsimp only
      rw [szOfInt_ofNat (by unfold W; omega), hst, M.ok_bind]
      exact ew
    refine ⟨w, hstart, ?_, hl, hw⟩
    unfold UpwindMpi.run
    have hp1 := hr.procs1
    rw [hstart, M.ok_bind, ifDecompValid_none (by rintro rfl; simp at hl; omega) (fun f hf => (hw f hf).1)]

end

/-! ### Examples and counterexamples -/

private def sums (input : Bool) (w : World ℚ) : M (List ℚ) := do
  let ps ← w.mapM fun f => f.localSum input
  pure (ps.map Prod.fst)

private theorem checkSum_of_sums {w : World ℚ} {input : Bool} {x : ℚ} (hl : w.length = 1) (h : sums input w = .ok [x]) :
    ∃ w', w.CheckSum input [x] w' := by
  obtain ⟨ps, e, h⟩ := (M.bind_ok_iff _ _ _).1 h
  have h2 := Except.ok.inj h
  refine ⟨_, ps, x, e, rfl, ?_, ?_⟩
  · rw [h2]; exact ⟨[x], List.Perm.refl _, .leaf x⟩
  · rw [hl]; rfl

private theorem range1 {dims : List Nat} (h1 : dims ≠ []) (h2 : ∀ n ∈ dims, 0 < n) (h3 : dims.length < 32)
    (h4 : dims.prod < 2 ^ 31) (h5 : ∀ n ∈ dims, n < 2 ^ 31) : InRange 1 dims :=
  ⟨by decide, by decide, h1, h2, h3, by omega, h5, by omega⟩

/-- The field that is 1 in cell 2 of an axis. -/
private def at2 (t : List Nat) : ℚ := if t = [2] then 1 else 0

/-- C29 is false for three cells on one axis and one process: the check sum of the result for the field that is 1 in the
last cell is -1, because the left neighbour of cell 0 is taken to be cell 0. -/
theorem C29_zero_sum_fails : ¬ ∀ (sz N n : Nat) (u : List Nat → ℚ), InRange sz (List.replicate n N) →
    (∃ d, ValidDecomp sz (List.replicate n N) d) → ∀ w w1 w2, Laplacian.start sz N n = .ok w →
      w.setInDataByIndices u = .ok w1 → w1.applyFilter = .ok w2 →
      ∀ rs w3, w2.CheckSum false rs w3 → rs[0]? = some 0 := by
  intro h
  have e : (Laplacian.start 1 3 1 >>= fun w : World ℚ => w.setInDataByIndices at2 >>= fun w => w.applyFilter >>=
      fun w => sums false w >>= fun s => pure (w.length, s)) = .ok (1, [-1]) := by decide +kernel
  obtain ⟨w, e0, e⟩ := (M.bind_ok_iff _ _ _).1 e
  obtain ⟨w1, e1, e⟩ := (M.bind_ok_iff _ _ _).1 e
  obtain ⟨w2, e2, e⟩ := (M.bind_ok_iff _ _ _).1 e
  obtain ⟨s, e3, e⟩ := (M.bind_ok_iff _ _ _).1 e
  have e4 := Except.ok.inj e
  rw [Prod.mk.injEq] at e4
  obtain ⟨hl, rfl⟩ := e4
  obtain ⟨w3, hc⟩ := checkSum_of_sums hl e3
  have := h 1 3 1 at2 (range1 (by decide) (by decide) (by decide) (by decide) (by decide)) ⟨[1], .cons (by decide) .nil, rfl⟩
    w w1 w2 e0 e1 e2 _ w3 hc
  revert this
  decide +kernel

/-- C30 is false for three cells per axis and one process: the check sum after the first step is 13/10. -/
theorem C30_check_sum_fails : ¬ ∀ (sz N : Nat), InRange sz [N, N, N] → (∃ d, ValidDecomp sz [N, N, N] d) →
    ∀ w1, (UpwindMpi.run (0.1 : ℚ) sz N 0 >>= fun w => w.applyFilter) = .ok w1 →
      ∀ rs w2, w1.CheckSum false rs w2 → rs[0]? = some 1 := by
  intro h
  have e : ((UpwindMpi.run (0.1 : ℚ) 1 3 0 >>= fun w => w.applyFilter) >>=
      fun w => sums false w >>= fun s => pure (w.length, s)) = .ok (1, [13 / 10]) := by decide +kernel
  obtain ⟨w1, e1, e⟩ := (M.bind_ok_iff _ _ _).1 e
  obtain ⟨s, e3, e⟩ := (M.bind_ok_iff _ _ _).1 e
  have e4 := Except.ok.inj e
  rw [Prod.mk.injEq] at e4
  obtain ⟨hl, rfl⟩ := e4
  obtain ⟨w3, hc⟩ := checkSum_of_sums hl e3
  have := h 1 3 (range1 (by decide) (by decide) (by decide) (by decide) (by decide))
    ⟨[1, 1, 1], .cons (by decide) (.cons (by decide) (.cons (by decide) .nil)), rfl⟩ w1 e1 _ w3 hc
  revert this
  decide +kernel

/-- C30: with 6 cells per axis on 2 processes the first step reads outside a window. -/
theorem C30_runs_fails : ¬ ∀ (sz N : Nat), InRange sz [N, N, N] → (∃ d, ValidDecomp sz [N, N, N] d) →
    (UpwindMpi.run (0.1 : ℚ) sz N 1).isOk = true := by
  intro h
  have := h 2 6 ⟨by decide, by decide, by decide, by decide, by decide, by decide, by decide, by decide⟩
    ⟨[2, 1, 1], .cons (by decide) (.cons (by decide) (.cons (by decide) .nil)), rfl⟩
  revert this
  decide +kernel

/-- C31 is false for three cells per axis and one process: after one step the low corner holds 1 in `upwindMpi` and 7/10
in `upwind`. -/
theorem C31_same_field_fails : ¬ ∀ (sz N : Nat), InRange sz [N, N, N] → (∃ d, ValidDecomp sz [N, N, N] d) →
    ∃ w s u, UpwindMpi.run (0.1 : ℚ) sz N 1 = .ok w ∧ Upwind.mainRun (0.1 : ℚ) N 1 = .ok s ∧
      Partition w sz [N, N, N] ∧ InputIs w u ∧ Stores [N, N, N] s.f u := by
  intro h
  obtain ⟨w, s, u, e1, e2, _, h2, h3⟩ := h 1 3 (range1 (by decide) (by decide) (by decide) (by decide) (by decide))
    ⟨[1, 1, 1], .cons (by decide) (.cons (by decide) (.cons (by decide) .nil)), rfl⟩
  have e : (UpwindMpi.run (0.1 : ℚ) 1 3 1 >>= fun w => pure (w.map fun f => (f.lo, f.hi, f.inData.take 1))) =
      .ok [([0, 0, 0], [3, 3, 3], [1])] := by decide +kernel
  have e' : (Upwind.mainRun (0.1 : ℚ) 3 1 >>= fun s => pure (s.f.take 1)) = .ok [7 / 10] := by decide +kernel
  have e1' : UpwindMpi.run (0.1 : ℚ) 1 3 1 = .ok w := e1
  have e2' : Upwind.mainRun (0.1 : ℚ) 3 1 = .ok s := e2
  rw [e1', M.ok_bind] at e
  rw [e2', M.ok_bind] at e'
  have a1 := Except.ok.inj e
  have a2 := Except.ok.inj e'
  have hg : InGrid [3, 3, 3] [0, 0, 0] := by decide
  have b2 := h3.2 [0, 0, 0] hg
  obtain ⟨f, rfl⟩ : ∃ f, w = [f] := by
    have := congrArg List.length a1
    rw [List.length_map] at this
    exact List.length_eq_one_iff.1 this
  simp only [List.map_cons, List.map_nil, List.cons.injEq, and_true, Prod.mk.injEq] at a1
  obtain ⟨c1, c2, c3⟩ := a1
  have b1 := h2 f (by simp) [0, 0, 0] (by rw [c1, c2]; decide)
  rw [c1, c2] at b1
  have p1 : cellPos [0, 0, 0] [3, 3, 3] [0, 0, 0] = 0 := by decide
  have p2 : rankOf [3, 3, 3] [0, 0, 0] = 0 := by decide
  rw [p1] at b1
  rw [p2] at b2
  have b1' : (f.inData.take 1)[0]? = some (u [0, 0, 0]) := by rw [List.getElem?_take_of_lt (by decide)]; exact b1
  have b2' : (s.f.take 1)[0]? = some (u [0, 0, 0]) := by rw [List.getElem?_take_of_lt (by decide)]; exact b2
  rw [c3] at b1'
  rw [a2] at b2'
  rw [← b2'] at b1'
  revert b1'
  decide +kernel

/-- C29 is met by 4 x 4 cells on 4 processes: the Laplacian of the field `10 i + j`. -/
example : InRange 4 (List.replicate 2 4) ∧ 4 ∣ 2 ^ 64 ∧ (∃ d, ValidDecomp 4 (List.replicate 2 4) d) ∧
    (Laplacian.start 4 4 2 >>= fun w : World ℚ =>
      w.setInDataByIndices (fun t => (10 * t.getD 0 0 + t.getD 1 0 : Nat)) >>= fun w => w.applyFilter >>=
      fun w => pure (w.map fun f => (f.lo, f.outData))) =
    .ok [([0, 0], [44, 4, 40, 0]), ([0, 2], [40, 0, 36, -4]), ([2, 0], [4, -36, 0, -40]), ([2, 2], [0, -40, -4, -44])] :=
  ⟨⟨by decide, by decide, by decide, by decide, by decide, by decide, by decide, by decide⟩, by decide,
    ⟨[2, 2], .cons (by decide) (.cons (by decide) .nil), rfl⟩, by decide +kernel⟩

/-- C30 and C31 are met by 2 cells per axis on 2 processes; both programs after two steps. -/
example : InRange 2 [2, 2, 2] ∧ 2 ∣ 2 ^ 64 ∧ (∃ d, ValidDecomp 2 [2, 2, 2] d) ∧ (0 : ℚ) ≤ HasMax.dblMax ∧
    (UpwindMpi.run (0.1 : ℚ) 2 2 2 >>= fun w => pure (w.map fun f => (f.lo, f.inData))) =
      .ok [([0, 0, 0], [26 / 50, 7 / 50, 7 / 50, 1 / 50]), ([0, 1, 0], [7 / 50, 1 / 50, 1 / 50, 0])] ∧
    (Upwind.mainRun (0.1 : ℚ) 2 2 >>= fun s => pure s.f) =
      .ok [26 / 50, 7 / 50, 7 / 50, 1 / 50, 7 / 50, 1 / 50, 1 / 50, 0] :=
  ⟨⟨by decide, by decide, by decide, by decide, by decide, by decide, by decide, by decide⟩, by decide,
    ⟨[2, 1, 1], .cons (by decide) (.cons (by decide) (.cons (by decide) .nil)), rfl⟩, by decide +kernel,
    by decide +kernel, by decide +kernel⟩

/-- The drivers with 7 cells per axis on 2 processes: no decomposition. -/
example : ¬ ∃ d, ValidDecomp 2 (List.replicate 1 7) d := by
  rintro ⟨d, hd⟩
  obtain ⟨k, rfl⟩ : ∃ k, d = [k] := by
    match d, hd.1 with
    | [k], _ => exact ⟨k, rfl⟩
  have hk : k = 2 := by simpa using hd.2
  subst hk
  have := hd.1
  simp only [List.replicate_one, List.forall₂_cons, List.Forall₂.nil, and_true] at this
  revert this
  decide

end Fidi
