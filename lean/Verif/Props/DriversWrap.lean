import Verif.Lemmas.DriversWrap
import Verif.Props.FilterWrap

/-
Properties C29 and C30 on one process: the numbers of cells for which `laplacian` and `upwindMpi` are right are exactly
the powers of two.
-/
namespace Fidi
open Spec

/-! ### C29 -/

section
variable {K : Type} [Field K] [CharZero K] [LT K] [DecidableLT K] [HasMax K] [HasSin K]

/-- C29: on one process, for every number of axes and of cells per axis, the check sum of the output of the filter of
`laplacian` is 0 for all inputs if, and only if, the number of cells is a power of two. -/
theorem C29_zero_sum_iff (N n : Nat) (hr : InRange 1 (List.replicate n N)) :
    (∀ u : List Nat → K, ∃ w w1 w2, Laplacian.start 1 N n = .ok w ∧ w.setInDataByIndices u = .ok w1 ∧
      w1.applyFilter = .ok w2 ∧ ∀ rs w3, w2.CheckSum false rs w3 → rs[0]? = some 0) ↔ N ∣ 2 ^ 64 := by
  have hN := replicate_pos hr
  have hn : n ≠ 0 := fun e => hr.ne (by rw [e]; rfl)
  have hN31 : N < 2 ^ 31 := hr.ext N (List.mem_replicate.2 ⟨hn, rfl⟩)
  constructor
  · intro h
    by_contra hdiv
    obtain ⟨d, st, w, hperm, hf, hstart, h0⟩ := lap_one (K := K) N n hr
    obtain ⟨v, v1, v2, a, a1, a2, ha⟩ := h (lastCell n N)
    have hg := hf.toGood
    obtain ⟨w1, e1, h1⟩ := world_set hg h0 (lastCell n N)
    obtain ⟨w2, e2, h2⟩ := world_apply64 hf (fun x hx => one_cells hf rfl hx) h1
    rw [hstart] at a
    obtain rfl := Except.ok.inj a
    rw [e1] at a1
    obtain rfl := Except.ok.inj a1
    rw [e2] at a2
    obtain rfl := Except.ok.inj a2
    have hsh : Ranks _ (fun x f => Shape _ x (Cfg.tab _) f) w2 := ⟨h2.1, fun x f hx hf => (h2.2 x f hx hf).1.shape⟩
    obtain ⟨⟨rs, w3, hc⟩, c2⟩ := check_sum_of hg (Nat.le_refl 1) hsh false
    obtain ⟨b1, b2⟩ := all_cells hg hsh
    have := (c2 rs w3 hc).2.2 _ _ (output_of hg h2 fun x f h => ⟨h.1.shape, h.2⟩) b1 b2
    rw [ha rs w3 hc, sum_cells hr.pos b1 b2] at this
    have e3 := total_lap64 (K := K) hN hN31 hdiv hperm
    dsimp only at this
    rw [e3, Option.some_inj] at this
    apply hn
    have : (n : K) = 0 := neg_eq_zero.1 this.symm
    exact_mod_cast this
  · intro hdiv u
    obtain ⟨w, e, _, hall, _⟩ := C29_driver_partial (K := K) 1 N n hr hdiv (valid_one _)
    obtain ⟨w1, w2, e1, e2, _, _, _, hc⟩ := hall u
    exact ⟨w, w1, w2, e, e1, e2, fun rs w3 h => hc rs w3 h 0 (by omega)⟩

/-- C29: on one process the filter of `laplacian` gives the discrete Laplacian of all inputs if, and only if, the number
of cells per axis is a power of two. -/
theorem C29_operator_iff (N n : Nat) (hr : InRange 1 (List.replicate n N)) :
    (∀ u : List Nat → K, ∃ w w1 w2, Laplacian.start 1 N n = .ok w ∧ w.setInDataByIndices u = .ok w1 ∧
      w1.applyFilter = .ok w2 ∧ OutputIs w2 (laplace (List.replicate n N) u)) ↔ N ∣ 2 ^ 64 := by
  constructor
  · intro h
    rw [← C29_zero_sum_iff (K := K) N n hr]
    intro u
    obtain ⟨v, v1, v2, a, a1, a2, ha⟩ := h u
    refine ⟨v, v1, v2, a, a1, a2, ?_⟩
    obtain ⟨d, st, w, hperm, hf, hstart, h0⟩ := lap_one (K := K) N n hr
    have hg := hf.toGood
    obtain ⟨w1, e1, h1⟩ := world_set hg h0 u
    obtain ⟨w2, e2, h2⟩ := world_apply64 hf (fun x hx => one_cells hf rfl hx) h1
    rw [hstart] at a
    obtain rfl := Except.ok.inj a
    rw [e1] at a1
    obtain rfl := Except.ok.inj a1
    rw [e2] at a2
    obtain rfl := Except.ok.inj a2
    intro rs w3 hc
    have hsh : Ranks _ (fun x f => Shape _ x (Cfg.tab _) f) w2 := ⟨h2.1, fun x f hx hf => (h2.2 x f hx hf).1.shape⟩
    obtain ⟨_, c2⟩ := check_sum_of hg (Nat.le_refl 1) hsh false
    obtain ⟨b1, b2⟩ := all_cells hg hsh
    rw [(c2 rs w3 hc).2.2 _ _ ha b1 b2, Option.some_inj]
    obtain ⟨st', _, hop⟩ := C29_laplacian_operator (K := K) n
    obtain ⟨hst, _, hsum⟩ := hop (List.replicate n N) (by simp) hr.pos
    rw [← (hsum _ b1 b2).1 u]
    congr 1
    exact List.map_congr_left fun g hg => (hst u g ((b2 g).1 hg)).symm
  · intro hdiv u
    obtain ⟨w, e, _, hall, _⟩ := C29_driver_partial (K := K) 1 N n hr hdiv (valid_one _)
    obtain ⟨w1, w2, e1, e2, _, ho, _⟩ := hall u
    exact ⟨w, w1, w2, e, e1, e2, ho⟩

end

/-! ### C30 -/

section
variable {K : Type} [Field K] [LinearOrder K] [IsStrictOrderedRing K] [HasMax K]

/-- The weight of the upwind neighbours is between 0 and the Courant number. -/
theorem driverWeight_pos {courant : K} (hc0 : 0 < courant) (hmax : (0 : K) < HasMax.dblMax) {N : Nat} (hN : 0 < N) :
    0 < driverWeight courant N ∧ driverWeight courant N ≤ courant := by
  have hNpos : (0 : K) < N := by exact_mod_cast hN
  have hv : courant * (1 / (N : K)) / 1 = courant / N := by ring
  have hcl : ∀ v m : K, clip v m = min v m := by
    intro v m
    unfold clip
    split
    · next h => exact (min_eq_left (le_of_lt h)).symm
    · next h => exact (min_eq_right (not_lt.1 h)).symm
  have hdt : 0 < driverDt courant N ∧ driverDt courant N ≤ courant / N := by
    unfold driverDt
    rw [hcl, hcl, hcl, hv]
    have : 0 < courant / (N : K) := div_pos hc0 hNpos
    exact ⟨lt_min this (lt_min this (lt_min this hmax)), min_le_left _ _⟩
  have he : driverWeight courant N = driverDt courant N * N := by
    unfold driverWeight
    push_cast
    field_simp
  rw [he]
  refine ⟨mul_pos hdt.1 hNpos, ?_⟩
  calc driverDt courant N * N ≤ courant / N * N := mul_le_mul_of_nonneg_right hdt.2 (le_of_lt hNpos)
    _ = courant := by field_simp

/-- `upwindMpi` on one process, for every number of cells per axis: the run ends normally, and its check sum is the sum
of the field of the code. -/
theorem mpi_one (courant : K) (N : Nat) (hr : InRange 1 [N, N, N]) (k : Nat) (hk : k < 2 ^ 31) :
    ∃ wk, UpwindMpi.run courant 1 N k = .ok wk ∧ (∃ rs w', wk.CheckSum true rs w') ∧
      ∀ rs w', wk.CheckSum true rs w' →
        rs[0]? = some (total [N, N, N] (mpiCode N (driverWeight courant N) UpwindMpi.initialCondition k)) := by
  have hst := upwindMpi_stencil (R := K) zero_lt_one courant N
  have haxis : ∀ kv ∈ mpiSt (driverWeight courant N), AxisOffset [N, N, N].length kv.1 := by
    intro kv hkv
    simp only [mpiSt, List.mem_cons, List.not_mem_nil, or_false] at hkv
    rcases hkv with rfl | rfl | rfl | rfl
    · exact axisOff_axis (n := 3) (j := 0) (.inl rfl)
    · exact axisOff_axis (n := 3) (j := 1) (.inl rfl)
    · exact axisOff_axis (n := 3) (j := 2) (.inl rfl)
    · exact zeroOff_axis 3
  obtain ⟨d, hf, hb⟩ := unit_of_range hr (List.replicate 3 (0 : K)) (List.replicate 3 1) (mpiSt (driverWeight courant N))
    (fun kv h => axis_unit (haxis kv h))
  have hg := hf.toGood
  obtain ⟨w, ew, h0⟩ := world_new hg hb
  obtain ⟨w0, e0, h0'⟩ := world_set hg h0 UpwindMpi.initialCondition
  have hN31 : N < 2 ^ 31 := hr.ext N (by simp)
  have es : UpwindMpi.start courant 1 N = .ok w := by
    unfold UpwindMpi.start
    dsimp only
    rw [szOfInt_ofNat (by unfold W; omega), hst, M.ok_bind]
    exact ew
  have hval := fun body => ifDecompValid_of hg h0 (fun x f h => h.1.valid) body
  generalize hcc : (⟨1, [N, N, N], d, List.replicate 3 (0 : K), List.replicate 3 1, mpiSt (driverWeight courant N)⟩ : Cfg K) = c
    at hf hg h0 h0' hval
  have h1p : c.nprocs = 1 := by rw [← hcc]
  have hcd : c.dims = [N, N, N] := by rw [← hcc]
  have hcs : c.st = mpiSt (driverWeight courant N) := by rw [← hcc]
  have key : ∀ (k : Nat) (u : List Nat → K) (w0 : World K), Ranks c (fun x f => Holds c x u f) w0 →
      ∃ wk, UpwindMpi.advect w0 k = .ok wk ∧
        Ranks c (fun x f => Holds c x (stencilIter64 c.dims c.st u k) f) wk := by
    intro k
    induction k with
    | zero => intro u w0 h; exact ⟨w0, rfl, h⟩
    | succ k ih =>
      intro u w0 h
      obtain ⟨w1, e1, h1⟩ := world_apply64 hf (fun x hx => one_cells hf h1p hx) h
      obtain ⟨w2, e2, h2⟩ := localSum_call hg (Q := fun o x => o = boxData (c.lo x) (c.hi x) _) h1 true
      obtain ⟨w3, e3, h3⟩ := localSum_call hg (Q := fun o x => o = boxData (c.lo x) (c.hi x) _) h2 false
      obtain ⟨w4, e4, h4⟩ := world_copy hg h3
      obtain ⟨wk, e5, h5⟩ := ih _ w4 ⟨h4.1, fun x f hx hf => (h4.2 x f hx hf).1⟩
      refine ⟨wk, ?_, ?_⟩
      · unfold UpwindMpi.advect UpwindMpi.applyAndSum
        rw [e1, M.ok_bind, e2, M.ok_bind, e3, M.ok_bind, e4, M.ok_bind, e5]
      · rw [← stencilIter64_succ]
        exact h5
  obtain ⟨wk, ek, hwk⟩ := key k _ w0 h0'
  have hsh : Ranks c (fun x f => Shape c x c.tab f) wk := ⟨hwk.1, fun x f hx hf => (hwk.2 x f hx hf).shape⟩
  obtain ⟨c1, c2⟩ := check_sum_of hg (by rw [h1p]) hsh true
  obtain ⟨b1, b2⟩ := all_cells hg hsh
  refine ⟨wk, ?_, c1, fun rs w' hc => ?_⟩
  · unfold UpwindMpi.run
    rw [es, M.ok_bind, hval, e0, M.ok_bind, szOfInt_ofNat (by unfold W; omega), ek]
  · rw [(c2 rs w' hc).2.2 _ _ (input_of hg hwk fun x f h => ⟨h.shape, h.data⟩) b1 b2]
    rw [hcd] at b2
    rw [sum_cells hr.pos b1 b2, hcd, hcs]
    rfl

/-- C30: on one process, for every number of cells per axis that is not a power of two and Courant number above 0 and at
most 1/3 (the driver uses 1/10), `upwindMpi` does not conserve the sum: it ends normally, and after `r + 1` steps, `r`
being the remainder of 2^64 - 1 on division by the number of cells, the check sum is larger than 1. -/
theorem C30_sum_grows (courant : K) (hc0 : 0 < courant) (hc1 : 3 * courant ≤ 1) (hmax : (0 : K) < HasMax.dblMax)
    (N : Nat) (hr : InRange 1 [N, N, N]) (hN : ¬ N ∣ 2 ^ 64) :
    ∃ wk, UpwindMpi.run courant 1 N ((2 ^ 64 - 1) % N + 1 : Nat) = .ok wk ∧ (∃ rs w', wk.CheckSum true rs w') ∧
      ∀ rs w', wk.CheckSum true rs w' → ∃ s, rs[0]? = some s ∧ 1 < s := by
  have hN0 : 0 < N := hr.pos N (by simp)
  have hN31 : N < 2 ^ 31 := hr.ext N (by simp)
  have hlt := Nat.mod_lt (2 ^ 64 - 1) hN0
  have hc := driverWeight_pos hc0 hmax hN0
  have hN11 : N ≤ 2 ^ 11 := by
    by_contra hlt
    have h1 : 2 ^ 11 ≤ N := by omega
    have h2 : (2 ^ 11) * (2 ^ 11 * 2 ^ 11) ≤ N * (N * N) := Nat.mul_le_mul h1 (Nat.mul_le_mul h1 h1)
    have h3 := hr.cells
    simp only [List.prod_cons, List.prod_nil, mul_one] at h3
    omega
  obtain ⟨wk, e, c1, c2⟩ := mpi_one courant N hr ((2 ^ 64 - 1) % N + 1) (by omega)
  refine ⟨wk, e, c1, fun rs w' h => ⟨_, c2 rs w' h, ?_⟩⟩
  have hic : ∀ a b c, a < N → b < N → c < N → UpwindMpi.initialCondition (R := K) [a, b, c] = cornerField [a, b, c] := by
    intro a b c ha hb hc
    apply initialCondition_eq
    simp only [List.sum_cons, List.sum_nil]
    omega
  have ht : total [N, N, N] UpwindMpi.initialCondition = (1 : K) := by
    rw [← mpiField_total courant hr.pos 0]
    refine total_congr hr.pos fun g hg => ?_
    obtain ⟨a, b, c, rfl, ha, hb, hc⟩ := cell3 hg
    exact hic a b c ha hb hc
  have := mpi_total_gt (u := UpwindMpi.initialCondition (R := K)) hN0 hN31 hN hc.1 (by linarith [hc.2]) ?_ ?_ ?_
  · rw [ht] at this
    exact this
  · intro a b c ha hb hc
    rw [hic a b c ha hb hc]
    unfold cornerField
    split
    · exact zero_le_one
    · exact le_refl _
  · rw [hic 0 0 0 hN0 hN0 hN0]
    unfold cornerField
    rw [if_pos (by simp)]
    exact zero_lt_one
  · intro a b c ha hb hc h
    rw [hic a b c ha hb hc]
    unfold cornerField
    rw [if_neg]
    intro hz
    have h1 := hz a (by simp)
    have h2 := hz b (by simp)
    have h3 := hz c (by simp)
    omega

/-- C30: on one process the check sum of `upwindMpi` is 1 after every number of steps if, and only if, the number of
cells per axis is a power of two. -/
theorem C30_sum_iff (courant : K) (hc0 : 0 < courant) (hc1 : 3 * courant ≤ 1) (hmax : (0 : K) < HasMax.dblMax)
    (N : Nat) (hr : InRange 1 [N, N, N]) :
    (∀ k < 2 ^ 31, ∃ wk, UpwindMpi.run courant 1 N (k : Nat) = .ok wk ∧
      ∀ rs w', wk.CheckSum true rs w' → rs[0]? = some 1) ↔ N ∣ 2 ^ 64 := by
  have hN0 : 0 < N := hr.pos N (by simp)
  have hN31 : N < 2 ^ 31 := hr.ext N (by simp)
  constructor
  · intro h
    by_contra hN
    obtain ⟨wk, e, ⟨rs, w', hc⟩, c2⟩ := C30_sum_grows courant hc0 hc1 hmax N hr hN
    have hlt := Nat.mod_lt (2 ^ 64 - 1) hN0
    obtain ⟨vk, e', hv⟩ := h ((2 ^ 64 - 1) % N + 1) (by omega)
    rw [e] at e'
    obtain rfl := Except.ok.inj e'
    obtain ⟨s, hs, hs1⟩ := c2 rs w' hc
    rw [hv rs w' hc, Option.some_inj] at hs
    exact absurd hs (ne_of_lt hs1)
  · intro hN k hk
    obtain ⟨c, hf, hcn, hcd, _, _, hfield, w, w0, es, _, e0, _, hall⟩ := mpi_states courant 1 N hr hN (valid_one _)
    obtain ⟨wk, ek, hval, hwk⟩ := hall k
    have hg := hf.toGood
    have hsh : Ranks c (fun x f => Shape c x c.tab f) wk := ⟨hwk.1, fun x f hx hf => (hwk.2 x f hx hf).shape⟩
    obtain ⟨_, c2⟩ := check_sum_of hg (by rw [hcn]) hsh true
    obtain ⟨b1, b2⟩ := all_cells hg hsh
    refine ⟨wk, ?_, fun rs w' hc => ?_⟩
    · unfold UpwindMpi.run
      rw [es, M.ok_bind, hval, e0, M.ok_bind, szOfInt_ofNat (by unfold W; omega), ek]
    · rw [(c2 rs w' hc).2.2 _ _ (input_of hg hwk fun x f h => ⟨h.shape, h.data⟩) b1 b2]
      rw [hcd] at b2
      rw [sum_cells hr.pos b1 b2, total_congr hr.pos (fun g hg => hfield g hg k), mpiField_total courant hr.pos]

end

/-! ### Examples -/

/-- Six cells per axis: 2^64 - 1 leaves 3, so the check sum is wrong after four steps. -/
example : InRange 1 [6, 6, 6] ∧ ¬ 6 ∣ 2 ^ 64 ∧ (2 ^ 64 - 1) % 6 + 1 = 4 ∧ (0 : ℚ) < 0.1 ∧ 3 * (0.1 : ℚ) ≤ 1 :=
  ⟨⟨by decide, by decide, by decide, by decide, by decide, by decide, by decide, by decide⟩, by decide, by decide,
    by norm_num, by norm_num⟩

/-- Three cells on one axis. -/
example : InRange 1 (List.replicate 1 3) ∧ ¬ 3 ∣ 2 ^ 64 :=
  ⟨⟨by decide, by decide, by decide, by decide, by decide, by decide, by decide, by decide⟩, by decide⟩

end Fidi
