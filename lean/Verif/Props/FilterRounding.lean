import Verif.Lemmas.FilterRounding
import Verif.Props.Rounding
import Verif.Props.Drivers
import Verif.Props.FilterWrap

/-
Property C68: rounding errors of the filter and of upwindMpi.
`R` is any number type with the standard model of floating-point arithmetic (`Rounded`), `val` gives the values.
-/
set_option linter.unusedSectionVars false

namespace Fidi
open Spec Upwind Finset

section
variable {R K : Type} [Zero R] [One R] [Add R] [Sub R] [Mul R] [Div R] [NatCast R] [IntCast R] [LT R] [DecidableLT R] [HasMax R]
  [Field K] [LinearOrder K] [IsStrictOrderedRing K] {val : R → K} {r η tiny : K}

/-- C68: `n` applications of the filter to any field bounded by `B`: every value is within `iterBound ... - A ^ n * B` of what
the exact stencil gives, `A` being the sum of the absolute values of the weights. Conditions of C18. -/
theorem C68_filter_error (H : Rounded R K val r η tiny) (nprocs : Nat) (dims : List Nat) (xmins xmaxs : List R)
    (st : StdMap (List Int) R) (u : List Nat → R) (n : Nat) (hr : InRange nprocs dims) (hex : ∃ d, ValidDecomp nprocs dims d)
    (hu : ∀ kv ∈ st, AxisOffset dims.length kv.1) (hw : ∀ kv ∈ st, WrapExact dims kv.1)
    (B : K) (hB : ∀ g, InGrid dims g → |val (u g)| ≤ B) :
    ∃ w w1 w2 v, World.new nprocs dims xmins xmaxs st = .ok w ∧ w.setInDataByIndices u = .ok w1 ∧
      w1.iterate n = .ok w2 ∧ Partition w2 nprocs dims ∧ InputIs w2 v ∧
      ∀ g, InGrid dims g → |val (v g) - stencilIter dims (stencilVal val st) (fun g => val (u g)) n g| ≤
        iterBound (stencilGrowth st.length r 0 * weightSum (stencilVal val st)) (stencilUnderflow st.length r η) n B -
          weightSum (stencilVal val st) ^ n * B := by
  obtain ⟨w, w1, w2, e, e1, e2, hp, hi⟩ := C18_iterates_partial nprocs dims xmins xmaxs st u n hr hex hu hw
  refine ⟨w, w1, w2, _, e, e1, e2, hp, hi, ?_⟩
  have h := (stencil_error (sh := shiftMod dims) H (le_refl 0) (maxNorm dims) (stencilNear_self val st) (fun p hp u b h =>
    maxNorm_shift (by
      obtain ⟨q, hq, rfl⟩ := List.mem_map.1 hp
      exact (hu q hq).1) u b h) u hB n).2
  rw [mul_one] at h
  rw [stencilIter_sh, stencilIter_sh]
  exact h

/-- C68: the same on one process for every grid and all offsets with components -1, 0, 1, with the displacement of the code. -/
theorem C68_any_extents (H : Rounded R K val r η tiny) (dims : List Nat) (xmins xmaxs : List R)
    (st : StdMap (List Int) R) (u : List Nat → R) (n : Nat) (hr : InRange 1 dims)
    (hu : ∀ kv ∈ st, UnitOffset dims.length kv.1) (B : K) (hB : ∀ g, InGrid dims g → |val (u g)| ≤ B) :
    ∃ w w1 w2 v, World.new 1 dims xmins xmaxs st = .ok w ∧ w.setInDataByIndices u = .ok w1 ∧
      w1.iterate n = .ok w2 ∧ Partition w2 1 dims ∧ InputIs w2 v ∧
      ∀ g, InGrid dims g → |val (v g) - stencilIter64 dims (stencilVal val st) (fun g => val (u g)) n g| ≤
        iterBound (stencilGrowth st.length r 0 * weightSum (stencilVal val st)) (stencilUnderflow st.length r η) n B -
          weightSum (stencilVal val st) ^ n * B := by
  obtain ⟨w, w1, w2, e, e1, e2, hp, hi⟩ := C18_any_extents_partial dims xmins xmaxs st u n hr hu
  refine ⟨w, w1, w2, _, e, e1, e2, hp, hi, ?_⟩
  have h := (stencil_error (sh := shift64 dims) H (le_refl 0) (maxNorm dims) (stencilNear_self val st) (fun p hp u b h =>
    maxNorm_shift64 (by
      obtain ⟨q, hq, rfl⟩ := List.mem_map.1 hp
      exact (hu q hq).1) u b h) u hB n).2
  rw [mul_one] at h
  rw [stencilIter64_sh, stencilIter64_sh]
  exact h

/-- The check sum of ranks that hold a field. -/
theorem check_sum_error (H : Rounded R K val r η tiny) {c : Cfg R} (hg : c.Good) (hp1 : 1 ≤ c.nprocs) {w1 : World R}
    (hsh : Ranks c (fun x f => Shape c x c.tab f) w1) (input : Bool) :
    (∃ rs w2, w1.CheckSum input rs w2) ∧
    ∀ rs w2, w1.CheckSum input rs w2 → ∀ (v : List Nat → R) (cells : List (List Nat)),
      (if input then InputIs w1 v else OutputIs w1 v) → cells.Nodup → (∀ g, g ∈ cells ↔ InGrid c.dims g) →
      ∃ s, rs[0]? = some s ∧ |val s - (cells.map fun g => val (v g)).sum| ≤
        (1 + r) ^ (c.dims.prod / c.nprocs + c.nprocs) *
            ((cells.map fun g => |val (v g)|).sum + (c.dims.prod + c.nprocs : Nat) * η) -
          (cells.map fun g => |val (v g)|).sum := by
  obtain ⟨ps, e1, hl, hP⟩ := mapM_ok w1 (fun f => f.localSum input)
    (fun i p => ∃ f, w1[i]? = some f ∧ p.1 = (if input then f.inData else f.outData).foldl (· + ·) 0) (by
      intro i f hf
      obtain ⟨x, hx, _, hs⟩ := hsh.mem hg (List.mem_of_getElem? hf)
      obtain ⟨f', e⟩ := localSum_fold hg hx hs input
      exact ⟨_, e, f, hf, rfl⟩)
  have hfst : ps.map Prod.fst = (w1.map fun f => if input then f.inData else f.outData).map fun l => l.foldl (· + ·) 0 := by
    apply List.ext_getElem (by simp [hl])
    intro i h1 h2
    simp only [List.getElem_map]
    have h3 : i < ps.length := by simpa using h1
    obtain ⟨f, hf, hp⟩ := hP i ps[i] (List.getElem?_eq_getElem h3)
    rw [List.getElem?_eq_getElem (by rw [← hl]; exact h3), Option.some_inj] at hf
    rw [hp, ← hf]
  have hlen : w1.length = c.nprocs := hsh.1
  constructor
  · obtain ⟨r, hr'⟩ := sumTree_exists (xs := ps.map Prod.fst) (by
      intro h0
      have : ps.length = 0 := by simpa using h0
      omega)
    exact ⟨_, _, ps, r, e1, rfl, ⟨_, List.Perm.refl _, hr'⟩, rfl⟩
  · rintro rs w2 ⟨ps', t, e1', _, hsum, rfl⟩ v cells hv hnd hmem
    rw [e1] at e1'
    obtain rfl := Except.ok.inj e1'
    refine ⟨t, ?_, ?_⟩
    · rw [List.getElem?_map, List.getElem?_range (by omega), Option.map_some, if_pos rfl]
    rw [hfst] at hsum
    have hdl : ∀ l ∈ w1.map (fun f => if input then f.inData else f.outData), l.length = c.L.prod := by
      intro l hl
      obtain ⟨f, hf, rfl⟩ := List.mem_map.1 hl
      obtain ⟨x, hx, _, hs⟩ := hsh.mem hg hf
      cases input
      · exact hs.outLen
      · exact hs.inLen
    have h := checkSum_error H _ hdl hsum
    have hdata : w1.map (fun f => if input then f.inData else f.outData) = w1.map fun f => (boxCells f.lo f.hi).map v := by
      apply List.map_congr_left
      intro f hf
      obtain ⟨x, hx, _, hs⟩ := hsh.mem hg hf
      rw [← boxData_eq_map, hs.lo, hs.hi]
      apply List.ext_getElem
      · rw [length_boxData, hg.vol hx]; cases input
        · exact hs.outLen
        · exact hs.inLen
      · intro i h1 h2
        have h3 : i < volume (c.lo x) (c.hi x) := by simpa using h2
        have hin := tupleAt_inBox false (hg.box hx) i
        have hpos : cellPos (c.lo x) (c.hi x) (tupleAt false (c.lo x) (c.hi x) i) = i := by
          rw [← flatOf_eq_cellPos _ _ _ (hg.box hx).length_eq hin.length_lo, flatOf_tupleAt false (hg.box hx),
            Nat.mod_eq_of_lt h3]
        simp only [boxData, List.getElem_map, List.getElem_range]
        have hcell : (if input then f.inData else f.outData)[i]? = some (v (tupleAt false (c.lo x) (c.hi x) i)) := by
          cases input
          · have := hv f hf (tupleAt false (c.lo x) (c.hi x) i) (by rw [hs.lo, hs.hi]; exact hin)
            rw [hs.lo, hs.hi, hpos] at this
            exact this
          · have := hv f hf (tupleAt false (c.lo x) (c.hi x) i) (by rw [hs.lo, hs.hi]; exact hin)
            rw [hs.lo, hs.hi, hpos] at this
            exact this
        rw [List.getElem?_eq_getElem h1, Option.some_inj] at hcell
        exact hcell
    obtain ⟨a1, a2⟩ := all_cells hg hsh
    have hperm : (w1.flatMap fun f => boxCells f.lo f.hi).Perm cells := by
      rw [List.perm_ext_iff_of_nodup a1 hnd]
      intro g
      rw [a2, hmem]
    have hflat : (w1.map fun f => if input then f.inData else f.outData).flatten =
        (w1.flatMap fun f => boxCells f.lo f.hi).map v := by
      rw [hdata, List.map_flatMap, List.flatMap_def]
    have hprod := hg.prod
    have hq : c.dims.prod / c.nprocs = c.L.prod := by
      rw [← hprod]; exact Nat.mul_div_cancel _ (by omega)
    rw [hflat, List.map_map, List.map_map, (hperm.map _).sum_eq, (hperm.map _).sum_eq, List.length_map, hlen,
      Nat.mul_comm c.nprocs, hprod, ← hq] at h
    exact h

/-- C68: `computeCheckSum` on any grid and number of processes, for any fitting stencil and history of calls and any order of
the additions of MPI: a value takes part in at most `cells / processes + processes` additions. -/
theorem C68_check_sum (H : Rounded R K val r η tiny) (nprocs : Nat) (dims : List Nat) (xmins xmaxs : List R)
    (st : StdMap (List Int) R) (hr : InRange nprocs dims) (hex : ∃ d, ValidDecomp nprocs dims d)
    (hf : ∀ d, ValidDecomp nprocs dims d → ∀ kv ∈ st, OffsetFits dims d kv.1)
    (calls : List (Call R)) (w w1 : World R) (hw : World.new nprocs dims xmins xmaxs st = .ok w)
    (hc : runCalls w calls = .ok w1) (input : Bool) :
    (∃ rs w2, w1.CheckSum input rs w2) ∧
    ∀ rs w2, w1.CheckSum input rs w2 → ∀ (v : List Nat → R) (cells : List (List Nat)),
      (if input then InputIs w1 v else OutputIs w1 v) → cells.Nodup → (∀ g, g ∈ cells ↔ InGrid dims g) →
      ∃ s, rs[0]? = some s ∧ |val s - (cells.map fun g => val (v g)).sum| ≤
        (1 + r) ^ (dims.prod / nprocs + nprocs) * ((cells.map fun g => |val (v g)|).sum + (dims.prod + nprocs : Nat) * η) -
          (cells.map fun g => |val (v g)|).sum := by
  obtain ⟨d, hg, hb⟩ := setup_good nprocs dims xmins xmaxs st hr hex hf
  obtain ⟨w0, e, h0⟩ := world_new hg hb
  have e' : World.new nprocs dims xmins xmaxs st = .ok w0 := e
  rw [hw] at e'
  obtain rfl := Except.ok.inj e'
  generalize hcfg : (⟨nprocs, dims, d, xmins, xmaxs, st⟩ : Cfg R) = c at hg h0
  have hn : c.nprocs = nprocs := by rw [← hcfg]
  have hdim : c.dims = dims := by rw [← hcfg]
  have hsh : Ranks c (fun x f => Shape c x c.tab f) w1 :=
    calls_shape hg ⟨h0.1, fun x f hx hf => (h0.2 x f hx hf).1⟩ hc
  have h := check_sum_error H hg (by rw [hn]; exact hr.procs1) hsh input
  rw [hn, hdim] at h
  exact h

/-! ### upwindMpi -/

/-- The weights of `upwindMpi`. -/
theorem driverWeight_rel (H : Rounded R K val r η tiny) (hmax : 1 ≤ val (HasMax.dblMax : R)) (htiny : 2 ^ 20 * tiny ≤ 1)
    (c : R) (hcr : |val c - 1 / 10| ≤ r * |(1 / 10 : K)|) {n : Nat} (hn : 0 < n) (hn2 : n ≤ 2 ^ 11) :
    |val (driverWeight c n) - 1 / 10| ≤ 13 * r * (1 / 10) ∧
      |val (1 - driverWeight c n - driverWeight c n - driverWeight c n) - 7 / 10| ≤ 13 * r * (7 / 10) := by
  have h0 := H.r_nonneg
  have h1 := H.r_le
  have ht := H.tiny_nonneg
  have hq1 : (1 : K) ≤ n := by exact_mod_cast hn
  have hq : (0 : K) < n := by linarith
  have hq2 : (n : K) ≤ 2 ^ 11 := by exact_mod_cast hn2
  have hq2' : (n : K) ≤ 2048 := hq2.trans (by norm_num)
  have hbig : ∀ x : K, 1 / 2 ^ 18 ≤ x → Normal tiny x := by
    intro x hx
    right
    have hx0 : 0 < x := lt_of_lt_of_le (by positivity) hx
    rw [abs_of_pos hx0]
    refine le_trans ?_ hx
    rw [le_div_iff₀ (by positivity)]
    linarith
  obtain ⟨edt, hrel⟩ := mainDt_rounded H hmax c hcr hn (by nlinarith)
  rw [show c * (1 / (n : R)) / 1 = driverDt c n from
    (Except.ok.inj ((mainDt_driver c n).symm.trans edt)).symm] at hrel
  have hinv : (1 : K) / 2048 ≤ 1 / (n : K) := one_div_le_one_div_of_le hq hq2'
  have hw : Normal tiny (val (1 : R) / (n : K)) := by
    rw [H.one]
    exact hbig _ (le_trans (by norm_num) hinv)
  have r1 := width_rel H (n := (n : R)) (m := (n : K)) (by rw [one_mul]; exact H.nat n) 1 hw
  rw [H.one] at r1
  have hd : Normal tiny (1 / 10 / (n : K)) := by
    apply hbig
    have e : (1 : K) / 10 / n = 1 / 10 * (1 / n) := by ring
    have e2 : (1 : K) / 2 ^ 18 ≤ 1 / 10 * (1 / 2048) := by norm_num
    rw [e]
    linarith
  have hi : Rel (1 * r) (val ((1 : Int) : R)) (1 : K) := by
    have := H.int 1
    rw [Int.cast_one] at this
    rw [one_mul]; exact this
  have r2 := mul_rel H (x := ((1 : Int) : R)) (y := driverDt c n) (p := 1) (q := 6) (t := 82 / 10) (by norm_num) (by norm_num)
    hi hrel (by rw [one_mul]; exact hd) (by norm_num) (by norm_num)
  rw [one_mul] at r2
  have r3 := mul_rel H (x := ((1 : Int) : R) * driverDt c n) (y := (1 : R)) (p := 82 / 10) (q := 0) (t := 93 / 10)
    (by norm_num) (le_refl _) r2 (self_rel _) (by rw [H.one, mul_one]; exact hd) (by norm_num) (by norm_num)
  rw [H.one, mul_one] at r3
  have e10 : (1 : K) / 10 / n / (1 / n) = 1 / 10 := by field_simp
  have r4 := div_rel H (x := ((1 : Int) : R) * driverDt c n * 1) (y := 1 / (n : R)) (p := 93 / 10) (q := 21 / 10)
    (m := 117 / 10) (t := 13) (by norm_num) (by norm_num) r3 r1 (by rw [e10]; exact hbig _ (by norm_num)) (by norm_num)
    (by norm_num) (by norm_num) (by norm_num)
  rw [e10] at r4
  have r5 : |val (driverWeight c n) - 1 / 10| ≤ 13 * r * (1 / 10) := by
    unfold Rel at r4
    rwa [abs_of_pos (by norm_num : (0 : K) < 1 / 10)] at r4
  refine ⟨r5, ?_⟩
  generalize driverWeight c n = a at r5
  rw [abs_le] at r5
  have hr2 : r * r ≤ r / 100 := by nlinarith
  have htiny' : tiny ≤ 1 / 2 := by
    have : (2 : K) * tiny ≤ 2 ^ 20 * tiny := mul_le_mul_of_nonneg_right (by norm_num) ht
    linarith
  have sub : ∀ (x : R) (y e : K), |val x - y| ≤ e * r → 1 / 2 + e / 100 + 13 / 1000 + 1 / 10 ≤ y → y ≤ 1 → 0 ≤ e →
      |val (x - a) - (y - 1 / 10)| ≤ (y - 1 / 10 + (e + 13 / 10) / 100 + e + 13 / 10) * r := by
    intro x y e hx hy hy1 he
    rw [abs_le] at hx
    have her : e * r ≤ e / 100 := by nlinarith
    have hp : 1 / 2 ≤ val x - val a := by linarith [hx.1, r5.2]
    have h2 := (H.sub x a).2 (Or.inr (by rw [abs_of_pos (by linarith)]; linarith))
    rw [abs_of_pos (by linarith : (0 : K) < val x - val a), abs_le] at h2
    have h3 : r * (val x - val a) ≤ r * (y - 1 / 10 + (e + 13 / 10) / 100) :=
      mul_le_mul_of_nonneg_left (by linarith [hx.2, r5.1]) h0
    rw [abs_le]
    constructor <;> linarith [h2.1, h2.2, hx.1, hx.2, r5.1, r5.2]
  have s1 := sub 1 1 0 (by rw [H.one]; simp) (by norm_num) (le_refl _) (le_refl _)
  have s2 := sub _ _ _ s1 (by norm_num) (by norm_num) (by norm_num)
  have s3 := sub _ _ _ s2 (by norm_num) (by norm_num) (by norm_num)
  have e7 : (1 : K) - 1 / 10 - 1 / 10 - 1 / 10 = 7 / 10 := by norm_num
  rw [e7] at s3
  refine s3.trans ?_
  have : ((13 : K) * (7 / 10)) * r = 13 * r * (7 / 10) := by ring
  rw [← this]
  exact mul_le_mul_of_nonneg_right (by norm_num) h0

/-- The exact stencil of `upwindMpi` with Courant number 1/10. -/
def exactMpi (K : Type) [Field K] : List (List Int × K) :=
  [([-1, 0, 0], 1 / 10), ([0, -1, 0], 1 / 10), ([0, 0, -1], 1 / 10), ([0, 0, 0], 7 / 10)]

theorem exactMpi_weight : weightSum (exactMpi K) = 1 := by
  unfold weightSum exactMpi
  simp only [List.map_cons, List.map_nil, List.sum_cons, List.sum_nil]
  rw [abs_of_pos (by norm_num : (0 : K) < 1 / 10), abs_of_pos (by norm_num : (0 : K) < 7 / 10)]
  norm_num

theorem exactMpi_iter (N k : Nat) (g : List Nat) (hg : InGrid [N, N, N] g) :
    (shStep (shiftMod [N, N, N]) (exactMpi K))^[k] cornerField g =
      (upwindStep [N, N, N] (fun _ => -1) (fun _ => -(1 / 10)))^[k] cornerField g := by
  have h := stencilIter_congr (K := K) (dims := [N, N, N]) (st := exactMpi K)
    (F := upwindStep [N, N, N] (fun _ => -1) (fun _ => -(1 / 10)))
    (by
      intro kv hkv
      unfold exactMpi at hkv
      simp only [List.mem_cons, List.not_mem_nil, or_false] at hkv
      rcases hkv with rfl | rfl | rfl | rfl <;> rfl)
    (fun u g hg => by
      rw [← mpi_step rfl hg]
      unfold exactMpi
      norm_num) cornerField k g hg
  rw [stencilIter_sh] at h
  exact h

theorem total_corner3 {N : Nat} (hp : ∀ n ∈ [N, N, N], 0 < n) : total [N, N, N] (cornerField : List Nat → K) = 1 :=
  letI : HasMax K := ⟨0⟩
  mpiField_total 0 hp 0

/-- Bound on the fields of `upwindMpi` and, with `m` cells, on the sum of their absolute values. -/
def mpiBound {K : Type} [Field K] [LinearOrder K] (r η m : K) (k : Nat) : K :=
  iterBound (stencilGrowth 4 r (13 * r)) (stencilUnderflow 4 r η * m) k 1

/-- C68: upwindMpi in floating-point arithmetic, `c` being the rounded literal 0.1: any number of processes and power of two
of cells per axis it supports, any number of steps and any order of the additions of MPI. The fields are those of the exact
upwind scheme with Courant number 1/10 and both check sums of every step are 1, up to the rounding errors. -/
theorem C68_upwindMpi (H : Rounded R K val r η tiny) (hmax : 1 ≤ val (HasMax.dblMax : R)) (htiny : 2 ^ 20 * tiny ≤ 1)
    (c : R) (hcr : |val c - 1 / 10| ≤ r * |(1 / 10 : K)|) (sz N : Nat) (hr : InRange sz [N, N, N]) (hN : N ∣ 2 ^ 64)
    (hex : ∃ d, ValidDecomp sz [N, N, N] d) (k : Nat) (hk : k < 2 ^ 31) :
    ∃ w u, UpwindMpi.run c sz N k = .ok w ∧ Partition w sz [N, N, N] ∧ InputIs w u ∧
      (∀ g, InGrid [N, N, N] g →
        |val (u g) - (upwindStep [N, N, N] (fun _ => -1) (fun _ => -(1 / 10)))^[k] cornerField g| ≤ mpiBound r η 1 k - 1) ∧
      ∃ w1, w.applyFilter = .ok w1 ∧ (∃ rs w2, w1.CheckSum true rs w2) ∧
        ∀ rs w2, w1.CheckSum true rs w2 →
          (∃ s, rs[0]? = some s ∧ |val s - 1| ≤ (1 + r) ^ (N ^ 3 / sz + sz) *
            (mpiBound r η (N ^ 3 : Nat) k + (N ^ 3 + sz : Nat) * η) - 1) ∧
          (∃ rs w3, w2.CheckSum false rs w3) ∧ ∀ rs w3, w2.CheckSum false rs w3 →
            ∃ s, rs[0]? = some s ∧ |val s - 1| ≤ (1 + r) ^ (N ^ 3 / sz + sz) *
              (mpiBound r η (N ^ 3 : Nat) (k + 1) + (N ^ 3 + sz : Nat) * η) - 1 := by
  have h0 := H.r_nonneg
  have h01 : (0 : R) < 1 := by rw [H.lt, H.zero, H.one]; exact zero_lt_one
  obtain ⟨cf, hf, hcn, hcd, _, _, hst, haxis, w, w0, es, _, e0, _, hall⟩ := mpi_runs h01 c sz N hr hN hex
  obtain ⟨wk, ek, hval, hwk⟩ := hall k
  have hg := hf.toGood
  have hpos := hr.pos
  have hN0 : 0 < N := hr.pos N (by simp)
  have hN31 : N < 2 ^ 31 := hr.ext N (by simp)
  have hcells : N * (N * N) ≤ 2 ^ 32 := by
    have := hr.cells
    simpa using this
  have hN11 : N ≤ 2 ^ 11 := by
    by_contra hlt
    have h1 : 2 ^ 11 ≤ N := by omega
    have h2 : (2 ^ 11) * (2 ^ 11 * 2 ^ 11) ≤ N * (N * N) := Nat.mul_le_mul h1 (Nat.mul_le_mul h1 h1)
    omega
  have hprod : ([N, N, N] : List Nat).prod = N ^ 3 := by simp; ring
  obtain ⟨d1, d2⟩ := driverWeight_rel H hmax htiny c hcr hN0 hN11
  have hnear : StencilNear val (13 * r) cf.st (exactMpi K) := by
    rw [hst]
    unfold StencilNear exactMpi
    have a1 : |val (driverWeight c N) - 1 / 10| ≤ 13 * r * |(1 / 10 : K)| := by
      rw [abs_of_pos (by norm_num : (0 : K) < 1 / 10)]; exact d1
    have a2 : |val (1 - driverWeight c N - driverWeight c N - driverWeight c N) - 7 / 10| ≤ 13 * r * |(7 / 10 : K)| := by
      rw [abs_of_pos (by norm_num : (0 : K) < 7 / 10)]; exact d2
    exact .cons ⟨rfl, a1⟩ (.cons ⟨rfl, a1⟩ (.cons ⟨rfl, a1⟩ (.cons ⟨rfl, a2⟩ .nil)))
  have hlen : cf.st.length = 4 := by rw [hst]; rfl
  have hoff : ∀ p ∈ exactMpi K, p.1.length = [N, N, N].length := by
    intro kv hkv
    unfold exactMpi at hkv
    simp only [List.mem_cons, List.not_mem_nil, or_false] at hkv
    rcases hkv with rfl | rfl | rfl | rfl <;> rfl
  have hic : ∀ g, InGrid [N, N, N] g → UpwindMpi.initialCondition (R := R) g = cornerField g := by
    intro g hg
    apply initialCondition_eq
    match g, hg with
    | [a, b, c], hg =>
      obtain ⟨_, hb⟩ := inGrid_iff_getElem.1 hg
      have h1 : a < N := hb 0 (by simp) (by simp)
      have h2 : b < N := hb 1 (by simp) (by simp)
      have h3 : c < N := hb 2 (by simp) (by simp)
      simp only [List.sum_cons, List.sum_nil]
      omega
  have hiter : ∀ k g, InGrid [N, N, N] g → stencilIter [N, N, N] cf.st UpwindMpi.initialCondition k g =
      (shStep (shiftMod [N, N, N]) cf.st)^[k] cornerField g := by
    intro k
    rw [stencilIter_sh]
    induction k with
    | zero => exact hic
    | succ k ih =>
      intro g hgrid
      rw [Function.iterate_succ_apply', Function.iterate_succ_apply']
      unfold shStep
      have : ∀ l : List (List Int × R), (∀ p ∈ l, p.1.length = [N, N, N].length) → ∀ a : R,
          l.foldl (fun acc p => acc + p.2 * (shStep (shiftMod [N, N, N]) cf.st)^[k] UpwindMpi.initialCondition
            (shiftMod [N, N, N] g p.1)) a =
          l.foldl (fun acc p => acc + p.2 * (shStep (shiftMod [N, N, N]) cf.st)^[k] cornerField
            (shiftMod [N, N, N] g p.1)) a := by
        intro l
        induction l with
        | nil => intro _ _; rfl
        | cons p l ihl =>
          intro hl a
          rw [List.foldl_cons, List.foldl_cons, ih _ (shiftMod_inGrid hgrid (hl p List.mem_cons_self)),
            ihl fun q hq => hl q (List.mem_cons_of_mem _ hq)]
      exact this cf.st (fun p hp => (haxis p hp).1) 0
  have ecorner : (fun g => val (cornerField g : R)) = (cornerField : List Nat → K) := funext (val_corner H)
  have hmaxn := fun k => (stencil_error (sh := shiftMod [N, N, N]) H (by linarith : (0 : K) ≤ 13 * r) (maxNorm [N, N, N]) hnear
    (fun p hp u b h => maxNorm_shift (hoff p hp) u b h) cornerField (fun g _ => abs_corner H g) k).2
  have hcorner1 : total [N, N, N] (fun g => |val (cornerField g : R)|) ≤ 1 := by
    have e : (fun g => |val (cornerField g : R)|) = (cornerField : List Nat → K) := by
      funext g
      rw [val_corner H]
      unfold cornerField
      split <;> simp
    rw [e, total_corner3 hpos]
  have hsumn := fun k => stencil_error (sh := shiftMod [N, N, N]) H (by linarith : (0 : K) ≤ 13 * r) (sumNorm hpos) hnear
    (fun p hp u b h => sumNorm_shift hpos (hoff p hp) u b h) cornerField hcorner1 k
  rw [ecorner] at hmaxn hsumn
  simp only [exactMpi_weight, hlen, mul_one, one_pow] at hmaxn hsumn
  have htot : ∀ k, total [N, N, N] ((shStep (shiftMod [N, N, N]) (exactMpi K))^[k] cornerField) = 1 := by
    intro k
    rw [total_congr hpos (fun g hg => exactMpi_iter N k g hg), total_iter hpos, total_corner3 hpos]
  -- the check sums
  have hcheck : ∀ {w : World R} (k : Nat) (input : Bool), Ranks cf (fun x f => Shape cf x cf.tab f) w →
      (if input then InputIs w (stencilIter [N, N, N] cf.st UpwindMpi.initialCondition k)
        else OutputIs w (stencilIter [N, N, N] cf.st UpwindMpi.initialCondition k)) →
      (∃ rs w2, w.CheckSum input rs w2) ∧ ∀ rs w2, w.CheckSum input rs w2 →
        ∃ s, rs[0]? = some s ∧ |val s - 1| ≤ (1 + r) ^ (N ^ 3 / sz + sz) *
            (mpiBound r η (N ^ 3 : Nat) k + (N ^ 3 + sz : Nat) * η) - 1 := by
    intro w k input hsh hin
    obtain ⟨c1, c2⟩ := check_sum_error H hg (by rw [hcn]; exact hr.procs1) hsh input
    refine ⟨c1, fun rs w2 hs => ?_⟩
    obtain ⟨a1, a2⟩ := all_cells hg hsh
    obtain ⟨s, es, hs⟩ := c2 rs w2 hs _ _ hin a1 a2
    refine ⟨s, es, ?_⟩
    rw [hcd] at a2
    rw [sum_cells hpos a1 a2, sum_cells hpos a1 a2, hcn, hcd, hprod,
      total_congr hpos (fun g hg => congrArg val (hiter k g hg)),
      total_congr hpos (fun g hg => congrArg (fun x => |val x|) (hiter k g hg))] at hs
    obtain ⟨b1, b2⟩ := hsumn k
    rw [hprod] at b1 b2
    set T := total [N, N, N] fun g => |val ((shStep (shiftMod [N, N, N]) cf.st)^[k] cornerField g)|
    set σ := total [N, N, N] fun g => val ((shStep (shiftMod [N, N, N]) cf.st)^[k] cornerField g)
    have h1 : |σ - 1| ≤ mpiBound r η (N ^ 3 : Nat) k - 1 := by
      refine le_trans ?_ b2
      rw [← htot k]
      have e : σ - total [N, N, N] ((shStep (shiftMod [N, N, N]) (exactMpi K))^[k] cornerField) =
          total [N, N, N] fun g => val ((shStep (shiftMod [N, N, N]) cf.st)^[k] cornerField g) -
            (shStep (shiftMod [N, N, N]) (exactMpi K))^[k] cornerField g := by
        unfold total; rw [sum_sub_distrib]; rfl
      rw [e]
      exact abs_sum_le_sum_abs _ _
    have h2 : T ≤ mpiBound r η (N ^ 3 : Nat) k := b1
    have h3 : |val s - 1| ≤ |val s - σ| + |σ - 1| := by
      have := abs_add_le (val s - σ) (σ - 1)
      rwa [sub_add_sub_cancel] at this
    have hp1 : (1 : K) ≤ (1 + r) ^ (N ^ 3 / sz + sz) := one_le_pow₀ (by linarith)
    have h4 := mul_le_mul_of_nonneg_left h2 (by linarith : (0 : K) ≤ (1 + r) ^ (N ^ 3 / sz + sz) - 1)
    have e1 : (1 + r) ^ (N ^ 3 / sz + sz) * (T + (N ^ 3 + sz : Nat) * η) - T =
        ((1 + r) ^ (N ^ 3 / sz + sz) - 1) * T + (1 + r) ^ (N ^ 3 / sz + sz) * ((N ^ 3 + sz : Nat) * η) := by ring
    rw [e1] at hs
    have e2 : (1 + r) ^ (N ^ 3 / sz + sz) * (mpiBound r η (N ^ 3 : Nat) k + (N ^ 3 + sz : Nat) * η) - 1 =
        ((1 + r) ^ (N ^ 3 / sz + sz) - 1) * mpiBound r η (N ^ 3 : Nat) k +
          (1 + r) ^ (N ^ 3 / sz + sz) * ((N ^ 3 + sz : Nat) * η) + (mpiBound r η (N ^ 3 : Nat) k - 1) := by ring
    rw [e2]
    linarith
  rw [hcd] at hwk
  refine ⟨wk, _, ?_, ?_, input_of hg hwk (fun x f h => ⟨h.shape, h.data⟩), ?_, ?_⟩
  · unfold UpwindMpi.run
    rw [es, M.ok_bind, hval, e0, M.ok_bind, szOfInt_ofNat (by unfold W; omega), ek]
  · have := partition_of hg hwk (fun x f h => h.shape)
    rw [hcn, hcd] at this
    exact this
  · intro g hgrid
    rw [hiter k g hgrid, ← exactMpi_iter N k g hgrid]
    have := hmaxn k g hgrid
    unfold mpiBound
    rw [mul_one]
    exact this
  · rw [← hcd] at hwk
    obtain ⟨w1, e1, h1⟩ := world_apply hf hwk
    have shape : ∀ {w : World R}, Ranks cf (fun x f => Holds cf x (stencilIter cf.dims cf.st UpwindMpi.initialCondition k) f ∧
        f.outData = boxData (cf.lo x) (cf.hi x) (stencilStep cf.dims cf.st
          (stencilIter cf.dims cf.st UpwindMpi.initialCondition k))) w →
        Ranks cf (fun x f => Shape cf x cf.tab f) w := fun h => ⟨h.1, fun x f hx hf => (h.2 x f hx hf).1.shape⟩
    obtain ⟨c1, c2⟩ := hcheck k true (shape h1) (by
      have := input_of hg h1 fun x f h => ⟨h.1.shape, h.1.data⟩
      rw [hcd] at this
      exact this)
    refine ⟨w1, e1, c1, fun rs w2 hs => ⟨c2 rs w2 hs, ?_⟩⟩
    obtain ⟨w2', e2, h2⟩ := localSum_call hg (Q := fun o x => o = boxData (cf.lo x) (cf.hi x) _) h1 true
    rw [checkSum_world hs] at e2
    obtain rfl := Except.ok.inj e2
    exact hcheck (k + 1) false (shape h2) (by
      have := output_of hg h2 fun x f h => ⟨h.1.shape, h.2⟩
      rw [hcd] at this
      exact this)

end

/-! ### IEEE double -/

theorem iterBound_le {q z b : ℚ} (hq : 1 ≤ q) (hz : 0 ≤ z) (k : Nat) : iterBound q z k b ≤ q ^ k * (b + k * z) := by
  induction k with
  | zero => simp [iterBound]
  | succ k ih =>
    show q * iterBound q z k b + z ≤ _
    have h1 := mul_le_mul_of_nonneg_left ih (by linarith : 0 ≤ q)
    have h2 : 1 * z ≤ q ^ (k + 1) * z := mul_le_mul_of_nonneg_right (one_le_pow₀ hq) hz
    have e : q ^ (k + 1) * (b + (k + 1 : Nat) * z) = q * (q ^ k * (b + k * z)) + q ^ (k + 1) * z := by
      rw [pow_succ]; push_cast; ring
    rw [e]
    linarith

/-- The bound with the rounding of `double`. -/
theorem mpiBound_double {η m : ℚ} (hη0 : 0 ≤ η) (hm0 : 0 ≤ m) (hη : η * m ≤ 1 / 2 ^ 150) {k : Nat} (hk : k ≤ 2 ^ 31) :
    mpiBound (1 / 2 ^ 53) η m k * (1 - k * (19 / 2 ^ 53)) ≤ 1 := by
  have hk0 : (0 : ℚ) ≤ k := Nat.cast_nonneg k
  have hk1 : (k : ℚ) ≤ 2 ^ 31 := by exact_mod_cast hk
  have hE : stencilGrowth 4 (1 / 2 ^ 53 : ℚ) (13 * (1 / 2 ^ 53)) ≤ 1 + 185 / 10 / 2 ^ 53 := by
    unfold stencilGrowth; norm_num
  have hE1 : (1 : ℚ) ≤ stencilGrowth 4 (1 / 2 ^ 53 : ℚ) (13 * (1 / 2 ^ 53)) :=
    stencilGrowth_ge (by positivity) (by positivity) 4
  have hT : stencilUnderflow 4 (1 / 2 ^ 53) η * m ≤ 5 / 10 / 2 ^ 53 := by
    have h1 : (2 * ((4 : Nat) : ℚ) * (1 + 1 / 2 ^ 53) ^ 4) * (η * m) ≤
        (2 * ((4 : Nat) : ℚ) * (1 + 1 / 2 ^ 53) ^ 4) * (1 / 2 ^ 150) :=
      mul_le_mul_of_nonneg_left hη (by positivity)
    unfold stencilUnderflow
    rw [mul_assoc]
    refine h1.trans ?_
    norm_num
  have hT0 : 0 ≤ stencilUnderflow 4 (1 / 2 ^ 53) η * m :=
    mul_nonneg (stencilUnderflow_nonneg (by positivity) hη0 4) hm0
  unfold mpiBound
  have hle := iterBound_le (b := 1) hE1 hT0 k
  obtain ⟨E, hEe⟩ : ∃ E, stencilGrowth 4 (1 / 2 ^ 53 : ℚ) (13 * (1 / 2 ^ 53)) = 1 + E := ⟨_, (add_sub_cancel _ _).symm⟩
  rw [hEe] at hE hE1 hle ⊢
  generalize stencilUnderflow 4 (1 / 2 ^ 53) η * m = t at *
  have hE2 : E ≤ 185 / 10 / 2 ^ 53 := by linarith
  have hkE : (k : ℚ) * E ≤ k * (185 / 10 / 2 ^ 53) := mul_le_mul_of_nonneg_left hE2 hk0
  have hkt : (k : ℚ) * t ≤ k * (5 / 10 / 2 ^ 53) := mul_le_mul_of_nonneg_left hT hk0
  have hkt0 : 0 ≤ (k : ℚ) * t := mul_nonneg hk0 hT0
  have e : (k : ℚ) * (19 / 2 ^ 53) = k * (185 / 10 / 2 ^ 53) + k * (5 / 10 / 2 ^ 53) := by ring
  have hsm : (k : ℚ) * (5 / 10 / 2 ^ 53) ≤ 1 := by
    refine (mul_le_mul_of_nonneg_right hk1 (by norm_num)).trans (by norm_num)
  have hsm2 : (k : ℚ) * (19 / 2 ^ 53) ≤ 1 := by
    refine (mul_le_mul_of_nonneg_right hk1 (by norm_num)).trans (by norm_num)
  have a1 := pow_mul_le_one (by linarith : 0 ≤ E) (hE2.trans (by norm_num)) hkE
  have a2 : (1 + k * t) * (1 - k * (5 / 10 / 2 ^ 53)) ≤ 1 := by nlinarith [one_add_mul_sub (c := (k : ℚ) * t)]
  have a3 := combine (by linarith : (0 : ℚ) ≤ 1 + k * t) (mul_nonneg hk0 (by norm_num)) (mul_nonneg hk0 (by norm_num)) hsm
    (pow_nonneg (by linarith) _) a1 a2
  rw [← e] at a3
  exact (mul_le_mul_of_nonneg_right hle (by linarith)).trans a3

/-- C68: upwindMpi with the rounding of IEEE `double` (including underflow): every value is within `19 steps / 2^52` of that of
the exact scheme, and the check sums are within `(cells per process + processes + 19 steps + 1) / 2^52` of 1. -/
theorem C68_upwindMpi_double (sz N : Nat) (hr : InRange sz [N, N, N]) (hN : N ∣ 2 ^ 64)
    (hex : ∃ d, ValidDecomp sz [N, N, N] d) (k : Nat) (hk : k < 2 ^ 31) :
    ∃ (w : World Dbl) (u : List Nat → Dbl), UpwindMpi.run (⟨rnd (1 / 10)⟩ : Dbl) sz N k = .ok w ∧
      Partition w sz [N, N, N] ∧ InputIs w u ∧
      (∀ g, InGrid [N, N, N] g →
        |(u g).val - (upwindStep [N, N, N] (fun _ => -1) (fun _ => -(1 / 10)))^[k] cornerField g| ≤ 19 * k / 2 ^ 52) ∧
      ∃ w1, w.applyFilter = .ok w1 ∧ (∃ rs w2, w1.CheckSum true rs w2) ∧
        ∀ rs w2, w1.CheckSum true rs w2 →
          (∃ s, rs[0]? = some s ∧ |s.val - 1| ≤ (((N ^ 3 / sz : Nat) : ℚ) + sz + 19 * k + 1) / 2 ^ 52) ∧
          (∃ rs w3, w2.CheckSum false rs w3) ∧ ∀ rs w3, w2.CheckSum false rs w3 →
            ∃ s, rs[0]? = some s ∧ |s.val - 1| ≤ (((N ^ 3 / sz : Nat) : ℚ) + sz + 19 * (k + 1) + 1) / 2 ^ 52 := by
  have hmax : (1 : ℚ) ≤ (HasMax.dblMax : Dbl).val := by decide +kernel
  have htiny : (2 : ℚ) ^ 20 * (1 / 2 ^ 1022) ≤ 1 := by
    have := tiny_le 1022 (by norm_num)
    have h2 : (2 : ℚ) ^ 20 * (1 / 2 ^ 200) ≤ 1 := by norm_num
    exact le_trans (mul_le_mul_of_nonneg_left this (by positivity)) h2
  obtain ⟨w, u, e, hp, hi, hfield, w1, e1, hex1, h⟩ := C68_upwindMpi Dbl.rounded hmax htiny ⟨rnd (1 / 10)⟩
    ((rnd_roundsTo (1 / 10)).2 (Or.inr (by
      rw [abs_of_pos (by norm_num)]
      exact (tiny_le 1022 (by norm_num)).trans (by norm_num)))) sz N hr hN hex k hk
  have hη := tiny_le 1075 (by norm_num)
  have hη0 : (0 : ℚ) ≤ 1 / 2 ^ 1075 := by positivity
  generalize (1 : ℚ) / 2 ^ 1075 = η at *
  have hprod : ([N, N, N] : List Nat).prod = N ^ 3 := by simp; ring
  have hcells : N ^ 3 ≤ 2 ^ 32 := by have := hr.cells; rwa [hprod] at this
  have hloc : N ^ 3 / sz < 2 ^ 31 := by
    have := hr.loc
    rw [hprod] at this
    exact Nat.div_lt_of_lt_mul (by rw [Nat.mul_comm]; exact this)
  have hM : ((N ^ 3 : Nat) : ℚ) ≤ 2 ^ 32 := by exact_mod_cast hcells
  have hM0 : (0 : ℚ) ≤ ((N ^ 3 : Nat) : ℚ) := Nat.cast_nonneg _
  have hadds : ((N ^ 3 / sz + sz : Nat) : ℚ) ≤ 2 ^ 32 := by
    have := hr.procs
    have : N ^ 3 / sz + sz ≤ 2 ^ 32 := by omega
    exact_mod_cast this
  have hall : ((N ^ 3 + sz : Nat) : ℚ) ≤ 2 ^ 33 := by
    have := hr.procs
    have : N ^ 3 + sz ≤ 2 ^ 33 := by omega
    exact_mod_cast this
  have key : ∀ (j : Nat) (s : Dbl), j ≤ 2 ^ 31 → |s.val - 1| ≤ (1 + 1 / 2 ^ 53) ^ (N ^ 3 / sz + sz) *
      (mpiBound (1 / 2 ^ 53) η (N ^ 3 : Nat) j + (N ^ 3 + sz : Nat) * η) - 1 →
      |s.val - 1| ≤ ((N ^ 3 / sz : Nat) + sz + 19 * j + 1) / 2 ^ 52 := by
    intro j s hj hs
    refine hs.trans ?_
    have hjq : (j : ℚ) ≤ 2 ^ 31 := by exact_mod_cast hj
    have g := mpiBound_double (η := η) (m := (N ^ 3 : Nat)) hη0 hM0 (by
      refine (mul_le_mul hη hM hM0 (by positivity)).trans ?_
      norm_num) hj
    have hG : (1 : ℚ) ≤ mpiBound (1 / 2 ^ 53) η (N ^ 3 : Nat) j := by
      have q1 : (1 : ℚ) ≤ stencilGrowth 4 (1 / 2 ^ 53 : ℚ) (13 * (1 / 2 ^ 53)) :=
        stencilGrowth_ge (by positivity) (by positivity) 4
      have q2 : 0 ≤ stencilUnderflow 4 (1 / 2 ^ 53) η * ((N ^ 3 : Nat) : ℚ) :=
        mul_nonneg (stencilUnderflow_nonneg (by positivity) hη0 4) hM0
      unfold mpiBound
      clear * - q1 q2
      induction j with
      | zero => exact le_refl _
      | succ j ih => show _ ≤ _ * _ + _; nlinarith
    generalize mpiBound (1 / 2 ^ 53) η (N ^ 3 : Nat) j = G at *
    have hX : (0 : ℚ) ≤ (1 + 1 / 2 ^ 53) ^ (N ^ 3 / sz + sz) := by positivity
    have p1 := pow_mul_le_one (x := 1 / 2 ^ 53) (by positivity) (by norm_num)
      (le_refl (((N ^ 3 / sz + sz : Nat) : ℚ) * (1 / 2 ^ 53)))
    have hb0 : (0 : ℚ) ≤ j * (19 / 2 ^ 53) := mul_nonneg (Nat.cast_nonneg _) (by norm_num)
    have hb1 : (j : ℚ) * (19 / 2 ^ 53) ≤ 1 / 2 ^ 15 :=
      (mul_le_mul_of_nonneg_right hjq (by norm_num)).trans (by norm_num)
    have ha0 : (0 : ℚ) ≤ ((N ^ 3 / sz + sz : Nat) : ℚ) * (1 / 2 ^ 53) := mul_nonneg (Nat.cast_nonneg _) (by norm_num)
    have ha1 : ((N ^ 3 / sz + sz : Nat) : ℚ) * (1 / 2 ^ 53) ≤ 1 / 2 ^ 21 :=
      (mul_le_mul_of_nonneg_right hadds (by norm_num)).trans (by norm_num)
    have hc0 : (0 : ℚ) ≤ (N ^ 3 + sz : Nat) * η := mul_nonneg (Nat.cast_nonneg _) hη0
    have hc1 : ((N ^ 3 + sz : Nat) : ℚ) * η ≤ 1 / 2 ^ 53 :=
      (mul_le_mul hall hη hη0 (by positivity)).trans (by norm_num)
    generalize ((N ^ 3 + sz : Nat) : ℚ) * η = q at *
    have p2 := combine (by linarith) ha0 hb0 (by linarith [(by norm_num : (1 : ℚ) / 2 ^ 15 ≤ 1)]) hX p1 g
    have p3 := combine (X := (1 + 1 / 2 ^ 53) ^ (N ^ 3 / sz + sz) * G) (Y := 1 + q) (b := q) (by linarith)
      (by linarith) hc0 (hc1.trans (by norm_num)) (mul_nonneg hX (by linarith)) p2 one_add_mul_sub
    have p4 := le_of_combined p3 (by linarith) (by
      have : (1 : ℚ) / 2 ^ 21 + 1 / 2 ^ 15 + 1 / 2 ^ 53 ≤ 1 / 2 := by norm_num
      linarith)
    have p5 : (1 + 1 / 2 ^ 53) ^ (N ^ 3 / sz + sz) * (G + q) ≤ (1 + 1 / 2 ^ 53) ^ (N ^ 3 / sz + sz) * G * (1 + q) := by
      rw [mul_assoc]
      apply mul_le_mul_of_nonneg_left _ hX
      nlinarith
    have p6 : (((N ^ 3 / sz : Nat) : ℚ) + sz + 19 * j + 1) / 2 ^ 52 =
        2 * (((N ^ 3 / sz + sz : Nat) : ℚ) * (1 / 2 ^ 53) + j * (19 / 2 ^ 53) + 1 / 2 ^ 53) := by
      push_cast; ring
    rw [p6]
    linarith
  refine ⟨w, u, e, hp, hi, fun g hg => (hfield g hg).trans ?_, w1, e1, hex1, fun rs w2 hs => ?_⟩
  · have g := mpiBound_double (η := η) (m := 1) hη0 zero_le_one (by rw [mul_one]; exact hη.trans (by norm_num)) hk.le
    have hkq : (k : ℚ) ≤ 2 ^ 31 := by exact_mod_cast hk.le
    have hb0 : (0 : ℚ) ≤ k * (19 / 2 ^ 53) := mul_nonneg (Nat.cast_nonneg _) (by norm_num)
    have hb1 : (k : ℚ) * (19 / 2 ^ 53) ≤ 1 / 2 :=
      (mul_le_mul_of_nonneg_right hkq (by norm_num)).trans (by norm_num)
    have := le_of_combined g hb0 hb1
    have e2 : (19 * k / 2 ^ 52 : ℚ) = 2 * (k * (19 / 2 ^ 53)) := by ring
    rw [e2]
    exact this
  · obtain ⟨⟨s, es, h1⟩, h2, h3⟩ := h rs w2 hs
    refine ⟨⟨s, es, key k s hk.le h1⟩, h2, fun rs' w3 hs' => ?_⟩
    obtain ⟨s', es', h4⟩ := h3 rs' w3 hs'
    have := key (k + 1) s' (by omega) h4
    push_cast at this
    exact ⟨s', es', this⟩

/-! ### The hypotheses are met -/

private def both : StdMap (List Int) Dbl := [([-1], ⟨-3⟩), ([0], 1), ([1], ⟨1 / 2⟩)]

private def peak (g : List Nat) : Dbl := if g = [0] then ⟨8⟩ else ⟨-1⟩

/-- `double` numbers, a stencil with weights of both signs on 8 cells and two processes, a field bounded by 8. -/
example : Rounded Dbl ℚ Dbl.val (1 / 2 ^ 53) (1 / 2 ^ 1075) (1 / 2 ^ 1022) ∧ InRange 2 [8] ∧ ValidDecomp 2 [8] [2] ∧
    (∀ kv ∈ both, AxisOffset 1 kv.1 ∧ WrapExact [8] kv.1) ∧ (∀ g, InGrid [8] g → |(peak g).val| ≤ 8) ∧
    weightSum (stencilVal Dbl.val both) = 9 / 2 ∧ (∀ kv ∈ both, OffsetFits [8] [2] kv.1) := by
  refine ⟨Dbl.rounded, ⟨by decide, by decide, by decide, by decide, by decide, by decide, by decide, by decide⟩,
    ⟨.cons (by decide) .nil, rfl⟩, ?_, ?_, by decide +kernel, ?_⟩
  · intro kv hkv
    have h : ∀ kv ∈ both, kv.1.length = 1 ∧ ∀ o ∈ kv.1, o = -1 ∨ o = 0 ∨ o = 1 := by decide +kernel
    obtain ⟨h1, h2⟩ := h kv hkv
    match kv.1, h1, h2 with
    | [o], _, h2 =>
      refine ⟨⟨rfl, h2, 0, fun i hi => ?_⟩, fun i hi => ?_⟩
      · match i, hi with
        | i + 1, _ => simp
      · match i, hi with
        | 0, _ => decide
        | i + 1, h => simp at h
  · intro g _
    unfold peak
    split
    · decide +kernel
    · decide +kernel
  · intro kv hkv
    have h : ∀ kv ∈ both, kv.1.length = 1 ∧ (∀ o ∈ kv.1, -(2 : Int) ^ 31 < o ∧ o < 2 ^ 31) ∧ ghostWidth kv.1 ≤ 4 := by
      decide +kernel
    obtain ⟨h1, h2, h3⟩ := h kv hkv
    refine ⟨h1, h2, fun i hi => ?_⟩
    match i, hi with
    | 0, _ => exact h3
    | i + 1, hi =>
      rw [List.getD_eq_getElem?_getD, List.getElem?_eq_none (by omega)] at hi
      exact absurd rfl hi

/-- 8 cells per axis on 16 processes; two steps with 2 cells per axis on 2 processes, where the exact values are 26, 7 and 1
fiftieths: they are near but not equal. -/
example : InRange 16 [8, 8, 8] ∧ 8 ∣ 2 ^ 64 ∧ ValidDecomp 16 [8, 8, 8] [2, 2, 4] ∧
    (UpwindMpi.run (⟨rnd (1 / 10)⟩ : Dbl) 2 2 2 >>= fun w => pure (w.map fun f => (f.lo, f.inData.map Dbl.val))) =
      .ok [([0, 0, 0], [4683743612465317 / 2 ^ 53, 1261007895663739 / 2 ^ 53, 1261007895663739 / 2 ^ 53,
        1441151880758559 / 2 ^ 56]),
        ([0, 1, 0], [1261007895663739 / 2 ^ 53, 1441151880758559 / 2 ^ 56, 1441151880758559 / 2 ^ 56, 0])] ∧
    (4683743612465317 / 2 ^ 53 : ℚ) ≠ 26 / 50 := by
  refine ⟨⟨by decide, by decide, by decide, by decide, by decide, by decide, by decide, by decide⟩, by decide,
    ⟨.cons (by decide) (.cons (by decide) (.cons (by decide) .nil)), rfl⟩, by decide +kernel, by norm_num⟩

end Fidi
