import Verif.Props.Drivers
import Verif.Lemmas.FilterWrap

/-
`laplacian` and `upwindMpi` on one process, for numbers of cells that are not powers of two.
-/
namespace Fidi
open Spec Finset

/-! The displacement of the code. -/

theorem prev64 {a N : Nat} (ha : a < N) (hN : N < 2 ^ 31) :
    (((a : Int) + -1) % 2 ^ 64).toNat % N = if a = 0 then (2 ^ 64 - 1) % N else a - 1 := by
  split
  · next h =>
    subst h
    have : ((((0 : Nat) : Int) + -1) % 2 ^ 64).toNat = 2 ^ 64 - 1 := by decide
    rw [this]
  · next h =>
    obtain ⟨b, hb⟩ : ∃ b : Nat, (a : Int) + -1 = b := ⟨a - 1, by omega⟩
    rw [hb, Int.emod_eq_of_lt (by omega) (by omega), Int.toNat_natCast, Nat.mod_eq_of_lt (by omega)]
    omega

theorem same64 {a N : Nat} (ha : a < N) (hN : N < 2 ^ 31) : (((a : Int) + 0) % 2 ^ 64).toNat % N = a := by
  rw [add_zero, Int.emod_eq_of_lt (by omega) (by omega), Int.toNat_natCast, Nat.mod_eq_of_lt ha]

theorem prevMod {a N : Nat} (ha : a < N) :
    (((a : Int) + -1) % (N : Int)).toNat = if a = 0 then N - 1 else a - 1 := by
  split
  · next h =>
    subst h
    have : (((0 : Nat) : Int) + -1) = -1 := by norm_num
    rw [this, ← Int.add_emod_right, Int.emod_eq_of_lt (by omega) (by omega)]
    omega
  · next h =>
    rw [Int.emod_eq_of_lt (by omega) (by omega)]
    omega

theorem sameMod {a N : Nat} (ha : a < N) : (((a : Int) + 0) % (N : Int)).toNat = a := by
  rw [add_zero, Int.emod_eq_of_lt (by omega) (by omega), Int.toNat_natCast]

section
variable {K : Type} [Field K]

theorem stencilStep64_sum (dims : List Nat) (st : List (List Int × K)) (u : List Nat → K) (g : List Nat) :
    stencilStep64 dims st u g = (st.map fun p => p.2 * u (shift64 dims g p.1)).sum := by
  unfold stencilStep64
  rw [← List.foldl_map (f := fun p : List Int × K => p.2 * u (shift64 dims g p.1)) (g := fun acc x => acc + x), foldl_add,
    zero_add]

theorem total_step64 (dims : List Nat) (st : List (List Int × K)) (u : List Nat → K) :
    total dims (stencilStep64 dims st u) = (st.map fun p => p.2 * total dims fun g => u (shift64 dims g p.1)).sum := by
  have : total dims (stencilStep64 dims st u) =
      total dims fun g => (st.map fun p => p.2 * u (shift64 dims g p.1)).sum := by
    congr 1
    funext g
    exact stencilStep64_sum dims st u g
  rw [this]
  induction st with
  | nil => simp [total]
  | cons p st ih =>
    simp only [List.map_cons, List.sum_cons]
    rw [← ih (by congr 1; funext g; exact stencilStep64_sum dims st u g)]
    unfold total
    rw [mul_sum, ← sum_add_distrib]

/-- The field that is 1 in the last cell. -/
def lastCell (n N : Nat) (t : List Nat) : K := if t = List.replicate n (N - 1) then 1 else 0

theorem total_lastCell {n N : Nat} (hN : 0 < N) : total (List.replicate n N) (lastCell (K := K) n N) = 1 := by
  have hp : ∀ m ∈ List.replicate n N, 0 < m := by
    intro m hm
    rw [List.eq_of_mem_replicate hm]; exact hN
  have hg : InGrid (List.replicate n N) (List.replicate n (N - 1)) :=
    inGrid_iff_getElem.2 ⟨by simp, fun i _ _ => by simp; omega⟩
  unfold total
  rw [sum_eq_single_of_mem (rankOf (List.replicate n N) (List.replicate n (N - 1))) (mem_range.2 (rankOf_lt hg))]
  · rw [cellAt_rankOf hg]
    simp [lastCell]
  · intro i hi hne
    unfold lastCell
    rw [if_neg]
    intro e
    apply hne
    rw [← e, rankOf_cellAt hp (mem_range.1 hi)]

/-- The sum of what the code makes of that field. -/
theorem total_lap64 {n N : Nat} (hN : 0 < N) (hN31 : N < 2 ^ 31) (hw : ¬ N ∣ 2 ^ 64) {st : List (List Int × K)}
    (hperm : st.Perm (lapEntries K n n)) :
    total (List.replicate n N) (stencilStep64 (List.replicate n N) st (lastCell n N)) = -(n : K) := by
  have hp : ∀ m ∈ List.replicate n N, 0 < m := by
    intro m hm
    rw [List.eq_of_mem_replicate hm]; exact hN
  have hd : ∀ m ∈ List.replicate n N, m < 2 ^ 31 := by
    intro m hm
    rw [List.eq_of_mem_replicate hm]; exact hN31
  have hlen : (List.replicate n N).length = n := by simp
  have hz : total (List.replicate n N) (fun g => lastCell (K := K) n N (shift64 (List.replicate n N) g (List.replicate n 0))) = 1 := by
    rw [← total_lastCell (K := K) (n := n) hN]
    refine total_congr hp fun g hg => ?_
    rw [shift64_eq hg hd (axis_unit (by rw [hlen]; exact zeroOff_axis n))]
    · have := shiftMod_zeroOff hg
      rw [hlen] at this
      rw [this]
    · intro i hi
      exfalso
      rw [List.getD_eq_getElem?_getD, List.getElem?_replicate] at hi
      split at hi <;> simp at hi
  have h1 : ∀ j, total (List.replicate n N) (fun g => lastCell (K := K) n N (shift64 (List.replicate n N) g (axisOff n j 1))) = 1 := by
    intro j
    rw [← total_lastCell (K := K) (n := n) hN, ← total_neighbour hp j 1 (lastCell (K := K) n N)]
    refine total_congr hp fun g hg => ?_
    rw [shift64_eq hg hd (axis_unit (by rw [hlen]; exact axisOff_axis (.inr (.inr rfl))))]
    · have := shiftMod_axisOff hg j 1
      rw [hlen] at this
      rw [this]
    · intro i hi
      exfalso
      rw [List.getD_eq_getElem?_getD] at hi
      by_cases h : i < n
      · rw [getElem?_axisOff n j i 1 h] at hi
        simp only [Option.getD_some] at hi
        split at hi <;> omega
      · rw [List.getElem?_eq_none (by rw [length_axisOff]; omega)] at hi
        simp at hi
  have h2 : ∀ j, j < n → total (List.replicate n N) (fun g => lastCell (K := K) n N (shift64 (List.replicate n N) g (axisOff n j (-1)))) = 0 := by
    intro j hj
    refine sum_eq_zero fun i _ => ?_
    have hg := cellAt_inGrid hp i
    generalize cellAt (List.replicate n N) i = g at hg
    show lastCell n N _ = 0
    unfold lastCell
    rw [if_neg]
    intro e
    have hgl := hg.length_eq
    rw [hlen] at hgl
    have e' := congrArg (fun l : List Nat => l[j]?) e
    have hb := (inGrid_iff_getElem.1 hg).2 j (by simpa using hj) (by omega)
    simp only [List.getElem_replicate] at hb
    have hs := shift64_getElem (d := List.replicate n N) (x := g) (dir := axisOff n j (-1)) j (by simpa using hj) (by omega)
      (by rw [length_axisOff]; exact hj)
    have ho : (axisOff n j (-1))[j]'(by rw [length_axisOff]; exact hj) = -1 := by
      have := getElem?_axisOff n j j (-1) hj
      rw [List.getElem?_eq_getElem (by rw [length_axisOff]; exact hj), if_pos rfl, Option.some_inj] at this
      exact this
    rw [hs, ho, List.getElem?_replicate, if_pos hj, Option.some_inj, List.getElem_replicate, prev64 hb hN31] at e'
    split at e'
    · exact hw ((wrap_neg_iff hN).1 e')
    · omega
  rw [total_step64, (hperm.map _).sum_eq]
  have key : ∀ m, m ≤ n → ((lapEntries K n m).map fun p => p.2 * total (List.replicate n N) fun g =>
      lastCell (K := K) n N (shift64 (List.replicate n N) g p.1)).sum = -2 * n + m := by
    intro m
    induction m with
    | zero => intro _; simp [lapEntries, hz]
    | succ m ih =>
      intro hm
      rw [lapEntries_succ, List.map_append, List.sum_append, ih (by omega)]
      simp only [List.map_cons, List.map_nil, List.sum_cons, List.sum_nil, h1, h2 m (by omega)]
      push_cast
      ring
  rw [key n (Nat.le_refl _)]
  ring

variable [LT K] [DecidableLT K] [HasMax K]

/-- The filter of `laplacian` on one process. -/
theorem lap_one [HasSin K] (N n : Nat) (hr : InRange 1 (List.replicate n N)) :
    ∃ (d : List Nat) (st : StdMap (List Int) K) (w : World K), st.Perm (lapEntries K n n) ∧
      (lapCfg 1 N n d st).Unit ∧ Laplacian.start 1 N n = .ok w ∧
      Ranks (lapCfg 1 N n d st) (fun x f => Shape (lapCfg 1 N n d st) x (lapCfg 1 N n d st).tab f ∧
        f.inData = List.replicate (lapCfg 1 N n d st).L.prod 0 ∧
        f.outData = List.replicate (lapCfg 1 N n d st).L.prod 0) w := by
  obtain ⟨st, e, hperm⟩ := laplacian_stencil (R := K) n
  have haxis : ∀ kv ∈ st, AxisOffset (List.replicate n N).length kv.1 := by
    intro kv hkv
    rw [List.length_replicate]
    rcases mem_lapEntries (hperm.mem_iff.1 hkv) with h | ⟨i, _, h | h⟩
    · rw [h]; exact zeroOff_axis n
    · rw [h]; exact axisOff_axis (.inr (.inr rfl))
    · rw [h]; exact axisOff_axis (.inl rfl)
  obtain ⟨d, hf, hb⟩ := unit_of_range hr (List.replicate n (0 : K)) (List.replicate n 1) st
    (fun kv h => axis_unit (haxis kv h))
  obtain ⟨w, ew, h0⟩ := world_new hf.toGood hb
  have hax := hr.axes
  rw [List.length_replicate] at hax
  have hN31 : N < 2 ^ 31 := hr.ext N (List.mem_replicate.2 ⟨fun e => hr.ne (by rw [e]; rfl), rfl⟩)
  have hstart : Laplacian.start 1 N n = .ok w := by
    unfold Laplacian.start
    dsimp only
    rw [if_neg (by omega), szOfInt_ofNat (by unfold W; omega), e, M.ok_bind,
      szOfInt_ofNat (by unfold W; omega)]
    exact ew
  exact ⟨d, st, w, hperm, hf, hstart, h0⟩

end

/-! `upwindMpi`. -/

section
variable {K : Type} [Field K] [LinearOrder K] [IsStrictOrderedRing K]

/-- The stencil of `upwindMpi`. -/
abbrev mpiSt (w : K) : StdMap (List Int) K :=
  [([-1, 0, 0], w), ([0, -1, 0], w), ([0, 0, -1], w), ([0, 0, 0], 1 - w - w - w)]

/-- The index the code takes for the left neighbour. -/
def prevCode (N a : Nat) : Nat := if a = 0 then (2 ^ 64 - 1) % N else a - 1
/-- The left neighbour. -/
def prevPer (N a : Nat) : Nat := if a = 0 then N - 1 else a - 1

omit [LinearOrder K] [IsStrictOrderedRing K] in
theorem mpi_step64 {N a b c : Nat} (ha : a < N) (hb : b < N) (hc : c < N) (hN : N < 2 ^ 31) (w : K) (u : List Nat → K) :
    stencilStep64 [N, N, N] (mpiSt w) u [a, b, c] =
      w * u [prevCode N a, b, c] + w * u [a, prevCode N b, c] + w * u [a, b, prevCode N c] + (1 - w - w - w) * u [a, b, c] := by
  unfold stencilStep64 mpiSt
  simp only [List.foldl_cons, List.foldl_nil, shift64, prev64 ha hN, prev64 hb hN, prev64 hc hN, same64 ha hN, same64 hb hN,
    same64 hc hN, zero_add]
  rfl

omit [LinearOrder K] [IsStrictOrderedRing K] in
theorem mpi_stepPer {N a b c : Nat} (ha : a < N) (hb : b < N) (hc : c < N) (w : K) (u : List Nat → K) :
    stencilStep [N, N, N] (mpiSt w) u [a, b, c] =
      w * u [prevPer N a, b, c] + w * u [a, prevPer N b, c] + w * u [a, b, prevPer N c] + (1 - w - w - w) * u [a, b, c] := by
  unfold stencilStep mpiSt
  simp only [List.foldl_cons, List.foldl_nil, shiftMod, prevMod ha, prevMod hb, prevMod hc, sameMod ha, sameMod hb,
    sameMod hc, zero_add]
  rfl

/-- The field of the code after `k` steps. -/
def mpiCode (N : Nat) (w : K) (u : List Nat → K) (k : Nat) : List Nat → K := stencilIter64 [N, N, N] (mpiSt w) u k

theorem prevCode_lt {N a : Nat} (ha : a < N) : prevCode N a < N := by
  unfold prevCode
  split
  · exact Nat.mod_lt _ (by omega)
  · omega

variable {N : Nat} {w : K} {u : List Nat → K}

theorem mpiCode_nonneg (hN : N < 2 ^ 31) (hw : 0 < w) (hw3 : 3 * w ≤ 1)
    (hu : ∀ a b c, a < N → b < N → c < N → 0 ≤ u [a, b, c]) (k : Nat) :
    ∀ a b c, a < N → b < N → c < N → 0 ≤ mpiCode N w u k [a, b, c] := by
  induction k with
  | zero => exact hu
  | succ k ih =>
    intro a b c ha hb hc
    show 0 ≤ stencilStep64 _ _ _ _
    rw [mpi_step64 ha hb hc hN]
    have h1 := mul_nonneg hw.le (ih _ b c (prevCode_lt ha) hb hc)
    have h2 := mul_nonneg hw.le (ih a _ c ha (prevCode_lt hb) hc)
    have h3 := mul_nonneg hw.le (ih a b _ ha hb (prevCode_lt hc))
    have h4 := mul_nonneg (by linarith : 0 ≤ 1 - w - w - w) (ih a b c ha hb hc)
    unfold mpiCode at h1 h2 h3 h4
    linarith

omit [IsStrictOrderedRing K] [LinearOrder K] in
/-- After `k` steps nothing has gone further than `k` cells. -/
theorem mpiCode_zero (hN : N < 2 ^ 31) (hu : ∀ a b c, a < N → b < N → c < N → (0 < a ∨ 0 < b ∨ 0 < c) → u [a, b, c] = 0)
    (k : Nat) : ∀ a b c, a < N → b < N → c < N → (k < a ∨ k < b ∨ k < c) → mpiCode N w u k [a, b, c] = 0 := by
  induction k with
  | zero => exact hu
  | succ k ih =>
    intro a b c ha hb hc h
    show stencilStep64 _ _ _ _ = 0
    rw [mpi_step64 ha hb hc hN]
    unfold mpiCode at ih
    have e : ∀ x, k + 1 < x → k < prevCode N x := by
      intro x hx
      unfold prevCode
      rw [if_neg (by omega)]
      omega
    have h1 := ih _ b c (prevCode_lt ha) hb hc
      (by rcases h with h | h | h; exacts [.inl (e _ h), .inr (.inl (by omega)), .inr (.inr (by omega))])
    have h2 := ih a _ c ha (prevCode_lt hb) hc
      (by rcases h with h | h | h; exacts [.inl (by omega), .inr (.inl (e _ h)), .inr (.inr (by omega))])
    have h3 := ih a b _ ha hb (prevCode_lt hc)
      (by rcases h with h | h | h; exacts [.inl (by omega), .inr (.inl (by omega)), .inr (.inr (e _ h))])
    have h4 := ih a b c ha hb hc (by rcases h with h | h | h; exacts [.inl (by omega), .inr (.inl (by omega)), .inr (.inr (by omega))])
    rw [h1, h2, h3, h4]
    ring

/-- Something has gone `k` cells along the first axis. -/
theorem mpiCode_pos (hN : N < 2 ^ 31) (hw : 0 < w) (hw3 : 3 * w ≤ 1)
    (hu : ∀ a b c, a < N → b < N → c < N → 0 ≤ u [a, b, c]) (h0 : 0 < u [0, 0, 0]) (k : Nat) (hk : k < N) :
    0 < mpiCode N w u k [k, 0, 0] := by
  induction k with
  | zero => exact h0
  | succ k ih =>
    have hnn := mpiCode_nonneg hN hw hw3 hu k
    have h1 := ih (by omega)
    show 0 < stencilStep64 _ _ _ _
    rw [mpi_step64 hk (by omega) (by omega) hN]
    have e : prevCode N (k + 1) = k := by unfold prevCode; simp
    rw [e]
    have h2 := mul_pos hw h1
    have h3 := mul_nonneg hw.le (hnn (k + 1) _ 0 hk (prevCode_lt (by omega : 0 < N)) (by omega))
    have h4 := mul_nonneg hw.le (hnn (k + 1) 0 _ hk (by omega) (prevCode_lt (by omega : 0 < N)))
    have h5 := mul_nonneg (by linarith : 0 ≤ 1 - w - w - w) (hnn (k + 1) 0 0 hk (by omega) (by omega))
    unfold mpiCode at h2 h3 h4 h5
    linarith

omit [LinearOrder K] [IsStrictOrderedRing K] in
theorem mpi_totalPer (hp : ∀ n ∈ [N, N, N], 0 < n) (v : List Nat → K) :
    total [N, N, N] (stencilStep [N, N, N] (mpiSt w) v) = total [N, N, N] v := by
  rw [total_congr hp (fun g hg => mpi_step rfl hg w v)]
  exact total_iter hp (fun _ => -1) (fun _ => -w) 1 v

theorem cell3 {g : List Nat} (hg : InGrid [N, N, N] g) : ∃ a b c, g = [a, b, c] ∧ a < N ∧ b < N ∧ c < N := by
  match g, hg with
  | [a, b, c], hg =>
    obtain ⟨_, hb⟩ := inGrid_iff_getElem.1 hg
    exact ⟨a, b, c, rfl, hb 0 (by simp) (by simp), hb 1 (by simp) (by simp), hb 2 (by simp) (by simp)⟩

/-- As long as the last cells are empty, the code adds at least what the periodic scheme adds. -/
theorem mpi_step_ge (hN : N < 2 ^ 31) (hw : 0 < w) {v : List Nat → K}
    (hv : ∀ a b c, a < N → b < N → c < N → 0 ≤ v [a, b, c])
    (hz : ∀ a b c, a < N → b < N → c < N → (N - 1 = a ∨ N - 1 = b ∨ N - 1 = c) → v [a, b, c] = 0) {g : List Nat}
    (hg : InGrid [N, N, N] g) :
    stencilStep [N, N, N] (mpiSt w) v g ≤ stencilStep64 [N, N, N] (mpiSt w) v g := by
  obtain ⟨a, b, c, rfl, ha, hb, hc⟩ := cell3 hg
  rw [mpi_step64 ha hb hc hN, mpi_stepPer ha hb hc]
  have h1 : v [prevPer N a, b, c] ≤ v [prevCode N a, b, c] := by
    unfold prevPer prevCode
    split
    · rw [hz _ b c (by omega) hb hc (.inl rfl)]; exact hv _ b c (Nat.mod_lt _ (by omega)) hb hc
    · exact le_refl _
  have h2 : v [a, prevPer N b, c] ≤ v [a, prevCode N b, c] := by
    unfold prevPer prevCode
    split
    · rw [hz a _ c ha (by omega) hc (.inr (.inl rfl))]; exact hv a _ c ha (Nat.mod_lt _ (by omega)) hc
    · exact le_refl _
  have h3 : v [a, b, prevPer N c] ≤ v [a, b, prevCode N c] := by
    unfold prevPer prevCode
    split
    · rw [hz a b _ ha hb (by omega) (.inr (.inr rfl))]; exact hv a b _ ha hb (Nat.mod_lt _ (by omega))
    · exact le_refl _
  have := mul_le_mul_of_nonneg_left h1 hw.le
  have := mul_le_mul_of_nonneg_left h2 hw.le
  have := mul_le_mul_of_nonneg_left h3 hw.le
  linarith

/-- The sum of the field of the code exceeds that of the initial field after `r + 1` steps, `r` being the remainder of
2^64 - 1. -/
theorem mpi_total_gt (hN0 : 0 < N) (hN : N < 2 ^ 31) (hdiv : ¬ N ∣ 2 ^ 64) (hw : 0 < w) (hw3 : 3 * w ≤ 1)
    (hu : ∀ a b c, a < N → b < N → c < N → 0 ≤ u [a, b, c]) (h0 : 0 < u [0, 0, 0])
    (hu0 : ∀ a b c, a < N → b < N → c < N → (0 < a ∨ 0 < b ∨ 0 < c) → u [a, b, c] = 0) :
    total [N, N, N] u < total [N, N, N] (mpiCode N w u ((2 ^ 64 - 1) % N + 1)) := by
  have hp : ∀ n ∈ [N, N, N], 0 < n := by
    intro n hn
    simp only [List.mem_cons, List.not_mem_nil, or_false] at hn
    omega
  have hr : (2 ^ 64 - 1) % N < N - 1 := by
    have h1 := Nat.mod_lt (2 ^ 64 - 1) hN0
    have h2 : (2 ^ 64 - 1) % N ≠ N - 1 := fun e => hdiv ((wrap_neg_iff hN0).1 e)
    omega
  have hz : ∀ k, k < N - 1 → ∀ a b c, a < N → b < N → c < N → (N - 1 = a ∨ N - 1 = b ∨ N - 1 = c) →
      mpiCode N w u k [a, b, c] = 0 := by
    intro k hk a b c ha hb hc h
    exact mpiCode_zero hN hu0 k a b c ha hb hc (by omega)
  have mono : ∀ k, k < N - 1 → total [N, N, N] (mpiCode N w u k) ≤ total [N, N, N] (mpiCode N w u (k + 1)) := by
    intro k hk
    rw [← mpi_totalPer (w := w) hp (mpiCode N w u k)]
    exact sum_le_sum fun i _ => mpi_step_ge hN hw (mpiCode_nonneg hN hw hw3 hu k) (hz k hk) (cellAt_inGrid hp i)
  have ge : ∀ k, k ≤ N - 1 → total [N, N, N] u ≤ total [N, N, N] (mpiCode N w u k) := by
    intro k
    induction k with
    | zero => intro _; exact le_refl _
    | succ k ih => intro hk; exact le_trans (ih (by omega)) (mono k (by omega))
  refine lt_of_le_of_lt (ge _ hr.le) ?_
  generalize hrr : (2 ^ 64 - 1) % N = r at hr ⊢
  rw [← mpi_totalPer (w := w) hp (mpiCode N w u r)]
  have hg0 : InGrid [N, N, N] [0, 0, 0] := inGrid_iff_getElem.2 ⟨rfl, by
    intro i h1 _; match i, h1 with | 0, _ => exact hN0 | 1, _ => exact hN0 | 2, _ => exact hN0⟩
  refine sum_lt_sum (fun i _ => mpi_step_ge hN hw (mpiCode_nonneg hN hw hw3 hu r) (hz r hr) (cellAt_inGrid hp i))
    ⟨rankOf [N, N, N] [0, 0, 0], mem_range.2 (rankOf_lt hg0), ?_⟩
  rw [cellAt_rankOf hg0]
  show stencilStep _ _ _ _ < stencilStep64 _ _ _ _
  rw [mpi_step64 hN0 hN0 hN0 hN, mpi_stepPer hN0 hN0 hN0]
  have e1 : prevPer N 0 = N - 1 := rfl
  have e2 : prevCode N 0 = r := by rw [← hrr]; rfl
  rw [e1, e2, hz r hr _ 0 0 (by omega) hN0 hN0 (.inl rfl), hz r hr 0 _ 0 hN0 (by omega) hN0 (.inr (.inl rfl)),
    hz r hr 0 0 _ hN0 hN0 (by omega) (.inr (.inr rfl))]
  have h1 := mul_pos hw (mpiCode_pos hN hw hw3 hu h0 r (by omega))
  have h2 := mul_nonneg hw.le (mpiCode_nonneg hN hw hw3 hu r 0 r 0 hN0 (by omega) hN0)
  have h3 := mul_nonneg hw.le (mpiCode_nonneg hN hw hw3 hu r 0 0 r hN0 hN0 (by omega))
  unfold mpiCode at h1 h2 h3 ⊢
  linarith

end
end Fidi
