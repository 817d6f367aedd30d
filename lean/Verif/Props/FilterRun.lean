import Verif.Lemmas.FilterRunLock
import Verif.Props.FilterCalls
import Mathlib.Logic.Relation

/-
Property C26: the ranks of the filter as concurrent processes.
-/
namespace Fidi
open Spec Run

/-- Rank `r` ended the fetch of the branch `kv` of the stencil in a round that began with the filters `wt`: its
destination buffer `dst` is the source window for the side of the offset that the neighbour had at the beginning. -/
def FetchReturned {R : Type} (wt : World R) (r : Nat) (kv : List Int × R) (f : Filter R) (dst : Nat) : Prop :=
  ∃ fr nb cd fq win src b, wt[r]? = some fr ∧ fr.dcmp.getNeighborRank fr.rk kv.1 = .ok (nb, cd) ∧ 0 ≤ nb ∧
    wt[nb.toNat]? = some fq ∧ StdMap.find fq.windows (sideOf kv.1) = some win ∧ fq.winBuf[win]? = some src ∧
    fq.bufs[src]? = some b ∧ f.bufs[dst]? = some b

/-- The claim about every interleaving `s` of the ranks that run `setInDataByIndices(u)` and `n` rounds of `applyFilter`
and `copyOutToIn`, when running in lock-step gives `w1` and `w2`. Each round has `st.length + 2` units. -/
structure ScheduleOk {R : Type} [Zero R] [Add R] [Mul R] (strong : Bool) (st : StdMap (List Int) R) (u : List Nat → R)
    (n : Nat) (w1 w2 : World R) (s : List (Proc R)) : Prop where
  /-- a rank between two rounds has the filter of the lock-step execution -/
  boundary : ∀ t ≤ n, ∃ wt, w1.iterate t = .ok wt ∧ ∀ (r : Nat) (p : Proc R), s[r]? = some p →
    p.done = 1 + t * (st.length + 2) → p.phase = .ready → wt[r]? = some p.f
  /-- each fetch of round `t` returns the window of round `t` -/
  fetches : ∀ t < n, ∃ wt, w1.iterate t = .ok wt ∧ ∀ (r : Nat) (p : Proc R), s[r]? = some p →
    ∀ (j : Nat) (kv : List Int × R), st[j]? = some kv → p.done = 1 + t * (st.length + 2) + (1 + j) →
      ∀ wit dst, p.phase = .fetched wit (some dst) → FetchReturned wt r kv p.f dst
  /-- the final data are those of the lock-step execution -/
  final : (∀ p ∈ s, Finished (program st u n) p) → s.map Proc.f = w2
  /-- no operation is undefined: a rank that has not finished and is not within a fence can go on -/
  defined : ∀ (r : Nat) (p : Proc R), s[r]? = some p → ¬ Finished (program st u n) p → (∀ k, p.phase ≠ .fence1 k) →
    (∀ k g, p.phase ≠ .fence2 k g) → ∃ p', RankStep strong (program st u n) s r p p'
  /-- no deadlock -/
  live : (∃ p ∈ s, ¬ Finished (program st u n) p) → ∃ s', Step strong (program st u n) s s'
  /-- no infinite execution -/
  ends : Acc (fun s' s => Step strong (program st u n) s s') s
  /-- all ranks can finish -/
  reaches : ∃ s', Relation.ReflTransGen (Step strong (program st u n)) s s' ∧ ∀ p ∈ s', Finished (program st u n) p

section
variable {R : Type} [Zero R] [Add R] [Mul R] {c : Cfg R}

omit [Zero R] [Add R] [Mul R] in
/-- The iterator of the decomposition does not matter. -/
theorem neighbor_moved (np : Int) (dims d : List Nat) (k k' : Nat) (rk : Int) (dir : List Int) :
    (movedDecomp np dims d k).getNeighborRank rk dir = (movedDecomp np dims d k').getNeighborRank rk dir := rfl

omit [Zero R] [Add R] [Mul R] in
theorem prepare_neighbor {x : List Nat} {fd f1 fr : Filter R} (hs : Shape c x c.tab fd) (hr : Shape c x c.tab fr)
    {off side : List Int} {nb : Int} {wit : MultiArrayIter} (h : fd.prepare off = .ok ((side, nb, wit), f1)) :
    ∃ cd, fr.dcmp.getNeighborRank fr.rk off = .ok (nb, cd) := by
  obtain ⟨k, hk⟩ := hs.dcmp
  obtain ⟨k', hk'⟩ := hr.dcmp
  unfold Filter.prepare at h
  obtain ⟨sd, _, h⟩ := (M.bind_ok_iff _ _ _).1 h
  obtain ⟨⟨nr, cd⟩, e1, h⟩ := (M.bind_ok_iff _ _ _).1 h
  obtain ⟨⟨it, f2⟩, e2, h⟩ := (M.bind_ok_iff _ _ _).1 h
  have := Except.ok.inj h
  simp only [Prod.mk.injEq] at this
  obtain ⟨⟨_, rfl, _⟩, _⟩ := this
  refine ⟨cd, ?_⟩
  rw [hk', hr.rk, neighbor_moved _ _ _ k' k, ← hk, ← hs.rk]
  exact e1

omit [Zero R] in
theorem fetch_returned (hg : c.Good) {prog : List (Op R)} {W : Nat → World R} (hL : Lock c prog W) {s : List (Proc R)}
    (hi : Inv c prog W s) {r : Nat} {p : Proc R} (hr : s[r]? = some p) {kv : List Int × R}
    (ho : prog[p.done]? = some (.entry kv)) {wt : World R} (hwt : Ranks c (fun x f => Shape c x c.tab f) wt)
    (hsame : SameWindows c wt (W p.done)) {wit : MultiArrayIter} {dst : Nat} (hp : p.phase = .fetched wit (some dst)) :
    FetchReturned wt r kv p.f dst := by
  obtain ⟨x, fd, hx, rfl, hfd, hs, hl, hk⟩ := hi.at hL hr
  rw [hp, ho] at hl
  generalize hpf : p.f = f at hl
  cases hl with
  | fetched ho' hpr hfe =>
    rename_i kv' k f1
    rw [Option.some_inj] at ho'
    cases ho'
    obtain ⟨fr, hfr, hkr⟩ := hsame.2 x fd hx hfd
    have k1 := prepare_kept hs hpr.1
    have hside := (prep_uses hg ho (hL.sub kv (List.mem_of_getElem? ho)) hs hpr).1
    obtain ⟨cd, hcd⟩ := prepare_neighbor hs (hwt.2 x fr hx hfr) hpr.1
    obtain ⟨n, win, data, b0, e3, e4, e5, e6, e7⟩ := fetch_inv hfe
    obtain ⟨hdst, hwin⟩ := args_dst hg k1.shape e3
    have hw := hwin
    rw [k1.shape.wins] at hw
    obtain ⟨hlt, _, m, hm, hfits⟩ := hg.tab_ok.link _ _ hw
    rw [hsame.get hg hwt] at e4
    obtain ⟨h0, _, fq, src, b, a1, a2, a3, a4, a5⟩ := get_inv e4
    have hnb : k.neighborRk.toNat < c.nprocs := by
      rw [← hwt.1]
      exact (List.getElem?_eq_some_iff.1 a1).1
    obtain ⟨y, hy, hyr⟩ := hg.coords hnb
    rw [← hyr] at a1
    have hsq := hwt.2 y fq hy a1
    obtain ⟨rfl, _⟩ := winBuf_src hsq a2
    obtain ⟨⟨bs, c1, c2⟩, _⟩ := hsq.buflen _ _ _ hw hm
    rw [a3, Option.some_inj] at c1
    subst c1
    obtain ⟨_, ⟨bd, c3, c4⟩⟩ := k1.shape.buflen _ _ _ hw hm
    rw [← hdst, e5, Option.some_inj] at c3
    subst c3
    obtain ⟨k0, hk0⟩ := k1.shape.iter _ _ _ hw hm
    have hn : n = (winVol c x k.side m : Int) := by
      unfold Filter.fetchArgs at e3
      rw [hk0, hwin, k1.shape.wdata, (hg.tab_ok.link _ _ hw).2.1] at e3
      dsimp only at e3
      have := Except.ok.inj e3
      simp only [Prod.mk.injEq] at this
      rw [← this.1, winIt_terms hg hx hfits, intOfSz_small]
      have := winVol_le hg hx hfits
      have := hg.loc
      omega
    have hvol := winVol_indep hg hx hy hfits
    have hdata : data = b := by
      rw [a5]
      exact List.take_of_length_le (by omega)
    refine ⟨fr, k.neighborRk, cd, fq, win, 2 * win, b, hfr, hcd, h0, by rw [← hyr]; exact a1, ?_, a2, a3, ?_⟩
    · rw [hsq.wins, ← hside]; exact hw
    · rw [e7, hdata]
      dsimp only
      rw [List.drop_eq_nil_of_le (by omega), List.append_nil]
      exact List.getElem?_set_self (List.getElem?_eq_some_iff.1 e5).1

omit [Add R] [Mul R] in
/-- The units of a round are the branches of the stencil. -/
theorem program_at (st : List (List Int × R)) (u : List Nat → R) {n t j : Nat} (ht : t < n) {kv : List Int × R}
    (hj : st[j]? = some kv) : (program st u n)[1 + t * (st.length + 2) + (1 + j)]? = some (.entry kv) := by
  have hlt := (List.getElem?_eq_some_iff.1 hj).1
  obtain ⟨m, hm⟩ : ∃ m, n - t = m + 1 := ⟨n - t - 1, by omega⟩
  rw [program_split st u (Nat.le_of_lt ht), List.getElem?_append_right (by rw [program_length]; omega), program_length,
    show 1 + t * (st.length + 2) + (1 + j) - (1 + t * (st.length + 2)) = j + 1 by omega, hm, List.replicate_succ,
    List.flatten_cons]
  unfold roundOps applyOps
  rw [List.append_assoc, List.cons_append, List.getElem?_cons_succ, List.getElem?_append_left (by simpa using hlt),
    List.getElem?_map, hj]
  rfl

theorem schedule_ok (hg : c.Good) {u : List Nat → R} {n : Nat} {w0 w1 w2 : World R}
    (hw : Ranks c (fun x f => Shape c x c.tab f) w0) (e1 : w0.setInDataByIndices u = .ok w1)
    (e2 : w1.iterate n = .ok w2) (strong : Bool) {s : List (Proc R)}
    (hs : Reachable strong (program c.st u n) w0 s) : ScheduleOk strong c.st u n w1 w2 s := by
  have hL := lock_program hg hw e1 e2
  have h0 : worldAt w0 (program c.st u n) 0 = w0 := rfl
  have hi : Inv c (program c.st u n) (worldAt w0 (program c.st u n)) s := inv_reachable hL (by rw [h0]; exact hs)
  have bound : ∀ t ≤ n, ∃ wt, w1.iterate t = .ok wt ∧ ∀ (r : Nat) (p : Proc R), s[r]? = some p →
      p.done = 1 + t * (c.st.length + 2) → p.phase = .ready → wt[r]? = some p.f := by
    intro t ht
    obtain ⟨wt, hwt⟩ := iterate_prefix ht e2
    refine ⟨wt, hwt, ?_⟩
    intro r p hr hd hp
    obtain ⟨fd, h1, h2⟩ := hi.loc r p hr
    rw [hd, worldAt_round hg ht hw e1 e2 hwt] at h1
    rw [hp] at h2
    generalize hpf : p.f = f at h2
    cases h2
    exact h1
  refine ⟨bound, ?_, ?_, ?_, progress hL hi strong, acc_of_inv hL strong hi, ?_⟩
  · intro t ht
    obtain ⟨wt, hwt⟩ := iterate_prefix (Nat.le_of_lt ht) e2
    refine ⟨wt, hwt, ?_⟩
    intro r p hr j kv hj hd wit dst hp
    have hlt := (List.getElem?_eq_some_iff.1 hj).1
    refine fetch_returned hg hL hi hr (by rw [hd]; exact program_at c.st u ht hj)
      (run_rounds hg t w1 wt (set_shape hg hw e1) hwt).2 ?_ hp
    rw [hd]
    exact worldAt_within hg ht (by omega) hw e1 e2 hwt
  · intro hf
    obtain ⟨wt, hwt, hb⟩ := bound n (Nat.le_refl _)
    rw [e2] at hwt
    obtain rfl := Except.ok.inj hwt
    have hlen : w2.length = c.nprocs := (run_rounds hg n w1 w2 (set_shape hg hw e1) e2).2.1
    apply List.ext_getElem?
    intro r
    rw [List.getElem?_map]
    cases hr : s[r]? with
    | none =>
      rw [List.getElem?_eq_none_iff, hi.len] at hr
      rw [List.getElem?_eq_none (by rw [hlen]; exact hr)]
      rfl
    | some p =>
      have hfin := hf p (List.mem_of_getElem? hr)
      rw [hb r p hr (by rw [hfin.1, program_length]) hfin.2]
      rfl
  · intro r p hr hf h1 h2
    exact can_step hL hi strong hr hf h1 h2
  · have key : ∀ s, Acc (fun s' s => Step strong (program c.st u n) s s') s →
        Inv c (program c.st u n) (worldAt w0 (program c.st u n)) s →
        ∃ s', Relation.ReflTransGen (Step strong (program c.st u n)) s s' ∧ ∀ p ∈ s', Finished (program c.st u n) p := by
      intro s ha
      induction ha with
      | intro s _ ih =>
        intro hi
        by_cases hf : ∀ p ∈ s, Finished (program c.st u n) p
        · exact ⟨s, .refl, hf⟩
        · push Not at hf
          obtain ⟨s1, h1⟩ := progress hL hi strong hf
          obtain ⟨s2, h2, h3⟩ := ih s1 h1 (inv_step hL hi h1)
          exact ⟨s2, .head h1 h2, h3⟩
    exact key s (acc_of_inv hL strong hi) hi

end

section
variable {R : Type} [Zero R] [Add R] [Mul R] [Div R] [NatCast R] [LT R] [DecidableLT R] [HasMax R]

/-- C26: for every grid, process count, stencil whose offsets are no wider than the sub-domains, input and number of
rounds for which the lock-step execution is defined, and for every interleaving of the ranks, whether or not the first
fence of a fetch waits for the other ranks: every fetch of round `t` returns the window of round `t`, the data between
rounds and at the end are those of the lock-step execution, no reachable state is stuck before all ranks have finished
and no execution is infinite. -/
theorem C26_every_schedule (nprocs : Nat) (dims : List Nat) (xmins xmaxs : List R) (st : StdMap (List Int) R)
    (u : List Nat → R) (n : Nat) (hr : InRange nprocs dims) (hex : ∃ d, ValidDecomp nprocs dims d)
    (hf : ∀ d, ValidDecomp nprocs dims d → ∀ kv ∈ st, OffsetFits dims d kv.1) :
    ∃ w0 w1, World.new nprocs dims xmins xmaxs st = .ok w0 ∧ w0.setInDataByIndices u = .ok w1 ∧
      ∀ w2, w1.iterate n = .ok w2 → ∀ strong s, Reachable strong (program st u n) w0 s →
        ScheduleOk strong st u n w1 w2 s := by
  obtain ⟨d, hg, hb⟩ := setup_good nprocs dims xmins xmaxs st hr hex hf
  obtain ⟨w0, e0, h0⟩ := world_new hg hb
  obtain ⟨w1, e1, _⟩ := world_set hg h0 u
  refine ⟨w0, w1, e0, e1, ?_⟩
  intro w2 e2 strong s hs
  exact schedule_ok hg (w0 := w0) ⟨h0.1, fun x f hx hf => (h0.2 x f hx hf).1⟩ e1 e2 strong hs

/-- C26 with C18: under the conditions of C18 the lock-step execution is defined, so every interleaving of the ranks ends,
and ends with the `n`-fold application of the stencil to `u`. -/
theorem C26_every_schedule_iterates_partial (nprocs : Nat) (dims : List Nat) (xmins xmaxs : List R)
    (st : StdMap (List Int) R) (u : List Nat → R) (n : Nat) (hr : InRange nprocs dims)
    (hex : ∃ d, ValidDecomp nprocs dims d) (hu : ∀ kv ∈ st, AxisOffset dims.length kv.1)
    (hw : ∀ kv ∈ st, WrapExact dims kv.1) :
    ∃ w0, World.new nprocs dims xmins xmaxs st = .ok w0 ∧
      ∀ strong s, Reachable strong (program st u n) w0 s →
        Acc (fun s' s => Step strong (program st u n) s s') s ∧
        ((∃ p ∈ s, ¬ Finished (program st u n) p) → ∃ s', Step strong (program st u n) s s') ∧
        ((∀ p ∈ s, Finished (program st u n) p) → Partition (s.map Proc.f) nprocs dims ∧
          InputIs (s.map Proc.f) (stencilIter dims st u n)) := by
  obtain ⟨d, hg, hb⟩ := fine_of_range hr hex xmins xmaxs st (fun kv h => axis_unit (hu kv h))
    (fun d _ kv h => axis_oneHalo (hu kv h) d _) hw
  obtain ⟨w0, e0, h0⟩ := world_new hg.toGood hb
  obtain ⟨w0', w1, w2, e0', e1, e2, h1, h2⟩ := C18_iterates_partial nprocs dims xmins xmaxs st u n hr hex hu hw
  have ee : w0' = w0 := by
    have := e0'.symm.trans e0
    exact Except.ok.inj this
  subst ee
  refine ⟨w0', e0, ?_⟩
  intro strong s hs
  have := schedule_ok hg.toGood (w0 := w0') ⟨h0.1, fun x f hx hf => (h0.2 x f hx hf).1⟩ e1 e2 strong hs
  refine ⟨this.ends, this.live, fun hfin => ?_⟩
  rw [this.final hfin]
  exact ⟨h1, h2⟩

end

private def src (t : List Nat) : ℚ := (t.headD 0 : Nat)
private def two : StdMap (List Int) ℚ := [([-1], 3), ([0], 1), ([1], 5)]

private theorem two_fits : ∀ d, ValidDecomp 2 [8] d → ∀ kv ∈ two, OffsetFits [8] d kv.1 := by
  intro d hd kv hkv
  obtain ⟨k, rfl⟩ : ∃ k, d = [k] := by
    match d, hd.1 with
    | [k], _ => exact ⟨k, rfl⟩
  have hk : k = 2 := by simpa using hd.2
  subst hk
  simp only [two, List.mem_cons, List.not_mem_nil, or_false] at hkv
  rcases hkv with rfl | rfl | rfl <;> refine ⟨rfl, by decide, ?_⟩ <;> intro i hi <;>
    match i, hi with
    | 0, _ => decide
    | i + 1, h => simp at h

/-- C26 is met by a non-trivial case: 8 cells on 2 processes, a stencil with two sides and 3 rounds. The lock-step
execution is defined, and every interleaving leads to its result. -/
example : InRange 2 [8] ∧ (∃ d, ValidDecomp 2 [8] d) ∧ (∀ d, ValidDecomp 2 [8] d → ∀ kv ∈ two, OffsetFits [8] d kv.1) ∧
    ∃ w0, World.new 2 [8] [0] [1] two = .ok w0 ∧ ∀ strong s, Reachable strong (program two src 3) w0 s →
      ∃ s', Relation.ReflTransGen (Step strong (program two src 3)) s s' ∧
        s'.map (fun p => p.f.inData) = [[2070, 1647, 2160, 2673], [3402, 3131, 3260, 2069]] := by
  have hr : InRange 2 [8] := ⟨by decide, by decide, by decide, by decide, by decide, by decide, by decide, by decide⟩
  have hv : ∃ d, ValidDecomp 2 [8] d := ⟨[2], .cons (by decide) .nil, rfl⟩
  refine ⟨hr, hv, two_fits, ?_⟩
  obtain ⟨w0, w1, e0, e1, h⟩ := C26_every_schedule 2 [8] [0] [1] two src 3 hr hv two_fits
  have e : ((World.new 2 [8] [0] [1] two : M (World ℚ)) >>= fun w => w.setInDataByIndices src >>= fun w => w.iterate 3 >>=
      fun w => pure (w.map fun f => f.inData)) = .ok [[2070, 1647, 2160, 2673], [3402, 3131, 3260, 2069]] := by
    decide +kernel
  rw [e0, M.ok_bind, e1, M.ok_bind] at e
  obtain ⟨w2, e2, e3⟩ := (M.bind_ok_iff _ _ _).1 e
  refine ⟨w0, e0, fun strong s hs => ?_⟩
  obtain ⟨s', h1, h2⟩ := (h w2 e2 strong s hs).reaches
  have hs' : Reachable strong (program two src 3) w0 s' := by
    clear h2
    induction h1 with
    | refl => exact hs
    | tail _ hst ih => exact .step ih hst
  refine ⟨s', h1, ?_⟩
  rw [← Except.ok.inj e3, ← (h w2 e2 strong s' hs').final h2, List.map_map]
  rfl

end Fidi
