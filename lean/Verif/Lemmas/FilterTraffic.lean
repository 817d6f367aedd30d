import Verif.Model.FilterTraffic
import Verif.Lemmas.FilterRunLock
import Verif.Lemmas.FilterProcs

/-
The calls of `MPI_Get` made by the ranks.
-/
namespace Fidi
namespace Run
open Spec
variable {R : Type} {c : Cfg R}

/-- The calls of a unit of the program. -/
def opCalls (c : Cfg R) (x : List Nat) : Op R → List GetCall
  | .loc _ => []
  | .entry kv => plannedCalls c.d c.L [kv.1] x

/-- The calls of the rank at `x` at position `l` of unit `d`. -/
def callsAt (c : Cfg R) (prog : List (Op R)) (x : List Nat) (d l : Nat) : List GetCall :=
  (prog.take d).flatMap (opCalls c x) ++ if 4 ≤ l then (prog[d]?.toList).flatMap (opCalls c x) else []

theorem callsAt_next {prog : List (Op R)} {x : List Nat} {d l : Nat} (hl : 4 ≤ l) : callsAt c prog x (d + 1) 0 = callsAt c prog x d l := by
  unfold callsAt
  rw [if_neg (by omega), if_pos hl, List.append_nil, List.take_add_one, List.flatMap_append]

theorem callsAt_quiet {prog : List (Op R)} {x : List Nat} {d : Nat} {op : Op R} (h : prog[d]? = some op)
    (he : opCalls c x op = []) (l l' : Nat) : callsAt c prog x d l = callsAt c prog x d l' := by
  unfold callsAt
  rw [h]
  simp [he]

theorem callsAt_level {prog : List (Op R)} {x : List Nat} {d l l' : Nat} (h : 4 ≤ l ↔ 4 ≤ l') :
    callsAt c prog x d l = callsAt c prog x d l' := by
  unfold callsAt
  simp only [h]

theorem callsAt_made {prog : List (Op R)} {x : List Nat} {d : Nat} {op : Op R} (h : prog[d]? = some op) {l l' : Nat}
    (hl : l < 4) (hl' : 4 ≤ l') : callsAt c prog x d l' = callsAt c prog x d l ++ opCalls c x op := by
  unfold callsAt
  rw [h, if_pos hl', if_neg (by omega : ¬ 4 ≤ l), List.append_nil]
  simp

theorem any_ne_iff (off : List Int) : off.any (· ≠ 0) = true ↔ off.countP (· ≠ 0) ≠ 0 := by
  rw [← Nat.pos_iff_ne_zero, List.countP_pos_iff, List.any_eq_true]

theorem layerCells_eq : ∀ (L : List Nat) (off : List Int), L.length = off.length →
    (List.zipWith (fun l (s : Int) => if s = 0 then l else 1) L (sideOf off)).prod = layerCells L off
  | [], [], _ => rfl
  | l :: L, o :: off, h => by
    have ih := layerCells_eq L off (by simpa using h)
    have e : (-o.sign = 0) ↔ o = 0 := by rw [neg_eq_zero, Int.sign_eq_zero_iff_zero]
    unfold sideOf at ih ⊢
    simp only [List.map_cons, List.zipWith_cons_cons, List.prod_cons, layerCells, ih, e]
  | [], _ :: _, h => by simp at h
  | _ :: _, [], h => by simp at h

theorem opCalls_none {x : List Nat} {kv : List Int × R} (h : kv.1.countP (· ≠ 0) = 0) :
    opCalls c x (.entry kv) = [] := by
  unfold opCalls plannedCalls
  have : kv.1.any (· ≠ 0) = false := by
    rw [Bool.eq_false_iff, Ne, any_ne_iff, not_not]; exact h
  simp only [List.filter_cons, this, List.filter_nil]
  rfl

theorem opCalls_some {x : List Nat} {kv : List Int × R} (h : kv.1.countP (· ≠ 0) ≠ 0) :
    opCalls c x (.entry kv) = [⟨rankOf c.d x, rankOf c.d (shiftMod c.d x kv.1), layerCells c.L kv.1⟩] := by
  unfold opCalls plannedCalls
  have : kv.1.any (· ≠ 0) = true := (any_ne_iff _).2 h
  simp only [List.filter_cons, this, List.filter_nil]
  rfl

variable [Zero R] [Add R] [Mul R]

/-- Every rank has made the calls of its position, and there are no other calls. -/
structure CallsInv (c : Cfg R) (prog : List (Op R)) (log : List GetCall) (s : List (Proc R)) : Prop where
  own : ∀ x, InGrid c.d x → ∀ p, s[rankOf c.d x]? = some p →
    (log.filter fun m => m.origin = rankOf c.d x) = callsAt c prog x p.done (lev p.phase)
  ranks : ∀ m ∈ log, m.origin < c.nprocs

variable {prog : List (Op R)} {W : Nat → World R}

omit [Zero R] [Add R] [Mul R] in
/-- What the call of `MPI_Get` of a branch asks for. -/
theorem get_call (h : c.Unit) {x : List Nat} (hx : InGrid c.d x) {fd f1 : Filter R} (hs : Shape c x c.tab fd)
    {kv : List Int × R} (hkv : kv ∈ c.st) {k : Ctx} (hp : Prep fd kv k f1) {n : Int} {dst : Nat}
    (ha : f1.fetchArgs k.side = .ok (n, k.win, dst)) :
    opCalls c x (.entry kv) = [⟨rankOf c.d x, k.neighborRk.toNat, n.toNat⟩] := by
  have k1 := prepare_kept hs hp.1
  have e := hp.1
  rw [prepare_eq h hx hs hkv] at e
  have e := Except.ok.inj e
  simp only [Prod.mk.injEq] at e
  obtain ⟨⟨e1, e2, e3⟩, e4⟩ := e
  obtain ⟨hdst, hwin⟩ := args_dst h.toGood k1.shape ha
  have hw := hwin
  rw [k1.shape.wins] at hw
  obtain ⟨hlt, _, m, hm, hfits⟩ := h.toGood.tab_ok.link _ _ hw
  have hm1 := h.ghosts hm
  subst hm1
  obtain ⟨k0, hk0⟩ := k1.shape.iter _ _ _ hw hm
  have hn : n = (winVol c x k.side 1 : Int) := by
    unfold Filter.fetchArgs at ha
    rw [hk0, hwin, k1.shape.wdata, (h.toGood.tab_ok.link _ _ hw).2.1] at ha
    dsimp only at ha
    have := Except.ok.inj ha
    simp only [Prod.mk.injEq] at this
    rw [← this.1, winIt_terms h.toGood hx hfits, intOfSz_small]
    have := winVol_le h.toGood hx hfits
    have := h.loc
    omega
  have hv : winVol c x k.side 1 = layerCells c.L kv.1 := by
    unfold winVol volume
    rw [face_extents h.toGood hx hfits, ← e1, layerCells_eq]
    rw [h.toGood.lenL, (h.unit kv hkv).1]
  have h0 : kv.1.countP (· ≠ 0) ≠ 0 := by
    intro h0
    rw [← e1, (h.no_window h0).1] at hw
    cases hw
  rw [opCalls_some h0, hn, hv, ← e2]
  simp

/-- One step. -/
theorem calls_step (h : c.Unit) (hL : Lock c prog W) {s : List (Proc R)} (hi : Inv c prog W s) {x : List Nat}
    (hx : InGrid c.d x) {p p' : Proc R} {strong : Bool} (hr : s[rankOf c.d x]? = some p)
    (hst : RankStep strong prog s (rankOf c.d x) p p') :
    callsAt c prog x p'.done (lev p'.phase) = callsAt c prog x p.done (lev p.phase) ++ calls (rankOf c.d x) p p' := by
  obtain ⟨x', fd, hx', hrk, hfd, hs, hl, hk⟩ := hi.at hL hr
  have hxx : x' = x := by
    exact rankOf_inj hx' hx hrk
  subst hxx
  have quiet : ∀ {l : List GetCall}, calls (rankOf c.d x') p p' = [] → l = callsAt c prog x' p.done (lev p.phase) →
      l = callsAt c prog x' p.done (lev p.phase) ++ calls (rankOf c.d x') p p' := by
    intro l h1 h2; rw [h1, List.append_nil]; exact h2
  cases hst with
  | loc hp ho he =>
    refine quiet (by unfold calls; rw [hp]) ?_
    dsimp only
    rw [hp, show lev Phase.ready = 0 from rfl, callsAt_next (Nat.le_refl 4)]
    exact callsAt_quiet ho rfl _ _
  | prepare hp ho he hw =>
    refine quiet (by unfold calls; rw [hp]) ?_
    rw [hp]; exact callsAt_level (by simp [lev])
  | prepareNone hp ho he hw =>
    rename_i kv side nb wit f'
    refine quiet (by unfold calls; rw [hp]) ?_
    dsimp only
    have hkv := hL.sub kv (List.mem_of_getElem? ho)
    rw [hp] at hl
    generalize hpf : p.f = f at hl
    cases hl
    subst hpf
    have hside := prepare_side (by rw [hs.ndims]; exact (h.unit kv hkv).1) (h.st kv hkv).2.1 he
    have k1 := prepare_kept hs he
    rw [k1.shape.wins, hside] at hw
    refine callsAt_quiet ho (opCalls_none ?_) _ _
    by_contra h0
    obtain ⟨w, hw', _⟩ := h.window hkv h0
    rw [hw] at hw'; cases hw'
  | enter1 hp =>
    refine quiet (by unfold calls; rw [hp]) ?_
    rw [hp]; exact callsAt_level (by simp [lev])
  | leave1 hp _ =>
    refine quiet (by unfold calls; rw [hp]) ?_
    rw [hp]; exact callsAt_level (by simp [lev])
  | get hp ha hn hn2 hq hw hb hlen hd hl2 =>
    rw [hp] at hl
    generalize hpf : p.f = f at hl ha
    cases hl with
    | opened ho hpr =>
      rename_i kv
      have hkv := hL.sub kv (List.mem_of_getElem? ho)
      have e := get_call h hx hs hkv hpr ha
      dsimp only
      rw [callsAt_made ho (l := lev p.phase) (by rw [hp]; exact Nat.lt_succ_self 3) (show 4 ≤ lev (Phase.issued _ _) from Nat.le_refl 4), e]
      unfold calls
      rw [hp]
      simp
  | move hp _ _ _ _ _ _ _ =>
    have key : ∀ (f : Filter R) (ph : Phase), p.phase.pending ≠ none →
        calls (rankOf c.d x') p { p with f := f, phase := ph } = [] := by
      intro f ph hne
      unfold calls
      cases hph : p.phase <;> rw [hph] at hne <;> first | rfl | exact absurd rfl hne
    refine quiet (key _ _ (by rw [hp]; simp)) ?_
    dsimp only
    rw [lev_setTodo]
  | enter2 hp =>
    refine quiet (by unfold calls; rw [hp]) ?_
    rw [hp]; exact callsAt_level (by simp [lev])
  | leave2 hp _ _ _ =>
    refine quiet (by unfold calls; rw [hp]) ?_
    rw [hp]; exact callsAt_level (by simp [lev])
  | update hp ho he =>
    refine quiet (by unfold calls; rw [hp]) ?_
    dsimp only
    rw [hp]
    exact callsAt_next (show 4 ≤ 6 by decide)

omit [Zero R] [Add R] [Mul R] in
theorem calls_origin (r : Nat) (p p' : Proc R) : ∀ m ∈ calls r p p', m.origin = r := by
  intro m hm
  unfold calls at hm
  split at hm
  · rw [List.mem_singleton] at hm; rw [hm]
  · cases hm

theorem logged_reachable {w : World R} {strong : Bool} {log : List GetCall} {s : List (Proc R)}
    (h : Logged strong prog w log s) : Reachable strong prog w s := by
  induction h with
  | start => exact .start
  | step _ hr hst ih => exact .step ih ⟨_, _, _, hr, hst, rfl⟩

theorem calls_inv (h : c.Unit) (hL : Lock c prog W) {strong : Bool} {log : List GetCall} {s : List (Proc R)}
    (hlog : Logged strong prog (W 0) log s) : CallsInv c prog log s := by
  induction hlog with
  | start =>
    refine ⟨?_, by simp⟩
    intro x _ p hp
    have : p.done = 0 ∧ p.phase = .ready := by
      unfold start at hp
      rw [List.getElem?_map] at hp
      obtain ⟨f, _, rfl⟩ := Option.map_eq_some_iff.1 hp
      exact ⟨rfl, rfl⟩
    rw [this.1, this.2]
    rfl
  | step hlg hr hst ih =>
    rename_i log s r p p'
    have hi := inv_reachable hL (logged_reachable hlg)
    have hrn : r < c.nprocs := by
      rw [← hi.len]; exact (List.getElem?_eq_some_iff.1 hr).1
    have hor := calls_origin r p p'
    refine ⟨?_, ?_⟩
    · intro y hy q hq
      rw [List.filter_append]
      by_cases hyr : r = rankOf c.d y
      · subst hyr
        rw [List.getElem?_set_self (List.getElem?_eq_some_iff.1 hr).1, Option.some_inj] at hq
        subst hq
        rw [ih.own y hy p hr, calls_step h hL hi hy hr hst]
        congr 1
        exact List.filter_eq_self.2 fun m hm => by simp [hor m hm]
      · rw [List.getElem?_set_ne hyr] at hq
        rw [ih.own y hy q hq, List.filter_eq_nil_iff.2 fun m hm => by simp [hor m hm, hyr], List.append_nil]
    · intro m hm
      rcases List.mem_append.1 hm with hm | hm
      · exact ih.ranks m hm
      · rw [hor m hm]; exact hrn

omit [Add R] [Mul R] in
/-- The calls of the whole program. -/
theorem program_calls (x : List Nat) (u : List Nat → R) (n : Nat) :
    (program c.st u n).flatMap (opCalls c x) = (List.replicate n (plannedCalls c.d c.L (c.st.map Prod.fst) x)).flatten := by
  unfold program
  rw [List.flatMap_cons]
  show [] ++ _ = _
  rw [List.nil_append]
  have e : ∀ l : List (List Int × R), (l.map Op.entry).flatMap (opCalls c x) = plannedCalls c.d c.L (l.map Prod.fst) x := by
    intro l
    induction l with
    | nil => rfl
    | cons kv l ih =>
      rw [List.map_cons, List.flatMap_cons, ih]
      show plannedCalls c.d c.L [kv.1] x ++ _ = plannedCalls c.d c.L (kv.1 :: l.map Prod.fst) x
      unfold plannedCalls
      rw [← List.map_append, ← List.filter_append]
      rfl
  induction n with
  | zero => rfl
  | succ n ih =>
    rw [List.replicate_succ, List.flatten_cons, List.flatMap_append, ih, List.replicate_succ, List.flatten_cons,
      List.flatMap_append, List.flatMap_cons, e]
    show ([] ++ _) ++ ([] ++ []) ++ _ = _
    simp

omit [Zero R] [Add R] [Mul R] in
/-- A sum over all calls, rank by rank. -/
theorem sum_by_rank (wt : GetCall → Nat) (P : Nat) : ∀ (log : List GetCall), (∀ m ∈ log, m.origin < P) →
    (log.map wt).sum =
      ((List.range P).map fun (r : Nat) => ((log.filter fun m => m.origin = r).map wt).sum).sum
  | [], _ => by simp
  | m :: log, h => by
    rw [List.map_cons, List.sum_cons, sum_by_rank wt P log fun m hm => h m (List.mem_cons_of_mem _ hm)]
    have hm := h m List.mem_cons_self
    clear h
    have key : ∀ (l : List Nat), l.Nodup →
        (l.map fun (r : Nat) => (((m :: log).filter fun m => m.origin = r).map wt).sum).sum =
          (if m.origin ∈ l then wt m else 0) +
            (l.map fun (r : Nat) => ((log.filter fun m => m.origin = r).map wt).sum).sum := by
      intro l hl
      induction l with
      | nil => simp
      | cons r l ih =>
        rw [List.nodup_cons] at hl
        rw [List.map_cons, List.sum_cons, List.map_cons, List.sum_cons, ih hl.2]
        by_cases hr : m.origin = r
        · subst hr
          simp [hl.1]
          omega
        · simp [hr]
          omega
    rw [key _ List.nodup_range, if_pos (List.mem_range.2 hm)]

end Run
end Fidi
