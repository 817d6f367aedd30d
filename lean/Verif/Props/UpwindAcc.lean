import Verif.Lemmas.UpwindTeams
import Verif.Model.Exact

/-
Properties C37 and C38: the offloaded solvers upwindAcc.cxx, upwindAcc2.cxx and upwindOMP5.cxx on three axes.
The threads of the device, their schedule and the interleaving of their memory accesses are those of
`Verif.Model.Schedule`.
-/
set_option linter.unusedSectionVars false

namespace Fidi
open Spec UpwindAcc

section
variable {R : Type} [Zero R] [One R] [Add R] [Sub R] [Mul R] [Div R] [NatCast R] [IntCast R] [LT R] [DecidableLT R]

/-- C37: the constructors succeed and set up the field that is 1 in the low corner and 0 elsewhere. -/
theorem C37_constructor (a b c : Nat) (ha : 0 < a) (hb : 0 < b) (hc : 0 < c) (hcells : a * (b * c) < 2 ^ 31)
    (v L : List R) (hv : v.length = 3) (hL : L.length = 3) :
    ∃ s0, UpwindAcc.new 3 v L [(a : Int), b, c] = .ok s0 ∧ s0.fOld.length = a * (b * c) ∧
      Stores [a, b, c] s0.f cornerField := by
  refine ⟨_, new_eq3 v L a b c ha hb hc hcells hv hL, by simp [built], by simp [built], fun g hg => ?_⟩
  have hlt := rankOf_lt hg
  rw [prod3] at hlt
  obtain ⟨x, y, z, rfl⟩ : ∃ x y z, g = [x, y, z] := by
    match g, hg.length_eq with
    | [x, y, z], _ => exact ⟨x, y, z, rfl⟩
  rw [rankOf3] at hlt ⊢
  simp only [built, cornerField]
  rw [List.getElem?_set]
  by_cases h0 : x = 0 ∧ y = 0 ∧ z = 0
  · obtain ⟨rfl, rfl, rfl⟩ := h0
    simp at hlt
    simp [hlt]
  · have hne : ¬ 0 = b * c * x + c * y + z := by
      intro e
      apply h0
      have h1 : b * c * x = 0 := by omega
      have h2 : c * y = 0 := by omega
      have := Nat.mul_pos hb hc
      refine ⟨?_, ?_, by omega⟩
      · rcases Nat.mul_eq_zero.1 h1 with h | h
        · omega
        · exact h
      · rcases Nat.mul_eq_zero.1 h2 with h | h
        · omega
        · exact h
    rw [if_neg hne, if_neg (by simpa using h0), List.getElem?_replicate, if_pos hlt]

/-- C37: every execution of `advect` of upwindAcc2.cxx, whatever the number of device threads, their schedule and their
interleaving, is free of undefined behaviour and of accesses outside the arrays, is never stuck, and ends with the
field after `k` upwind steps, operation by operation. `old0` is the content of the array `fOld`. -/
theorem C37_acc2_executions (a b c : Nat) (ha : 0 < a) (hb : 0 < b) (hc : 0 < c) (hcells : a * (b * c) < 2 ^ 31)
    (haxis : a < 2 ^ 30 ∧ b < 2 ^ 30 ∧ c < 2 ^ 30) (v L : List R) (hv : v.length = 3) (hL : L.length = 3)
    (s0 : UpwindAcc R) (hnew : UpwindAcc.new 3 v L [(a : Int), b, c] = .ok s0) (f0 old0 : List R) (u : List Nat → R)
    (hf : Stores [a, b, c] f0 u) (hold : old0.length = a * (b * c)) (k : Int) (dt : R)
    (T : Nat) (hT : 0 < T) (may : Nat → Nat → Nat → Prop) (hmay : Covers (s0.region2 k dt) T may) (s : PState UpLoc R)
    (hs : PReach (s0.region2 k dt) T may (memory f0 old0) s) :
    ¬ s.Faulty (allocated f0 old0) T ∧
    (¬ s.Final (s0.region2 k dt) T → ∃ s', PStep (s0.region2 k dt) T may s s') ∧
    (s.Final (s0.region2 k dt) T → Stores [a, b, c] ((List.range (a * (b * c))).map fun i => s.mem (.f, i))
      ((upwindStep [a, b, c] (upDir v) fun j => dt * (v.getD j 0 * (upDir v j : R) /
        (L.getD j 0 / (([a, b, c].getD j 0 : Int) : R))))^[k.toNat] u)) := by
  have h3 : Good3 a b c := ⟨ha, hb, hc, hcells, haxis⟩
  rw [new_eq3 v L a b c ha hb hc hcells hv hL] at hnew
  injection hnew with hnew
  subst hnew
  have hr : RaceFree ((built v L a b c).region2 k dt) _ _ := region2_raceFree
    (f := (built v L a b c).f) (old := (built v L a b c).fOld) h3 k dt
  refine ⟨not_faulty_of (alloc_of (hf.1.trans (prod3 a b c)) hold) (hs.not_faulty hr hT),
    fun h => hs.progress hr hT hmay h, fun h => ?_⟩
  refine stores_mem fun g hg => ?_
  rw [hs.final_mem hr hT h]
  exact region2_memAt (f := (built v L a b c).f) (old := (built v L a b c).fOld) h3 k dt _ (memory_f hf) _
    (Nat.le_refl _) g hg

/-- C37: the same for each call of `advect` of upwindAcc.cxx. -/
theorem C37_acc_executions (a b c : Nat) (ha : 0 < a) (hb : 0 < b) (hc : 0 < c) (hcells : a * (b * c) < 2 ^ 31)
    (haxis : a < 2 ^ 30 ∧ b < 2 ^ 30 ∧ c < 2 ^ 30) (v L : List R) (hv : v.length = 3) (hL : L.length = 3)
    (s0 : UpwindAcc R) (hnew : UpwindAcc.new 3 v L [(a : Int), b, c] = .ok s0) (f0 : List R)
    (hf : f0.length = a * (b * c)) (dt : R)
    (T : Nat) (hT : 0 < T) (may : Nat → Nat → Nat → Prop) (hmay : Covers (s0.region1 dt) T may) (s : PState UpLoc R)
    (hs : PReach (s0.region1 dt) T may (memory f0 f0) s) :
    ¬ s.Faulty (allocated f0 f0) T ∧
    (¬ s.Final (s0.region1 dt) T → ∃ s', PStep (s0.region1 dt) T may s s') := by
  have h3 : Good3 a b c := ⟨ha, hb, hc, hcells, haxis⟩
  rw [new_eq3 v L a b c ha hb hc hcells hv hL] at hnew
  injection hnew with hnew
  subst hnew
  have hr : RaceFree ((built v L a b c).region1 dt) _ _ := region1_raceFree
    (f := (built v L a b c).f) (old := (built v L a b c).fOld) h3 dt
  exact ⟨not_faulty_of (alloc_of hf hf) (hs.not_faulty hr hT), fun h => hs.progress hr hT hmay h⟩

/-- C37: `n` completed calls of `advect` of upwindAcc.cxx leave the field after `n` upwind steps. -/
theorem C37_acc_result (a b c : Nat) (ha : 0 < a) (hb : 0 < b) (hc : 0 < c) (hcells : a * (b * c) < 2 ^ 31)
    (haxis : a < 2 ^ 30 ∧ b < 2 ^ 30 ∧ c < 2 ^ 30) (v L : List R) (hv : v.length = 3) (hL : L.length = 3)
    (s0 : UpwindAcc R) (hnew : UpwindAcc.new 3 v L [(a : Int), b, c] = .ok s0) (f0 : List R) (u : List Nat → R)
    (hf : Stores [a, b, c] f0 u) (dt : R) (T : Nat) (hT : 0 < T) (may : Nat → Nat → Nat → Prop) (n : Nat) (f' : List R)
    (hs : s0.Advect1s T may dt n f0 f') :
    Stores [a, b, c] f' ((upwindStep [a, b, c] (upDir v) fun j => dt * (v.getD j 0 * (upDir v j : R) /
      (L.getD j 0 / (([a, b, c].getD j 0 : Int) : R))))^[n] u) := by
  rw [new_eq3 v L a b c ha hb hc hcells hv hL] at hnew
  injection hnew with hnew
  subst hnew
  exact advect1s_stores (f := (built v L a b c).f) (old := (built v L a b c).fOld) ⟨ha, hb, hc, hcells, haxis⟩ dt hT hs hf
end

section
variable {K : Type} [Field K] [LinearOrder K] [IsStrictOrderedRing K]

/-- C37: with exact arithmetic both offloaded solvers end with the field of the threaded solver. -/
theorem C37_same_field (a b c : Nat) (ha : 0 < a) (hb : 0 < b) (hc : 0 < c) (hcells : a * (b * c) < 2 ^ 31)
    (haxis : a < 2 ^ 30 ∧ b < 2 ^ 30 ∧ c < 2 ^ 30) (v L : List K) (hv : v.length = 3) (hL : L.length = 3)
    (s0 : UpwindAcc K) (hnew : UpwindAcc.new 3 v L [(a : Int), b, c] = .ok s0)
    (r0 : Upwind K) (hnew' : Upwind.new 3 v L [a, b, c] = .ok r0)
    (f0 old0 : List K) (hf : f0.length = a * (b * c)) (k : Nat) (dt : K)
    (T : Nat) (hT : 0 < T) (may : Nat → Nat → Nat → Prop) :
    ∃ r, { r0 with f := f0 }.advect k dt = .ok r ∧
      (∀ f', s0.Advect1s T may dt k f0 f' → f' = r.f) ∧
      (∀ s, PReach (s0.region2 k dt) T may (memory f0 old0) s → s.Final (s0.region2 k dt) T →
        ((List.range (a * (b * c))).map fun i => s.mem (.f, i)) = r.f) := by
  have h3 : Good3 a b c := ⟨ha, hb, hc, hcells, haxis⟩
  have hg : Upwind.GoodGrid [a, b, c] :=
    ⟨h3.pos, by rw [prod3]; exact hcells, by simpa using haxis⟩
  have hst := exists_field (N := [a, b, c]) (f := f0) (by rw [prod3]; exact hf)
  obtain ⟨o, _, e⟩ := Upwind.advect_spec (by simp) (by simp) hg hv hL hnew' hst k dt
  refine ⟨_, e, ?_, ?_⟩
  · intro f' hs
    have h := C37_acc_result a b c ha hb hc hcells haxis v L hv hL s0 hnew f0 _ hst dt T hT may k f' hs
    rw [stores_iff h3.pos] at h
    rw [h]
    simp only [Int.toNat_natCast]
    congr 3
    funext j
    exact accCoeff_eq dt v L [a, b, c] j
  · intro s hs hfin
    rw [new_eq3 v L a b c ha hb hc hcells hv hL] at hnew
    injection hnew with hnew
    subst hnew
    have hr : RaceFree ((built v L a b c).region2 k dt) _ _ := region2_raceFree
      (f := (built v L a b c).f) (old := (built v L a b c).fOld) h3 k dt
    have h : Stores [a, b, c] ((List.range (a * (b * c))).map fun i => s.mem (.f, i))
        ((upwindStep [a, b, c] (upDir v) (accCoeff dt v L [a, b, c]))^[(k : Int).toNat]
          fun g => f0.getD (rankOf [a, b, c] g) 0) := by
      refine stores_mem fun g hg => ?_
      rw [hs.final_mem hr hT hfin]
      exact region2_memAt (f := (built v L a b c).f) (old := (built v L a b c).fOld) h3 k dt _ (memory_f hst) _
        (Nat.le_refl _) g hg
    rw [stores_iff h3.pos] at h
    rw [h]
    congr 3
    funext j
    exact accCoeff_eq dt v L [a, b, c] j
end

/-- A grid meeting the hypotheses of the theorems of C37, with velocities of both signs. -/
example : ∃ s0 : UpwindAcc ℚ, UpwindAcc.new 3 [1, -2, 3] [1, 1, 2] [(4 : Nat), (3 : Nat), (5 : Nat)] = .ok s0 ∧
    s0.coeff = [-4, -6, -15 / 2] ∧ Covers (s0.region2 7 (1 / 100)) 64 (fun _ i t => t = i % 64) := by
  refine ⟨_, new_eq3 (R := ℚ) [1, -2, 3] [1, 1, 2] 4 3 5 (by omega) (by omega) (by omega) (by omega) rfl rfl, ?_, ?_⟩
  · decide +kernel
  · exact fun _ i _ _ => ⟨i % 64, Nat.mod_lt _ (by omega), rfl⟩

/-! ### C38 -/

/-- Object of the counterexample: two cells along the first axis, unit velocity along it. -/
def teamsExample : UpwindAcc ℚ := built [1, 0, 0] [1, 1, 1] 2 1 1

/-- Schedule of the counterexample: two teams take one time step each, both copy the field, then the first and the
second update it. -/
def teamsSchedule : List Action :=
  [.take 0 0, .take 1 1] ++ List.replicate 4 (.go 0) ++ List.replicate 4 (.go 1) ++ List.replicate 25 (.go 0) ++
    List.replicate 25 (.go 1) ++ [.pass 0, .pass 1]

/-- C38 is false (`C38_time_steps_ordered_fails` is the general case): an execution of two time steps of upwindOMP5.cxx by two
teams with a Courant number of 1/4, allowed by the directives, ends with a field different from that of the threaded solver. -/
theorem C38_two_teams_fails :
    ∃ (s0 : UpwindAcc ℚ) (r0 : Upwind ℚ) (s : PState UpLoc ℚ), UpwindAcc.new 3 [1, 0, 0] [1, 1, 1] [2, 1, 1] = .ok s0 ∧
      Upwind.new 3 [1, 0, 0] [1, 1, 1] [2, 1, 1] = .ok r0 ∧
      PReach (s0.regionTeams 2 (1 / 8)) 2 (fun _ _ _ => True) (memory s0.f s0.f) s ∧
      s.Final (s0.regionTeams 2 (1 / 8)) 2 ∧
      ∃ r, r0.advect 2 (1 / 8) = .ok r ∧ r.f = [5 / 8, 3 / 8] ∧ [s.mem (.f, 0), s.mem (.f, 1)] = [1 / 2, 1 / 2] := by
  have e : (acts (teamsExample.regionTeams 2 (1 / 8)) 2 teamsSchedule (.init (memory teamsExample.f teamsExample.f))).map
      (fun s => ([s.mem (.f, 0), s.mem (.f, 1)], s.phase 0, s.phase 1)) = some ([1 / 2, 1 / 2], 1, 1) := by decide +kernel
  rw [Option.map_eq_some_iff] at e
  obtain ⟨s, hs, he⟩ := e
  simp only [Prod.mk.injEq] at he
  have hadv : ((Upwind.built [1, 0, 0] [1, 1, 1] [2, 1, 1] : Upwind ℚ).advect 2 (1 / 8)).map (fun r => r.f) =
      .ok [5 / 8, 3 / 8] := by decide +kernel
  refine ⟨teamsExample, Upwind.built [1, 0, 0] [1, 1, 1] [2, 1, 1], s,
    new_eq3 (R := ℚ) [1, 0, 0] [1, 1, 1] 2 1 1 (by omega) (by omega) (by omega) (by omega) rfl rfl,
    Upwind.new_built (N := [2, 1, 1]) (by simp) (by simp) ⟨by simp, by simp, by simp⟩ rfl rfl,
    acts_sound hs .init, ?_, ?_⟩
  · intro t ht
    have h2 : t = 0 ∨ t = 1 := by omega
    rcases h2 with rfl | rfl
    · exact he.2.1
    · exact he.2.2
  · cases hr : (Upwind.built [1, 0, 0] [1, 1, 1] [2, 1, 1] : Upwind ℚ).advect 2 (1 / 8) with
    | error err => rw [hr] at hadv; cases hadv
    | ok r =>
      rw [hr] at hadv
      injection hadv with hadv
      exact ⟨r, rfl, hadv, he.1⟩

section
variable {R : Type} [Zero R] [One R] [Add R] [Sub R] [Mul R] [Div R] [NatCast R] [IntCast R] [LT R] [DecidableLT R]

/-- C38, the part that holds: with at most one time step, or with a single team, every execution of upwindOMP5.cxx is
free of undefined behaviour, is never stuck, and ends with the field after `k` upwind steps.
Missing: several teams and several time steps, where the claim is false (`C38_time_steps_ordered_fails`). -/
theorem C38_one_step_or_one_team_partial (a b c : Nat) (ha : 0 < a) (hb : 0 < b) (hc : 0 < c)
    (hcells : a * (b * c) < 2 ^ 31) (haxis : a < 2 ^ 30 ∧ b < 2 ^ 30 ∧ c < 2 ^ 30) (v L : List R) (hv : v.length = 3)
    (hL : L.length = 3) (s0 : UpwindAcc R) (hnew : UpwindAcc.new 3 v L [(a : Int), b, c] = .ok s0) (f0 old0 : List R)
    (u : List Nat → R) (hf : Stores [a, b, c] f0 u) (hold : old0.length = a * (b * c)) (k : Int) (dt : R)
    (T : Nat) (hT : 0 < T) (hone : k ≤ 1 ∨ T = 1) (may : Nat → Nat → Nat → Prop)
    (hmay : Covers (s0.regionTeams k dt) T may) (s : PState UpLoc R)
    (hs : PReach (s0.regionTeams k dt) T may (memory f0 old0) s) :
    ¬ s.Faulty (allocated f0 old0) T ∧
    (¬ s.Final (s0.regionTeams k dt) T → ∃ s', PStep (s0.regionTeams k dt) T may s s') ∧
    (s.Final (s0.regionTeams k dt) T → Stores [a, b, c] ((List.range (a * (b * c))).map fun i => s.mem (.f, i))
      ((upwindStep [a, b, c] (upDir v) fun j => dt * (v.getD j 0 * (upDir v j : R) /
        (L.getD j 0 / (([a, b, c].getD j 0 : Int) : R))))^[k.toNat] u)) := by
  have h3 : Good3 a b c := ⟨ha, hb, hc, hcells, haxis⟩
  rw [new_eq3 v L a b c ha hb hc hcells hv hL] at hnew
  injection hnew with hnew
  subst hnew
  have hsafe := teamProg_safe (v := v) (L := L) (f := (built v L a b c).f) (old := (built v L a b c).fOld) h3 dt
  have hal := alloc_of (hf.1.trans (prod3 a b c)) hold
  have hit := teamProg_iter (v := v) (L := L) (f := (built v L a b c).f) (old := (built v L a b c).fOld) h3 dt
    (memory f0 old0) (memory_f hf)
  rcases hone with hk | rfl
  · -- one time step: nothing to conflict with
    have hr : RaceFree ((built v L a b c).regionTeams k dt) (Upwind.gridAlloc (a * (b * c))) (fun _ _ => some 0) := by
      constructor
      intro p i hp hi
      have hi : i < k.toNat := hi
      obtain rfl : i = 0 := by omega
      exact hsafe 0
    refine ⟨not_faulty_of hal (hs.not_faulty hr hT), fun h => hs.progress hr hT hmay h, fun h => ?_⟩
    refine stores_mem fun g hg => ?_
    rw [hs.final_mem hr hT h]
    have e : ((built v L a b c).regionTeams k dt).seq (memory f0 old0) =
        (teamProg (built v L a b c) dt).run^[k.toNat] (memory f0 old0) := by
      have hk2 : k.toNat = 0 ∨ k.toNat = 1 := by omega
      unfold Region.seq Region.seqPhase regionTeams
      rcases hk2 with e | e <;> simp only [e] <;> rfl
    rw [e]
    exact hit _ g hg
  · have hinv := OneInv.reach (reg := (built v L a b c).regionTeams k dt) rfl (fun _ _ => rfl) (hsafe 0) hs
    refine ⟨not_faulty_of hal hinv.not_faulty, fun h => hinv.progress rfl hmay h, fun h => ?_⟩
    refine stores_mem fun g hg => ?_
    rw [hinv.final rfl h]
    exact hit _ g hg
end

/-- One time step on 4 teams, and many on one team, meet the hypotheses. -/
example : ∃ s0 : UpwindAcc ℚ, UpwindAcc.new 3 [1, -2, 3] [1, 1, 2] [(4 : Nat), (3 : Nat), (5 : Nat)] = .ok s0 ∧
    Covers (s0.regionTeams 1 (1 / 100)) 4 (fun _ _ _ => True) ∧ Covers (s0.regionTeams 9 (1 / 100)) 1 (fun _ _ _ => True) :=
  ⟨_, new_eq3 (R := ℚ) [1, -2, 3] [1, 1, 2] 4 3 5 (by omega) (by omega) (by omega) (by omega) rfl rfl,
    fun _ _ _ _ => ⟨0, by omega, trivial⟩, fun _ _ _ _ => ⟨0, by omega, trivial⟩⟩

end Fidi
