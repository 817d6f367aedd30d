import Verif.Lemmas.TeamsStale
import Verif.Props.UpwindAcc
import Verif.Props.Upwind

/-
Property C38: the executions of upwindOMP5.cxx. `R` is any type with the operations used and stands for the floating-point
numbers.
-/
set_option linter.unusedSectionVars false

namespace Fidi
open Fidi.Spec Upwind UpwindAcc

section
variable {R : Type} [Zero R] [One R] [Add R] [Sub R] [Mul R] [Div R] [NatCast R] [IntCast R] [LT R] [DecidableLT R]

/-- C38, the part that holds: a single team of any number of threads (or any number of teams, if there is one time step at most)
executes the time steps in order: every execution is free of undefined behaviour, is never stuck, and ends with the field after
`k` upwind steps, whatever the schedule. Missing: several teams and several time steps (`C38_time_steps_ordered_fails`). -/
theorem C38_one_team_of_threads_partial (a b c : Nat) (ha : 0 < a) (hb : 0 < b) (hc : 0 < c) (hcells : a * (b * c) < 2 ^ 31)
    (haxis : a < 2 ^ 30 ∧ b < 2 ^ 30 ∧ c < 2 ^ 30) (v L : List R) (hv : v.length = 3) (hL : L.length = 3)
    (s0 : UpwindAcc R) (hnew : UpwindAcc.new 3 v L [(a : Int), b, c] = .ok s0) (f0 old0 : List R) (u : List Nat → R)
    (hf : Stores [a, b, c] f0 u) (hold : old0.length = a * (b * c)) (k : Int) (dt : R)
    (T : Nat) (hT : 0 < T) (may : Nat → Nat → Nat → Prop) (hmay : Covers (s0.regionTeam k dt) T may) (s : PState UpLoc R)
    (hs : PReach (s0.regionTeam k dt) T may (memory f0 old0) s) :
    ¬ s.Faulty (allocated f0 old0) T ∧
    (¬ s.Final (s0.regionTeam k dt) T → ∃ s', PStep (s0.regionTeam k dt) T may s s') ∧
    (s.Final (s0.regionTeam k dt) T → Stores [a, b, c] ((List.range (a * (b * c))).map fun i => s.mem (.f, i))
      ((upwindStep [a, b, c] (upDir v) fun j => dt * (v.getD j 0 * (upDir v j : R) /
        (L.getD j 0 / (([a, b, c].getD j 0 : Int) : R))))^[k.toNat] u)) :=
  C37_acc2_executions a b c ha hb hc hcells haxis v L hv hL s0 hnew f0 old0 u hf hold k dt T hT may hmay s hs

/-- C38: for every grid, velocity, field, time step, any two or more time steps and any two or more teams there is an execution
of upwindOMP5.cxx, allowed by the directives, in which the first two time steps both use the values before the first: it ends
with the field that two such changes and `k - 2` further steps give. -/
theorem C38_two_steps_from_old_values (a b c : Nat) (ha : 0 < a) (hb : 0 < b) (hc : 0 < c) (hcells : a * (b * c) < 2 ^ 31)
    (haxis : a < 2 ^ 30 ∧ b < 2 ^ 30 ∧ c < 2 ^ 30) (v L : List R) (hv : v.length = 3) (hL : L.length = 3)
    (s0 : UpwindAcc R) (hnew : UpwindAcc.new 3 v L [(a : Int), b, c] = .ok s0) (f0 old0 : List R) (u : List Nat → R)
    (hf : Stores [a, b, c] f0 u) (k : Int) (hk : 2 ≤ k) (dt : R) (T : Nat) (hT : 2 ≤ T) :
    let coeff : Nat → R := fun j => dt * (v.getD j 0 * (upDir v j : R) / (L.getD j 0 / (([a, b, c].getD j 0 : Int) : R)))
    ∃ s, PReach (s0.regionTeams k dt) T (fun _ _ _ => True) (memory f0 old0) s ∧ s.Final (s0.regionTeams k dt) T ∧
      Stores [a, b, c] ((List.range (a * (b * c))).map fun i => s.mem (.f, i))
        ((upwindStep [a, b, c] (upDir v) coeff)^[k.toNat - 2] fun g => (List.range 3).foldl
          (fun acc j => acc - coeff j * (u (neighbour [a, b, c] j (upDir v j) g) - u g))
          (upwindStep [a, b, c] (upDir v) coeff u g)) := by
  intro coeff
  have h3 : Good3 a b c := ⟨ha, hb, hc, hcells, haxis⟩
  rw [new_eq3 v L a b c ha hb hc hcells hv hL] at hnew
  injection hnew with hnew
  subst hnew
  have hparts := team_parts (v := v) (L := L) (f := (built v L a b c).f) (old := (built v L a b c).fOld) h3 dt 0
  have hsafe := teamProg_safe (v := v) (L := L) (f := (built v L a b c).f) (old := (built v L a b c).fOld) h3 dt 0
  let copies : List (Prog UpLoc R) := (List.range (built v L a b c).ntot.toNat).map Upwind.copyProg
  let cells : List (Prog UpLoc R) := (List.range (built v L a b c).ntot.toNat).map ((built v L a b c).cellProg dt)
  have hcopies : ∀ p ∈ copies, Safe (fun _ => some 0) (gridAlloc (a * (b * c))) 0 p := fun p hp => hparts p (List.mem_append_left _ hp)
  have hcells : ∀ p ∈ cells, Safe (fun _ => some 0) (gridAlloc (a * (b * c))) 0 p := fun p hp => hparts p (List.mem_append_right _ hp)
  have hcount : ((built v L a b c).regionTeams k dt).count 0 = k.toNat := rfl
  have h2 := idle_two (reg := (built v L a b c).regionTeams k dt) (m0 := memory f0 old0) (may := fun _ _ _ => True) hT rfl
    (by rw [hcount]; omega) (fun _ _ => trivial) (safe_seqProg copies hcopies) (safe_seqProg cells hcells)
    (fun _ => seqProg_append copies cells)
  -- the copies
  have hrunc : ∀ m, (seqProg copies).run m = ((built v L a b c).region2 1 dt).seqPhase 0 m := by
    intro m
    rw [run_seqProg _ _ hcopies, List.foldl_map]
    rfl
  have hrr := region2_raceFree (v := v) (L := L) (f := (built v L a b c).f) (old := (built v L a b c).fOld) h3 1 dt
  have hc1 : ((built v L a b c).region2 1 dt).count 0 = a * (b * c) :=
    ntot_eq (v := v) (L := L) (f := (built v L a b c).f) (old := (built v L a b c).fOld)
  have hcopyF : ∀ m i, (seqProg copies).run m (.f, i) = m (.f, i) := by
    intro m i
    rw [hrunc, seqPhase_eq (alloc := gridAlloc (a * (b * c))) (owner := owners) hrr (show (0 : Nat) < 2 by omega)]
    rfl
  have hcopyO : ∀ m i, i < a * (b * c) → (seqProg copies).run m (.oldF, i) = m (.f, i) := by
    intro m i hi
    rw [hrunc, seqPhase_eq (alloc := gridAlloc (a * (b * c))) (owner := owners) hrr (show (0 : Nat) < 2 by omega)]
    simp only [phaseMem, owners]
    rw [if_pos (by decide)]
    simp only [hc1, if_pos hi]
    simp [UpwindAcc.region2, Upwind.copyProg, Prog.run, Mem.set]
  -- the updates
  have hrunu : ∀ m, (seqProg cells).run m = ((built v L a b c).region1 dt).seq m := by
    intro m
    rw [run_seqProg _ _ hcells, List.foldl_map]
    rfl
  set m1 := (seqProg copies).run ((seqProg copies).run (memory f0 old0)) with hm1
  have hm1F : ∀ g, InGrid [a, b, c] g → m1 (.f, rankOf [a, b, c] g) = u g := by
    intro g hg
    rw [hm1, hcopyF, hcopyF]
    exact memory_f hf g hg
  have hm1O : ∀ g, InGrid [a, b, c] g → m1 (.oldF, rankOf [a, b, c] g) = u g := by
    intro g hg
    have hlt := rankOf_lt hg
    rw [prod3] at hlt
    rw [hm1, hcopyO _ _ hlt, hcopyF]
    exact memory_f hf g hg
  have hm2 : ∀ g, InGrid [a, b, c] g → (seqProg cells).run m1 (.f, rankOf [a, b, c] g) = upwindStep [a, b, c] (upDir v) coeff u g := by
    intro g hg
    rw [hrunu]
    exact (region1_seq_any h3 dt m1 hm1O hg).trans (by rw [hm1F g hg]; rfl)
  have hm2O : ∀ g, InGrid [a, b, c] g → (seqProg cells).run m1 (.oldF, rankOf [a, b, c] g) = u g := by
    intro g hg
    rw [hrunu]
    exact (region1_seq_old h3 dt m1 _).trans (hm1O g hg)
  have hm3 : ∀ g, InGrid [a, b, c] g → (seqProg cells).run ((seqProg cells).run m1) (.f, rankOf [a, b, c] g) =
      (List.range 3).foldl (fun acc j => acc - coeff j * (u (neighbour [a, b, c] j (upDir v j) g) - u g))
        (upwindStep [a, b, c] (upDir v) coeff u g) := by
    intro g hg
    rw [hrunu ((seqProg cells).run m1)]
    exact (region1_seq_any h3 dt _ hm2O hg).trans (by rw [hm2 g hg]; rfl)
  -- the other time steps
  have hmore : ∀ j, j + 2 ≤ k.toNat → PReach ((built v L a b c).regionTeams k dt) T (fun _ _ _ => True) (memory f0 old0)
      (idle (j + 2) ((teamProg (built v L a b c) dt).run^[j] ((seqProg cells).run ((seqProg cells).run m1)))) := by
    intro j
    induction j with
    | zero => intro _; exact h2
    | succ j ih =>
      intro hj
      rw [Function.iterate_succ_apply']
      exact idle_next (by omega) rfl (by rw [hcount]; omega) trivial hsafe (ih (by omega))
  obtain ⟨s, hs, hfin, hmem⟩ := idle_final rfl (by
    have := hmore (k.toNat - 2) (by omega)
    rw [show k.toNat - 2 + 2 = k.toNat by omega] at this
    exact this)
  refine ⟨s, hs, hfin, ?_⟩
  rw [hmem]
  exact stores_mem fun g hg => teamProg_iter h3 dt _ hm3 _ g hg
end

/-- C38 is false for every number of cells along the first axis, of time steps and of teams from two on: with Courant number 1,
where a step of the scheme moves the field by one cell, there is an execution of upwindOMP5.cxx, allowed by the directives, that
ends with another field than the threaded solver (and so than upwindAcc.cxx, C37). -/
theorem C38_time_steps_ordered_fails (n : Nat) (hn : 2 ≤ n) (hn2 : n < 2 ^ 30) (k : Nat) (hk : 2 ≤ k) (T : Nat) (hT : 2 ≤ T) :
    ∃ (s0 : UpwindAcc ℚ) (r0 r : Upwind ℚ) (s : PState UpLoc ℚ), UpwindAcc.new 3 [1, 0, 0] [1, 1, 1] [(n : Int), (1 : Nat), (1 : Nat)] = .ok s0 ∧
      Upwind.new 3 [1, 0, 0] [1, 1, 1] [n, 1, 1] = .ok r0 ∧ r0.advect k (1 / n) = .ok r ∧
      PReach (s0.regionTeams k (1 / n)) T (fun _ _ _ => True) (memory s0.f s0.f) s ∧
      s.Final (s0.regionTeams k (1 / n)) T ∧ ((List.range n).map fun i => s.mem (.f, i)) ≠ r.f := by
  have hg3 : ∀ g, InGrid [n, 1, 1] g → ∃ x, x < n ∧ g = [x, 0, 0] := by
    intro g hg
    match g, hg.length_eq with
    | [x, y, z], _ =>
      have : x < n ∧ y < 1 ∧ z < 1 := by simpa [InGrid] using hg
      exact ⟨x, this.1, by rw [show y = 0 by omega, show z = 0 by omega]⟩
  have hgi : ∀ x, x < n → InGrid [n, 1, 1] [x, 0, 0] := fun x hx => by simp [InGrid, hx]
  have hup : ∀ j, upDir [(1 : ℚ), 0, 0] j = -1 := by
    intro j
    rcases j with _ | _ | _ | j <;> simp [upDir]
  have hn0 : (n : ℚ) ≠ 0 := by positivity
  -- a step of the scheme moves the field
  let coeff : Nat → ℚ := fun j => (1 / (n : ℚ)) * (([1, 0, 0] : List ℚ).getD j 0 * (upDir [(1 : ℚ), 0, 0] j : ℚ) /
    (([1, 1, 1] : List ℚ).getD j 0 / (([n, 1, 1].getD j 0 : Int) : ℚ)))
  have hc0 : coeff 0 = -1 := by
    simp only [coeff, hup]
    simp
    field_simp
  have hc1 : coeff 1 = 0 ∧ coeff 2 = 0 := by constructor <;> simp [coeff]
  have hfold : ∀ (u : List Nat → ℚ) (g : List Nat) (x : ℚ), (List.range 3).foldl
      (fun acc j => acc - coeff j * (u (neighbour [n, 1, 1] j (upDir [(1 : ℚ), 0, 0] j) g) - u g)) x =
      x + (u (neighbour [n, 1, 1] 0 (-1) g) - u g) := by
    intro u g x
    simp only [List.range_succ, List.range_zero, List.nil_append, List.foldl_append, List.foldl_cons, List.foldl_nil, hc0, hc1, hup]
    ring
  have hstep : ∀ (u : List Nat → ℚ) (g : List Nat), upwindStep [n, 1, 1] (upDir [(1 : ℚ), 0, 0]) coeff u g =
      u (neighbour [n, 1, 1] 0 (-1) g) := by
    intro u g
    refine (hfold u g (u g)).trans (by ring)
  have hiter : ∀ (i : Nat) (u : List Nat → ℚ) (g : List Nat), (upwindStep [n, 1, 1] (upDir [(1 : ℚ), 0, 0]) coeff)^[i] u g =
      u ((neighbour [n, 1, 1] 0 (-1))^[i] g) := by
    intro i
    induction i with
    | zero => intro u g; rfl
    | succ i ih =>
      intro u g
      rw [Function.iterate_succ_apply', hstep, ih, Function.iterate_succ_apply]
  have hnb : ∀ x, x + 1 < n → neighbour [n, 1, 1] 0 (-1) [x + 1, 0, 0] = [x, 0, 0] := by
    intro x hx
    simp only [neighbour, List.getD_cons_zero, List.set_cons_zero]
    congr 1
    rw [show ((x + 1 : Nat) : Int) + -1 = x by push_cast; ring, Int.emod_eq_of_lt (by omega) (by omega), Int.toNat_natCast]
  have hnb0 : neighbour [n, 1, 1] 0 (-1) [0, 0, 0] = [n - 1, 0, 0] := by
    simp only [neighbour, List.getD_cons_zero, List.set_cons_zero]
    congr 1
    rw [show ((0 : Nat) : Int) + -1 = ((n - 1 : Nat) : Int) + (n : Int) * (-1) by push_cast [show 1 ≤ n by omega]; ring,
      Int.add_mul_emod_self_left, Int.emod_eq_of_lt (by omega) (by omega), Int.toNat_natCast]
  -- a cell that is moved to the cell 1 by `k - 2` steps
  have hsur : ∀ i, ∀ x, x < n → ∃ y, y < n ∧ (neighbour [n, 1, 1] 0 (-1))^[i] [y, 0, 0] = [x, 0, 0] := by
    intro i
    induction i with
    | zero => intro x hx; exact ⟨x, hx, rfl⟩
    | succ i ih =>
      intro x hx
      by_cases e : x = n - 1
      · obtain ⟨y, hy, hy2⟩ := ih 0 (by omega)
        exact ⟨y, hy, by rw [Function.iterate_succ_apply', hy2, hnb0, e]⟩
      · obtain ⟨y, hy, hy2⟩ := ih (x + 1) (by omega)
        exact ⟨y, hy, by rw [Function.iterate_succ_apply', hy2, hnb x (by omega)]⟩
  obtain ⟨y, hy, hy2⟩ := hsur (k - 2) 1 (by omega)
  have hgood : GoodGrid [n, 1, 1] := ⟨by simp; omega, by simp; omega, by simp; omega⟩
  have hcells : n * (1 * 1) < 2 ^ 31 := by omega
  have haxis : n < 2 ^ 30 ∧ 1 < 2 ^ 30 ∧ 1 < 2 ^ 30 := by omega
  have hnew := new_eq3 (R := ℚ) [1, 0, 0] [1, 1, 1] n 1 1 (by omega) (by omega) (by omega) hcells rfl rfl
  obtain ⟨s0, hs0, _, hst⟩ := C37_constructor (R := ℚ) n 1 1 (by omega) (by omega) (by omega) hcells [1, 0, 0] [1, 1, 1] rfl rfl
  obtain ⟨s, hs, hfin, hres⟩ := C38_two_steps_from_old_values n 1 1 (by omega) (by omega) (by omega) hcells haxis
    [(1 : ℚ), 0, 0] [1, 1, 1] rfl rfl s0 hs0 s0.f s0.f cornerField hst k (by omega) (1 / n) T hT
  obtain ⟨r0, hr0, hst'⟩ := C32_constructor (R := ℚ) [n, 1, 1] (by simp) (by simp) hgood.1 hgood.2 hgood.3
    [1, 0, 0] [1, 1, 1] rfl rfl
  obtain ⟨r, hr, hrf⟩ := C32_advect_is_upwind_scheme (R := ℚ) [n, 1, 1] (by simp) (by simp) hgood.1 hgood.2 hgood.3
    [1, 0, 0] [1, 1, 1] rfl rfl r0 hr0 r0.f cornerField hst' k (1 / n)
  refine ⟨s0, r0, r, s, hs0, hr0, hr, hs, hfin, fun e => ?_⟩
  have h1 := hres.2 _ (hgi y hy)
  have h2 := hrf.2 _ (hgi y hy)
  have hco : upCoeff (1 / (n : ℚ)) [1, 0, 0] [1, 1, 1] [n, 1, 1] = coeff := by
    funext j
    exact (accCoeff_eq (1 / (n : ℚ)) [1, 0, 0] [1, 1, 1] [n, 1, 1] j).symm
  rw [show n * (1 * 1) = n by omega, e, h2, hco] at h1
  injection h1 with h1
  have hk2 : (neighbour [n, 1, 1] 0 (-1))^[k] [y, 0, 0] = [n - 1, 0, 0] := by
    obtain ⟨k', rfl⟩ : ∃ k', k = k' + 2 := ⟨k - 2, by omega⟩
    rw [Nat.add_sub_cancel] at hy2
    rw [Function.iterate_succ_apply', Function.iterate_succ_apply', hy2, hnb 0 (by omega), hnb0]
  rw [hiter, Int.toNat_natCast, hk2] at h1
  have h3 : cornerField [n - 1, 0, 0] = (upwindStep [n, 1, 1] (upDir [(1 : ℚ), 0, 0]) coeff)^[k - 2] (fun g => (List.range 3).foldl
      (fun acc j => acc - coeff j * (cornerField (neighbour [n, 1, 1] j (upDir [(1 : ℚ), 0, 0] j) g) - cornerField g))
      (upwindStep [n, 1, 1] (upDir [(1 : ℚ), 0, 0]) coeff cornerField g)) [y, 0, 0] := h1
  rw [hiter, hy2, hfold, hstep, hnb 0 (by omega)] at h3
  simp [cornerField, show n - 1 ≠ 0 by omega] at h3
  norm_num at h3

/-- C38: 3 cells, 3 time steps and 4 teams. -/
example : ∃ (s0 : UpwindAcc ℚ) (s : PState UpLoc ℚ), UpwindAcc.new 3 [1, 0, 0] [1, 1, 1] [(3 : Nat), (1 : Nat), (1 : Nat)] = .ok s0 ∧
    PReach (s0.regionTeams 3 (1 / 3)) 4 (fun _ _ _ => True) (memory s0.f s0.f) s ∧ s.Final (s0.regionTeams 3 (1 / 3)) 4 ∧
    ((List.range 3).map fun i => s.mem (.f, i)) = [0, -1, 2] ∧
    Covers (s0.regionTeam 7 (1 / 5)) 16 (fun _ i t => t = i % 16) := by
  obtain ⟨s0, hs0, _, hst⟩ := C37_constructor (R := ℚ) 3 1 1 (by omega) (by omega) (by omega) (by omega) [1, 0, 0] [1, 1, 1] rfl rfl
  obtain ⟨s, hs, hfin, hres⟩ := C38_two_steps_from_old_values 3 1 1 (by omega) (by omega) (by omega) (by omega) (by omega)
    [(1 : ℚ), 0, 0] [1, 1, 1] rfl rfl s0 hs0 s0.f s0.f cornerField hst 3 (by omega) (1 / 3) 4 (by omega)
  refine ⟨s0, s, hs0, hs, hfin, ?_, fun _ i _ _ => ⟨i % 16, Nat.mod_lt _ (by omega), rfl⟩⟩
  rw [(stores_iff (by simp)).1 hres]
  decide +kernel

end Fidi
