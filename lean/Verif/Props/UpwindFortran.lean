import Verif.Lemmas.UpwindFortran
import Verif.Model.Exact
import Mathlib.Tactic.FieldSimp

/-
Property C54, Fortran versions: upwind.F90, upwindF03.F90, upwindF08.F90 and upwindF08Gpu.F90. Threads, their schedule and
the interleaving of their memory accesses are those of `Verif.Model.Schedule`.

`hcast`: converting a number of cells to `real(r8)` gives the same number as converting it to `double`.
-/
set_option linter.unusedSectionVars false

namespace Fidi
open Spec Upwind

section
variable {R : Type} [Zero R] [One R] [Add R] [Sub R] [Mul R] [Div R] [NatCast R] [IntCast R] [LT R] [DecidableLT R]

/-- C54: the loop of `upwind_advect` of upwind.F90, upwindF03.F90 and upwindF08.F90, for every number of threads, schedule
and interleaving: no undefined behaviour, no access outside the arrays, never stuck, and at the end every element of `f`
is that of one step of the scheme, bit for bit. -/
theorem C54_fortran_any_schedule (N : List Nat) (hN : N ≠ []) (hdim : N.length + 1 < 2 ^ 31) (hpos : ∀ n ∈ N, 0 < n)
    (hcells : N.prod < 2 ^ 31) (haxis : ∀ n ∈ N, n < 2 ^ 30) (v L : List R) (hv : v.length = N.length)
    (hL : L.length = N.length) (hcast : ∀ n : Nat, ((n : Int) : R) = (n : R))
    (s0 : FUpwind R) (hnew : FUpwind.new v L (N.map fun n : Nat => (n : Int)) = .ok s0)
    (f0 : List R) (u : List Nat → R) (hf : Stores N f0 u) (dt : R) (T : Nat) (hT : 0 < T) (may : Nat → Nat → Nat → Prop)
    (hmay : Covers ({ s0 with f := f0 }.region dt) T may) (s : PState UpLoc R)
    (hs : PReach ({ s0 with f := f0 }.region dt) T may { s0 with f := f0 }.memory s) :
    ¬ s.Faulty { s0 with f := f0 }.allocated T ∧
    (¬ s.Final ({ s0 with f := f0 }.region dt) T → ∃ s', PStep ({ s0 with f := f0 }.region dt) T may s s') ∧
    (s.Final ({ s0 with f := f0 }.region dt) T → ∀ g, InGrid N g →
      s.mem (.f, rankOf N g + 1) = schemeStep N (upDir v) (changeDivLast dt v L N) u g) := by
  have hg : GoodGrid N := ⟨hpos, hcells, haxis⟩
  have e := FUpwind.new_eq hcast hN hg hdim hv hL
  rw [e] at hnew
  injection hnew with hnew
  subst hnew
  have hr := FUpwind.region_raceFree (v := v) (L := L) (f := f0) hg hdim hv dt
  refine ⟨FUpwind.not_faulty hf.1 (hs.not_faulty hr hT), fun h => hs.progress hr hT hmay h, fun h g hgr => ?_⟩
  rw [hs.final_mem hr hT h]
  exact FUpwind.region_seq hg hdim hv dt _ (fun g hg' => FUpwind.memory_stores hf hg' _)
    (fun g hg' => FUpwind.memory_stores hf hg' _) hgr

/-- C54: the same for the two loops of upwindF08Gpu.F90, whatever the new array `oldF` holds. -/
theorem C54_fortran_gpu_any_schedule (N : List Nat) (hN : N ≠ []) (hdim : N.length + 1 < 2 ^ 31) (hpos : ∀ n ∈ N, 0 < n)
    (hcells : N.prod < 2 ^ 31) (haxis : ∀ n ∈ N, n < 2 ^ 30) (v L : List R) (hv : v.length = N.length)
    (hL : L.length = N.length) (hcast : ∀ n : Nat, ((n : Int) : R) = (n : R))
    (s0 : FUpwind R) (hnew : FUpwind.new v L (N.map fun n : Nat => (n : Int)) = .ok s0)
    (f0 : List R) (u : List Nat → R) (hf : Stores N f0 u) (dt : R) (junk : Nat → R) (T : Nat) (hT : 0 < T)
    (may : Nat → Nat → Nat → Prop)
    (hmay : Covers ({ s0 with f := f0 }.regionGpu dt) T may) (s : PState UpLoc R)
    (hs : PReach ({ s0 with f := f0 }.regionGpu dt) T may ({ s0 with f := f0 }.memoryGpu junk) s) :
    ¬ s.Faulty { s0 with f := f0 }.allocated T ∧
    (¬ s.Final ({ s0 with f := f0 }.regionGpu dt) T → ∃ s', PStep ({ s0 with f := f0 }.regionGpu dt) T may s s') ∧
    (s.Final ({ s0 with f := f0 }.regionGpu dt) T → ∀ g, InGrid N g →
      s.mem (.f, rankOf N g + 1) = schemeStep N (upDir v) (changeDivLast dt v L N) u g) := by
  have hg : GoodGrid N := ⟨hpos, hcells, haxis⟩
  have e := FUpwind.new_eq hcast hN hg hdim hv hL
  rw [e] at hnew
  injection hnew with hnew
  subst hnew
  have hr := FUpwind.regionGpu_raceFree (v := v) (L := L) (f := f0) hg hdim hv dt
  refine ⟨FUpwind.not_faulty hf.1 (hs.not_faulty hr hT), fun h => hs.progress hr hT hmay h, fun h g hgr => ?_⟩
  rw [hs.final_mem hr hT h]
  exact FUpwind.regionGpu_seq hg hdim hv dt _ (fun g hg' => FUpwind.memoryGpu_stores hf hg' junk) hgr

/-- C54: every execution of a call comes to an end: bounds on the number of its steps. -/
theorem C54_fortran_terminates (N : List Nat) (hN : N ≠ []) (hdim : N.length + 1 < 2 ^ 31) (hpos : ∀ n ∈ N, 0 < n)
    (hcells : N.prod < 2 ^ 31) (haxis : ∀ n ∈ N, n < 2 ^ 30) (v L : List R) (hv : v.length = N.length)
    (hL : L.length = N.length) (hcast : ∀ n : Nat, ((n : Int) : R) = (n : R))
    (s0 : FUpwind R) (hnew : FUpwind.new v L (N.map fun n : Nat => (n : Int)) = .ok s0)
    (f0 : List R) (dt : R) (T : Nat) (may : Nat → Nat → Nat → Prop) (m : Mem UpLoc R)
    (σ : Nat → PState UpLoc R) (len : Nat) (h0 : σ 0 = .init m) :
    ((∀ n, n < len → PStep ({ s0 with f := f0 }.region dt) T may (σ n) (σ (n + 1))) →
      len ≤ T + N.prod * (4 * N.length + 2)) ∧
    ((∀ n, n < len → PStep ({ s0 with f := f0 }.regionGpu dt) T may (σ n) (σ (n + 1))) →
      len ≤ 2 * (T + N.prod * (4 * N.length + 2))) := by
  have hg : GoodGrid N := ⟨hpos, hcells, haxis⟩
  have e := FUpwind.new_eq hcast hN hg hdim hv hL
  rw [e] at hnew
  injection hnew with hnew
  subst hnew
  constructor
  · intro hstep
    have h := exec_bounded (FUpwind.region_len (v := v) (L := L) (f := f0) hg hdim hv dt) m σ len h0 hstep
    have hp : ((FUpwind.built v L N f0).region dt).phases = 1 := rfl
    have hc : ((FUpwind.built v L N f0).region dt).count 0 = N.prod := Int.toNat_natCast _
    rw [hp, Finset.sum_range_one, hc] at h
    omega
  · intro hstep
    have h := exec_bounded (FUpwind.regionGpu_len (v := v) (L := L) (f := f0) hN hg hdim hv dt) m σ len h0 hstep
    have hp : ((FUpwind.built v L N f0).regionGpu dt).phases = 2 := rfl
    have hc : ∀ k, ((FUpwind.built v L N f0).regionGpu dt).count k = N.prod := fun _ => Int.toNat_natCast _
    rw [hp, Finset.sum_range_succ, Finset.sum_range_one, hc, hc] at h
    omega

/-- C54: the constructor succeeds; `k` calls of `upwind_advect`, each executed by any number of threads in any order, can be
carried out and give the field of `k` steps of the scheme from the field that is 1 in the low corner, bit for bit. -/
theorem C54_fortran_field (N : List Nat) (hN : N ≠ []) (hdim : N.length + 1 < 2 ^ 31) (hpos : ∀ n ∈ N, 0 < n)
    (hcells : N.prod < 2 ^ 31) (haxis : ∀ n ∈ N, n < 2 ^ 30) (v L : List R) (hv : v.length = N.length)
    (hL : L.length = N.length) (hcast : ∀ n : Nat, ((n : Int) : R) = (n : R)) (dt : R) (k : Nat) :
    ∃ s0 : FUpwind R, FUpwind.new v L (N.map fun n : Nat => (n : Int)) = .ok s0 ∧
      (∃ x, FUpwind.Advances dt k s0 x) ∧
      ∀ x, FUpwind.Advances dt k s0 x →
        Stores N x.f ((schemeStep N (upDir v) (changeDivLast dt v L N))^[k] cornerField) := by
  have hg : GoodGrid N := ⟨hpos, hcells, haxis⟩
  have hst := Stores.listOf (R := R) hpos cornerField
  refine ⟨_, FUpwind.new_eq hcast hN hg hdim hv hL, FUpwind.exists_advances hg hdim hv dt hst.1 k, fun x hx => ?_⟩
  rw [FUpwind.advances_eq hg hdim hv dt hst hx]
  exact Stores.listOf hpos _

end

section
variable {K : Type} [Field K] [LinearOrder K]

theorem changeDivLast_eq (dt : K) (v L : List K) (N : List Nat) (j : Nat) (a b : K) :
    changeDivLast dt v L N j a b = upCoeff dt v L N j * (a - b) := by
  unfold changeDivLast upCoeff
  ring

/-- C54: in exact arithmetic the field after `k` calls, however the threads are scheduled, is that of upwind.cxx after `k`
steps, element by element. -/
theorem C54_fortran_same_as_cpp_partial (N : List Nat) (hN : N ≠ []) (hdim : N.length + 1 < 2 ^ 31) (hpos : ∀ n ∈ N, 0 < n)
    (hcells : N.prod < 2 ^ 31) (haxis : ∀ n ∈ N, n < 2 ^ 30) (v L : List K) (hv : v.length = N.length)
    (hL : L.length = N.length) (dt : K) (k : Nat)
    (s0 : FUpwind K) (hnew : FUpwind.new v L (N.map fun n : Nat => (n : Int)) = .ok s0)
    (x : FUpwind K) (hx : FUpwind.Advances dt k s0 x) :
    ∃ c c' : Upwind K, Upwind.new N.length v L N = .ok c ∧ c.advect k dt = .ok c' ∧ c'.f = x.f := by
  have hg : GoodGrid N := ⟨hpos, hcells, haxis⟩
  have hst := Stores.listOf (R := K) hpos cornerField
  have e := FUpwind.new_eq (R := K) (fun n => Int.cast_natCast n) hN hg hdim hv hL
  rw [e] at hnew
  injection hnew with hnew
  subst hnew
  have hc := new_built (v := v) (L := L) hN (by omega) hg hv hL
  obtain ⟨o, _, ha⟩ := advect_spec hN (by omega) hg hv hL hc (built_stores (v := v) (L := L) hg) k dt
  refine ⟨_, _, hc, ha, ?_⟩
  rw [FUpwind.advances_eq hg hdim hv dt hst hx,
    schemeStep_eq_upwindStep N (upDir v) (upCoeff dt v L N) _ (changeDivLast_eq dt v L N), Int.toNat_natCast]
  rfl

/-- C54: the main program takes the time step of upwind.cxx. -/
theorem C54_fortran_time_step [HasMax K] (courant : K) (N : List Nat) (hdim : N.length + 1 < 2 ^ 31) (v L : List K)
    (hv : v.length = N.length) (hL : L.length = N.length) :
    ∃ dt, FUpwind.mainDt courant HasMax.dblMax v L (N.map fun n : Nat => (n : Int)) = .ok dt ∧
      Upwind.mainDt courant v L N = .ok dt := by
  have hd : v.length + 1 < 2 ^ 31 := by omega
  let step := fun (dt : K) (j : Nat) =>
    let val := courant * (L.getD j 0 / (N.getD j 0 : K)) / v.getD j 0
    if val < dt then val else dt
  refine ⟨(List.range v.length).foldl step HasMax.dblMax, ?_, ?_⟩
  · unfold FUpwind.mainDt
    obtain ⟨s, e, hs⟩ := Fortran.doUp_inv hd (fun i s => s = (List.range i).foldl step HasMax.dblMax)
      (fun j dt => do
        let dx := (← Fortran.rd1 L j) / ((← Fortran.rd1 (N.map fun n : Nat => (n : Int)) j : Int) : K)
        let val := courant * dx / (← Fortran.rd1 v j)
        pure (if dt < val then dt else val)) HasMax.dblMax rfl
      (by
        intro i s hi hs
        refine ⟨_, ?_, by rw [List.range_succ, List.foldl_append, ← hs]⟩
        rw [Fortran.rd1_of_lt (v := L) (by omega), Fortran.rd1_of_lt (v := N.map _) (by simp; omega),
          Fortran.rd1_of_lt (v := v) (by omega)]
        simp only [M.ok_bind, M.pure_eq, List.foldl_cons, List.foldl_nil, step, List.getElem_map, Int.cast_natCast]
        rw [getD_of_lt (l := L) (by omega), getD_of_lt hi, natGetD_of_lt (by omega : i < N.length)]
        congr 1
        split
        · next h1 => rw [if_neg (not_lt.2 h1.le)]
        · next h1 =>
          split
          · rfl
          · next h2 => exact le_antisymm (not_lt.1 h1) (not_lt.1 h2))
    rw [e, hs]
  · unfold Upwind.mainDt
    obtain ⟨s, e, hs⟩ := forUp_inv (Nat.zero_le v.length) (fun i s => s = (List.range i).foldl step HasMax.dblMax)
      (fun j dt => do
        let dx := (← rd L j) / ((← rd N j : Nat) : K)
        let val := courant * dx / (← rd v j)
        pure (if val < dt then val else dt)) HasMax.dblMax rfl
      (by
        intro i s _ hi hs
        refine ⟨_, ?_, by rw [List.range_succ, List.foldl_append, ← hs]⟩
        rw [rd_of_lt (v := L) (by omega), rd_of_lt (v := N) (by omega), rd_of_lt (v := v) hi]
        simp only [M.ok_bind, M.pure_eq, List.foldl_cons, List.foldl_nil, step]
        rw [getD_of_lt (l := L) (by omega), getD_of_lt hi, natGetD_of_lt (by omega : i < N.length)])
    rw [e, hs]

end

/-- Three threads, any of which may take any cell, meet the hypotheses of `C54_fortran_any_schedule`. -/
example : ∃ s0 : FUpwind ℚ, FUpwind.new [1, -1] [1, 1] [4, 3] = .ok s0 ∧
    (∃ u, Stores [4, 3] ([1, 2, 3, 4, 5, 6, 7, 8, 9, 10, 11, 12] : List ℚ) u) ∧
    Covers ({ s0 with f := [1, 2, 3, 4, 5, 6, 7, 8, 9, 10, 11, 12] }.region (1 / 10)) 3 (fun _ _ _ => True) := by
  refine ⟨_, FUpwind.new_eq (N := [4, 3]) (fun n => Int.cast_natCast n) (by simp) ⟨by simp, by simp, by simp⟩ (by simp) rfl rfl,
    ⟨_, exists_field rfl⟩, fun _ _ _ _ => ⟨0, by omega, trivial⟩⟩

/-- Likewise for the two loops of upwindF08Gpu.F90, with iteration `i` taken by thread `i mod 3`. -/
example : ∃ s0 : FUpwind ℚ, FUpwind.new [1, -1] [1, 1] [4, 3] = .ok s0 ∧
    Covers ({ s0 with f := [1, 2, 3, 4, 5, 6, 7, 8, 9, 10, 11, 12] }.regionGpu (1 / 10)) 3 (fun _ i t => t = i % 3) := by
  refine ⟨_, FUpwind.new_eq (N := [4, 3]) (fun n => Int.cast_natCast n) (by simp) ⟨by simp, by simp, by simp⟩ (by simp) rfl rfl,
    fun _ i _ _ => ⟨i % 3, Nat.mod_lt _ (by omega), rfl⟩⟩

/-- Five calls on a 4 x 3 grid: the hypotheses of `C54_fortran_same_as_cpp_partial` are met. -/
example : ∃ s0 x : FUpwind ℚ, FUpwind.new [1, -1] [1, 1] [4, 3] = .ok s0 ∧ FUpwind.Advances (1 / 10) 5 s0 x := by
  obtain ⟨s0, h1, ⟨x, h2⟩, _⟩ := C54_fortran_field (R := ℚ) [4, 3] (by simp) (by simp) (by simp) (by simp) (by simp)
    [1, -1] [1, 1] rfl rfl (fun n => Int.cast_natCast n) (1 / 10) 5
  exact ⟨s0, x, h1, h2⟩

/-- The time step on a 4 x 3 grid with velocity (1, 1/2). -/
example : FUpwind.mainDt (1 / 10 : ℚ) HasMax.dblMax [1, 1 / 2] [1, 1] [4, 3] = .ok (1 / 40) := by decide +kernel

end Fidi
