import Verif.Lemmas.UpwindPar
import Verif.Model.Exact

/-
Property C35: the threaded execution of `advect` in upwind.cxx and upwindOMPTasks.cxx.
The threads, their schedule and the interleaving of their memory accesses are those of `Verif.Model.Schedule`.
-/
set_option linter.unusedSectionVars false

namespace Fidi
open Spec Upwind

section
variable {R : Type} [Zero R] [One R] [Add R] [Sub R] [Mul R] [Div R] [NatCast R] [IntCast R] [LT R] [DecidableLT R]

/-- C35: for every number of threads, schedule and interleaving, no thread runs into undefined behaviour or accesses an
element outside the arrays, the threads are never stuck, and when all have left the region every element of `f` is
the one computed by the sequential execution, bit for bit. -/
theorem C35_any_schedule (N : List Nat) (hN : N ≠ []) (hdim : N.length < 2 ^ 64) (hpos : ∀ n ∈ N, 0 < n)
    (hcells : N.prod < 2 ^ 31) (haxis : ∀ n ∈ N, n < 2 ^ 30) (v L : List R) (hv : v.length = N.length)
    (hL : L.length = N.length) (s0 : Upwind R) (hnew : Upwind.new N.length v L N = .ok s0)
    (f0 : List R) (hf : f0.length = N.prod) (k : Int) (dt : R)
    (T : Nat) (hT : 0 < T) (may : Nat → Nat → Nat → Prop)
    (hmay : Covers ({ s0 with f := f0 }.region k dt) T may) (s : PState UpLoc R)
    (hs : PReach ({ s0 with f := f0 }.region k dt) T may { s0 with f := f0 }.memory s) :
    ¬ s.Faulty { s0 with f := f0 }.allocated T ∧
    (¬ s.Final ({ s0 with f := f0 }.region k dt) T → ∃ s', PStep ({ s0 with f := f0 }.region k dt) T may s s') ∧
    (s.Final ({ s0 with f := f0 }.region k dt) T → ∃ s1, { s0 with f := f0 }.advect k dt = .ok s1 ∧
      s1.f.length = N.prod ∧ ∀ i, i < N.prod → s1.f[i]? = some (s.mem (.f, i))) := by
  have hg : GoodGrid N := ⟨hpos, hcells, haxis⟩
  have hst := exists_field hf
  obtain ⟨o, _, hadv⟩ := advect_spec hN hdim hg hv hL hnew hst k dt
  rw [new_built hN hdim hg hv hL] at hnew
  injection hnew with hnew
  subst hnew
  have hr : RaceFree ({ built v L N with f := f0 }.region k dt) (gridAlloc N.prod) owners :=
    region_raceFree (f := f0) (old := (built v L N).oldF) hg hv k dt
  refine ⟨?_, fun h => hs.progress hr hT hmay h, fun h => ?_⟩
  · have h := hs.not_faulty hr hT
    have hal : ∀ l : UpLoc, ¬ Upwind.allocated { built v L N with f := f0 } l → ¬ gridAlloc N.prod l := by
      have hp := hg.prod
      rintro ⟨_ | _, i⟩ h
      · simpa [Upwind.allocated, gridAlloc, hf] using h
      · simp only [Upwind.allocated, built, List.length_replicate] at h
        rw [Nat.mod_eq_of_lt (by unfold W; omega)] at h
        exact h
    rintro ⟨t, ht, i, h1⟩
    refine h ⟨t, ht, i, ?_⟩
    rcases h1 with h1 | ⟨l, p, h1, h2⟩ | ⟨l, x, p, h1, h2⟩
    · exact Or.inl h1
    · exact Or.inr (Or.inl ⟨l, p, h1, hal l h2⟩)
    · exact Or.inr (Or.inr ⟨l, x, p, h1, hal l h2⟩)
  · refine ⟨_, hadv, by simp, fun i hi => ?_⟩
    rw [hs.final_mem hr hT h]
    have hm := region_memAt (L := L) (f := f0) (old := (built v L N).oldF) hg hv k dt
      (u := fun g => f0.getD (rankOf N g) 0) (Upwind.memory { built v L N with f := f0 }) (fun g _ => rfl)
      k.toNat (Nat.le_refl _) (cellAt N i) (cellAt_inGrid hpos i)
    have hl := (Stores.listOf hpos ((upwindStep N (upDir v) (upCoeff dt v L N))^[k.toNat]
      fun g => f0.getD (rankOf N g) 0)).2 (cellAt N i) (cellAt_inGrid hpos i)
    rw [rankOf_cellAt hpos hi] at hm hl
    rw [hl, ← hm]
    rfl

/-- C35: every execution comes to an end: a bound on the number of its steps. -/
theorem C35_terminates (N : List Nat) (hN : N ≠ []) (hdim : N.length < 2 ^ 64) (hpos : ∀ n ∈ N, 0 < n)
    (hcells : N.prod < 2 ^ 31) (haxis : ∀ n ∈ N, n < 2 ^ 30) (v L : List R) (hv : v.length = N.length)
    (hL : L.length = N.length) (s0 : Upwind R) (hnew : Upwind.new N.length v L N = .ok s0)
    (f0 : List R) (k : Int) (dt : R) (T : Nat) (may : Nat → Nat → Nat → Prop)
    (σ : Nat → PState UpLoc R) (len : Nat) (h0 : σ 0 = .init { s0 with f := f0 }.memory)
    (hstep : ∀ n, n < len → PStep ({ s0 with f := f0 }.region k dt) T may (σ n) (σ (n + 1))) :
    len ≤ 2 * k.toNat * (T + N.prod * (4 * N.length + 2)) := by
  have hg : GoodGrid N := ⟨hpos, hcells, haxis⟩
  rw [new_built hN hdim hg hv hL] at hnew
  injection hnew with hnew
  subst hnew
  have h := exec_bounded (region_len (f := f0) (old := (built v L N).oldF) hg hv k dt hN) _ σ len h0 hstep
  simp only [region, loopCount_eq hg, Finset.sum_const, Finset.card_range, Nat.nsmul_eq_mul] at h
  calc len ≤ _ := h
    _ = _ := by ring
end

/-- A dynamic schedule (any thread may take any iteration) on three threads meets the hypotheses of C35. -/
example : ∃ s0 : Upwind ℚ, Upwind.new 2 [1, -1] [1, 1] [4, 3] = .ok s0 ∧
    Covers ({ s0 with f := [1, 2, 3, 4, 5, 6, 7, 8, 9, 10, 11, 12] }.region 5 (1 / 10)) 3 (fun _ _ _ => True) := by
  refine ⟨_, new_built (N := [4, 3]) (by simp) (by simp) ⟨by simp, by simp, by simp⟩ rfl rfl, ?_⟩
  exact fun _ _ _ _ => ⟨0, by omega, trivial⟩

/-- A static schedule: iteration `i` belongs to thread `i mod 3`. -/
example : ∃ s0 : Upwind ℚ, Upwind.new 2 [1, -1] [1, 1] [4, 3] = .ok s0 ∧
    Covers ({ s0 with f := [1, 2, 3, 4, 5, 6, 7, 8, 9, 10, 11, 12] }.region 5 (1 / 10)) 3 (fun _ i t => t = i % 3) := by
  refine ⟨_, new_built (N := [4, 3]) (by simp) (by simp) ⟨by simp, by simp, by simp⟩ rfl rfl, ?_⟩
  exact fun _ i _ _ => ⟨i % 3, Nat.mod_lt _ (by omega), rfl⟩

end Fidi
