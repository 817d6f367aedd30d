import Verif.Lemmas.UpwindWide
import Verif.Props.Upwind

/-
Property C36: on exactly which grids `advect` of upwind.cxx computes the upwind scheme.
-/
set_option linter.unusedSectionVars false

namespace Fidi
open Spec Upwind

/-- C36: on every grid with fewer than 2^31 cells, whatever the axes, `advect` executes without undefined behaviour and applies the step
`wideStep` as many times as asked, operation by operation. -/
theorem C36_any_axis {R : Type} [Zero R] [One R] [Add R] [Sub R] [Mul R] [Div R] [NatCast R] [IntCast R]
    [LT R] [DecidableLT R] (N : List Nat) (hN : N ≠ []) (hdim : N.length < 2 ^ 64) (hpos : ∀ n ∈ N, 0 < n)
    (hcells : N.prod < 2 ^ 31) (v L : List R) (hv : v.length = N.length)
    (hL : L.length = N.length) (s0 : Upwind R) (hnew : Upwind.new N.length v L N = .ok s0)
    (f0 : List R) (u : List Nat → R) (hf : Stores N f0 u) (k : Int) (dt : R) :
    ∃ s', { s0 with f := f0 }.advect k dt = .ok s' ∧
      Stores N s'.f ((wideStep N (upDir v) (upCoeff dt v L N))^[k.toNat] u) := by
  have hp := List.prod_pos hpos
  rw [new_eq v L N hv hL hN (by unfold W; omega), if_neg (by rw [Nat.mod_eq_of_lt (by unfold W; omega)]; omega)] at hnew
  injection hnew with hnew
  subst hnew
  obtain ⟨o, -, e⟩ := wide_advect_eq (v := v) (L := L) (f := f0) (old := (built v L N).oldF) ⟨hpos, hcells⟩ hv k dt hf
    (by simp only [built, List.length_replicate]; exact Nat.mod_eq_of_lt (by unfold W; omega))
  exact ⟨_, e, Stores.listOf hpos _⟩

example : ([2 ^ 30 + 1] : List Nat).prod < 2 ^ 31 ∧ ([3 * 2 ^ 29, 1] : List Nat).prod < 2 ^ 31 := by decide

section
open Finset
variable {K : Type} [Field K] [LinearOrder K] [IsStrictOrderedRing K]

/-- The velocity that is 1 along one axis. -/
def axisVelocity (m j : Nat) : List K := (List.range m).map fun i => if i = j then 1 else 0

theorem axisVelocity_getD {m j : Nat} (hj : j < m) (i : Nat) : (axisVelocity m j : List K).getD i 0 = if i = j then 1 else 0 := by
  unfold axisVelocity
  by_cases hi : i < m
  · simp [List.getD_eq_getElem?_getD, hi]
  · have : i ≠ j := by omega
    simp [List.getD_eq_getElem?_getD, hi, this]

/-- With this velocity a step moves along one axis only. -/
theorem probe_sum {N : List Nat} (hpos : ∀ n ∈ N, 0 < n) {j : Nat} (hj : j < N.length) (d : Nat → K) :
    ∑ i ∈ range N.length, upCoeff 1 (axisVelocity N.length j) (List.replicate N.length 1) N i * d i = -(N.getD j 0 : K) * d j := by
  rw [sum_eq_single j]
  · unfold upCoeff upDir cellWidth
    rw [axisVelocity_getD hj, if_pos rfl, if_neg zero_lt_one.not_gt]
    have h1 : (List.replicate N.length (1 : K)).getD j 0 = 1 := by
      simp [List.getD_eq_getElem?_getD, hj]
    rw [h1]
    have : (N.getD j 0 : K) ≠ 0 := by
      rw [natGetD_of_lt hj]
      exact Nat.cast_ne_zero.2 (hpos _ (List.getElem_mem hj)).ne'
    push_cast
    field_simp
  · intro i _ hi
    unfold upCoeff
    rw [axisVelocity_getD hj, if_neg hi]
    ring
  · intro h
    exact absurd (mem_range.2 hj) h

theorem probe_scheme {N : List Nat} (hpos : ∀ n ∈ N, 0 < n) {j : Nat} (hj : j < N.length) (h2 : 2 ≤ N.getD j 0) {g : List Nat}
    (hg : InGrid N g) :
    upwindStep N (upDir (axisVelocity N.length j : List K)) (upCoeff 1 (axisVelocity N.length j) (List.replicate N.length 1) N)
      (fun t => if t = neighbour N j (-1) g then 1 else 0) g = (N.getD j 0 : K) ∧ neighbour N j (-1) g ≠ g := by
  obtain ⟨hl, h⟩ := inGrid_iff_getElem.1 hg
  have hx := h j hj (by omega)
  have hne : neighbour N j (-1) g ≠ g := by
    intro e
    have e1 := congrArg (fun t => t.getD j 0) e
    unfold neighbour at e1
    simp only [List.getD_eq_getElem?_getD] at e1 h2
    rw [List.getElem?_set_self (by omega)] at e1
    rw [List.getElem?_eq_getElem hj] at e1 h2
    rw [List.getElem?_eq_getElem (show j < g.length by omega)] at e1
    simp only [Option.getD_some] at e1 h2
    rcases Nat.eq_zero_or_pos g[j] with h0 | h0
    · rw [h0] at e1
      have : ((((0 : Nat) : Int) + -1) % (N[j] : Int)) = (N[j] : Int) - 1 := by
        rw [show ((0 : Nat) : Int) + -1 = ((N[j] : Int) - 1) + (N[j] : Int) * (-1) by push_cast; ring, Int.add_mul_emod_self_left,
          Int.emod_eq_of_lt (by omega) (by omega)]
      omega
    · rw [Int.emod_eq_of_lt (by omega) (by omega)] at e1
      omega
  refine ⟨?_, hne⟩
  rw [upwindStep_eq, probe_sum hpos hj, if_neg hne.symm]
  have : upDir (axisVelocity N.length j : List K) j = -1 := by
    unfold upDir
    rw [axisVelocity_getD hj, if_pos rfl, if_neg zero_lt_one.not_gt]
  rw [this, if_pos rfl]
  ring

theorem wideStep_sum (N : List Nat) (s : Nat → Int) (c : Nat → K) (u : List Nat → K) (g : List Nat) :
    wideStep N s c u g = u g - ∑ j ∈ range N.length, c j * (u (wideNeighbour N j (s j) g) - u g) := by
  unfold wideStep
  exact foldl_sub _ (fun j => c j * (u (wideNeighbour N j (s j) g) - u g)) _

/-- C36: `advect` computes the upwind scheme for all velocities, domain sizes, time steps, numbers of steps and fields if and only if
the grid has fewer than 2^31 cells and each axis has at most 2^30 cells or a number that divides 2^64 - 2^32. -/
theorem C36_right_iff (N : List Nat) (hN : N ≠ []) (hdim : N.length < 2 ^ 64) (hpos : ∀ n ∈ N, 0 < n) (hcells : N.prod < 2 ^ 64) :
    (∀ (v L : List K) (s0 : Upwind K) (f0 : List K) (u : List Nat → K) (k : Int) (dt : K), v.length = N.length →
      L.length = N.length → Upwind.new N.length v L N = .ok s0 → Stores N f0 u →
      ∃ s', { s0 with f := f0 }.advect k dt = .ok s' ∧
        Stores N s'.f ((upwindStep N (upDir v) (upCoeff dt v L N))^[k.toNat] u)) ↔
    N.prod < 2 ^ 31 ∧ ∀ n ∈ N, n ≤ 2 ^ 30 ∨ n ∣ 2 ^ 64 - 2 ^ 32 := by
  have hp := List.prod_pos hpos
  have new : ∀ v L : List K, v.length = N.length → L.length = N.length → Upwind.new N.length v L N = .ok (built v L N) := by
    intro v L hv hL
    rw [new_eq v L N hv hL hN (by unfold W; omega), if_neg (by rw [Nat.mod_eq_of_lt (by unfold W; omega)]; omega)]
  constructor
  · intro h
    -- what one step gives in a cell, for the field that is 1 in the neighbour of this cell
    have test : ∀ j (hj : j < N.length), 2 ≤ N.getD j 0 → ∀ g, InGrid N g →
        ∃ s', (withF (axisVelocity N.length j : List K) (List.replicate N.length 1) N
            (listOf N fun t => if t = neighbour N j (-1) g then 1 else 0)
            (built (axisVelocity N.length j : List K) (List.replicate N.length 1) N).oldF).timeStep 1 = .ok s' ∧
          s'.f[rankOf N g]? = some (N.getD j 0 : K) := by
      intro j hj h2 g hg
      obtain ⟨s', e, hs⟩ := h (axisVelocity N.length j) (List.replicate N.length 1) _ _ _ 1 1 (by simp [axisVelocity]) (by simp)
        (new _ _ (by simp [axisVelocity]) (by simp)) (Stores.listOf hpos fun t => if t = neighbour N j (-1) g then 1 else 0)
      refine ⟨s', ?_, ?_⟩
      · rw [← e]
        unfold Upwind.advect
        rw [show (1 : Int).toNat = 0 + 1 from rfl, forUp_succ (Nat.le_refl 0), forUp_of_ge (Nat.le_refl _), M.ok_bind]
      · rw [hs.2 g hg, ← (probe_scheme (K := K) hpos hj h2 hg).1]
        rfl
    have h31 : N.prod < 2 ^ 31 := by
      by_contra hbig
      obtain ⟨j, hj, h2⟩ : ∃ j, j < N.length ∧ 2 ≤ N.getD j 0 := by
        by_contra hno
        have : N.prod = 1 := by
          refine List.prod_eq_one fun n hn => ?_
          obtain ⟨j, hj, rfl⟩ := List.getElem_of_mem hn
          have := hpos _ hn
          by_contra hne
          exact hno ⟨j, hj, by rw [natGetD_of_lt hj]; omega⟩
        omega
      have hg := cellAt_inGrid hpos (N.prod - 1)
      have hr := rankOf_cellAt hpos (show N.prod - 1 < N.prod by omega)
      obtain ⟨s', e, hv⟩ := test j hj h2 _ hg
      have hfr := timeStep_frame e (k := N.prod - 1) (loopCount_lt (by omega) hcells)
      rw [hr, hfr] at hv
      have hst := (Stores.listOf hpos fun t => if t = neighbour N j (-1) (cellAt N (N.prod - 1)) then (1 : K) else 0).2 _ hg
      rw [hr] at hst
      simp only at hv
      rw [hst] at hv
      simp only at hv
      rw [if_neg (probe_scheme (K := K) hpos hj h2 hg).2.symm] at hv
      have := Option.some.inj hv
      have hz : N.getD j 0 = 0 := by exact_mod_cast this.symm
      omega
    refine ⟨h31, fun n hn => ?_⟩
    by_contra hbad
    rw [not_or] at hbad
    obtain ⟨j, hj, rfl⟩ := List.getElem_of_mem hn
    have hle : N[j] < 2 ^ 31 := (WideGrid.mk hpos h31).mem_lt hn
    have hgd : N.getD j 0 = N[j] := natGetD_of_lt hj
    -- the last cell along the axis
    obtain ⟨g, hg, hgj⟩ : ∃ g, InGrid N g ∧ g.getD j 0 = N[j] - 1 := by
      refine ⟨N.map fun n => n - 1, inGrid_iff_getElem.2 ⟨by simp, fun i h1 h2 => ?_⟩, ?_⟩
      · have := hpos _ (List.getElem_mem h1)
        simp only [List.getElem_map]
        omega
      · simp [List.getD_eq_getElem?_getD, hj]
    obtain ⟨s', e, hv⟩ := test j hj (by omega) g hg
    rw [wide_timeStep_eq ⟨hpos, h31⟩ (by simp [axisVelocity]) 1 (Stores.listOf hpos _)
      (by simp only [built, List.length_replicate]; exact Nat.mod_eq_of_lt (by unfold W; omega))] at e
    obtain rfl := Except.ok.inj e
    simp only at hv
    rw [(Stores.listOf hpos _).2 g hg, wideStep_sum, probe_sum hpos hj, if_neg (probe_scheme (K := K) hpos hj (by omega) hg).2.symm] at hv
    have hup : upDir (axisVelocity N.length j : List K) j = -1 := by
      unfold upDir
      rw [axisVelocity_getD hj, if_pos rfl, if_neg zero_lt_one.not_gt]
    have hne : wideNeighbour N j (-1) g ≠ neighbour N j (-1) g := by
      intro e
      have e1 := congrArg (fun t => t.getD j 0) e
      unfold wideNeighbour neighbour at e1
      have hgl := hg.length_eq
      simp only [hgd, hgj] at e1
      rw [if_neg (by omega)] at e1
      simp only [List.getD_eq_getElem?_getD] at e1
      rw [List.getElem?_set_self (by omega), List.getElem?_set_self (by omega)] at e1
      simp only [Option.getD_some] at e1
      have a := Int.emod_nonneg (((N[j] - 1 : Nat) : Int) + -1 + (2 ^ 64 - 2 ^ 32)) (b := (N[j] : Int)) (by omega)
      have b := Int.emod_nonneg (((N[j] - 1 : Nat) : Int) + -1) (b := (N[j] : Int)) (by omega)
      have e2 : (((N[j] - 1 : Nat) : Int) + -1 + (2 ^ 64 - 2 ^ 32)) % (N[j] : Int) = (((N[j] - 1 : Nat) : Int) + -1) % (N[j] : Int) := by
        omega
      have hd := Int.ModEq.dvd (show ((N[j] - 1 : Nat) : Int) + -1 ≡ ((N[j] - 1 : Nat) : Int) + -1 + (2 ^ 64 - 2 ^ 32) [ZMOD (N[j] : Int)]
        from e2.symm)
      rw [add_sub_cancel_left] at hd
      have : ((N[j] : Nat) : Int) ∣ ((2 ^ 64 - 2 ^ 32 : Nat) : Int) := hd
      exact hbad.2 (Int.natCast_dvd_natCast.1 this)
    rw [hup, if_neg hne] at hv
    have := Option.some.inj hv
    have hz : (N.getD j 0 : K) = 0 := by linarith
    have : N.getD j 0 = 0 := by exact_mod_cast hz
    omega
  · rintro ⟨h31, hax⟩ v L s0 f0 u k dt hv hL hnew hf
    obtain ⟨s', e, hs⟩ := C36_any_axis N hN hdim hpos h31 v L hv hL s0 hnew f0 u hf k dt
    exact ⟨s', e, hs.1, fun g hg => by rw [hs.2 g hg, wideStep_iter hax v _ u k.toNat g hg]⟩

/-- Grids of both kinds. -/
example : ((2 ^ 30 : Nat) ≤ 2 ^ 30 ∧ (3 * 2 ^ 29 : Nat) ∣ 2 ^ 64 - 2 ^ 32) ∧ ¬ ((2 ^ 30 + 1 : Nat) ≤ 2 ^ 30 ∨ (2 ^ 30 + 1 : Nat) ∣ 2 ^ 64 - 2 ^ 32) ∧
    ¬ ([1291, 1291, 1291] : List Nat).prod < 2 ^ 31 := by decide

end
end Fidi
