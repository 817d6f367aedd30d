import Verif.Lemmas.UpwindSymmetry
import Verif.Props.UpwindStable
import Mathlib.Logic.Equiv.Fin.Rotate
import Mathlib.Tactic.FinCases

/-
Property C82: symmetries of the upwind solver.
-/
set_option linter.unusedSectionVars false

namespace Fidi
open Spec Upwind Finset

section
variable {K : Type} [Field K] [LinearOrder K] [IsStrictOrderedRing K]

/-- C82: the order of the axes does not matter. If the numbers of cells, the velocities, the lengths and the initial field are given
with the axes in another order, the final field is the same with the axes in that order. -/
theorem C82_axes (N : List Nat) (hN : N ≠ []) (hdim : N.length < 2 ^ 64) (hpos : ∀ n ∈ N, 0 < n)
    (hcells : N.prod < 2 ^ 31) (haxis : ∀ n ∈ N, n < 2 ^ 30) (v L : List K) (hv : v.length = N.length)
    (hL : L.length = N.length) (σ : Equiv.Perm (Fin N.length)) (s0 s1 : Upwind K)
    (h0 : Upwind.new N.length v L N = .ok s0)
    (h1 : Upwind.new N.length (reorder 0 σ v) (reorder 0 σ L) (reorder 0 σ N) = .ok s1)
    (f0 f1 : List K) (u0 u1 : List Nat → K) (hf0 : Stores N f0 u0) (hf1 : Stores (reorder 0 σ N) f1 u1)
    (hu : ∀ g, InGrid N g → u1 (reorder 0 σ g) = u0 g) (k : Int) (dt : K) :
    ∃ r0 r1 w0 w1, { s0 with f := f0 }.advect k dt = .ok r0 ∧ { s1 with f := f1 }.advect k dt = .ok r1 ∧
      Stores N r0.f w0 ∧ Stores (reorder 0 σ N) r1.f w1 ∧ ∀ g, InGrid N g → w1 (reorder 0 σ g) = w0 g := by
  have hlen : (reorder 0 σ N).length = N.length := reorder_length N
  have hpos' : ∀ n ∈ reorder 0 σ N, 0 < n := fun n hn => hpos n (mem_reorder rfl hn)
  have hprod : (reorder 0 σ N).prod = N.prod := (reorder_perm rfl).prod_eq
  have hN' : reorder 0 σ N ≠ [] := by
    intro h
    rw [h] at hlen
    exact hN (List.eq_nil_of_length_eq_zero hlen.symm)
  obtain ⟨_, _, e0⟩ := advect_spec hN hdim ⟨hpos, hcells, haxis⟩ hv hL h0 hf0 k dt
  obtain ⟨_, _, e1⟩ := advect_spec (N := reorder 0 σ N) (v := reorder 0 σ v) (L := reorder 0 σ L) hN' (by rw [hlen]; exact hdim)
    ⟨hpos', by rw [hprod]; exact hcells, fun n hn => haxis n (mem_reorder rfl hn)⟩ (by rw [reorder_length, reorder_length])
    (by rw [reorder_length, reorder_length]) (by rw [hlen]; exact h1) hf1 k dt
  refine ⟨_, _, _, _, e0, e1, Stores.listOf hpos _, Stores.listOf hpos' _, iter_reorder rfl (fun i => ?_) (fun i => ?_) hu _⟩
  · simp only [upDir, reorder_getD]
  · simp only [coeff_neg, reorder_getD, cellWidth]

/-- C82: the solver has no preferred direction. If the initial field and the velocity are mirrored along any of the axes, so is the
final field. -/
theorem C82_mirror (N : List Nat) (hN : N ≠ []) (hdim : N.length < 2 ^ 64) (hpos : ∀ n ∈ N, 0 < n)
    (hcells : N.prod < 2 ^ 31) (haxis : ∀ n ∈ N, n < 2 ^ 30) (v L : List K) (hv : v.length = N.length)
    (hL : L.length = N.length) (A : Nat → Bool) (s0 s1 : Upwind K) (h0 : Upwind.new N.length v L N = .ok s0)
    (h1 : Upwind.new N.length (mirrored A v) L N = .ok s1)
    (f0 f1 : List K) (u0 u1 : List Nat → K) (hf0 : Stores N f0 u0) (hf1 : Stores N f1 u1)
    (hu : ∀ g, InGrid N g → u1 (mirror A N g) = u0 g) (k : Int) (dt : K) :
    ∃ r0 r1 w0 w1, { s0 with f := f0 }.advect k dt = .ok r0 ∧ { s1 with f := f1 }.advect k dt = .ok r1 ∧
      Stores N r0.f w0 ∧ Stores N r1.f w1 ∧ ∀ g, InGrid N g → w1 (mirror A N g) = w0 g := by
  have hm : (mirrored A v).length = v.length := by simp [mirrored]
  have hget : ∀ j, j < N.length → (mirrored A v).getD j 0 = if A j then -v.getD j 0 else v.getD j 0 := by
    intro j hj
    rw [← hv] at hj
    simp [mirrored, hj]
  obtain ⟨_, _, e0⟩ := advect_spec hN hdim ⟨hpos, hcells, haxis⟩ hv hL h0 hf0 k dt
  obtain ⟨_, _, e1⟩ := advect_spec hN hdim ⟨hpos, hcells, haxis⟩ (hm.trans hv) hL h1 hf1 k dt
  refine ⟨_, _, _, _, e0, e1, Stores.listOf hpos _, Stores.listOf hpos _,
    iter_mirror (M := A) (fun j hj => ?_) (fun j hj => ?_) hu _⟩
  · simp only [coeff_neg, hget j hj]
    split
    · rw [abs_neg]
    · rfl
  · simp only [coeff_neg, upDir, hget j hj]
    rcases lt_trichotomy (v.getD j 0) 0 with h | h | h
    · right
      split
      · rw [if_neg (by rw [neg_lt_zero]; exact not_lt.2 h.le : ¬ -v.getD j 0 < 0)]
      · rfl
    · left
      rw [h]; simp
    · right
      split
      · rw [if_pos (by rw [neg_lt_zero]; exact h : -v.getD j 0 < 0), if_neg (not_lt.2 h.le)]; rfl
      · rfl

/-- C82: the time step, the velocity and the length of the domain matter only through the fraction of a cell travelled in a time
step along each axis and the side the flow comes from: two problems in which these agree have the same solution. -/
theorem C82_similarity (N : List Nat) (hN : N ≠ []) (hdim : N.length < 2 ^ 64) (hpos : ∀ n ∈ N, 0 < n)
    (hcells : N.prod < 2 ^ 31) (haxis : ∀ n ∈ N, n < 2 ^ 30) (v v' L L' : List K) (hv : v.length = N.length)
    (hv' : v'.length = N.length) (hL : L.length = N.length) (hL' : L'.length = N.length) (dt dt' : K)
    (hc : ∀ j < N.length, dt * |v.getD j 0| / cellWidth L N j = dt' * |v'.getD j 0| / cellWidth L' N j)
    (hs : ∀ j < N.length, v.getD j 0 < 0 ↔ v'.getD j 0 < 0) (s0 s1 : Upwind K)
    (h0 : Upwind.new N.length v L N = .ok s0) (h1 : Upwind.new N.length v' L' N = .ok s1)
    (f : List K) (hf : f.length = N.prod) (k : Int) :
    ∃ r0 r1, { s0 with f := f }.advect k dt = .ok r0 ∧ { s1 with f := f }.advect k dt' = .ok r1 ∧ r0.f = r1.f := by
  have u0 := exists_field hf
  obtain ⟨_, _, e0⟩ := advect_spec hN hdim ⟨hpos, hcells, haxis⟩ hv hL h0 u0 k dt
  obtain ⟨_, _, e1⟩ := advect_spec hN hdim ⟨hpos, hcells, haxis⟩ hv' hL' h1 u0 k dt'
  refine ⟨_, _, e0, e1, ?_⟩
  simp only
  have e : upwindStep N (upDir v) (upCoeff dt v L N) = upwindStep N (upDir v') (upCoeff dt' v' L' N) := by
    funext u g
    rw [upwindStep_eq, upwindStep_eq]
    congr 1
    apply sum_congr rfl
    intro j hj
    have hj' := mem_range.1 hj
    simp only [coeff_neg, hc j hj', upDir, hs j hj']
  rw [e]

end

/-- C82: the field computed by the program upwind, whose velocity and domain are the same along all axes, does not change when the
axes are exchanged. -/
theorem C82_driver (n : Nat) (hn : 0 < n) (hn2 : n ≤ 1290) (k : Int) (σ : Equiv.Perm (Fin 3)) :
    ∃ (s' : Upwind ℚ) (w : List Nat → ℚ), Upwind.mainRun (0.1 : ℚ) n k = .ok s' ∧ Stores [n, n, n] s'.f w ∧
      ∀ g, InGrid [n, n, n] g → w (reorder 0 σ g) = w g := by
  obtain ⟨dt, hdt, -, -⟩ := C42_driver_courant n hn
  have hp : ∀ m ∈ List.replicate 3 n, 0 < m := by intro m hm; rw [(List.mem_replicate.1 hm).2]; exact hn
  have hcells : (List.replicate 3 n).prod < 2 ^ 31 := by
    have : n * (n * n) ≤ 1290 * (1290 * 1290) := Nat.mul_le_mul hn2 (Nat.mul_le_mul hn2 hn2)
    simp only [List.prod_replicate]
    have e : n ^ 3 = n * (n * n) := by ring
    rw [e]; omega
  have haxis : ∀ m ∈ List.replicate 3 n, m < 2 ^ 30 := by
    intro m hm; rw [(List.mem_replicate.1 hm).2]; omega
  have hG : GoodGrid (List.replicate 3 n) := ⟨hp, hcells, haxis⟩
  have hnew := new_built (R := ℚ) (N := List.replicate 3 n) (v := List.replicate 3 1) (L := List.replicate 3 1) (by simp) (by simp)
    hG (by simp) (by simp)
  have hre : reorder 0 σ (List.replicate 3 n) = List.replicate 3 n :=
    List.eq_replicate_iff.2 ⟨reorder_length _, fun x hx => (List.mem_replicate.1 (mem_reorder (by simp) hx)).2⟩
  obtain ⟨_, _, e⟩ := advect_spec (by simp) (by simp) hG (by simp) (by simp) hnew
    (built_stores (v := List.replicate 3 (1 : ℚ)) (L := List.replicate 3 1) hG) k dt
  have hone : ∀ j : Fin 3, (List.replicate 3 (1 : ℚ)).getD j.val 0 = 1 := by
    intro j; fin_cases j <;> rfl
  have hmany : ∀ j : Fin 3, (List.replicate 3 n).getD j.val 0 = n := by
    intro j; fin_cases j <;> rfl
  have h := iter_reorder (K := ℚ) (σ := σ) (N := List.replicate 3 n) (by simp) (s := upDir (List.replicate 3 (1 : ℚ)))
    (s' := upDir (List.replicate 3 (1 : ℚ))) (c := upCoeff dt (List.replicate 3 1) (List.replicate 3 1) (List.replicate 3 n))
    (c' := upCoeff dt (List.replicate 3 1) (List.replicate 3 1) (List.replicate 3 n)) (fun i => ?_) (fun i => ?_)
    (u := cornerField) (u' := cornerField) (fun g hg => ?_) k.toNat
  · rw [hre] at h
    have hrun : Upwind.mainRun (0.1 : ℚ) n k = ((built (List.replicate 3 1) (List.replicate 3 1) (List.replicate 3 n)).advect k dt) := by
      unfold Upwind.mainRun
      rw [szOfInt_ofNat (by unfold W; omega)]
      simp only [List.length_replicate]
      rw [hdt]
      simp only [M.ok_bind]
      simp only [List.length_replicate] at hnew
      rw [hnew]
      rfl
    exact ⟨_, _, hrun.trans e, Stores.listOf hp _, h⟩
  · simp only [upDir, hone]
  · simp only [coeff_neg, cellWidth, hone, hmany]
  · have hl : g.length = 3 := by rw [hg.length_eq]; simp
    have : (∀ x ∈ reorder 0 σ g, x = 0) ↔ ∀ x ∈ g, x = 0 :=
      ⟨fun h x hx => h x ((reorder_perm hl).mem_iff.2 hx), fun h x hx => h x (mem_reorder hl hx)⟩
    simp only [cornerField, this]

/-- A grid of 2 times 3 cells and the same with the axes exchanged. -/
example : ∃ r0 r1 w0 w1, { (built [(1 : ℚ), -2] [1, 1] [2, 3]) with f := [1, 2, 3, 4, 5, 6] }.advect 7 (1 / 100) = .ok r0 ∧
    { (built [(-2 : ℚ), 1] [1, 1] [3, 2]) with f := [1, 4, 2, 5, 3, 6] }.advect 7 (1 / 100) = .ok r1 ∧
    Stores [2, 3] r0.f w0 ∧ Stores [3, 2] r1.f w1 ∧ ∀ g, InGrid [2, 3] g → w1 [g.getD 1 0, g.getD 0 0] = w0 g := by
  refine C82_axes [2, 3] (by simp) (by simp) (by simp) (by simp) (by simp) [(1 : ℚ), -2] [1, 1] rfl rfl (Equiv.swap 0 1) _ _
    (new_built (by simp) (by simp) ⟨by simp, by simp, by simp⟩ rfl rfl)
    (new_built (N := [3, 2]) (v := [-2, 1]) (L := [1, 1]) (by simp) (by simp) ⟨by simp, by simp, by simp⟩ rfl rfl)
    _ _ (fun g => 3 * g.getD 0 0 + g.getD 1 0 + 1) (fun g => 3 * g.getD 1 0 + g.getD 0 0 + 1) ?_ ?_ ?_ _ _
  · refine ⟨rfl, fun g hg => ?_⟩
    obtain ⟨a, b, rfl⟩ : ∃ a b, g = [a, b] := by
      match g, hg.length_eq with
      | [a, b], _ => exact ⟨a, b, rfl⟩
    simp only [InGrid, and_true] at hg
    have : ∀ a < 2, ∀ b < 3, ([1, 2, 3, 4, 5, 6] : List ℚ)[rankOf [2, 3] [a, b]]? =
        some (3 * (([a, b].getD 0 0 : Nat) : ℚ) + (([a, b].getD 1 0 : Nat) : ℚ) + 1) := by decide +kernel
    exact this a hg.1 b hg.2
  · refine ⟨rfl, fun g hg => ?_⟩
    obtain ⟨a, b, rfl⟩ : ∃ a b, g = [a, b] := by
      match g, hg.length_eq with
      | [a, b], _ => exact ⟨a, b, rfl⟩
    have hg' : InGrid [3, 2] [a, b] := hg
    simp only [InGrid, and_true] at hg'
    have : ∀ a < 3, ∀ b < 2, ([1, 4, 2, 5, 3, 6] : List ℚ)[rankOf [3, 2] [a, b]]? =
        some (3 * (([a, b].getD 1 0 : Nat) : ℚ) + (([a, b].getD 0 0 : Nat) : ℚ) + 1) := by decide +kernel
    exact this a hg'.1 b hg'.2
  · intro g hg
    rfl

/-- Three cells with the flow from either side. -/
example : ∃ r0 r1 w0 w1, { (built [(1 : ℚ)] [1] [3]) with f := [1, 5, 7] }.advect 4 (1 / 10) = .ok r0 ∧
    { (built [(-1 : ℚ)] [1] [3]) with f := [7, 5, 1] }.advect 4 (1 / 10) = .ok r1 ∧
    Stores [3] r0.f w0 ∧ Stores [3] r1.f w1 ∧ ∀ g, InGrid [3] g → w1 (mirror (fun _ => true) [3] g) = w0 g := by
  have hst : ∀ f : List ℚ, f.length = 3 → Stores [3] f fun g => f.getD (rankOf [3] g) 0 := fun f hf => exists_field (by simpa using hf)
  refine C82_mirror [3] (by simp) (by simp) (by simp) (by simp) (by simp) [(1 : ℚ)] [1] rfl rfl (fun _ => true) _ _
    (new_built (by simp) (by simp) ⟨by simp, by simp, by simp⟩ rfl rfl)
    (new_built (by simp) (by simp) ⟨by simp, by simp, by simp⟩ rfl rfl) _ _ _ _ (hst _ rfl) (hst _ rfl) ?_ _ _
  intro g hg
  obtain ⟨a, rfl⟩ : ∃ a, g = [a] := by
    match g, hg.length_eq with
    | [a], _ => exact ⟨a, rfl⟩
  simp only [InGrid, and_true] at hg
  have : ∀ a < 3, ([7, 5, 1] : List ℚ).getD (rankOf [3] (mirror (fun _ => true) [3] [a])) 0 =
      ([1, 5, 7] : List ℚ).getD (rankOf [3] [a]) 0 := by decide +kernel
  exact this a hg

/-- Twice the velocity on twice the length. -/
example : ∃ r0 r1, { (built [(-1 : ℚ)] [1] [3]) with f := [1, 5, 7] }.advect 4 (1 / 10) = .ok r0 ∧
    { (built [(-2 : ℚ)] [2] [3]) with f := [1, 5, 7] }.advect 4 (1 / 10) = .ok r1 ∧ r0.f = r1.f :=
  C82_similarity [3] (by simp) (by simp) (by simp) (by simp) (by simp) [(-1 : ℚ)] [-2] [1] [2] rfl rfl rfl rfl (1 / 10) (1 / 10)
    (by intro j hj; obtain rfl : j = 0 := by simpa using hj
        norm_num [cellWidth])
    (by intro j hj; obtain rfl : j = 0 := by simpa using hj
        norm_num) _ _
    (new_built (by simp) (by simp) ⟨by simp, by simp, by simp⟩ rfl rfl)
    (new_built (by simp) (by simp) ⟨by simp, by simp, by simp⟩ rfl rfl) _ rfl _

/-- A hundred steps with 8 cells along each axis: the field is the same with the axes rotated. -/
example : ∃ (s' : Upwind ℚ) (w : List Nat → ℚ), Upwind.mainRun (0.1 : ℚ) 8 100 = .ok s' ∧ Stores [8, 8, 8] s'.f w ∧
    w [1, 2, 3] = w [2, 3, 1] := by
  obtain ⟨s', w, h1, h2, h3⟩ := C82_driver 8 (by decide) (by decide) 100 (finRotate 3)
  refine ⟨s', w, h1, h2, ?_⟩
  have := h3 [1, 2, 3] (by simp [InGrid])
  exact this.symm

end Fidi
