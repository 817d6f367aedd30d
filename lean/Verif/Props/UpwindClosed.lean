import Verif.Lemmas.UpwindClosed
import Verif.Spec.Draws
import Verif.Props.UpwindStable
import Verif.Props.Drivers

/-
Property C81: the field of the upwind solver after any number of steps in closed form.
-/
set_option linter.unusedSectionVars false

namespace Fidi
open Spec Upwind Finset

section
variable {K : Type} [Field K] [LinearOrder K] [IsStrictOrderedRing K]

/-- C81: after `k` steps the value of a cell is the multinomial mean of the initial values upstream of it. `m j` counts the moves
along axis `j` and `m d`, `d` being the number of axes, the steps without a move; the weight of a move along axis `j` is the
fraction `dt |v j| / width j` of a cell travelled in a step. -/
theorem C81_closed_form (N : List Nat) (hN : N ≠ []) (hdim : N.length < 2 ^ 64) (hpos : ∀ n ∈ N, 0 < n)
    (hcells : N.prod < 2 ^ 31) (haxis : ∀ n ∈ N, n < 2 ^ 30) (v L : List K) (hv : v.length = N.length)
    (hL : L.length = N.length) (s0 : Upwind K) (hnew : Upwind.new N.length v L N = .ok s0) (dt : K)
    (f0 : List K) (u : List Nat → K) (hf : Stores N f0 u) (k : Nat) :
    ∃ s', { s0 with f := f0 }.advect k dt = .ok s' ∧
      Stores N s'.f fun g => ∑ m ∈ (range (N.length + 1)).piAntidiag k,
        (Nat.multinomial (range (N.length + 1)) m : K) *
          ((1 - courant dt v L N) ^ m N.length * ∏ j ∈ range N.length, (dt * |v.getD j 0| / cellWidth L N j) ^ m j) *
        u (upstream N v m g) := by
  obtain ⟨_, _, e⟩ := advect_spec hN hdim ⟨hpos, hcells, haxis⟩ hv hL hnew hf k dt
  refine ⟨_, e, (Stores.listOf hpos _).1, fun g hg => ?_⟩
  rw [(Stores.listOf hpos _).2 g hg, coeff_neg, Int.toNat_natCast, iter_closed _ _ _ _ _ hg, courant_eq]
  rfl

/-- C81: from the initial field of the programs (1 in the low corner, 0 elsewhere), with velocities that are not negative and fewer
steps than cells along each axis, the field is the multinomial distribution. -/
theorem C81_point_source (N : List Nat) (hN : N ≠ []) (hdim : N.length < 2 ^ 64) (hcells : N.prod < 2 ^ 31)
    (haxis : ∀ n ∈ N, n < 2 ^ 30) (v L : List K) (hv : v.length = N.length) (hL : L.length = N.length)
    (hsign : ∀ x ∈ v, 0 ≤ x) (s0 : Upwind K) (hnew : Upwind.new N.length v L N = .ok s0) (dt : K) (k : Nat)
    (hk : ∀ n ∈ N, k < n) :
    ∃ s', s0.advect k dt = .ok s' ∧ Stores N s'.f fun g =>
      let total := ∑ j ∈ range N.length, g.getD j 0
      if total ≤ k then
        (k.factorial : K) / (((k - total).factorial : K) * ∏ j ∈ range N.length, ((g.getD j 0).factorial : K)) *
          ((1 - courant dt v L N) ^ (k - total) * ∏ j ∈ range N.length, (dt * |v.getD j 0| / cellWidth L N j) ^ g.getD j 0)
      else 0 := by
  have hpos : ∀ n ∈ N, 0 < n := fun n hn => Nat.lt_of_le_of_lt (Nat.zero_le _) (hk n hn)
  have hG : GoodGrid N := ⟨hpos, hcells, haxis⟩
  have hs : s0 = built v L N := by
    rw [new_built hN hdim hG hv hL] at hnew
    exact (Except.ok.inj hnew).symm
  obtain ⟨_, _, e⟩ := advect_spec hN hdim hG hv hL hnew (hs ▸ built_stores hG) k dt
  refine ⟨_, e, (Stores.listOf hpos _).1, fun g hg => ?_⟩
  rw [(Stores.listOf hpos _).2 g hg, coeff_neg, Int.toNat_natCast, iter_corner (fun j hj => ?_) _ k hk g hg, courant_eq]
  unfold upDir
  rw [if_neg (not_lt.2 ?_)]
  have hj' : j < v.length := by omega
  have : v.getD j 0 = v[j] := by simp [hj']
  rw [this]
  exact hsign _ (List.getElem_mem hj')

/-- C81: what the program upwind computes with `n` cells along each axis and fewer steps than that. -/
theorem C81_driver_field (n : Nat) (hn2 : n ≤ 1290) (k : Nat) (hk : k < n) :
    ∃ s' : Upwind ℚ, Upwind.mainRun (0.1 : ℚ) n k = .ok s' ∧ Stores [n, n, n] s'.f (drawn k) := by
  have hn : 0 < n := by omega
  have hq : (n : ℚ) ≠ 0 := by exact_mod_cast hn.ne'
  obtain ⟨dt, hdt, hpos, hc⟩ := C42_driver_courant n hn
  have hdt' : dt = 1 / 10 / n := by
    rw [mainDt_eq hn] at hdt
    exact (Except.ok.inj hdt).symm
  have hp : ∀ m ∈ List.replicate 3 n, 0 < m := by intro m hm; rw [(List.mem_replicate.1 hm).2]; exact hn
  have hcells : (List.replicate 3 n).prod < 2 ^ 31 := by
    have : n * (n * n) ≤ 1290 * (1290 * 1290) := Nat.mul_le_mul hn2 (Nat.mul_le_mul hn2 hn2)
    simp only [List.prod_replicate]
    have e : n ^ 3 = n * (n * n) := by ring
    rw [e]; omega
  have haxis : ∀ m ∈ List.replicate 3 n, m < 2 ^ 30 := by
    intro m hm; rw [(List.mem_replicate.1 hm).2]; omega
  have hnew := new_built (R := ℚ) (N := List.replicate 3 n) (v := List.replicate 3 1) (L := List.replicate 3 1) (by simp) (by simp)
    ⟨hp, hcells, haxis⟩ (by simp) (by simp)
  obtain ⟨s', e, h⟩ := C81_point_source (K := ℚ) (List.replicate 3 n) (by simp) (by simp) hcells haxis (List.replicate 3 1)
    (List.replicate 3 1) (by simp) (by simp) (by intro x hx; rw [(List.mem_replicate.1 hx).2]; exact zero_le_one) _ hnew dt k
    (by intro m hm; rw [(List.mem_replicate.1 hm).2]; exact hk)
  refine ⟨s', ?_, h.1, fun g hg => ?_⟩
  · unfold Upwind.mainRun
    rw [szOfInt_ofNat (by unfold W; omega)]
    simp only [List.length_replicate]
    rw [hdt]
    simp only [M.ok_bind]
    simp only [List.length_replicate] at hnew
    rw [hnew]
    exact e
  · obtain ⟨x, y, z, rfl⟩ : ∃ x y z, g = [x, y, z] := by
      match g, hg.length_eq with
      | [x, y, z], _ => exact ⟨x, y, z, rfl⟩
    refine (h.2 [x, y, z] hg).trans ?_
    rw [hc]
    have hw : ∀ j < 3, dt * |(List.replicate 3 (1 : ℚ)).getD j 0| / cellWidth (List.replicate 3 (1 : ℚ)) (List.replicate 3 n) j =
        1 / 10 := by
      intro j hj
      have : j = 0 ∨ j = 1 ∨ j = 2 := by omega
      rcases this with rfl | rfl | rfl <;> (simp [cellWidth, hdt', List.replicate]; field_simp)
    simp only [List.length_replicate, sum_range_succ, prod_range_succ, sum_range_zero, prod_range_zero, hw 0 (by decide),
      hw 1 (by decide), hw 2 (by decide)]
    simp only [List.getD_cons_zero, List.getD_cons_succ, zero_add, one_mul, drawn]
    split
    · rw [pow_add, pow_add]
      norm_num
    · rfl

end

/-- C81: the same numbers are computed by upwindMpi on every number of processes with a decomposition, if the number of cells along
each axis is a power of two (the rest is false, `C31_same_field_fails`). -/
theorem C81_mpi_field (sz n : Nat) (hr : InRange sz [n, n, n]) (hn : n ∣ 2 ^ 64) (hex : ∃ d, ValidDecomp sz [n, n, n] d)
    (hn2 : n ≤ 1290) (k : Nat) (hk : k < n) :
    ∃ w, UpwindMpi.run (0.1 : ℚ) sz n k = .ok w ∧ Partition w sz [n, n, n] ∧
      ∀ f ∈ w, ∀ g, InBox f.lo f.hi g → InGrid [n, n, n] g → f.inData[cellPos f.lo f.hi g]? = some (drawn k g) := by
  have hcells : n * n * n < 2 ^ 31 := by
    have : n * n * n ≤ 1290 * 1290 * 1290 := Nat.mul_le_mul (Nat.mul_le_mul hn2 hn2) hn2
    omega
  obtain ⟨w, s, u, h1, h2, h3, h4, h5⟩ := C31_same_field_partial (0.1 : ℚ) sz n hr hn hex hcells k (by omega)
  obtain ⟨s', h6, h7⟩ := C81_driver_field n hn2 k hk
  refine ⟨w, h1, h3, fun f hf g hb hg => ?_⟩
  rw [h2] at h6
  obtain rfl := Except.ok.inj h6
  rw [h4 f hf g hb, ← h5.2 g hg, h7.2 g hg]

/-- Two steps with 4 cells along each axis: 49/100 stays, 7/50 moves by one cell, 1/50 by one cell along each of two axes. -/
example : ∃ s' : Upwind ℚ, Upwind.mainRun (0.1 : ℚ) 4 2 = .ok s' ∧ s'.f[rankOf [4, 4, 4] [0, 0, 0]]? = some (49 / 100) ∧
    s'.f[rankOf [4, 4, 4] [0, 1, 0]]? = some (7 / 50) ∧ s'.f[rankOf [4, 4, 4] [1, 0, 1]]? = some (1 / 50) ∧
    s'.f[rankOf [4, 4, 4] [1, 1, 1]]? = some 0 := by
  obtain ⟨s', e, h⟩ := C81_driver_field 4 (by decide) 2 (by decide)
  refine ⟨s', e, ?_, ?_, ?_, ?_⟩
  · rw [h.2 [0, 0, 0] (by simp [InGrid])]; norm_num [drawn, Nat.factorial]
  · rw [h.2 [0, 1, 0] (by simp [InGrid])]; norm_num [drawn, Nat.factorial]
  · rw [h.2 [1, 0, 1] (by simp [InGrid])]; norm_num [drawn, Nat.factorial]
  · rw [h.2 [1, 1, 1] (by simp [InGrid])]; norm_num [drawn]

/-- Three steps on two cells with negative velocity, by a quarter of a cell each: the value of cell 0 is that of the cells 0, 1, 0, 1
upstream of it with the binomial weights 27, 27, 9, 1 of 64. -/
example : ∃ s', { (built [(-1 : ℚ)] [1] [2]) with f := [5, 7] }.advect 3 (1 / 8) = .ok s' ∧
    s'.f[0]? = some ((27 * 5 + 27 * 7 + 9 * 5 + 1 * 7) / 64) := by
  obtain ⟨s', e, h⟩ := C81_closed_form [2] (by simp) (by simp) (by simp) (by simp) (by simp) [(-1 : ℚ)] [1] rfl rfl _
    (new_built (by simp) (by simp) ⟨by simp, by simp, by simp⟩ rfl rfl) (1 / 8) [5, 7] (fun g => if g = [0] then 5 else 7)
    ⟨rfl, by
      intro g hg
      obtain ⟨a, rfl⟩ : ∃ a, g = [a] := by
        match g, hg.length_eq with
        | [a], _ => exact ⟨a, rfl⟩
      have h1 := (inGrid_iff_getElem.1 hg).2 0 (by simp) (by simp)
      simp only [List.getElem_cons_zero] at h1
      have : ∀ a < 2, ([5, 7] : List ℚ)[rankOf [2] [a]]? = some (if [a] = [0] then 5 else 7) := by decide +kernel
      exact this a h1⟩ 3
  refine ⟨s', e, ?_⟩
  have h0 := h.2 [0] (by simp [InGrid])
  rw [show rankOf [2] [0] = 0 from rfl] at h0
  rw [h0]
  decide +kernel

/-- upwindMpi on four processes with 4 cells along each axis. -/
example : ∃ w, UpwindMpi.run (0.1 : ℚ) 4 4 3 = .ok w ∧ Partition w 4 [4, 4, 4] ∧
    ∀ f ∈ w, ∀ g, InBox f.lo f.hi g → InGrid [4, 4, 4] g → f.inData[cellPos f.lo f.hi g]? = some (drawn 3 g) :=
  C81_mpi_field 4 4 ⟨by decide, by decide, by decide, by decide, by decide, by decide, by decide, by decide⟩ (by decide)
    ⟨[2, 2, 1], .cons (by decide) (.cons (by decide) (.cons (by decide) .nil)), rfl⟩ (by decide) 3 (by decide)

end Fidi
