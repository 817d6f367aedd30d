import Verif.Model.UpwindPar
import Verif.Lemmas.ScheduleEnd
import Verif.Lemmas.UpwindExact

/-
The parallel region of `advect` is race free and its sequential execution is the upwind scheme.
-/
set_option linter.unusedSectionVars false

namespace Fidi
open Fidi.Spec Upwind

namespace Upwind
variable {R : Type} [Zero R] [One R] [Add R] [Sub R] [Mul R] [Div R] [NatCast R] [IntCast R] [LT R] [DecidableLT R]
variable {v L : List R} {N : List Nat} {f old : List R}

theorem axisData_eq (hg : GoodGrid N) (hv : v.length = N.length) (dt : R) {g : List Nat} (hgr : InGrid N g) {j : Nat}
    (hj : j < N.length) : (withF v L N f old).axisData dt j (ints g) =
      .ok (upCoeff dt v L N j, rankOf N (neighbour N j (upDir v j) g), ints g) := by
  have hl := hgr.length_eq
  have hn := neighbour_inGrid hgr j (upDir v j)
  unfold axisData
  rw [rd_of_lt (by simpa using (by omega : j < g.length)), coeff_eq hv hj]
  simp only [M.ok_bind, List.getElem_map]
  have e1 : ((g[j]'(by omega) : Nat) : Int) = ((g.getD j 0 : Nat) : Int) := by rw [natGetD_of_lt (by omega)]
  rw [e1, shiftInd_eq hg hgr hj]
  simp only [M.ok_bind]
  rw [wr_of_lt (by simpa using (by omega : j < g.length))]
  have e2 : (ints g).set j ((((((g.getD j 0 : Nat) : Int) + upDir v j) % (N.getD j 0 : Int)).toNat : Nat) : Int) =
      ints (neighbour N j (upDir v j) g) := by
    simp only [ints, neighbour, List.map_set]
  simp only [M.ok_bind]
  rw [e2, getFlatIndex_eq hg hn]
  simp only [M.ok_bind]
  rw [wr_of_lt (by simp [neighbour]; omega)]
  simp only [M.ok_bind, M.pure_eq]
  congr 3
  simp only [ints, neighbour]
  rw [← List.map_set, List.set_set, natGetD_of_lt (by omega), List.set_getElem_self]

/-- Owners of the locations in the two loops. -/
def owners (k : Nat) : UpLoc → Option Nat
  | (.f, i) => if k % 2 = 0 then none else some i
  | (.oldF, i) => if k % 2 = 0 then some i else none

/-- Allocated locations of a grid. -/
def gridAlloc (n : Nat) : UpLoc → Prop
  | (_, i) => i < n

theorem axesProg_safe (hg : GoodGrid N) (hv : v.length = N.length) (dt : R) {g : List Nat} (hgr : InGrid N g) {k : Nat}
    (hk : k % 2 ≠ 0) : ∀ n j, j + n = N.length →
    Safe (owners k) (gridAlloc N.prod) (rankOf N g) ((withF v L N f old).axesProg dt (rankOf N g) n j (ints g))
  | 0, _, _ => .done
  | n + 1, j, h => by
    have hr := rankOf_lt hgr
    have hr2 := rankOf_lt (neighbour_inGrid hgr j (upDir v j))
    unfold axesProg
    rw [axisData_eq hg hv dt hgr (by omega)]
    refine .read hr2 (Or.inl (by simp [owners, hk])) fun a => .read hr (Or.inl (by simp [owners, hk])) fun b =>
      .read hr (Or.inr (by simp [owners, hk])) fun x => .write hr (by simp [owners, hk]) ?_
    exact axesProg_safe hg hv dt hgr hk n (j + 1) (by omega)

theorem axesProg_len (hg : GoodGrid N) (hv : v.length = N.length) (dt : R) {g : List Nat} (hgr : InGrid N g) :
    ∀ n j, j + n = N.length →
    ((withF v L N f old).axesProg dt (rankOf N g) n j (ints g)).LenLe (4 * n)
  | 0, _, _ => .done _
  | n + 1, j, h => by
    unfold axesProg
    rw [axisData_eq hg hv dt hgr (by omega)]
    exact .read fun a => .read fun b => .read fun x => .write
      (axesProg_len hg hv dt hgr n (j + 1) (by omega))

theorem axesProg_run (hg : GoodGrid N) (hv : v.length = N.length) (dt : R) {u : List Nat → R} {g : List Nat}
    (hgr : InGrid N g) : ∀ n j, j + n = N.length → ∀ m : Mem UpLoc R,
    (∀ g, InGrid N g → m (.oldF, rankOf N g) = u g) →
    ((withF v L N f old).axesProg dt (rankOf N g) n j (ints g)).run m (.f, rankOf N g) =
      (List.range' j n).foldl (fun acc j => acc - upCoeff dt v L N j * (u (neighbour N j (upDir v j) g) - u g))
        (m (.f, rankOf N g))
  | 0, _, _, m, _ => rfl
  | n + 1, j, h, m, hm => by
    unfold axesProg
    rw [axisData_eq hg hv dt hgr (by omega)]
    simp only [Prog.run, List.range'_succ, List.foldl_cons]
    rw [axesProg_run hg hv dt hgr n (j + 1) (by omega)]
    · simp only [Mem.set, if_true]
      rw [hm g hgr, hm _ (neighbour_inGrid hgr j (upDir v j))]
    · intro g' hg'
      simp [Mem.set, hm g' hg']

theorem cellProg_eq (hg : GoodGrid N) (dt : R) {i : Nat} :
    (withF v L N f old).cellProg dt i = (withF v L N f old).axesProg dt i N.length 0 (ints (cellAt N i)) := by
  unfold cellProg
  rw [getIndexSet_eq hg]
  rfl

theorem region_raceFree (hg : GoodGrid N) (hv : v.length = N.length) (k : Int) (dt : R) :
    RaceFree ((withF v L N f old).region k dt) (gridAlloc N.prod) owners where
  safe := by
    intro p i hp hi
    simp only [region, loopCount_eq hg] at hp hi ⊢
    split
    · next h =>
      exact .read hi (Or.inl (by simp [owners, h])) fun x => .write hi (by simp [owners, h]) .done
    · next h =>
      rw [cellProg_eq hg]
      have := axesProg_safe (v := v) (L := L) (f := f) (old := old) hg hv dt (cellAt_inGrid hg.pos i) h N.length 0
        (by omega)
      rwa [rankOf_cellAt hg.pos hi] at this

theorem region_len (hg : GoodGrid N) (hv : v.length = N.length) (k : Int) (dt : R) (hN : N ≠ []) :
    ∀ p i, p < ((withF v L N f old).region k dt).phases → i < ((withF v L N f old).region k dt).count p →
      (((withF v L N f old).region k dt).prog p i).LenLe (4 * N.length) := by
  intro p i hp hi
  have hpos : 0 < N.length := List.length_pos_iff.2 hN
  simp only [region, loopCount_eq hg] at hp hi ⊢
  split
  · obtain ⟨n, hn⟩ : ∃ n, 4 * N.length = n + 1 + 1 := ⟨4 * N.length - 2, by omega⟩
    rw [hn]
    exact .read fun x => .write (.done _)
  · rw [cellProg_eq hg]
    have := axesProg_len (v := v) (L := L) (f := f) (old := old) hg hv dt (cellAt_inGrid hg.pos i) N.length 0
      (by omega)
    rwa [rankOf_cellAt hg.pos hi] at this

/-- The memory after `2 n` loops holds the field after `n` steps. -/
theorem region_memAt (hg : GoodGrid N) (hv : v.length = N.length) (k : Int) (dt : R) {u : List Nat → R} (m : Mem UpLoc R)
    (hm : ∀ g, InGrid N g → m (.f, rankOf N g) = u g) : ∀ n, n ≤ k.toNat → ∀ g, InGrid N g →
      ((withF v L N f old).region k dt).memAt (2 * n) m (.f, rankOf N g) =
        (upwindStep N (upDir v) (upCoeff dt v L N))^[n] u g := by
  intro n
  have hr := region_raceFree (v := v) (L := L) (f := f) (old := old) hg hv k dt
  induction n with
  | zero => intro _; exact hm
  | succ n ih =>
    intro hn g hgr
    have ih' := ih (by omega)
    rw [show 2 * (n + 1) = 2 * n + 1 + 1 by omega, Region.memAt_succ, Region.memAt_succ,
      seqPhase_eq hr (by simp only [region]; omega), seqPhase_eq hr (by simp only [region]; omega),
      Function.iterate_succ_apply']
    generalize ((withF v L N f old).region k dt).memAt (2 * n) m = m0 at ih' ⊢
    generalize (upwindStep N (upDir v) (upCoeff dt v L N))^[n] u = w at ih' ⊢
    -- the copy
    have h1 : ∀ g, InGrid N g → phaseMem ((withF v L N f old).region k dt) owners (2 * n) m0 (.oldF, rankOf N g) = w g := by
      intro g hg'
      have hlt := rankOf_lt hg'
      simp only [phaseMem, owners, region, loopCount_eq hg, Nat.mul_mod_right, if_true, if_pos hlt]
      simp [copyProg, Prog.run, Mem.set, ih' g hg']
    have h2 : ∀ g, InGrid N g → phaseMem ((withF v L N f old).region k dt) owners (2 * n) m0 (.f, rankOf N g) = w g := by
      intro g hg'
      simp only [phaseMem, owners, Nat.mul_mod_right, if_true]
      exact ih' g hg'
    generalize phaseMem ((withF v L N f old).region k dt) owners (2 * n) m0 = m1 at h1 h2 ⊢
    -- the update
    have hodd : (2 * n + 1) % 2 ≠ 0 := by omega
    have hlt := rankOf_lt hgr
    simp only [phaseMem, owners, region, loopCount_eq hg, if_neg hodd, if_pos hlt]
    rw [cellProg_eq hg, cellAt_rankOf hgr, axesProg_run hg hv dt hgr N.length 0 (by omega) m1 h1, h2 g hgr]
    unfold upwindStep
    rw [List.range_eq_range']

end Upwind
end Fidi
