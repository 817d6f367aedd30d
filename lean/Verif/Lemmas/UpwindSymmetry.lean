import Verif.Lemmas.UpwindStable
import Verif.Spec.Symmetry
import Mathlib.Algebra.BigOperators.Fin

/-
Symmetries of the upwind scheme (helper lemmas of C82).
-/
set_option linter.unusedSectionVars false

namespace Fidi
open Spec Upwind Finset

section
variable {α : Type} {z : α} {d : Nat} {σ : Equiv.Perm (Fin d)}

theorem reorder_length (l : List α) : (reorder z σ l).length = d := by simp [reorder]

theorem reorder_getD (l : List α) (i : Fin d) : (reorder z σ l).getD i.val z = l.getD (σ i).val z := by
  simp [reorder]

theorem reorder_getElem (l : List α) (hl : l.length = d) (i : Nat) (hi : i < d) :
    (reorder z σ l)[i]'(by rw [reorder_length]; exact hi) = l[(σ ⟨i, hi⟩).val]'(by rw [hl]; exact (σ ⟨i, hi⟩).isLt) := by
  have h := (σ ⟨i, hi⟩).isLt
  simp only [reorder, List.getElem_map, List.getElem_finRange, Fin.cast_mk]
  rw [List.getD_eq_getElem?_getD, List.getElem?_eq_getElem (by omega), Option.getD_some]

theorem mem_reorder {l : List α} (hl : l.length = d) {x : α} (hx : x ∈ reorder z σ l) : x ∈ l := by
  obtain ⟨i, hi, rfl⟩ := List.mem_iff_getElem.1 hx
  rw [reorder_length] at hi
  rw [reorder_getElem l hl i hi]
  exact List.getElem_mem _

theorem reorder_perm {l : List α} (hl : l.length = d) : (reorder z σ l).Perm l := by
  have h : l = (List.finRange d).map fun i => l.getD i.val z := by
    apply List.ext_getElem (by simp [hl])
    intro i h1 h2
    simp [h1]
  conv_rhs => rw [h]
  have e : reorder z σ l = ((List.finRange d).map σ).map fun i => l.getD i.val z := by
    simp [reorder, List.map_map, Function.comp_def]
  rw [e]
  exact (Equiv.Perm.map_finRange_perm σ).map _

end

section
variable {d : Nat} {σ : Equiv.Perm (Fin d)}

theorem reorder_inGrid {N g : List Nat} (hN : N.length = d) (hg : InGrid N g) : InGrid (reorder 0 σ N) (reorder 0 σ g) := by
  obtain ⟨hl, h⟩ := inGrid_iff_getElem.1 hg
  refine inGrid_iff_getElem.2 ⟨by rw [reorder_length, reorder_length], fun i h1 h2 => ?_⟩
  rw [reorder_length] at h1
  rw [reorder_getElem N hN i h1, reorder_getElem g (by omega) i h1]
  exact h _ _ _

theorem reorder_neighbour {N g : List Nat} (hN : N.length = d) (hg : InGrid N g) (i : Fin d) (s : Int) :
    neighbour (reorder 0 σ N) i.val s (reorder 0 σ g) = reorder 0 σ (neighbour N (σ i).val s g) := by
  have hl := hg.length_eq
  apply List.ext_getElem (by rw [neighbour_length, reorder_length, reorder_length])
  intro q h1 h2
  rw [reorder_length] at h2
  rw [neighbour_getElem (by rw [reorder_length]; exact h2), reorder_getElem (neighbour N (σ i).val s g) (by rw [neighbour_length]; omega) q h2,
    neighbour_getElem (by have := (σ ⟨q, h2⟩).isLt; omega), reorder_getElem g (by omega) q h2, reorder_getD]
  have : (i.val = q) ↔ ((σ i).val = (σ ⟨q, h2⟩).val) := by
    rw [← Fin.ext_iff, σ.injective.eq_iff, Fin.ext_iff]
  by_cases hq : i.val = q
  · rw [if_pos hq, if_pos (this.1 hq)]
  · rw [if_neg hq, if_neg (fun h => hq (this.2 h))]

variable {K : Type} [Field K] [LinearOrder K] [IsStrictOrderedRing K]

theorem iter_reorder {N : List Nat} (hN : N.length = d) {s s' : Nat → Int} {c c' : Nat → K} (hs : ∀ i : Fin d, s' i.val = s (σ i).val)
    (hc : ∀ i : Fin d, c' i.val = c (σ i).val) {u u' : List Nat → K} (hu : ∀ g, InGrid N g → u' (reorder 0 σ g) = u g) (k : Nat) :
    ∀ g, InGrid N g → (upwindStep (reorder 0 σ N) s' c')^[k] u' (reorder 0 σ g) = (upwindStep N s c)^[k] u g := by
  induction k with
  | zero => exact hu
  | succ k ih =>
    intro g hg
    rw [Function.iterate_succ_apply', Function.iterate_succ_apply', upwindStep_eq, upwindStep_eq, ih g hg, reorder_length, hN,
      ← Fin.sum_univ_eq_sum_range (fun j => c' j * ((upwindStep (reorder 0 σ N) s' c')^[k] u'
        (neighbour (reorder 0 σ N) j (s' j) (reorder 0 σ g)) - (upwindStep N s c)^[k] u g)),
      ← Fin.sum_univ_eq_sum_range (fun j => c j * ((upwindStep N s c)^[k] u (neighbour N j (s j) g) - (upwindStep N s c)^[k] u g))]
    congr 1
    symm
    rw [← Equiv.sum_comp σ]
    apply sum_congr rfl
    intro i _
    symm
    rw [reorder_neighbour hN hg, ih _ (neighbour_inGrid hg _ _), hs i, hc i]

/-! ### Mirrors -/

theorem mirror_length {M : Nat → Bool} {N g : List Nat} : (mirror M N g).length = g.length := by simp [mirror]

theorem mirror_getElem {M : Nat → Bool} {N g : List Nat} (hg : InGrid N g) (i : Nat) (hi : i < g.length) :
    (mirror M N g)[i]'(by rw [mirror_length]; exact hi) =
      if M i then N[i]'(by rw [← hg.length_eq]; exact hi) - 1 - g[i] else g[i] := by
  have := hg.length_eq
  simp only [mirror, List.getElem_map, List.getElem_range]
  rw [natGetD_of_lt (by omega : i < N.length), natGetD_of_lt hi]

theorem mirror_inGrid {M : Nat → Bool} {N g : List Nat} (hg : InGrid N g) : InGrid N (mirror M N g) := by
  obtain ⟨hl, h⟩ := inGrid_iff_getElem.1 hg
  refine inGrid_iff_getElem.2 ⟨by rw [mirror_length, hl], fun i h1 h2 => ?_⟩
  rw [mirror_getElem hg i (by omega)]
  have := h i h1 (by omega)
  split <;> omega

theorem mirror_neighbour {M : Nat → Bool} {N g : List Nat} (hg : InGrid N g) {j : Nat} (hj : j < N.length) {s : Int} :
    neighbour N j s (mirror M N g) = mirror M N (neighbour N j (if M j then -s else s) g) := by
  obtain ⟨hl, h⟩ := inGrid_iff_getElem.1 hg
  apply List.ext_getElem (by rw [neighbour_length, mirror_length, mirror_length, neighbour_length])
  intro q h1 h2
  rw [mirror_length, neighbour_length] at h2
  rw [neighbour_getElem (by rw [mirror_length]; exact h2), mirror_getElem (neighbour_inGrid hg _ _) q (by rw [neighbour_length]; exact h2),
    neighbour_getElem h2, mirror_getElem hg q h2]
  by_cases hq : j = q
  · subst hq
    have hlt := h j hj h2
    rw [if_pos rfl, if_pos rfl, natGetD_of_lt hj]
    by_cases hM : M j = true
    · simp only [hM, if_true]
      have hN : ((N[j] : Nat) : Int) ≠ 0 := by omega
      have e1 : ((N[j] - 1 - g[j] : Nat) : Int) + s = ((N[j] : Nat) : Int) - 1 - (((g[j] : Nat) : Int) + -s) := by omega
      rw [e1]
      generalize ((g[j] : Nat) : Int) + -s = x
      have h3 := Int.emod_nonneg x hN
      have h4 := Int.emod_lt_of_pos x (by omega : (0 : Int) < ((N[j] : Nat) : Int))
      have e2 : (((N[j] : Nat) : Int) - 1 - x) % ((N[j] : Nat) : Int) = ((N[j] : Nat) : Int) - 1 - x % ((N[j] : Nat) : Int) := by
        rw [Int.sub_emod, Int.emod_eq_of_lt (a := ((N[j] : Nat) : Int) - 1) (by omega) (by omega), ]
        rw [Int.emod_eq_of_lt (by omega) (by omega)]
      rw [e2]
      omega
    · simp only [hM]
      rfl
  · rw [if_neg hq, if_neg hq]

theorem iter_mirror {M : Nat → Bool} {N : List Nat} {s s' : Nat → Int} {c c' : Nat → K} (hc : ∀ j, j < N.length → c' j = c j)
    (hs : ∀ j, j < N.length → c j = 0 ∨ s' j = if M j then -s j else s j) {u u' : List Nat → K}
    (hu : ∀ g, InGrid N g → u' (mirror M N g) = u g) (k : Nat) :
    ∀ g, InGrid N g → (upwindStep N s' c')^[k] u' (mirror M N g) = (upwindStep N s c)^[k] u g := by
  induction k with
  | zero => exact hu
  | succ k ih =>
    intro g hg
    rw [Function.iterate_succ_apply', Function.iterate_succ_apply', upwindStep_eq, upwindStep_eq, ih g hg]
    congr 1
    apply sum_congr rfl
    intro j hj
    have hj' := mem_range.1 hj
    rw [hc j hj']
    rcases hs j hj' with h | h
    · rw [h, zero_mul, zero_mul]
    · rw [mirror_neighbour hg hj', ih _ (neighbour_inGrid hg _ _), h]
      split <;> simp

end

end Fidi
