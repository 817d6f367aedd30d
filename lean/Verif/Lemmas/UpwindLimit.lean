import Verif.Lemmas.UpwindStable
import Mathlib.Algebra.Order.Archimedean.Basic
import Mathlib.Algebra.BigOperators.Fin

/-
Lemmas for C75 and C76: translation at unit Courant number and the limit of many steps.
-/
set_option linter.unusedSectionVars false

namespace Fidi
open Spec Upwind Finset

/-! ### Translation -/

section
variable {K : Type} [Field K]

/-- If only axis `j` moves, by exactly one cell per step, `k` steps move the field by `k` cells. -/
theorem iter_translate {N : List Nat} (s : Nat → Int) {w : Nat → K} {j : Nat} (hj : j < N.length) (h1 : w j = 1)
    (h0 : ∀ i, i < N.length → i ≠ j → w i = 0) (k : Nat) (u : List Nat → K) :
    ∀ g, InGrid N g → (upwindStep N s (fun i => -w i))^[k] u g =
      u (shiftMod N g ((List.range N.length).map fun i => s i * ((if i = j then k else 0 : Nat) : Int))) := by
  induction k with
  | zero =>
    intro g hg
    have : ((List.range N.length).map fun i => s i * ((if i = j then 0 else 0 : Nat) : Int)) =
        (List.range N.length).map fun i => s i * ((0 : Nat) : Int) := by simp
    rw [this, shift_none hg]
    rfl
  | succ k ih =>
    intro g hg
    rw [Function.iterate_succ_apply', upwindStep_eq, sum_eq_single j]
    · rw [h1, ih g hg, ih _ (neighbour_inGrid hg j (s j)), shift_neighbour hg s _ hj]
      have : ∀ i, (if i = j then (if i = j then k else 0) + 1 else if i = j then k else 0) = if i = j then k + 1 else 0 := by
        intro i; split <;> rfl
      simp only [this]
      ring
    · intro i hi hne
      rw [h0 i (mem_range.1 hi) hne]
      ring
    · intro h
      exact absurd (mem_range.2 hj) h

end

/-! ### Mixing -/

/-- Every cell is upstream of every cell. -/
theorem exists_upstream {N g g' : List Nat} (hg : InGrid N g) (hg' : InGrid N g') (s : Nat → Int)
    (hs : ∀ i, s i = 1 ∨ s i = -1) :
    ∃ m : Nat → Nat, (∀ i, i < N.length → m i < N.getD i 0) ∧
      shiftMod N g ((List.range N.length).map fun i => s i * (m i : Int)) = g' := by
  have hl := hg.length_eq
  have hl' := hg'.length_eq
  refine ⟨fun i => ((s i * ((g'.getD i 0 : Int) - (g.getD i 0 : Int))) % (N.getD i 0 : Int)).toNat, ?_, ?_⟩
  · intro i hi
    have hp : 0 < N.getD i 0 := by
      have := (inGrid_iff_getElem.1 hg).2 i hi (by omega)
      rw [natGetD_of_lt hi]
      omega
    have h1 := Int.emod_lt_of_pos (s i * ((g'.getD i 0 : Int) - (g.getD i 0 : Int))) (by omega : (0 : Int) < (N.getD i 0 : Int))
    have h2 := Int.emod_nonneg (s i * ((g'.getD i 0 : Int) - (g.getD i 0 : Int))) (by omega : (N.getD i 0 : Int) ≠ 0)
    show Int.toNat _ < _
    omega
  · apply ext_of_getElem?
    · rw [(shiftMod_inGrid hg (by simp)).length_eq, hl']
    intro i hi
    have hiN : i < N.length := by omega
    have hig : i < g.length := by omega
    rw [shiftMod_getElem i hiN hig (by simpa using hiN), List.getElem?_eq_getElem hi]
    simp only [List.getElem_map, List.getElem_range]
    have h1 := (inGrid_iff_getElem.1 hg').2 i hiN hi
    have hp : (N.getD i 0 : Int) ≠ 0 := by rw [natGetD_of_lt hiN]; omega
    rw [Int.toNat_of_nonneg (Int.emod_nonneg _ hp), natGetD_of_lt hiN, natGetD_of_lt hi, natGetD_of_lt hig]
    have e : ((g[i] : Int) + s i * ((s i * ((g'[i] : Int) - (g[i] : Int))) % (N[i] : Int))) % (N[i] : Int) = (g'[i] : Int) := by
      rw [Int.add_emod, Int.mul_emod, Int.emod_emod, ← Int.mul_emod, ← Int.add_emod, ← mul_assoc]
      have : s i * s i = 1 := by rcases hs i with h | h <;> rw [h] <;> rfl
      rw [this, one_mul, add_sub_cancel, Int.emod_eq_of_lt (by omega) (by omega)]
    rw [e, Int.toNat_natCast]

variable {K : Type} [Field K] [LinearOrder K] [IsStrictOrderedRing K]

/-- A high value upstream lifts a cell. -/
theorem lifted {N : List Nat} (s : Nat → Int) {w : Nat → K} (hw : ∀ j, j < N.length → 0 ≤ w j) {ω : K} (hω : 0 ≤ ω)
    (h0 : ω ≤ 1 - ∑ j ∈ range N.length, w j) (hj : ∀ j, j < N.length → 2 ≤ N.getD j 0 → ω ≤ w j)
    {u : List Nat → K} {lo : K} (hlo : ∀ g, InGrid N g → lo ≤ u g) (k : Nat) :
    ∀ g, InGrid N g → ∀ m : Nat → Nat, (∀ i, i < N.length → 0 < m i → 2 ≤ N.getD i 0) → ∑ i ∈ range N.length, m i ≤ k →
      lo + ω ^ k * (u (shiftMod N g ((List.range N.length).map fun i => s i * (m i : Int))) - lo) ≤
        (upwindStep N s (fun j => -w j))^[k] u g := by
  have hs1 : ∑ j ∈ range N.length, w j ≤ 1 := by linarith
  induction k with
  | zero =>
    intro g hg m hm hk
    have hm0 : ∀ i, i < N.length → m i = 0 := fun i hi => by
      have := single_le_sum (f := m) (fun i _ => Nat.zero_le _) (mem_range.2 hi)
      omega
    have e : ((List.range N.length).map fun i => s i * (m i : Int)) = (List.range N.length).map fun i => s i * ((0 : Nat) : Int) :=
      List.map_congr_left fun i hi => by rw [hm0 i (List.mem_range.1 hi)]
    rw [e, shift_none hg]
    simp
  | succ k ih =>
    intro g hg m hm hk
    have hlok : ∀ g, InGrid N g → lo ≤ (upwindStep N s (fun j => -w j))^[k] u g := by
      intro g hg
      induction k generalizing g with
      | zero => exact hlo g hg
      | succ k ihk =>
        have := ih g hg (fun _ => 0) (fun i _ h => absurd h (Nat.lt_irrefl _)) (by simp)
        refine le_trans ?_ this
        have hd := hlo _ (shiftMod_inGrid hg (dir := (List.range N.length).map fun i => s i * ((0 : Nat) : Int)) (by simp))
        have := mul_nonneg (pow_nonneg hω (k + 1)) (sub_nonneg.2 hd)
        linarith
    set d := u (shiftMod N g ((List.range N.length).map fun i => s i * (m i : Int))) - lo with hd
    have hd0 : 0 ≤ d := sub_nonneg.2 (hlo _ (shiftMod_inGrid hg (by simp)))
    have hpk : 0 ≤ ω ^ k * d := mul_nonneg (pow_nonneg hω k) hd0
    rw [Function.iterate_succ_apply', upwindStep_mean, pow_succ]
    set F := (upwindStep N s (fun j => -w j))^[k] u with hF
    by_cases hsm : ∑ i ∈ range N.length, m i ≤ k
    · have h1 := ih g hg m hm hsm
      have h2 : ∑ j ∈ range N.length, w j * lo ≤ ∑ j ∈ range N.length, w j * F (neighbour N j (s j) g) :=
        sum_le_sum fun j hj => mul_le_mul_of_nonneg_left (hlok _ (neighbour_inGrid hg j (s j))) (hw j (mem_range.1 hj))
      rw [← sum_mul] at h2
      have h3 := mul_le_mul_of_nonneg_left h1 (by linarith : 0 ≤ 1 - ∑ j ∈ range N.length, w j)
      have h4 := mul_le_mul_of_nonneg_right h0 hpk
      nlinarith
    · obtain ⟨j, hjr, hmj⟩ : ∃ j ∈ range N.length, m j ≠ 0 := by
        by_contra hn
        push Not at hn
        rw [sum_eq_zero hn] at hsm
        omega
      have hjN := mem_range.1 hjr
      have hN2 := hm j hjN (Nat.pos_of_ne_zero hmj)
      have e : ∀ i, (if i = j then (if i = j then m i - 1 else m i) + 1 else if i = j then m i - 1 else m i) = m i := by
        intro i
        by_cases hi : i = j
        · subst hi
          rw [if_pos rfl, if_pos rfl]
          omega
        · rw [if_neg hi, if_neg hi]
      have h1 := ih _ (neighbour_inGrid hg j (s j)) (fun i => if i = j then m i - 1 else m i)
        (fun i hi h => by
          split at h
          · next hij => rw [hij]; exact hN2
          · exact hm i hi h)
        (by
          have e2 : ∑ i ∈ range N.length, m i = ∑ i ∈ range N.length, (if i = j then m i - 1 else m i) + 1 := by
            have : ∀ i, m i = (if i = j then m i - 1 else m i) + if i = j then 1 else 0 := by
              intro i
              by_cases hi : i = j
              · subst hi; rw [if_pos rfl, if_pos rfl]; omega
              · rw [if_neg hi, if_neg hi]; rfl
            conv_lhs => rw [sum_congr rfl fun i _ => this i]
            rw [sum_add_distrib, sum_ite_eq' (range N.length) j, if_pos hjr]
          omega)
      rw [shift_neighbour hg s _ hjN] at h1
      simp only [e] at h1
      rw [← hd] at h1
      have h2 : ∑ i ∈ range N.length, w i * lo + w j * (ω ^ k * d) ≤ ∑ i ∈ range N.length, w i * F (neighbour N i (s i) g) := by
        rw [← add_sum_erase _ _ hjr, ← add_sum_erase (range N.length) (fun i => w i * F (neighbour N i (s i) g)) hjr]
        have h3 : ∑ i ∈ (range N.length).erase j, w i * lo ≤ ∑ i ∈ (range N.length).erase j, w i * F (neighbour N i (s i) g) :=
          sum_le_sum fun i hi => mul_le_mul_of_nonneg_left (hlok _ (neighbour_inGrid hg i (s i)))
            (hw i (mem_range.1 (mem_of_mem_erase hi)))
        have h4 := mul_le_mul_of_nonneg_left h1 (hw j hjN)
        rw [mul_add] at h4
        linarith
      rw [← sum_mul] at h2
      have h3 := mul_le_mul_of_nonneg_left (hlok g hg) (by linarith : 0 ≤ 1 - ∑ j ∈ range N.length, w j)
      have h4 := mul_le_mul_of_nonneg_right (hj j hjN hN2) hpk
      nlinarith

/-- The largest and the smallest value. -/
theorem exists_extremes {N : List Nat} (hp : ∀ n ∈ N, 0 < n) (u : List Nat → K) :
    ∃ a b, InGrid N a ∧ InGrid N b ∧ ∀ g, InGrid N g → u a ≤ u g ∧ u g ≤ u b := by
  have hne : (range N.prod).Nonempty := nonempty_range_iff.2 (Nat.pos_iff_ne_zero.1 (List.prod_pos hp))
  obtain ⟨i, _, hi⟩ := exists_min_image (range N.prod) (fun i => u (cellAt N i)) hne
  obtain ⟨j, _, hj⟩ := exists_max_image (range N.prod) (fun i => u (cellAt N i)) hne
  refine ⟨_, _, cellAt_inGrid hp i, cellAt_inGrid hp j, fun g hg => ?_⟩
  have h1 := hi _ (mem_range.2 (rankOf_lt hg))
  have h2 := hj _ (mem_range.2 (rankOf_lt hg))
  rw [cellAt_rankOf hg] at h1 h2
  exact ⟨h1, h2⟩

/-- The differences of the values never grow. -/
theorem osc_le {N : List Nat} (hp : ∀ n ∈ N, 0 < n) (s : Nat → Int) {w : Nat → K} (hw : ∀ j, j < N.length → 0 ≤ w j)
    (hs : ∑ j ∈ range N.length, w j ≤ 1) {u : List Nat → K} {δ : K}
    (hδ : ∀ g g', InGrid N g → InGrid N g' → u g - u g' ≤ δ) (k : Nat) :
    ∀ g g', InGrid N g → InGrid N g' →
      (upwindStep N s (fun j => -w j))^[k] u g - (upwindStep N s (fun j => -w j))^[k] u g' ≤ δ := by
  intro g g' hg hg'
  obtain ⟨a, b, ha, hb, hab⟩ := exists_extremes hp u
  have h := iter_between s hw hs hab k
  linarith [(h g hg).2, (h g' hg').1, hδ b a hb ha]

/-- They shrink by a fixed factor every `N.sum` steps. -/
theorem osc_shrink {N : List Nat} (hp : ∀ n ∈ N, 0 < n) (s : Nat → Int) (hsd : ∀ i, s i = 1 ∨ s i = -1) {w : Nat → K}
    (hw : ∀ j, j < N.length → 0 ≤ w j) {ω : K} (hω : 0 ≤ ω) (h0 : ω ≤ 1 - ∑ j ∈ range N.length, w j)
    (hj : ∀ j, j < N.length → 2 ≤ N.getD j 0 → ω ≤ w j) {u : List Nat → K} {δ : K}
    (hδ : ∀ g g', InGrid N g → InGrid N g' → u g - u g' ≤ δ) :
    ∀ g g', InGrid N g → InGrid N g' →
      (upwindStep N s (fun j => -w j))^[N.sum] u g - (upwindStep N s (fun j => -w j))^[N.sum] u g' ≤ (1 - ω ^ N.sum) * δ := by
  intro g g' hg hg'
  have hsum : 0 ≤ ∑ j ∈ range N.length, w j := sum_nonneg fun j hj => hw j (mem_range.1 hj)
  obtain ⟨a, b, ha, hb, hab⟩ := exists_extremes hp u
  have h := iter_between s hw (by linarith) hab N.sum
  obtain ⟨m, hm, em⟩ := exists_upstream hg' hb s hsd
  have hmsum : ∑ i ∈ range N.length, m i ≤ N.sum := by
    have : N.sum = ∑ i ∈ range N.length, N.getD i 0 := by
      rw [Finset.sum_range, ← List.sum_ofFn]
      congr 1
      apply List.ext_getElem (by simp)
      intro i h1 h2
      rw [List.getElem_ofFn, natGetD_of_lt h1]
    rw [this]
    exact sum_le_sum fun i hi => (hm i (mem_range.1 hi)).le
  have hl := lifted s hw hω h0 hj (fun g hg => (hab g hg).1) N.sum g' hg' m
    (fun i hi h => by have := hm i hi; omega) hmsum
  rw [em] at hl
  have hpow : ω ^ N.sum ≤ 1 := pow_le_one₀ hω (by linarith)
  have hd := hδ b a hb ha
  have := mul_le_mul_of_nonneg_left hd (by linarith : 0 ≤ 1 - ω ^ N.sum)
  linarith [(h g hg).2]

theorem osc_geometric {N : List Nat} (hp : ∀ n ∈ N, 0 < n) (s : Nat → Int) (hsd : ∀ i, s i = 1 ∨ s i = -1) {w : Nat → K}
    (hw : ∀ j, j < N.length → 0 ≤ w j) {ω : K} (hω : 0 ≤ ω) (h0 : ω ≤ 1 - ∑ j ∈ range N.length, w j)
    (hj : ∀ j, j < N.length → 2 ≤ N.getD j 0 → ω ≤ w j) {u : List Nat → K} {δ : K}
    (hδ : ∀ g g', InGrid N g → InGrid N g' → u g - u g' ≤ δ) {n k : Nat} (hk : n * N.sum ≤ k) :
    ∀ g g', InGrid N g → InGrid N g' →
      (upwindStep N s (fun j => -w j))^[k] u g - (upwindStep N s (fun j => -w j))^[k] u g' ≤ (1 - ω ^ N.sum) ^ n * δ := by
  obtain ⟨d, rfl⟩ := Nat.exists_eq_add_of_le hk
  rw [Nat.add_comm, Function.iterate_add_apply]
  apply osc_le hp s hw (by linarith)
  clear hk
  induction n with
  | zero => simpa using hδ
  | succ n ih =>
    rw [Nat.succ_mul, Nat.add_comm, Function.iterate_add_apply, pow_succ', mul_assoc]
    exact osc_shrink hp s hsd hw hω h0 hj ih

/-- A value differs from the mean by at most the largest difference of two values. -/
theorem near_mean {N : List Nat} (hp : ∀ n ∈ N, 0 < n) {u : List Nat → K} {δ : K}
    (hδ : ∀ g g', InGrid N g → InGrid N g' → u g - u g' ≤ δ) {g : List Nat} (hg : InGrid N g) :
    |u g - total N u / (N.prod : K)| ≤ δ := by
  have hP : (0 : K) < (N.prod : K) := by exact_mod_cast List.prod_pos hp
  have e : u g - total N u / (N.prod : K) = (∑ i ∈ range N.prod, (u g - u (cellAt N i))) / (N.prod : K) := by
    rw [sum_sub_distrib, sum_const, card_range, nsmul_eq_mul]
    unfold total
    field_simp
  have hc : ∑ _i ∈ range N.prod, δ = (N.prod : K) * δ := by rw [sum_const, card_range, nsmul_eq_mul]
  rw [e, abs_div, abs_of_pos hP, div_le_iff₀ hP, mul_comm, ← hc]
  refine le_trans (abs_sum_le_sum_abs _ _) (sum_le_sum fun i _ => abs_le.2 ⟨?_, hδ _ _ hg (cellAt_inGrid hp i)⟩)
  have := hδ _ _ (cellAt_inGrid hp i) hg
  linarith

/-- A field that varies only along an axis that does not move stays. -/
theorem iter_still {N : List Nat} (s : Nat → Int) {w : Nat → K} {j : Nat} (hj : w j = 0) (k : Nat) :
    ∀ g, InGrid N g → (upwindStep N s (fun i => -w i))^[k] (fun g => (g.getD j 0 : K)) g = (g.getD j 0 : K) := by
  induction k with
  | zero => intro g _; rfl
  | succ k ih =>
    intro g hg
    rw [Function.iterate_succ_apply', upwindStep_eq, sum_eq_zero, sub_zero, ih g hg]
    intro i _
    by_cases hij : i = j
    · rw [hij, hj]; ring
    · rw [ih g hg, ih _ (neighbour_inGrid hg i (s i))]
      have : (neighbour N i (s i) g).getD j 0 = g.getD j 0 := by
        rw [neighbour, List.getD_eq_getElem?_getD, List.getElem?_set_ne hij, ← List.getD_eq_getElem?_getD]
      rw [this]
      ring

end Fidi
