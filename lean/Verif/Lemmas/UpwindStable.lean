import Verif.Lemmas.UpwindExact
import Mathlib.Tactic.Linarith

/-
Stability of the upwind scheme (helper lemmas of C34, C71, C72).
-/
set_option linter.unusedSectionVars false

namespace Fidi
open Spec Upwind Finset

section
variable {K : Type} [Field K] [LinearOrder K] [IsStrictOrderedRing K]

/-- On an axis of one cell a cell is its own neighbour. -/
theorem neighbour_one {N g : List Nat} (hg : InGrid N g) {j : Nat} (hj : N.getD j 0 = 1) (s : Int) :
    neighbour N j s g = g := by
  obtain ⟨hl, h⟩ := inGrid_iff_getElem.1 hg
  apply List.ext_getElem (by simp [neighbour])
  intro i h1 h2
  rw [neighbour_getElem h2]
  split
  · next hji =>
    subst hji
    have := h j (hl ▸ h2) h2
    rw [natGetD_of_lt (hl ▸ h2)] at hj
    rw [natGetD_of_lt (hl ▸ h2)]
    have e1 : N[j]'(hl ▸ h2) = 1 := hj
    rw [e1] at this
    rw [e1]
    omega
  · rfl

/-- On an axis of more cells it is not. -/
theorem neighbour_ne {N g : List Nat} (hg : InGrid N g) {j : Nat} (hj : 2 ≤ N.getD j 0) {s : Int} (hs : s = 1 ∨ s = -1) :
    neighbour N j s g ≠ g := by
  obtain ⟨hl, h⟩ := inGrid_iff_getElem.1 hg
  have hjN : j < N.length := by
    by_contra hn
    rw [List.getD_eq_getElem?_getD, List.getElem?_eq_none (by omega)] at hj
    simp at hj
  have hjg : j < g.length := hl ▸ hjN
  intro e
  have h1 := neighbour_getElem (N := N) (g := g) (j := j) (s := s) hjg
  have h2 : (neighbour N j s g)[j]'(by simpa [neighbour] using hjg) = g[j] := by simp only [e]
  rw [h2, if_pos rfl, natGetD_of_lt hjN] at h1
  rw [natGetD_of_lt hjN] at hj
  have hb := h j hjN hjg
  have hpos : (0 : Int) < N[j] := by omega
  have h3 : (((g[j] : Nat) : Int) + s) % (N[j] : Int) = (g[j] : Int) := by
    have := Int.emod_nonneg (((g[j] : Nat) : Int) + s) hpos.ne'
    omega
  have h4 := Int.emod_emod_of_dvd (((g[j] : Nat) : Int) + s) (Int.dvd_refl (N[j] : Int))
  have h5 : (N[j] : Int) ∣ s := by
    have h6 := Int.dvd_self_sub_emod (x := ((g[j] : Nat) : Int) + s) (m := (N[j] : Int))
    rw [h3] at h6
    have e2 : ((g[j] : Nat) : Int) + s - (g[j] : Int) = s := by ring
    rwa [e2] at h6
  rcases hs with rfl | rfl
  · have := Int.le_of_dvd (by omega) h5
    omega
  · have := Int.le_of_dvd (by omega) ((Int.dvd_neg).2 h5)
    omega

/-- Axes of one cell do not contribute. -/
theorem upwindStep_effective {N g : List Nat} (hp : ∀ n ∈ N, 0 < n) (hg : InGrid N g) (s : Nat → Int) (w : Nat → K)
    (u : List Nat → K) :
    upwindStep N s (fun j => -w j) u g = upwindStep N s (fun j => -(if 2 ≤ N.getD j 0 then w j else 0)) u g := by
  rw [upwindStep_eq, upwindStep_eq]
  congr 1
  apply sum_congr rfl
  intro j hj
  split
  · rfl
  · next h =>
    have hjN := mem_range.1 hj
    have h1 := hp _ (List.getElem_mem hjN)
    rw [natGetD_of_lt hjN] at h
    rw [neighbour_one hg (by rw [natGetD_of_lt hjN]; omega)]
    ring

theorem iter_effective {N : List Nat} (hp : ∀ n ∈ N, 0 < n) (s : Nat → Int) (w : Nat → K) (k : Nat) (u : List Nat → K) :
    ∀ g, InGrid N g → (upwindStep N s (fun j => -w j))^[k] u g =
      (upwindStep N s (fun j => -(if 2 ≤ N.getD j 0 then w j else 0)))^[k] u g := by
  induction k with
  | zero => intro g _; rfl
  | succ k ih =>
    intro g hg
    rw [Function.iterate_succ_apply', Function.iterate_succ_apply', upwindStep_effective hp hg]
    exact upwindStep_congr _ _ ih hg

theorem iter_between {N : List Nat} (s : Nat → Int) {w : Nat → K} (hw : ∀ j, j < N.length → 0 ≤ w j)
    (hs : ∑ j ∈ range N.length, w j ≤ 1) {u : List Nat → K} {lo hi : K} (hb : ∀ g, InGrid N g → lo ≤ u g ∧ u g ≤ hi)
    (k : Nat) : ∀ g, InGrid N g → lo ≤ (upwindStep N s (fun j => -w j))^[k] u g ∧
      (upwindStep N s (fun j => -w j))^[k] u g ≤ hi := by
  induction k with
  | zero => exact hb
  | succ k ih =>
    intro g hg
    rw [Function.iterate_succ_apply']
    exact ⟨le_step _ hw hs (fun g hg => (ih g hg).1) hg, step_le _ hw hs (fun g hg => (ih g hg).2) hg⟩

/-- The absolute values. -/
theorem step_abs_le {N : List Nat} (s : Nat → Int) {w : Nat → K} (hw : ∀ j, j < N.length → 0 ≤ w j)
    (hs : ∑ j ∈ range N.length, w j ≤ 1) (u : List Nat → K) (g : List Nat) :
    |upwindStep N s (fun j => -w j) u g| ≤ upwindStep N s (fun j => -w j) (fun g => |u g|) g := by
  rw [upwindStep_mean, upwindStep_mean]
  refine le_trans (abs_add_le _ _) (add_le_add ?_ ?_)
  · rw [abs_mul, abs_of_nonneg (by linarith)]
  · refine le_trans (abs_sum_le_sum_abs _ _) (sum_le_sum fun j hj => ?_)
    rw [abs_mul, abs_of_nonneg (hw j (mem_range.1 hj))]

theorem total_abs_iter {N : List Nat} (hp : ∀ n ∈ N, 0 < n) (s : Nat → Int) {w : Nat → K}
    (hw : ∀ j, j < N.length → 0 ≤ w j) (hs : ∑ j ∈ range N.length, w j ≤ 1) (k : Nat) (u : List Nat → K) :
    total N (fun g => |(upwindStep N s (fun j => -w j))^[k] u g|) ≤ total N (fun g => |u g|) := by
  induction k generalizing u with
  | zero => exact le_refl _
  | succ k ih =>
    rw [Function.iterate_succ_apply]
    refine le_trans (ih _) ?_
    rw [← total_step hp s (fun j => -w j) (fun g => |u g|)]
    exact sum_le_sum fun i _ => step_abs_le s hw hs u _

theorem iter_sub {N : List Nat} (s : Nat → Int) (c : Nat → K) (k : Nat) (u w : List Nat → K) (g : List Nat) :
    (upwindStep N s c)^[k] u g - (upwindStep N s c)^[k] w g = (upwindStep N s c)^[k] (fun g => u g - w g) g := by
  have h := congrFun (iter_linear (N := N) s c k 1 (-1) u w) g
  have e : (fun g => 1 * u g + -1 * w g) = fun g => u g - w g := by funext g; ring
  rw [e] at h
  rw [h]
  ring

end

/-! ### The domain of dependence -/

/-- Going `m j` cells along every axis `j` in direction `s j`. -/
theorem shift_neighbour {N g : List Nat} (hg : InGrid N g) (s : Nat → Int) (m : Nat → Nat) {j : Nat} (hj : j < N.length) :
    shiftMod N (neighbour N j (s j) g) ((List.range N.length).map fun i => s i * (m i : Int)) =
      shiftMod N g ((List.range N.length).map fun i => s i * ((if i = j then m i + 1 else m i : Nat) : Int)) := by
  have hl := hg.length_eq
  have h0 := neighbour_inGrid hg j (s j)
  have h1 := (shiftMod_inGrid h0 (dir := (List.range N.length).map fun i => s i * (m i : Int)) (by simp)).length_eq
  have h2 := (shiftMod_inGrid hg (dir := (List.range N.length).map fun i => s i * ((if i = j then m i + 1 else m i : Nat) : Int))
    (by simp)).length_eq
  apply ext_of_getElem? (by rw [h1, h2])
  intro i hi
  have hiN : i < N.length := by rw [← h2]; exact hi
  rw [shiftMod_getElem i hiN (by rw [neighbour_length, hl]; exact hiN) (by simpa using hiN),
    shiftMod_getElem i hiN (by rw [hl]; exact hiN) (by simpa using hiN)]
  simp only [List.getElem_map, List.getElem_range]
  rw [neighbour_getElem (by rw [hl]; exact hiN)]
  by_cases hij : j = i
  · subst hij
    rw [if_pos rfl, if_pos rfl, natGetD_of_lt hiN]
    have hpos : (0 : Int) < N[j] := by
      have := (inGrid_iff_getElem.1 hg).2 j hiN (by rw [hl]; exact hiN)
      omega
    rw [Int.toNat_of_nonneg (Int.emod_nonneg _ hpos.ne'), Int.emod_add_emod]
    congr 3
    push_cast
    ring
  · rw [if_neg hij, if_neg (fun e => hij e.symm)]

theorem shift_none {N g : List Nat} (hg : InGrid N g) (s : Nat → Int) :
    shiftMod N g ((List.range N.length).map fun i => s i * ((0 : Nat) : Int)) = g := by
  have hl := hg.length_eq
  have h2 := (shiftMod_inGrid hg (dir := (List.range N.length).map fun i => s i * ((0 : Nat) : Int)) (by simp)).length_eq
  apply ext_of_getElem? (by rw [h2, hl])
  intro i hi
  have hiN : i < N.length := by rw [← hl]; exact hi
  have hig : i < g.length := by rw [hl]; exact hiN
  rw [shiftMod_getElem i hiN hig (by simpa using hiN), List.getElem?_eq_getElem hig]
  have := (inGrid_iff_getElem.1 hg).2 i hiN hig
  simp only [List.getElem_map, List.getElem_range]
  rw [show (g[i] : Int) + s i * ((0 : Nat) : Int) = (g[i] : Int) by simp, Int.emod_eq_of_lt (by omega) (by omega)]
  simp

theorem upwindStep_local {R : Type} [Sub R] [Mul R] {N : List Nat} (s : Nat → Int) (c : Nat → R) {u u' : List Nat → R}
    {g : List Nat} (h0 : u g = u' g) (h : ∀ j, j < N.length → u (neighbour N j (s j) g) = u' (neighbour N j (s j) g)) :
    upwindStep N s c u g = upwindStep N s c u' g := by
  unfold upwindStep
  rw [h0]
  generalize u' g = a at *
  have : ∀ n, n ≤ N.length → ∀ b, (List.range n).foldl (fun acc j => acc - c j * (u (neighbour N j (s j) g) - a)) b =
      (List.range n).foldl (fun acc j => acc - c j * (u' (neighbour N j (s j) g) - a)) b := by
    intro n
    induction n with
    | zero => intro _ b; rfl
    | succ n ih =>
      intro hn b
      rw [List.range_succ, List.foldl_append, List.foldl_append, ih (by omega)]
      simp only [List.foldl_cons, List.foldl_nil]
      rw [h n (by omega)]
  exact this _ (le_refl _) _

/-- The value after `k` steps depends only on the cells upstream within `k` steps. -/
theorem iter_depends {R : Type} [Sub R] [Mul R] {N : List Nat} (s : Nat → Int) (c : Nat → R) (k : Nat)
    {u u' : List Nat → R} : ∀ g, InGrid N g →
      (∀ m : Nat → Nat, ∑ i ∈ range N.length, m i ≤ k →
        u (shiftMod N g ((List.range N.length).map fun i => s i * (m i : Int))) =
          u' (shiftMod N g ((List.range N.length).map fun i => s i * (m i : Int)))) →
      (upwindStep N s c)^[k] u g = (upwindStep N s c)^[k] u' g := by
  induction k with
  | zero =>
    intro g hg h
    have := h (fun _ => 0) (by simp)
    rwa [shift_none hg] at this
  | succ k ih =>
    intro g hg h
    rw [Function.iterate_succ_apply', Function.iterate_succ_apply']
    apply upwindStep_local _ _ (ih g hg fun m hm => h m (by omega))
    intro j hj
    rw [ih (neighbour N j (s j) g) (neighbour_inGrid hg j (s j))]
    intro m hm
    rw [shift_neighbour hg s m hj]
    apply h
    have e : ∑ i ∈ range N.length, (if i = j then m i + 1 else m i) = ∑ i ∈ range N.length, m i + 1 := by
      have : ∀ i, (if i = j then m i + 1 else m i) = m i + if i = j then 1 else 0 := by intro i; split <;> omega
      simp only [this]
      rw [sum_add_distrib, sum_ite_eq' (range N.length) j, if_pos (mem_range.2 hj)]
    omega

end Fidi
