import Verif.Props.UpwindStable
import Mathlib.Analysis.Convex.Jensen
import Mathlib.Analysis.Convex.Mul

/-
Property C85: convex functionals of the field (norms, moments, entropies) do not grow.
-/
set_option linter.unusedSectionVars false

namespace Fidi
open Spec Upwind Finset

section
variable {K : Type} [Field K] [LinearOrder K] [IsStrictOrderedRing K]

/-- Jensen's inequality for one step. -/
theorem step_convex {N : List Nat} (s : Nat → Int) {w : Nat → K} (hw : ∀ j, j < N.length → 0 ≤ w j)
    (hs : ∑ j ∈ range N.length, w j ≤ 1) {S : Set K} {φ : K → K} (hφ : ConvexOn K S φ) {u : List Nat → K}
    (hu : ∀ g, InGrid N g → u g ∈ S) {g : List Nat} (hg : InGrid N g) :
    φ (upwindStep N s (fun j => -w j) u g) ≤ upwindStep N s (fun j => -w j) (fun g => φ (u g)) g := by
  set n := N.length with hn
  have key := hφ.map_sum_le (t := range (n + 1)) (w := fun j => if j = n then 1 - ∑ j ∈ range n, w j else w j)
    (p := fun j => if j = n then u g else u (neighbour N j (s j) g)) ?_ ?_ ?_
  · have e : ∀ a b : Nat → K, ∀ x y : K, ∑ j ∈ range n, (if j = n then x else a j) * (if j = n then y else b j) =
        ∑ j ∈ range n, a j * b j := by
      intro a b x y
      refine sum_congr rfl fun j hj => ?_
      have := mem_range.1 hj
      rw [if_neg (by omega), if_neg (by omega)]
    have e2 : ∀ j, φ (if j = n then u g else u (neighbour N j (s j) g)) =
        if j = n then φ (u g) else φ (u (neighbour N j (s j) g)) := by
      intro j; split <;> rfl
    simp only [smul_eq_mul, e2] at key
    rw [sum_range_succ, sum_range_succ, e, e, if_pos rfl, if_pos rfl, if_pos rfl] at key
    rw [upwindStep_mean, upwindStep_mean, ← hn, add_comm, add_comm ((1 - _) * φ _)]
    exact key
  · intro j hj
    have := mem_range.1 hj
    split
    · linarith
    · exact hw j (by omega)
  · rw [sum_range_succ, if_pos rfl]
    have : ∑ j ∈ range n, (if j = n then 1 - ∑ j ∈ range n, w j else w j) = ∑ j ∈ range n, w j := by
      refine sum_congr rfl fun j hj => ?_
      have := mem_range.1 hj
      rw [if_neg (by omega)]
    rw [this]
    ring
  · intro j _
    split
    · exact hu g hg
    · exact hu _ (neighbour_inGrid hg j (s j))

theorem total_convex_iter {N : List Nat} (hp : ∀ n ∈ N, 0 < n) (s : Nat → Int) {w : Nat → K}
    (hw : ∀ j, j < N.length → 0 ≤ w j) (hs : ∑ j ∈ range N.length, w j ≤ 1) {lo hi : K} {φ : K → K}
    (hφ : ConvexOn K (Set.Icc lo hi) φ) {u : List Nat → K} (hu : ∀ g, InGrid N g → lo ≤ u g ∧ u g ≤ hi) (k : Nat) :
    total N (fun g => φ ((upwindStep N s (fun j => -w j))^[k] u g)) ≤ total N (fun g => φ (u g)) := by
  induction k with
  | zero => exact le_refl _
  | succ k ih =>
    refine le_trans ?_ ih
    rw [← total_step hp s (fun j => -w j) (fun g => φ ((upwindStep N s (fun j => -w j))^[k] u g))]
    refine sum_le_sum fun i _ => ?_
    rw [Function.iterate_succ_apply']
    exact step_convex s hw hs hφ (fun g hg => iter_between s hw hs hu k g hg) (cellAt_inGrid hp i)

theorem sum_map_listOf (N : List Nat) (φ : K → K) (a : List Nat → K) :
    ((listOf N a).map φ).sum = total N fun g => φ (a g) := by
  rw [← sum_listOf]
  simp only [listOf, List.map_map]
  rfl

/-- C85: let the values of the initial field lie between `lo` and `hi` and let `φ` be convex between them (a power, an entropy, the
excess over a threshold). If the total Courant number is at most 1, the sum over the cells of `φ` of the value never grows. -/
theorem C85_convex (N : List Nat) (hN : N ≠ []) (hdim : N.length < 2 ^ 64) (hpos : ∀ n ∈ N, 0 < n)
    (hcells : N.prod < 2 ^ 31) (haxis : ∀ n ∈ N, n < 2 ^ 30) (v L : List K) (hv : v.length = N.length)
    (hL : L.length = N.length) (hLpos : ∀ x ∈ L, 0 < x) (s0 : Upwind K)
    (hnew : Upwind.new N.length v L N = .ok s0) (dt : K) (hdt : 0 ≤ dt) (hc : courant dt v L N ≤ 1)
    (f : List K) (hf : f.length = N.prod) (lo hi : K) (hb : ∀ x ∈ f, lo ≤ x ∧ x ≤ hi)
    (φ : K → K) (hφ : ConvexOn K (Set.Icc lo hi) φ) (k : Int) :
    ∃ s, { s0 with f := f }.advect k dt = .ok s ∧ (s.f.map φ).sum ≤ (f.map φ).sum := by
  have uf := exists_field hf
  obtain ⟨_, _, e⟩ := advect_spec hN hdim ⟨hpos, hcells, haxis⟩ hv hL hnew uf k dt
  refine ⟨_, e, ?_⟩
  rw [courant_eq] at hc
  have hw := fun j (_ : j < N.length) => weight_nonneg (v := v) (N := N) hdt hLpos j
  have hf' := (stores_iff hpos).1 uf
  conv_rhs => rw [hf']
  simp only []
  rw [coeff_neg, sum_map_listOf, sum_map_listOf]
  exact total_convex_iter hpos _ hw hc hφ (fun g hg => hb _ (List.mem_iff_getElem?.2 ⟨_, uf.2 g hg⟩)) _

/-- C85: no convex functional of the field ever grows, for all initial fields and numbers of steps, exactly if the Courant number,
not counting the axes of one cell, is between 0 and 1. -/
theorem C85_convex_iff (N : List Nat) (hN : N ≠ []) (hdim : N.length < 2 ^ 64) (hpos : ∀ n ∈ N, 0 < n)
    (hcells : N.prod < 2 ^ 31) (haxis : ∀ n ∈ N, n < 2 ^ 30) (v L : List K) (hv : v.length = N.length)
    (hL : L.length = N.length) (hLpos : ∀ x ∈ L, 0 < x) (s0 : Upwind K)
    (hnew : Upwind.new N.length v L N = .ok s0) (dt : K) :
    (∀ φ : K → K, ConvexOn K Set.univ φ → ∀ f : List K, f.length = N.prod → ∀ k : Int,
      ∃ s, { s0 with f := f }.advect k dt = .ok s ∧ (s.f.map φ).sum ≤ (f.map φ).sum) ↔
    0 ≤ effectiveCourant dt v L N ∧ effectiveCourant dt v L N ≤ 1 := by
  constructor
  · intro h
    rw [← C34_courant_iff N hN hdim hpos hcells haxis v L hv hL hLpos s0 hnew dt]
    intro f hf lo hi hb k
    have hcv : ConvexOn K Set.univ (fun x : K => max (x - hi) 0 + max (lo - x) 0) := by
      refine ⟨convex_univ, fun x _ y _ a b ha hb hab => ?_⟩
      simp only [smul_eq_mul]
      have m1 : max (a * x + b * y - hi) 0 ≤ a * max (x - hi) 0 + b * max (y - hi) 0 := by
        apply max_le
        · have h1 := mul_le_mul_of_nonneg_left (le_max_left (x - hi) 0) ha
          have h2 := mul_le_mul_of_nonneg_left (le_max_left (y - hi) 0) hb
          have h3 : hi = a * hi + b * hi := by rw [← add_mul, hab, one_mul]
          linarith
        · exact add_nonneg (mul_nonneg ha (le_max_right _ _)) (mul_nonneg hb (le_max_right _ _))
      have m2 : max (lo - (a * x + b * y)) 0 ≤ a * max (lo - x) 0 + b * max (lo - y) 0 := by
        apply max_le
        · have h1 := mul_le_mul_of_nonneg_left (le_max_left (lo - x) 0) ha
          have h2 := mul_le_mul_of_nonneg_left (le_max_left (lo - y) 0) hb
          have h3 : lo = a * lo + b * lo := by rw [← add_mul, hab, one_mul]
          linarith
        · exact add_nonneg (mul_nonneg ha (le_max_right _ _)) (mul_nonneg hb (le_max_right _ _))
      linarith
    obtain ⟨s, e, hs⟩ := h (fun x => max (x - hi) 0 + max (lo - x) 0) hcv f hf k
    refine ⟨s, e, ?_⟩
    have h0 : (f.map fun x => max (x - hi) 0 + max (lo - x) 0).sum = 0 := by
      apply List.sum_eq_zero
      intro y hy
      obtain ⟨x, hx, rfl⟩ := List.mem_map.1 hy
      have := hb x hx
      rw [max_eq_right (by linarith), max_eq_right (by linarith), add_zero]
    rw [h0] at hs
    intro x hx
    have hle := List.single_le_sum (l := s.f.map fun x => max (x - hi) 0 + max (lo - x) 0) (by
      intro y hy
      obtain ⟨x, _, rfl⟩ := List.mem_map.1 hy
      exact add_nonneg (le_max_right _ _) (le_max_right _ _)) _ (List.mem_map.2 ⟨x, hx, rfl⟩)
    have h1 := le_max_left (x - hi) 0
    have h2 := le_max_left (lo - x) 0
    have h3 := le_max_right (x - hi) 0
    have h4 := le_max_right (lo - x) 0
    constructor <;> linarith
  · rintro ⟨h0, h1⟩ φ hφ f hf k
    have uf := exists_field hf
    obtain ⟨_, _, e⟩ := advect_spec hN hdim ⟨hpos, hcells, haxis⟩ hv hL hnew uf k dt
    refine ⟨_, e, ?_⟩
    rw [effectiveCourant_eq] at h0 h1
    have hwn := effective_nonneg hLpos h0
    have hf' := (stores_iff hpos).1 uf
    conv_rhs => rw [hf']
    simp only []
    rw [coeff_neg, sum_map_listOf, sum_map_listOf, total_congr hpos fun g hg => by
      rw [iter_effective hpos _ (fun j => dt * |v.getD j 0| / cellWidth L N j) _ _ g hg]]
    obtain ⟨lo, hi, hb⟩ : ∃ lo hi, ∀ x ∈ f, lo ≤ x ∧ x ≤ hi := by
      refine ⟨-(f.map fun x => |x|).sum, (f.map fun x => |x|).sum, fun x hx => ?_⟩
      have := List.single_le_sum (l := f.map fun x => |x|) (by
        intro y hy
        obtain ⟨x, _, rfl⟩ := List.mem_map.1 hy
        exact abs_nonneg _) _ (List.mem_map.2 ⟨x, hx, rfl⟩)
      exact abs_le.1 this
    exact total_convex_iter hpos _ hwn h1 (hφ.subset (Set.subset_univ _) (convex_Icc lo hi))
      (fun g hg => hb _ (List.mem_iff_getElem?.2 ⟨_, uf.2 g hg⟩)) _

/-- `C85_convex` with the fourth power: six cells in a 3 x 2 grid, Courant number 5/6. -/
example (k : Int) : ∃ s, { (built [(1 : ℚ), -1] [1, 1] [3, 2]) with f := [1, 5, 7, 3, 0, 2] }.advect k (1 / 6) = .ok s ∧
    (s.f.map (· ^ 4)).sum ≤ 3124 := by
  obtain ⟨s, e, h⟩ := C85_convex [3, 2] (by simp) (by simp) (by simp) (by simp) (by simp) [(1 : ℚ), -1] [1, 1] rfl rfl (by simp) _
    (new_built (by simp) (by simp) ⟨by simp, by simp, by simp⟩ rfl rfl) (1 / 6) (by norm_num) (by decide +kernel)
    [1, 5, 7, 3, 0, 2] rfl 0 7 (by decide +kernel) (· ^ 4)
    ((convexOn_pow 4).subset (fun x hx => hx.1) (convex_Icc _ _)) k
  exact ⟨s, e, h.trans (by decide +kernel)⟩

/-- With Courant number 2 the convex function `x ^ 2` grows: three cells, one step, from 1 to 5. -/
example : ∃ s, { (built [(1 : ℚ)] [1] [3]) with f := [1, 0, 0] }.advect 1 (2 / 3) = .ok s ∧ (s.f.map (· ^ 2)).sum = 5 := by
  obtain ⟨_, _, e⟩ := advect_spec (R := ℚ) (N := [3]) (v := [1]) (L := [1]) (by simp) (by simp) ⟨by simp, by simp, by simp⟩ rfl rfl
    (new_built (by simp) (by simp) ⟨by simp, by simp, by simp⟩ rfl rfl) (exists_field (f := [1, 0, 0]) rfl) 1 (2 / 3)
  refine ⟨_, e, ?_⟩
  change ((listOf [3] _).map _).sum = _
  decide +kernel

end

end Fidi
