import Verif.Lemmas.UpwindStable
import Verif.Props.Upwind

/-
Properties C34 (the Courant condition is necessary), C71 (comparison and contraction) and C72 (domain of dependence) of
upwind.cxx.
-/
set_option linter.unusedSectionVars false

namespace Fidi
open Spec Upwind Finset

section
variable {K : Type} [Field K] [LinearOrder K] [IsStrictOrderedRing K]

theorem effectiveCourant_eq (dt : K) (v L : List K) (N : List Nat) :
    effectiveCourant dt v L N =
      ∑ j ∈ range N.length, if 2 ≤ N.getD j 0 then dt * |v.getD j 0| / cellWidth L N j else 0 := by
  unfold effectiveCourant
  generalize N.length = n
  induction n with
  | zero => simp
  | succ n ih => rw [List.range_succ, List.map_append, List.sum_append, ih, sum_range_succ]; simp

theorem coeff_neg (dt : K) (v L : List K) (N : List Nat) :
    upCoeff dt v L N = fun j => -(dt * |v.getD j 0| / cellWidth L N j) := by
  funext j; exact upCoeff_eq dt v L N j

/-- The weights are not negative if their sum is not. -/
theorem effective_nonneg {dt : K} {v L : List K} {N : List Nat} (hLpos : ∀ x ∈ L, 0 < x)
    (h0 : 0 ≤ ∑ j ∈ range N.length, if 2 ≤ N.getD j 0 then dt * |v.getD j 0| / cellWidth L N j else 0) :
    ∀ j, j < N.length → 0 ≤ if 2 ≤ N.getD j 0 then dt * |v.getD j 0| / cellWidth L N j else 0 := by
  set w : Nat → K := fun j => if 2 ≤ N.getD j 0 then dt * |v.getD j 0| / cellWidth L N j else 0 with hw
  change ∀ j, j < N.length → 0 ≤ w j
  rcases le_or_gt 0 dt with hdt | hdt
  · intro j _
    simp only [hw]
    split
    · exact weight_nonneg hdt hLpos j
    · exact le_refl _
  · have hle : ∀ j ∈ range N.length, w j ≤ 0 := by
      intro j _
      simp only [hw]
      split
      · have := weight_nonneg (dt := -dt) (by linarith) (v := v) (N := N) hLpos j
        have e : -dt * |v.getD j 0| / cellWidth L N j = -(dt * |v.getD j 0| / cellWidth L N j) := by ring
        rw [e] at this
        linarith
      · exact le_refl _
    have hz := (sum_eq_zero_iff_of_nonpos hle).1 (le_antisymm (sum_nonpos hle) h0)
    intro j hj
    rw [hz j (mem_range.2 hj)]

/-- C34: the values stay within the bounds of the initial field, for all initial fields and numbers of steps, exactly if the
Courant number, not counting the axes of one cell, is between 0 and 1. -/
theorem C34_courant_iff (N : List Nat) (hN : N ≠ []) (hdim : N.length < 2 ^ 64) (hpos : ∀ n ∈ N, 0 < n)
    (hcells : N.prod < 2 ^ 31) (haxis : ∀ n ∈ N, n < 2 ^ 30) (v L : List K) (hv : v.length = N.length)
    (hL : L.length = N.length) (hLpos : ∀ x ∈ L, 0 < x) (s0 : Upwind K)
    (hnew : Upwind.new N.length v L N = .ok s0) (dt : K) :
    (∀ f0 : List K, f0.length = N.prod → ∀ lo hi, (∀ x ∈ f0, lo ≤ x ∧ x ≤ hi) → ∀ k : Int,
      ∃ s', { s0 with f := f0 }.advect k dt = .ok s' ∧ ∀ x ∈ s'.f, lo ≤ x ∧ x ≤ hi) ↔
    0 ≤ effectiveCourant dt v L N ∧ effectiveCourant dt v L N ≤ 1 := by
  rw [effectiveCourant_eq]
  set w : Nat → K := fun j => if 2 ≤ N.getD j 0 then dt * |v.getD j 0| / cellWidth L N j else 0 with hw
  constructor
  · intro h
    have hz : InGrid N (List.replicate N.length 0) := by
      refine inGrid_iff_getElem.2 ⟨by simp, fun i h1 h2 => ?_⟩
      simpa using hpos _ (List.getElem_mem h1)
    have hb : ∀ x ∈ listOf N (cornerField : List Nat → K), 0 ≤ x ∧ x ≤ 1 := by
      intro x hx
      simp only [listOf, List.mem_map, List.mem_range] at hx
      obtain ⟨i, _, rfl⟩ := hx
      unfold cornerField
      split
      · exact ⟨zero_le_one, le_refl _⟩
      · exact ⟨le_refl _, zero_le_one⟩
    obtain ⟨s', e, hs⟩ := h (listOf N cornerField) (by simp) 0 1 hb 1
    obtain ⟨_, _, e2⟩ := advect_spec hN hdim ⟨hpos, hcells, haxis⟩ hv hL hnew (Stores.listOf hpos (cornerField (R := K))) 1 dt
    rw [e] at e2
    injection e2 with e2
    have hst := (Stores.listOf hpos ((upwindStep N (upDir v) (upCoeff dt v L N))^[(1 : Int).toNat] cornerField)).2 _ hz
    have hmem := List.mem_iff_getElem?.2 ⟨_, hst⟩
    rw [e2] at hs
    have h1 := hs _ hmem
    have hval : (upwindStep N (upDir v) (upCoeff dt v L N))^[(1 : Int).toNat] cornerField (List.replicate N.length 0) =
        1 - ∑ j ∈ range N.length, w j := by
      show upwindStep N (upDir v) (upCoeff dt v L N) cornerField (List.replicate N.length 0) = _
      rw [coeff_neg, upwindStep_effective hpos hz, upwindStep_eq]
      have hc0 : cornerField (List.replicate N.length 0) = (1 : K) := by
        unfold cornerField
        rw [if_pos]
        intro x hx
        exact (List.mem_replicate.1 hx).2
      rw [hc0, sub_right_inj]
      apply sum_congr rfl
      intro j hj
      by_cases h2 : 2 ≤ N.getD j 0
      · have hc1 : cornerField (neighbour N j (upDir v j) (List.replicate N.length 0)) = (0 : K) := by
          unfold cornerField
          rw [if_neg]
          intro hall
          apply neighbour_ne hz h2 (s := upDir v j) (by unfold upDir; split <;> simp)
          have : neighbour N j (upDir v j) (List.replicate N.length 0) =
              List.replicate (neighbour N j (upDir v j) (List.replicate N.length 0)).length 0 :=
            List.eq_replicate_of_mem hall
          rw [this, neighbour_length, List.length_replicate]
        simp only [hw, if_pos h2]
        rw [hc1]
        ring
      · simp only [hw, if_neg h2]
        ring
    rw [hval] at h1
    constructor <;> linarith [h1.1, h1.2]
  · rintro ⟨h0, h1⟩ f0 hf lo hi hb k
    have u0 := exists_field hf
    obtain ⟨_, _, e⟩ := advect_spec hN hdim ⟨hpos, hcells, haxis⟩ hv hL hnew u0 k dt
    refine ⟨_, e, ?_⟩
    have hwn := effective_nonneg hLpos h0
    have key := iter_between (upDir v) hwn h1 (u := fun g => f0.getD (rankOf N g) 0) (lo := lo) (hi := hi)
      (fun g hg => hb _ (List.mem_iff_getElem?.2 ⟨_, u0.2 g hg⟩)) k.toNat
    intro x hx
    simp only [listOf, List.mem_map, List.mem_range] at hx
    obtain ⟨i, _, rfl⟩ := hx
    have hi := cellAt_inGrid hpos i
    rw [coeff_neg, iter_effective hpos _ _ _ _ _ hi]
    exact key _ hi

/-! ### C71 -/

/-- C71: if one initial field is nowhere above another, it stays so. -/
theorem C71_comparison (N : List Nat) (hN : N ≠ []) (hdim : N.length < 2 ^ 64) (hpos : ∀ n ∈ N, 0 < n)
    (hcells : N.prod < 2 ^ 31) (haxis : ∀ n ∈ N, n < 2 ^ 30) (v L : List K) (hv : v.length = N.length)
    (hL : L.length = N.length) (hLpos : ∀ x ∈ L, 0 < x) (s0 : Upwind K)
    (hnew : Upwind.new N.length v L N = .ok s0) (dt : K) (hdt : 0 ≤ dt) (hc : courant dt v L N ≤ 1)
    (f g : List K) (hf : f.length = N.prod) (hle : List.Forall₂ (· ≤ ·) f g) (k : Int) :
    ∃ s t, { s0 with f := f }.advect k dt = .ok s ∧ { s0 with f := g }.advect k dt = .ok t ∧
      List.Forall₂ (· ≤ ·) s.f t.f := by
  have hg : g.length = N.prod := hle.length_eq ▸ hf
  have uf := exists_field hf
  have ug := exists_field hg
  obtain ⟨_, _, ef⟩ := advect_spec hN hdim ⟨hpos, hcells, haxis⟩ hv hL hnew uf k dt
  obtain ⟨_, _, eg⟩ := advect_spec hN hdim ⟨hpos, hcells, haxis⟩ hv hL hnew ug k dt
  refine ⟨_, _, ef, eg, ?_⟩
  rw [courant_eq] at hc
  have hd : ∀ c, InGrid N c → 0 ≤ g.getD (rankOf N c) 0 - f.getD (rankOf N c) 0 := by
    intro c hcg
    have h1 := rankOf_lt hcg
    have h2 := (List.forall₂_iff_get.1 hle).2 (rankOf N c) (by omega) (by omega)
    simp only [List.getD_eq_getElem?_getD, List.getElem?_eq_getElem (show rankOf N c < g.length by omega),
      List.getElem?_eq_getElem (show rankOf N c < f.length by omega), Option.getD_some]
    simp only [List.get_eq_getElem] at h2
    linarith
  have key : ∀ c, InGrid N c → (upwindStep N (upDir v) (upCoeff dt v L N))^[k.toNat] (fun c => f.getD (rankOf N c) 0) c ≤
      (upwindStep N (upDir v) (upCoeff dt v L N))^[k.toNat] (fun c => g.getD (rankOf N c) 0) c := by
    intro c hcg
    rw [← sub_nonneg, iter_sub, coeff_neg]
    have hw := fun j (_ : j < N.length) => weight_nonneg (v := v) (N := N) hdt hLpos j
    revert c hcg
    generalize k.toNat = n
    induction n with
    | zero => exact hd
    | succ n ih =>
      intro c hcg
      rw [Function.iterate_succ_apply']
      exact le_step _ hw hc ih hcg
  show List.Forall₂ (· ≤ ·) (listOf N _) (listOf N _)
  unfold listOf
  rw [List.forall₂_map_left_iff, List.forall₂_map_right_iff, List.forall₂_same]
  intro i _
  exact key _ (cellAt_inGrid hpos i)

theorem sum_zipWith_listOf (N : List Nat) (F : K → K → K) (a b : List Nat → K) :
    (List.zipWith F (listOf N a) (listOf N b)).sum = total N fun g => F (a g) (b g) := by
  rw [← sum_listOf]
  unfold listOf
  rw [List.zipWith_map, List.zipWith_self]

/-- C71: two fields do not move apart: the largest difference, the sum of the absolute differences and the sum of the squares
of the differences do not grow. -/
theorem C71_contraction (N : List Nat) (hN : N ≠ []) (hdim : N.length < 2 ^ 64) (hpos : ∀ n ∈ N, 0 < n)
    (hcells : N.prod < 2 ^ 31) (haxis : ∀ n ∈ N, n < 2 ^ 30) (v L : List K) (hv : v.length = N.length)
    (hL : L.length = N.length) (hLpos : ∀ x ∈ L, 0 < x) (s0 : Upwind K)
    (hnew : Upwind.new N.length v L N = .ok s0) (dt : K) (hdt : 0 ≤ dt) (hc : courant dt v L N ≤ 1)
    (f g : List K) (hf : f.length = N.prod) (hg : g.length = N.prod) (k : Int) :
    ∃ s t, { s0 with f := f }.advect k dt = .ok s ∧ { s0 with f := g }.advect k dt = .ok t ∧
      (∀ b, (∀ x ∈ List.zipWith (fun x y => |x - y|) f g, x ≤ b) →
        ∀ x ∈ List.zipWith (fun x y => |x - y|) s.f t.f, x ≤ b) ∧
      (List.zipWith (fun x y => |x - y|) s.f t.f).sum ≤ (List.zipWith (fun x y => |x - y|) f g).sum ∧
      (List.zipWith (fun x y => (x - y) ^ 2) s.f t.f).sum ≤ (List.zipWith (fun x y => (x - y) ^ 2) f g).sum := by
  have uf := exists_field hf
  have ug := exists_field hg
  obtain ⟨_, _, ef⟩ := advect_spec hN hdim ⟨hpos, hcells, haxis⟩ hv hL hnew uf k dt
  obtain ⟨_, _, eg⟩ := advect_spec hN hdim ⟨hpos, hcells, haxis⟩ hv hL hnew ug k dt
  refine ⟨_, _, ef, eg, ?_⟩
  rw [courant_eq] at hc
  have hw := fun j (_ : j < N.length) => weight_nonneg (v := v) (N := N) hdt hLpos j
  generalize hgf : (fun c => f.getD (rankOf N c) 0) = a at *
  generalize hgg : (fun c => g.getD (rankOf N c) 0) = b at *
  rw [(stores_iff hpos).1 uf, (stores_iff hpos).1 ug]
  simp only []
  rw [coeff_neg, sum_zipWith_listOf, sum_zipWith_listOf, sum_zipWith_listOf, sum_zipWith_listOf]
  simp only [iter_sub]
  refine ⟨?_, total_abs_iter hpos _ hw hc _ _, total_sq_iter hpos _ hw hc _ _⟩
  intro m hm x hx
  have hz : ∀ a b : List Nat → K, List.zipWith (fun x y => |x - y|) (listOf N a) (listOf N b) = listOf N fun g => |a g - b g| := by
    intro a b
    unfold listOf
    rw [List.zipWith_map, List.zipWith_self]
  rw [hz] at hm hx
  have hb : ∀ c, InGrid N c → -m ≤ a c - b c ∧ a c - b c ≤ m := by
    intro c hcg
    exact abs_le.1 (hm _ (List.mem_iff_getElem?.2 ⟨_, (Stores.listOf hpos _).2 c hcg⟩))
  simp only [listOf, List.mem_map, List.mem_range] at hx
  obtain ⟨i, _, rfl⟩ := hx
  rw [iter_sub]
  exact abs_le.2 (iter_between _ hw hc hb k.toNat _ (cellAt_inGrid hpos i))

/-- The hypotheses of C71 are met: a 3 x 2 grid with Courant number 5/6, two fields. -/
example : ([3, 2] : List Nat) ≠ [] ∧ (∀ n ∈ ([3, 2] : List Nat), 0 < n) ∧ courant (1 / 6 : ℚ) [1, -1] [1, 1] [3, 2] = 5 / 6 ∧
    (∀ x ∈ ([1, 1] : List ℚ), 0 < x) ∧ List.Forall₂ (· ≤ ·) ([0, 1, 2, 3, 4, 5] : List ℚ) [1, 1, 5, 3, 4, 6] := by
  refine ⟨by simp, by simp, by decide +kernel, by simp, ?_⟩
  norm_num

/-- The two sides of `C34_courant_iff` hold for some and fail for other time steps. -/
example : effectiveCourant (1 / 6 : ℚ) [1, -1] [1, 1] [3, 1] = 1 / 2 ∧ courant (1 / 6 : ℚ) [1, -1] [1, 1] [3, 1] = 2 / 3 ∧
    effectiveCourant (1 / 2 : ℚ) [1, -1] [1, 1] [3, 1] = 3 / 2 := by
  decide +kernel

end

/-! ### C72 -/

section
variable {R : Type} [Zero R] [One R] [Add R] [Sub R] [Mul R] [Div R] [NatCast R] [IntCast R] [LT R] [DecidableLT R]

/-- C72: after `k` steps the value of a cell depends only on the cells upstream of it by at most `k` cells in total: fields that
agree there give the same bits. Whatever the arithmetic. -/
theorem C72_domain_of_dependence (N : List Nat) (hN : N ≠ []) (hdim : N.length < 2 ^ 64) (hpos : ∀ n ∈ N, 0 < n)
    (hcells : N.prod < 2 ^ 31) (haxis : ∀ n ∈ N, n < 2 ^ 30) (v L : List R) (hv : v.length = N.length)
    (hL : L.length = N.length) (s0 : Upwind R) (hnew : Upwind.new N.length v L N = .ok s0) (dt : R)
    (f f' : List R) (hf : f.length = N.prod) (hf' : f'.length = N.prod) (k : Int) (g : List Nat) (hg : InGrid N g)
    (hagree : ∀ m : Nat → Nat, ∑ j ∈ range N.length, m j ≤ k.toNat →
      f[rankOf N (upstream N v m g)]? = f'[rankOf N (upstream N v m g)]?) :
    ∃ s s', { s0 with f := f }.advect k dt = .ok s ∧ { s0 with f := f' }.advect k dt = .ok s' ∧
      ∃ x, s.f[rankOf N g]? = some x ∧ s'.f[rankOf N g]? = some x := by
  have uf := exists_field hf
  have uf' := exists_field hf'
  obtain ⟨_, _, ef⟩ := advect_spec hN hdim ⟨hpos, hcells, haxis⟩ hv hL hnew uf k dt
  obtain ⟨_, _, ef'⟩ := advect_spec hN hdim ⟨hpos, hcells, haxis⟩ hv hL hnew uf' k dt
  refine ⟨_, _, ef, ef', _, (Stores.listOf hpos _).2 g hg, ?_⟩
  rw [iter_depends (upDir v) (upCoeff dt v L N) k.toNat (u' := fun c => f'.getD (rankOf N c) 0) g hg]
  · exact (Stores.listOf hpos _).2 g hg
  · intro m hm
    have := hagree m hm
    simp only [List.getD_eq_getElem?_getD]
    unfold upstream at this
    rw [this]

/-- C72 is not vacuous: on 8 cells with positive velocity cell 4 after 2 steps depends on the cells 4, 3 and 2 only. -/
example : (∀ m : Nat → Nat, ∑ j ∈ range 1, m j ≤ 2 →
      ([0, 0, 1, 5, 2, 0, 0, 0] : List ℚ)[rankOf [8] (upstream [8] ([1] : List ℚ) m [4])]? =
        ([7, 7, 1, 5, 2, 7, 7, 7] : List ℚ)[rankOf [8] (upstream [8] ([1] : List ℚ) m [4])]?) ∧
    InGrid [8] [4] := by
  refine ⟨?_, by simp [InGrid]⟩
  intro m hm
  simp only [sum_range_one] at hm
  have : m 0 = 0 ∨ m 0 = 1 ∨ m 0 = 2 := by omega
  have e : upDir ([1] : List ℚ) 0 = -1 := by decide +kernel
  rcases this with h | h | h <;> simp [upstream, shiftMod, rankOf, h, e]

end

end Fidi
