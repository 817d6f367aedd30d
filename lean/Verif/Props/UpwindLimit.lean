import Verif.Lemmas.UpwindLimit
import Verif.Props.UpwindStable
import Verif.Model.Ieee

/-
Properties C75 and C76: flows that the upwind solver computes exactly, and the limit of many steps.
-/
set_option linter.unusedSectionVars false

namespace Fidi
open Spec Upwind Finset

/-! ### C75 -/

section
variable {K : Type} [Field K] [LinearOrder K] [IsStrictOrderedRing K]

/-- C75: if the fluid moves along one axis only, by exactly one cell per time step, `k` steps move the field by exactly `k`
cells downstream, periodically. -/
theorem C75_unit_courant (N : List Nat) (hN : N ≠ []) (hdim : N.length < 2 ^ 64) (hpos : ∀ n ∈ N, 0 < n)
    (hcells : N.prod < 2 ^ 31) (haxis : ∀ n ∈ N, n < 2 ^ 30) (v L : List K) (hv : v.length = N.length)
    (hL : L.length = N.length) (s0 : Upwind K) (hnew : Upwind.new N.length v L N = .ok s0) (dt : K) (j : Nat) (hj : j < N.length)
    (hone : dt * |v.getD j 0| / cellWidth L N j = 1) (hother : ∀ i, i < N.length → i ≠ j → v.getD i 0 = 0)
    (f0 : List K) (u : List Nat → K) (hf : Stores N f0 u) (k : Nat) :
    ∃ s', { s0 with f := f0 }.advect k dt = .ok s' ∧
      Stores N s'.f fun g => u (upstream N v (fun i => if i = j then k else 0) g) := by
  obtain ⟨_, _, e⟩ := advect_spec hN hdim ⟨hpos, hcells, haxis⟩ hv hL hnew hf k dt
  refine ⟨_, e, (Stores.listOf hpos _).1, fun g hg => ?_⟩
  rw [(Stores.listOf hpos _).2 g hg, coeff_neg]
  exact congrArg some (iter_translate (upDir v) hj hone (fun i hi hne => by rw [hother i hi hne]; simp) k u g hg)

/-- Two rows of four cells moving to the right along the second axis at one cell per step, and the result after three steps. -/
example : ∃ s', { (built [0, (2 : ℚ)] [1, 4] [2, 4]) with f := [1, 2, 3, 4, 5, 6, 7, 8] }.advect 3 (1 / 2) = .ok s' ∧
    s'.f = [2, 3, 4, 1, 6, 7, 8, 5] := by
  obtain ⟨s', e, h⟩ := C75_unit_courant [2, 4] (by simp) (by simp) (by simp) (by simp) (by simp) [0, (2 : ℚ)] [1, 4] rfl rfl _
    (new_built (by simp) (by simp) ⟨by simp, by simp, by simp⟩ rfl rfl) (1 / 2) 1 (by simp)
    (by norm_num [cellWidth]) (by decide) [1, 2, 3, 4, 5, 6, 7, 8] (fun g => (4 * g.getD 0 0 + g.getD 1 0 + 1 : Nat))
    ⟨rfl, by
      intro g hg
      obtain ⟨a, b, rfl⟩ : ∃ a b, g = [a, b] := by
        match g, hg.length_eq with
        | [a, b], _ => exact ⟨a, b, rfl⟩
      have h1 := (inGrid_iff_getElem.1 hg).2 0 (by simp) (by simp)
      have h2 := (inGrid_iff_getElem.1 hg).2 1 (by simp) (by simp)
      simp only [List.getElem_cons_zero, List.getElem_cons_succ] at h1 h2
      have : ∀ a < 2, ∀ b < 4, ([1, 2, 3, 4, 5, 6, 7, 8] : List ℚ)[rankOf [2, 4] [a, b]]? =
        some ((4 * ([a, b] : List Nat).getD 0 0 + ([a, b] : List Nat).getD 1 0 + 1 : Nat) : ℚ) := by decide +kernel
      exact this a h1 b h2⟩ 3
  refine ⟨s', e, ?_⟩
  have hl := (Stores.listOf (N := [2, 4]) (by simp) fun g =>
    (((4 * (upstream [2, 4] [0, (2 : ℚ)] (fun i => if i = 1 then 3 else 0) g).getD 0 0 +
      (upstream [2, 4] [0, (2 : ℚ)] (fun i => if i = 1 then 3 else 0) g).getD 1 0 + 1 : Nat) : ℚ)))
  have e1 : s'.f = listOf [2, 4] _ := (stores_iff (by simp)).1 h
  rw [e1]
  decide +kernel

end

open Classical in
/-- A uniform field of doubles after one step: unchanged or, if a coefficient is not finite, not a number. -/
theorem uniform_step {N : List Nat} (s : Nat → Int) (c : Nat → F64) {x : Dbl} (hx : F64.ofRat x.val = .fin x) (g : List Nat) :
    upwindStep N s c (fun _ => .fin x) g = if ∀ j < N.length, (c j).Finite then .fin x else .nan := by
  have h0 : F64.fin x - F64.fin x = F64.fin 0 := by
    show F64.ofRat (x.val - x.val) = _
    rw [sub_self]
    decide +kernel
  have hc : ∀ j, c j * F64.fin 0 = if (c j).Finite then F64.fin 0 else .nan := by
    intro j
    match c j with
    | .fin y =>
      rw [if_pos (show (F64.fin y).Finite from trivial)]
      show F64.ofRat (y.val * 0) = _
      rw [mul_zero]
      decide +kernel
    | .inf b => rw [if_neg (show ¬ (F64.inf b).Finite from fun h => h)]; cases b <;> decide +kernel
    | .nan => rw [if_neg (show ¬ F64.nan.Finite from fun h => h)]; rfl
  have h1 : F64.fin x - F64.fin 0 = F64.fin x := by
    show F64.ofRat (x.val - 0) = _
    rw [sub_zero, hx]
  unfold upwindStep
  simp only [h0, hc]
  generalize N.length = n
  induction n with
  | zero => simp
  | succ n ih =>
    rw [List.range_succ, List.foldl_append, ih, List.foldl_cons, List.foldl_nil]
    by_cases ha : ∀ j < n, (c j).Finite
    · rw [if_pos ha]
      by_cases hn : (c n).Finite
      · rw [if_pos hn, h1, if_pos]
        intro j hj
        rcases Nat.lt_succ_iff_lt_or_eq.1 hj with h | h
        · exact ha j h
        · exact h ▸ hn
      · rw [if_neg hn, if_neg (fun h => hn (h n (Nat.lt_succ_self n)))]
        rfl
    · have hb : ¬ ∀ j < n + 1, (c j).Finite := fun h => ha fun j hj => h j (Nat.lt_succ_of_lt hj)
      rw [if_neg ha, if_neg hb]
      split <;> rfl

theorem nan_step {N : List Nat} (s : Nat → Int) (c : Nat → F64) (g : List Nat) :
    upwindStep N s c (fun _ => .nan) g = .nan := by
  unfold upwindStep
  generalize N.length = n
  induction n with
  | zero => rfl
  | succ n ih =>
    rw [List.range_succ, List.foldl_append, ih, List.foldl_cons, List.foldl_nil]
    rfl

/-- C75: a uniform field of finite doubles stays exactly as it is, for any number of steps and any Courant number, if and only
if the coefficients `dt v / width` are finite. -/
theorem C75_uniform_iff (N : List Nat) (hN : N ≠ []) (hdim : N.length < 2 ^ 64) (hpos : ∀ n ∈ N, 0 < n)
    (hcells : N.prod < 2 ^ 31) (haxis : ∀ n ∈ N, n < 2 ^ 30) (v L : List F64) (hv : v.length = N.length)
    (hL : L.length = N.length) (s0 : Upwind F64) (hnew : Upwind.new N.length v L N = .ok s0) (dt : F64) (x : Dbl)
    (hx : F64.ofRat x.val = .fin x) (k : Nat) (hk : 0 < k) :
    ∃ s', { s0 with f := List.replicate N.prod (.fin x) }.advect k dt = .ok s' ∧
      (s'.f = List.replicate N.prod (.fin x) ↔ ∀ j < N.length, (upCoeff dt v L N j).Finite) := by
  have hf : Stores N (List.replicate N.prod (F64.fin x)) fun _ => F64.fin x :=
    ⟨by simp, fun g hg => by rw [List.getElem?_replicate, if_pos (rankOf_lt hg)]⟩
  obtain ⟨_, _, e⟩ := advect_spec hN hdim ⟨hpos, hcells, haxis⟩ hv hL hnew hf k dt
  refine ⟨_, e, ?_⟩
  have hconst : ∀ y : F64, listOf N (fun _ => y) = List.replicate N.prod y := fun y => by
    unfold listOf
    rw [List.map_const', List.length_range]
  classical
  have hiter : ∀ m, (upwindStep N (upDir v) (upCoeff dt v L N))^[m + 1] (fun _ => F64.fin x) =
      fun _ => if ∀ j < N.length, (upCoeff dt v L N j).Finite then F64.fin x else .nan := by
    intro m
    induction m with
    | zero => 
      funext g
      have := uniform_step (upDir v) (upCoeff dt v L N) hx g (N := N)
      rw [zero_add, Function.iterate_one]
      convert this
    | succ m ih =>
      rw [Function.iterate_succ_apply', ih]
      funext g
      by_cases h : ∀ j < N.length, (upCoeff dt v L N j).Finite
      · simp only [if_pos h]
        have := uniform_step (upDir v) (upCoeff dt v L N) hx g (N := N)
        rw [if_pos h] at this
        exact this
      · simp only [if_neg h]
        exact nan_step _ _ g
  obtain ⟨m, rfl⟩ : ∃ m, k = m + 1 := ⟨k - 1, by omega⟩
  show listOf N ((upwindStep N (upDir v) (upCoeff dt v L N))^[((m + 1 : Nat) : Int).toNat] _) = _ ↔ _
  rw [Int.toNat_natCast, hiter, hconst]
  by_cases h : ∀ j < N.length, (upCoeff dt v L N j).Finite
  · rw [if_pos h]
    exact ⟨fun _ => h, fun _ => rfl⟩
  · rw [if_neg h]
    refine ⟨fun e => ?_, fun e => absurd e h⟩
    have hP : N.prod ≠ 0 := (List.prod_pos hpos).ne'
    have := (List.replicate_right_inj (n := N.prod) hP).1 e
    exact absurd this (by simp)

/-- The hypotheses are met by the number 0.1 on 3 x 5 cells at a Courant number of 2500. -/
example : F64.ofRat (⟨rnd (1 / 10)⟩ : Dbl).val = .fin ⟨rnd (1 / 10)⟩ ∧
    ∀ j < 2, (upCoeff (.fin ⟨1000⟩) [.fin 1, .fin ⟨-1⟩] [.fin 2, .fin 3] [3, 5] j : F64) ∈
      [F64.fin ⟨rnd (-1000 / rnd (2 / 3))⟩, F64.fin ⟨rnd (-1000 / rnd (3 / 5))⟩] := by decide +kernel

/-! ### C76 -/

section
variable {K : Type} [Field K] [LinearOrder K] [IsStrictOrderedRing K]

theorem mean_total {N : List Nat} (hpos : ∀ n ∈ N, 0 < n) {f0 : List K} (hf : f0.length = N.prod) :
    mean f0 = total N (fun g => f0.getD (rankOf N g) 0) / (N.prod : K) := by
  unfold mean
  rw [hf, ← sum_listOf, ← (stores_iff hpos).1 (exists_field hf)]

/-- C76: with `ω` at most the fraction of the fluid that stays in its cell and at most the fraction that moves along each axis
of several cells, after `n N.sum` or more steps all values are within `(1 - ω^N.sum)^n` times the initial spread of the
mean of the initial field. -/
theorem C76_rate (N : List Nat) (hN : N ≠ []) (hdim : N.length < 2 ^ 64) (hpos : ∀ n ∈ N, 0 < n)
    (hcells : N.prod < 2 ^ 31) (haxis : ∀ n ∈ N, n < 2 ^ 30) (v L : List K) (hv : v.length = N.length)
    (hL : L.length = N.length) (hLpos : ∀ x ∈ L, 0 < x) (s0 : Upwind K)
    (hnew : Upwind.new N.length v L N = .ok s0) (dt : K) (hdt : 0 ≤ dt) (ω : K) (hω : 0 ≤ ω)
    (hstay : ω ≤ 1 - effectiveCourant dt v L N)
    (hmove : ∀ j, j < N.length → 2 ≤ N.getD j 0 → ω ≤ dt * |v.getD j 0| / cellWidth L N j)
    (f0 : List K) (hf : f0.length = N.prod) (lo hi : K) (hb : ∀ x ∈ f0, lo ≤ x ∧ x ≤ hi) (n k : Nat) (hk : n * N.sum ≤ k) :
    ∃ s', { s0 with f := f0 }.advect k dt = .ok s' ∧
      ∀ x ∈ s'.f, |x - mean f0| ≤ (1 - ω ^ N.sum) ^ n * (hi - lo) := by
  have u0 := exists_field hf
  obtain ⟨_, _, e⟩ := advect_spec hN hdim ⟨hpos, hcells, haxis⟩ hv hL hnew u0 k dt
  refine ⟨_, e, ?_⟩
  rw [effectiveCourant_eq] at hstay
  set w : Nat → K := fun j => if 2 ≤ N.getD j 0 then dt * |v.getD j 0| / cellWidth L N j else 0 with hw
  have hwn : ∀ j, j < N.length → 0 ≤ w j := by
    intro j _
    simp only [hw]
    split
    · exact weight_nonneg hdt hLpos j
    · exact le_refl _
  have hmem : ∀ g, InGrid N g → f0.getD (rankOf N g) 0 ∈ f0 := fun g hg => List.mem_iff_getElem?.2 ⟨_, u0.2 g hg⟩
  have hosc := osc_geometric hpos (upDir v) (upDir_cases v) hwn hω hstay
    (fun j hj h2 => by simp only [hw, if_pos h2]; exact hmove j hj h2) (u := fun g => f0.getD (rankOf N g) 0) (δ := hi - lo)
    (fun g g' hg hg' => by linarith [(hb _ (hmem g hg)).2, (hb _ (hmem g' hg')).1]) hk
  intro x hx
  simp only [listOf, List.mem_map, List.mem_range] at hx
  obtain ⟨i, _, rfl⟩ := hx
  have hi := cellAt_inGrid hpos i
  rw [coeff_neg, iter_effective hpos _ _ _ _ _ hi, mean_total hpos hf]
  have h := near_mean hpos hosc hi
  rw [total_iter hpos] at h
  exact h

/-- C76: while the Courant number, not counting the axes of one cell, is less than 1, the field tends to its mean value
everywhere, whatever the initial field, exactly if the fluid moves along every axis of more than one cell. -/
theorem C76_limit_iff [Archimedean K] (N : List Nat) (hN : N ≠ []) (hdim : N.length < 2 ^ 64) (hpos : ∀ n ∈ N, 0 < n)
    (hcells : N.prod < 2 ^ 31) (haxis : ∀ n ∈ N, n < 2 ^ 30) (v L : List K) (hv : v.length = N.length)
    (hL : L.length = N.length) (hLpos : ∀ x ∈ L, 0 < x) (s0 : Upwind K)
    (hnew : Upwind.new N.length v L N = .ok s0) (dt : K) (hdt : 0 ≤ dt) (hc : effectiveCourant dt v L N < 1) :
    (∀ f0 : List K, f0.length = N.prod → ∀ ε > 0, ∃ n : Nat, ∀ k : Nat, n ≤ k →
      ∃ s', { s0 with f := f0 }.advect k dt = .ok s' ∧ ∀ x ∈ s'.f, |x - mean f0| ≤ ε) ↔
    ∀ j, j < N.length → 2 ≤ N.getD j 0 → dt * v.getD j 0 ≠ 0 := by
  constructor
  · intro h j hj h2 h0
    obtain ⟨n, hn⟩ := h (listOf N fun g => (g.getD j 0 : K)) (by simp [listOf]) (1 / 3) (by norm_num)
    obtain ⟨s', e, hs'⟩ := hn n (le_refl _)
    obtain ⟨_, _, e'⟩ := advect_spec hN hdim ⟨hpos, hcells, haxis⟩ hv hL hnew (Stores.listOf hpos fun g => (g.getD j 0 : K)) n dt
    rw [e'] at e
    injection e with e
    have hval : ∀ g, InGrid N g → (g.getD j 0 : K) ∈ s'.f := by
      intro g hg
      have h1 := (Stores.listOf hpos ((upwindStep N (upDir v) (upCoeff dt v L N))^[((n : Nat) : Int).toNat]
        fun g => (g.getD j 0 : K))).2 g hg
      rw [Int.toNat_natCast] at h1
      rw [show (upwindStep N (upDir v) (upCoeff dt v L N))^[n] (fun g => (g.getD j 0 : K)) g = (g.getD j 0 : K) by
        rw [coeff_neg]
        refine iter_still (upDir v) ?_ n g hg
        have : dt * |v.getD j 0| = 0 := by
          rcases mul_eq_zero.1 h0 with h | h
          · rw [h, zero_mul]
          · rw [h, abs_zero, mul_zero]
        rw [this, zero_div]] at h1
      rw [← e]
      exact List.mem_iff_getElem?.2 ⟨_, h1⟩
    have hz : InGrid N (List.replicate N.length 0) :=
      inGrid_iff_getElem.2 ⟨by simp, fun i h1 h2 => by simpa using hpos _ (List.getElem_mem h1)⟩
    have ho : InGrid N ((List.replicate N.length 0).set j 1) := by
      refine inGrid_iff_getElem.2 ⟨by simp, fun i h1 h3 => ?_⟩
      rw [List.getElem_set]
      split
      · next hij =>
        subst hij
        rw [natGetD_of_lt h1] at h2
        omega
      · simpa using hpos _ (List.getElem_mem h1)
    have a0 := hs' _ (hval _ hz)
    have a1 := hs' _ (hval _ ho)
    have e0 : ((List.replicate N.length 0).getD j 0 : Nat) = 0 := by simp [List.getD_eq_getElem?_getD, hj]
    have e1 : (((List.replicate N.length 0).set j 1).getD j 0 : Nat) = 1 := by simp [List.getD_eq_getElem?_getD, hj]
    rw [e0] at a0
    rw [e1] at a1
    rw [abs_le] at a0 a1
    push_cast at a0 a1
    linarith [a0.1, a1.2]
  · intro h f0 hf ε hε
    obtain ⟨ω, hω, hstay, hmove⟩ : ∃ ω : K, 0 < ω ∧ ω ≤ 1 - effectiveCourant dt v L N ∧
        ∀ j, j < N.length → 2 ≤ N.getD j 0 → ω ≤ dt * |v.getD j 0| / cellWidth L N j := by
      have key : ∀ m, m ≤ N.length → ∃ ω : K, 0 < ω ∧ ω ≤ 1 - effectiveCourant dt v L N ∧
          ∀ j, j < m → 2 ≤ N.getD j 0 → ω ≤ dt * |v.getD j 0| / cellWidth L N j := by
        intro m
        induction m with
        | zero => intro _; exact ⟨_, sub_pos.2 hc, le_refl _, fun j hj => absurd hj (Nat.not_lt_zero _)⟩
        | succ m ih =>
          intro hm
          obtain ⟨ω, h1, h2, h3⟩ := ih (by omega)
          by_cases hm2 : 2 ≤ N.getD m 0
          · have hpos' : 0 < dt * |v.getD m 0| / cellWidth L N m := by
              refine lt_of_le_of_ne (weight_nonneg hdt hLpos m) (Ne.symm ?_)
              have hw : cellWidth L N m ≠ 0 := by
                unfold cellWidth
                have hLm : 0 < L.getD m 0 := by
                  rw [List.getD_eq_getElem?_getD, List.getElem?_eq_getElem (by omega)]
                  exact hLpos _ (List.getElem_mem _)
                have : (0 : K) < (N.getD m 0 : K) := by exact_mod_cast (by omega : 0 < N.getD m 0)
                exact (div_pos hLm this).ne'
              have := h m (by omega) hm2
              rw [Ne, mul_eq_zero, not_or] at this
              exact div_ne_zero (mul_ne_zero this.1 (abs_ne_zero.2 this.2)) hw
            refine ⟨min ω (dt * |v.getD m 0| / cellWidth L N m), lt_min h1 hpos', (min_le_left _ _).trans h2, ?_⟩
            intro j hj hj2
            rcases Nat.lt_succ_iff_lt_or_eq.1 hj with hlt | rfl
            · exact (min_le_left _ _).trans (h3 j hlt hj2)
            · exact min_le_right _ _
          · refine ⟨ω, h1, h2, fun j hj hj2 => ?_⟩
            rcases Nat.lt_succ_iff_lt_or_eq.1 hj with hlt | rfl
            · exact h3 j hlt hj2
            · exact absurd hj2 hm2
      exact key N.length (le_refl _)
    obtain ⟨a, b, ha, hb, hab⟩ := exists_extremes hpos fun g => f0.getD (rankOf N g) 0
    have hall : ∀ x ∈ f0, f0.getD (rankOf N a) 0 ≤ x ∧ x ≤ f0.getD (rankOf N b) 0 := by
      intro x hx
      obtain ⟨i, hi⟩ := List.mem_iff_getElem?.1 hx
      have hi' : i < N.prod := by
        rw [← hf]
        exact (List.getElem?_eq_some_iff.1 hi).1
      have := hab _ (cellAt_inGrid hpos i)
      simp only [rankOf_cellAt hpos hi'] at this
      rwa [show f0.getD i 0 = x by rw [List.getD_eq_getElem?_getD, hi]; rfl] at this
    have hpow : 1 - ω ^ N.sum < 1 := by linarith [pow_pos hω N.sum]
    have hsp : (0 : K) ≤ f0.getD (rankOf N b) 0 - f0.getD (rankOf N a) 0 := by linarith [(hab a ha).2]
    obtain ⟨n, hn⟩ : ∃ n : Nat, (1 - ω ^ N.sum) ^ n * (f0.getD (rankOf N b) 0 - f0.getD (rankOf N a) 0) ≤ ε := by
      rcases hsp.eq_or_lt with h0 | h0
      · exact ⟨0, by rw [← h0, mul_zero]; exact hε.le⟩
      · obtain ⟨n, hn⟩ := exists_pow_lt_of_lt_one (div_pos hε h0) hpow
        exact ⟨n, ((lt_div_iff₀ h0).1 hn).le⟩
    refine ⟨n * N.sum, fun k hk => ?_⟩
    obtain ⟨s', e, hs'⟩ := C76_rate N hN hdim hpos hcells haxis v L hv hL hLpos s0 hnew dt hdt ω hω.le hstay hmove f0 hf _ _ hall n
      k hk
    exact ⟨s', e, fun x hx => (hs' x hx).trans hn⟩

end

/-- The hypotheses are met by the flow of `upwind.cxx` on 4 x 4 x 4 cells: velocity 1 along every axis, Courant number 3/10. -/
example : effectiveCourant (1 / 40 : ℚ) [1, 1, 1] [1, 1, 1] [4, 4, 4] = 3 / 10 ∧
    ∀ j < 3, (1 / 40 : ℚ) * ([1, 1, 1] : List ℚ).getD j 0 ≠ 0 := by decide +kernel

/-- The bound on the Courant number is needed: at 1 a field of two cells alternates for ever. -/
example : ∀ k : Nat, ∃ s', { (built [(1 : ℚ)] [1] [2]) with f := [0, 1] }.advect (2 * k : Nat) (1 / 2) = .ok s' ∧ s'.f = [0, 1] := by
  intro k
  obtain ⟨s', e, h⟩ := C75_unit_courant [2] (by simp) (by simp) (by simp) (by simp) (by simp) [(1 : ℚ)] [1] rfl rfl _
    (new_built (by simp) (by simp) ⟨by simp, by simp, by simp⟩ rfl rfl) (1 / 2) 0 (by simp)
    (by norm_num [cellWidth]) (by decide) [0, 1] (fun g => (g.getD 0 0 : ℚ))
    ⟨rfl, by
      intro g hg
      obtain ⟨a, rfl⟩ : ∃ a, g = [a] := by
        match g, hg.length_eq with
        | [a], _ => exact ⟨a, rfl⟩
      have h1 := (inGrid_iff_getElem.1 hg).2 0 (by simp) (by simp)
      simp only [List.getElem_cons_zero] at h1
      have : ∀ a < 2, ([0, 1] : List ℚ)[rankOf [2] [a]]? = some ((([a] : List Nat).getD 0 0 : Nat) : ℚ) := by decide +kernel
      exact this a h1⟩ (2 * k)
  refine ⟨s', e, ?_⟩
  have hs : ∀ a < 2, upstream [2] [(1 : ℚ)] (fun i => if i = 0 then 2 * k else 0) [a] = [a] := by
    intro a ha
    have hd : upDir [(1 : ℚ)] 0 = -1 := by decide +kernel
    simp only [upstream, shiftMod, List.length_cons, List.length_nil, List.range_succ, List.range_zero, List.nil_append,
      List.map_cons, List.map_nil, hd, if_true]
    congr 1
    omega
  rw [(stores_iff (by simp)).1 h]
  have hc : ∀ i < 2, cellAt [2] i = [i] := by decide
  simp only [listOf, List.prod_cons, List.prod_nil, mul_one, List.range_succ, List.range_zero, List.nil_append, List.map_append,
    List.map_cons, List.map_nil, hc 0 (by decide), hc 1 (by decide), hs 0 (by decide), hs 1 (by decide)]
  decide +kernel

end Fidi
