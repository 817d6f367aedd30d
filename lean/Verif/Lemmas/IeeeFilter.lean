import Verif.Lemmas.Ieee
import Verif.Lemmas.FilterRounding
import Verif.Lemmas.FilterSum

/-
Where no result leaves the range of `double`, the filter and its check sum with overflow are those without.
-/
set_option linter.unusedSectionVars false
set_option exponentiation.threshold 1100

namespace Fidi
open Fidi.Spec Finset

local notation "ρ₀" => (1 / 2 ^ 53 : ℚ)
local notation "η₀" => (1 / 2 ^ 1075 : ℚ)

/-- The stencil with its weights as IEEE numbers. -/
def finStencil (st : List (List Int × Dbl)) : List (List Int × F64) := st.map fun p => (p.1, F64.fin p.2)

theorem weightSum_take (st : List (List Int × ℚ)) (n : Nat) : weightSum (st.take n) ≤ weightSum st := by
  conv_rhs => rw [← List.take_append_drop n st]
  unfold weightSum
  rw [List.map_append, List.sum_append]
  have := weightSum_nonneg (st.drop n)
  unfold weightSum at this
  linarith

theorem weighted_le (st : List (List Int × Dbl)) (x : List Int → Dbl) {B : ℚ}
    (hx : ∀ p ∈ st, |(x p.1).val| ≤ B) :
    ((stencilVal Dbl.val st).map fun p => |p.2| * |(x p.1).val|).sum ≤ weightSum (stencilVal Dbl.val st) * B := by
  unfold weightSum stencilVal
  induction st with
  | nil => simp
  | cons p st ih =>
    simp only [List.map_cons, List.sum_cons] at ih ⊢
    have h1 := ih fun q hq => hx q (List.mem_cons_of_mem _ hq)
    have h2 := mul_le_mul_of_nonneg_left (hx p List.mem_cons_self) (abs_nonneg p.2.val)
    linarith

/-- One application of the stencil at a cell, if the bound of C68 is in range. -/
theorem fold_fin (st : List (List Int × Dbl)) (x : List Int → Dbl) (x' : List Int → F64) {B : ℚ} (hB : 0 ≤ B)
    (hx : ∀ p ∈ st, |(x p.1).val| ≤ B) (hx' : ∀ p ∈ st, x' p.1 = .fin (x p.1))
    (hlim : stencilGrowth st.length ρ₀ 0 * weightSum (stencilVal Dbl.val st) * B + stencilUnderflow st.length ρ₀ η₀ ≤ 2 ^ 1020) :
    (finStencil st).foldl (fun acc p => acc + p.2 * x' p.1) 0 = .fin (st.foldl (fun acc p => acc + p.2 * x p.1) 0) := by
  have H := Dbl.rounded
  set A := weightSum (stencilVal Dbl.val st) with hA
  have hA0 : 0 ≤ A := weightSum_nonneg _
  have hAB : 0 ≤ A * B := mul_nonneg hA0 hB
  have hpre : ∀ n, n ≤ st.length → |((st.take n).foldl (fun acc p => acc + p.2 * x p.1) 0 : Dbl).val| ≤ maxFinite := by
    intro n hn
    have hl : (st.take n).length = n := by rw [List.length_take, Nat.min_eq_left hn]
    have h1 := roundedFold_error H (stencilNear_self Dbl.val (st.take n)) x
    rw [hl] at h1
    have h2 := weighted_le (st.take n) x fun p hp => hx p (List.mem_of_mem_take hp)
    have h3 : weightSum (stencilVal Dbl.val (st.take n)) ≤ A := by
      have e : stencilVal Dbl.val (st.take n) = (stencilVal Dbl.val st).take n := by
        unfold stencilVal; rw [List.map_take]
      rw [e]; exact weightSum_take _ _
    set S := ((stencilVal Dbl.val (st.take n)).map fun p => |p.2| * |(x p.1).val|).sum with hS
    have h4 : S ≤ A * B := h2.trans (mul_le_mul_of_nonneg_right h3 hB)
    have h5 : |((stencilVal Dbl.val (st.take n)).map fun p => p.2 * (x p.1).val).sum| ≤ S := by
      rw [hS]
      generalize stencilVal Dbl.val (st.take n) = l
      induction l with
      | nil => simp
      | cons p l ih =>
        rw [List.map_cons, List.sum_cons, List.map_cons, List.sum_cons]
        refine (abs_add_le _ _).trans ?_
        rw [abs_mul]
        linarith
    have h6 := abs_le_of_near h1
    have hg : stencilGrowth n ρ₀ 0 ≤ stencilGrowth st.length ρ₀ 0 := by
      unfold stencilGrowth
      rw [add_zero, mul_one, mul_one]
      exact pow_le_pow_right₀ (by norm_num) (by omega)
    have hg0 : 0 ≤ stencilGrowth n ρ₀ 0 := by unfold stencilGrowth; positivity
    have hu : stencilUnderflow n ρ₀ η₀ ≤ stencilUnderflow st.length ρ₀ η₀ := by
      unfold stencilUnderflow
      have hn' : (n : ℚ) ≤ st.length := by exact_mod_cast hn
      have hp : (1 + ρ₀) ^ n ≤ (1 + ρ₀) ^ st.length := pow_le_pow_right₀ (by norm_num) hn
      refine mul_le_mul_of_nonneg_right ?_ (by positivity)
      exact mul_le_mul (by linarith) hp (by positivity) (by positivity)
    have h7 : stencilGrowth n ρ₀ 0 * S ≤ stencilGrowth st.length ρ₀ 0 * (A * B) :=
      (mul_le_mul_of_nonneg_left h4 hg0).trans (mul_le_mul_of_nonneg_right hg hAB)
    refine le_max ?_
    rw [mul_assoc] at hlim
    have e : (stencilGrowth n ρ₀ 0 - 1) * S = stencilGrowth n ρ₀ 0 * S - S := by ring
    rw [e] at h6
    linarith
  have hterm : ∀ p ∈ st, F64.fin p.2 * F64.fin (x p.1) = .fin (p.2 * x p.1) := by
    intro p hp
    apply F64.fin_mul
    have hne : 1 ≤ st.length := List.length_pos_of_mem hp
    have h1 := (H.mul p.2 (x p.1)).1
    have h2 := abs_le_of_near h1
    rw [abs_mul] at h2
    have h3 : |p.2.val| ≤ A := by
      rw [hA]
      unfold weightSum stencilVal
      rw [List.map_map]
      exact List.single_le_sum (by
        intro y hy
        obtain ⟨q, _, rfl⟩ := List.mem_map.1 hy
        exact abs_nonneg _) _ (List.mem_map.2 ⟨p, hp, rfl⟩)
    have h4 : |p.2.val| * |(x p.1).val| ≤ A * B := mul_le_mul h3 (hx p hp) (abs_nonneg _) hA0
    have hg : 1 + ρ₀ ≤ stencilGrowth st.length ρ₀ 0 := by
      unfold stencilGrowth
      rw [add_zero, mul_one]
      calc 1 + ρ₀ = (1 + ρ₀) ^ 1 := (pow_one _).symm
        _ ≤ _ := pow_le_pow_right₀ (by norm_num) (by omega)
    have hu : 1 * η₀ ≤ stencilUnderflow st.length ρ₀ η₀ := by
      unfold stencilUnderflow
      refine mul_le_mul_of_nonneg_right ?_ (by positivity)
      have h5 : (1 : ℚ) ≤ st.length := by exact_mod_cast hne
      have h6 : (1 : ℚ) ≤ (1 + ρ₀) ^ st.length := one_le_pow₀ (by norm_num)
      nlinarith
    have h5 : (1 + ρ₀) * (|p.2.val| * |(x p.1).val|) ≤ stencilGrowth st.length ρ₀ 0 * (A * B) :=
      (mul_le_mul_of_nonneg_left h4 (by norm_num)).trans (mul_le_mul_of_nonneg_right hg hAB)
    refine le_max ?_
    rw [mul_assoc] at hlim
    linarith
  have key : ∀ n, n ≤ st.length → (finStencil (st.take n)).foldl (fun acc p => acc + p.2 * x' p.1) 0 =
      .fin ((st.take n).foldl (fun acc p => acc + p.2 * x p.1) 0) := by
    intro n
    induction n with
    | zero => intro _; rfl
    | succ n ih =>
      intro hn
      have hp := hpre (n + 1) hn
      have hmem : st[n] ∈ st := List.getElem_mem _
      rw [List.take_succ_eq_append_getElem (by omega)] at hp ⊢
      unfold finStencil at ih ⊢
      rw [List.map_append, List.foldl_append, ih (by omega), List.map_cons, List.map_nil, List.foldl_cons, List.foldl_nil,
        hx' _ hmem, hterm _ hmem]
      rw [List.foldl_append, List.foldl_cons, List.foldl_nil] at hp ⊢
      exact F64.fin_add hp
  have := key st.length (le_refl _)
  rwa [List.take_length] at this

theorem iterBound_succ {K : Type} [Field K] (q z : K) (k : Nat) (b : K) :
    iterBound q z (k + 1) b = q * iterBound q z k b + z := rfl

theorem shStep_fin_one {N : List Nat} {sh : List Nat → List Int → List Nat} (st : List (List Int × Dbl))
    (hsh : ∀ p ∈ st, ∀ g, InGrid N g → InGrid N (sh g p.1)) (u : List Nat → Dbl) (u' : List Nat → F64)
    (hu : ∀ g, InGrid N g → u' g = .fin (u g)) {B : ℚ} (hB : 0 ≤ B) (hb : ∀ g, InGrid N g → |(u g).val| ≤ B)
    (hlim : stencilGrowth st.length ρ₀ 0 * weightSum (stencilVal Dbl.val st) * B + stencilUnderflow st.length ρ₀ η₀ ≤ 2 ^ 1020)
    (g : List Nat) (hg : InGrid N g) : shStep sh (finStencil st) u' g = .fin (shStep sh st u g) :=
  fold_fin st (fun o => u (sh g o)) (fun o => u' (sh g o)) hB (fun p hp => hb _ (hsh p hp g hg))
    (fun p hp => hu _ (hsh p hp g hg)) hlim

/-- Any number of applications. -/
theorem shStep_fin {N : List Nat} {sh : List Nat → List Int → List Nat} (st : List (List Int × Dbl))
    (hsh : ∀ p ∈ st, ∀ g, InGrid N g → InGrid N (sh g p.1)) (u : List Nat → Dbl) (u' : List Nat → F64)
    (hu : ∀ g, InGrid N g → u' g = .fin (u g)) {B : ℚ} (hB : 0 ≤ B) (hb : ∀ g, InGrid N g → |(u g).val| ≤ B) (n : Nat)
    (hlim : ∀ i, i ≤ n → iterBound (stencilGrowth st.length ρ₀ 0 * weightSum (stencilVal Dbl.val st))
      (stencilUnderflow st.length ρ₀ η₀) i B ≤ 2 ^ 1020) :
    ∀ g, InGrid N g → (shStep sh (finStencil st))^[n] u' g = .fin ((shStep sh st)^[n] u g) := by
  have hA := weightSum_nonneg (stencilVal Dbl.val st)
  have hG : (1 : ℚ) ≤ stencilGrowth st.length ρ₀ 0 := stencilGrowth_ge (by positivity) (le_refl 0) _
  have hU : (0 : ℚ) ≤ stencilUnderflow st.length ρ₀ η₀ := stencilUnderflow_nonneg (by positivity) (by positivity) _
  have h0 : ∀ i, 0 ≤ iterBound (stencilGrowth st.length ρ₀ 0 * weightSum (stencilVal Dbl.val st))
      (stencilUnderflow st.length ρ₀ η₀) i B := by
    intro i
    induction i with
    | zero => exact hB
    | succ i ih => rw [iterBound_succ]; exact add_nonneg (mul_nonneg (mul_nonneg (by linarith) hA) ih) hU
  have hbd := fun i => (stencil_error (sh := sh) Dbl.rounded (le_refl 0) (maxNorm N) (stencilNear_self Dbl.val st)
    (fun p hp u b h => fun g hg => h _ (by
      obtain ⟨q, hq, rfl⟩ := List.mem_map.1 hp
      exact hsh q hq g hg)) u hb i).1
  simp only [mul_one] at hbd
  induction n with
  | zero => exact hu
  | succ n ih =>
    intro g hg
    rw [Function.iterate_succ_apply', Function.iterate_succ_apply']
    have hl := hlim (n + 1) (le_refl _)
    rw [iterBound_succ] at hl
    exact shStep_fin_one st hsh _ _ (ih fun i hi => hlim i (by omega)) (h0 n) (hbd n) hl g hg

/-! ### Check sums -/

/-- The sum of a rank. -/
theorem fold_le (l : List Dbl) (hl : l.length ≤ 2 ^ 31) (hb : ∀ x ∈ l, |x.val| ≤ 2 ^ 900) :
    |(l.foldl (· + ·) 0 : Dbl).val| ≤ 2 ^ 940 := by
  have h1 := foldl_add_error Dbl.rounded l 0
  rw [Dbl.rounded.zero, abs_zero, zero_add, zero_add] at h1
  have h2 : (l.map fun x => |x.val|).sum ≤ l.length * 2 ^ 900 := by
    clear h1 hl
    induction l with
    | nil => simp
    | cons x l ih =>
      rw [List.map_cons, List.sum_cons, List.length_cons]
      have h1 := hb x List.mem_cons_self
      have h2 := ih fun y hy => hb y (List.mem_cons_of_mem _ hy)
      push_cast
      linarith
  have h3 : |(l.map Dbl.val).sum| ≤ (l.map fun x => |x.val|).sum := by
    clear h1 hl hb h2
    induction l with
    | nil => simp
    | cons x q ih =>
      rw [List.map_cons, List.sum_cons, List.map_cons, List.sum_cons]
      exact (abs_add_le _ _).trans (by linarith)
  have h4 := abs_le_of_near h1
  set S := (l.map fun x => |x.val|).sum
  have hS0 : 0 ≤ S := (abs_nonneg _).trans h3
  have hlq : (l.length : ℚ) ≤ 2 ^ 31 := by exact_mod_cast hl
  have h5 : (1 + ρ₀) ^ l.length * (S + l.length * η₀) ≤ 2 * (S + l.length * η₀) :=
    mul_le_mul_of_nonneg_right (pow_le_two hl) (by positivity)
  have h6 : (l.length : ℚ) * η₀ ≤ 2 ^ 31 * 1 := mul_le_mul hlq eta_le (by positivity) (by positivity)
  have h7 : (l.length : ℚ) * 2 ^ 900 ≤ 2 ^ 31 * 2 ^ 900 := mul_le_mul_of_nonneg_right hlq (by positivity)
  linarith [(by norm_num : 2 * ((2 : ℚ) ^ 31 * 2 ^ 900 + 2 ^ 31 * 1) ≤ 2 ^ 940)]

/-- A tree of additions of not too many numbers of moderate size. -/
theorem sumTree_fin_le {xs : List Dbl} {t : Dbl} (h : SumTree xs t) (hl : xs.length ≤ 2 ^ 31)
    (hb : ∀ x ∈ xs, |x.val| ≤ 2 ^ 940) : |t.val| ≤ maxFinite := by
  obtain ⟨n, hn, h1⟩ := sumTree_error Dbl.rounded h
  have h2 : (xs.map fun x => |x.val|).sum ≤ xs.length * 2 ^ 940 := by
    clear h h1 hn hl
    induction xs with
    | nil => simp
    | cons x l ih =>
      rw [List.map_cons, List.sum_cons, List.length_cons]
      have h1 := hb x List.mem_cons_self
      have h2 := ih fun y hy => hb y (List.mem_cons_of_mem _ hy)
      push_cast
      linarith
  have h3 : |(xs.map Dbl.val).sum| ≤ (xs.map fun x => |x.val|).sum := by
    clear h h1 hn hl hb h2
    induction xs with
    | nil => simp
    | cons x q ih =>
      rw [List.map_cons, List.sum_cons, List.map_cons, List.sum_cons]
      exact (abs_add_le _ _).trans (by linarith)
  have h4 := abs_le_of_near h1
  set S := (xs.map fun x => |x.val|).sum
  have hS0 : 0 ≤ S := (abs_nonneg _).trans h3
  have hn31 : n ≤ 2 ^ 31 := by omega
  have hnq : (n : ℚ) ≤ 2 ^ 31 := by exact_mod_cast hn31
  have hlq : (xs.length : ℚ) ≤ 2 ^ 31 := by exact_mod_cast hl
  have h5 : (1 + ρ₀) ^ n * (S + n * η₀) ≤ 2 * (S + n * η₀) :=
    mul_le_mul_of_nonneg_right (pow_le_two hn31) (by positivity)
  have h6 : (n : ℚ) * η₀ ≤ 2 ^ 31 * 1 := mul_le_mul hnq eta_le (by positivity) (by positivity)
  have h7 : (xs.length : ℚ) * 2 ^ 940 ≤ 2 ^ 31 * 2 ^ 940 := mul_le_mul_of_nonneg_right hlq (by positivity)
  refine le_max ?_
  linarith [(by norm_num : 2 * ((2 : ℚ) ^ 31 * 2 ^ 940 + 2 ^ 31 * 1) ≤ 2 ^ 1020)]

theorem sumTree_fin {xs : List Dbl} (hl : xs.length ≤ 2 ^ 31) (hb : ∀ x ∈ xs, |x.val| ≤ 2 ^ 940) (t' : F64) :
    SumTree (xs.map F64.fin) t' ↔ ∃ t, t' = .fin t ∧ SumTree xs t := by
  constructor
  · intro h
    generalize he : xs.map F64.fin = l at h
    induction h generalizing xs with
    | leaf x =>
      match xs, he with
      | [y], he =>
        rw [List.map_cons, List.map_nil] at he
        injection he with he
        exact ⟨y, he.symm, .leaf y⟩
    | @node as bs a b _ _ ih1 ih2 =>
      obtain ⟨ys, zs, rfl, h1, h2⟩ := List.map_eq_append_iff.1 he
      rw [List.length_append] at hl
      obtain ⟨s, rfl, hs⟩ := ih1 (by omega) (fun x hx => hb x (List.mem_append_left _ hx)) h1
      obtain ⟨t, rfl, ht⟩ := ih2 (by omega) (fun x hx => hb x (List.mem_append_right _ hx)) h2
      have := SumTree.node hs ht
      exact ⟨s + t, F64.fin_add (sumTree_fin_le this (by rw [List.length_append]; exact hl) hb), this⟩
  · rintro ⟨t, rfl, h⟩
    induction h with
    | leaf x => exact .leaf _
    | @node as bs a b ha hb' ih1 ih2 =>
      have h := SumTree.node ha hb'
      rw [← F64.fin_add (sumTree_fin_le h hl hb), List.map_append]
      rw [List.length_append] at hl
      exact .node (ih1 (by omega) fun x hx => hb x (List.mem_append_left _ hx))
        (ih2 (by omega) fun x hx => hb x (List.mem_append_right _ hx))

/-- The number of a finite IEEE number. -/
def unFin : F64 → Dbl
  | .fin x => x
  | _ => 0

theorem mpiSum_fin {xs : List Dbl} (hl : xs.length ≤ 2 ^ 31) (hb : ∀ x ∈ xs, |x.val| ≤ 2 ^ 940) (t' : F64) :
    MpiSum (xs.map F64.fin) t' ↔ ∃ t, t' = .fin t ∧ MpiSum xs t := by
  have hun : ∀ l : List Dbl, (l.map F64.fin).map unFin = l := by
    intro l; rw [List.map_map]; exact List.map_id' l
  constructor
  · rintro ⟨ys, hp, h⟩
    have hys : ys = (ys.map unFin).map F64.fin := by
      rw [List.map_map]
      conv_lhs => rw [← List.map_id ys]
      apply List.map_congr_left
      intro y hy
      obtain ⟨x, _, rfl⟩ := List.mem_map.1 (hp.mem_iff.1 hy)
      rfl
    have hp2 := hp.map unFin
    rw [hun] at hp2
    rw [hys] at h
    obtain ⟨t, e, ht⟩ := (sumTree_fin (by rw [hp2.length_eq]; exact hl) (fun x hx => hb x (hp2.mem_iff.1 hx)) t').1 h
    exact ⟨t, e, _, hp2, ht⟩
  · rintro ⟨t, e, ys, hp, h⟩
    exact ⟨_, hp.map F64.fin, (sumTree_fin (by rw [hp.length_eq]; exact hl) (fun x hx => hb x (hp.mem_iff.1 hx)) t').2 ⟨t, e, h⟩⟩

end Fidi
