import Verif.Props.Ieee
import Verif.Props.UpwindSymmetry

/-
How the field of the exact scheme depends on its coefficients, and the field of the program with IEEE numbers.
-/
set_option linter.unusedSectionVars false

namespace Fidi
open Spec Upwind Finset

section
variable {K : Type} [Field K] [LinearOrder K] [IsStrictOrderedRing K]

/-- From a field with values in [0, 1], changing the weights changes the field by no more than the number of steps times the
change of the weights. -/
theorem iter_weights {N : List Nat} (s : Nat → Int) {w w' : Nat → K} (hw : ∀ j, j < N.length → 0 ≤ w j)
    (hs : ∑ j ∈ range N.length, w j ≤ 1) (hw' : ∀ j, j < N.length → 0 ≤ w' j) (hs' : ∑ j ∈ range N.length, w' j ≤ 1)
    {u : List Nat → K} (hu : ∀ g, InGrid N g → 0 ≤ u g ∧ u g ≤ 1) (k : Nat) : ∀ g, InGrid N g →
    |(upwindStep N s (fun j => -w j))^[k] u g - (upwindStep N s (fun j => -w' j))^[k] u g| ≤
      k * ∑ j ∈ range N.length, |w j - w' j| := by
  induction k with
  | zero => intro g _; simp
  | succ k ih =>
    intro g hg
    rw [Function.iterate_succ_apply', Function.iterate_succ_apply']
    have hb := iter_between s hw' hs' hu k
    generalize (upwindStep N s (fun j => -w j))^[k] u = a at ih
    generalize (upwindStep N s (fun j => -w' j))^[k] u = b at ih hb
    have e : upwindStep N s (fun j => -w j) a g - upwindStep N s (fun j => -w' j) b g =
        ((1 - ∑ j ∈ range N.length, w j) * (a g - b g) + ∑ j ∈ range N.length, w j * (a (neighbour N j (s j) g) - b (neighbour N j (s j) g))) +
          ∑ j ∈ range N.length, (w j - w' j) * (b (neighbour N j (s j) g) - b g) := by
      rw [upwindStep_mean, upwindStep_mean]
      have e1 : ∑ j ∈ range N.length, w j * (a (neighbour N j (s j) g) - b (neighbour N j (s j) g)) =
          ∑ j ∈ range N.length, w j * a (neighbour N j (s j) g) - ∑ j ∈ range N.length, w j * b (neighbour N j (s j) g) := by
        rw [← sum_sub_distrib]; exact sum_congr rfl fun j _ => by ring
      have e2 : ∑ j ∈ range N.length, (w j - w' j) * (b (neighbour N j (s j) g) - b g) =
          ∑ j ∈ range N.length, w j * b (neighbour N j (s j) g) - ∑ j ∈ range N.length, w' j * b (neighbour N j (s j) g) -
            (∑ j ∈ range N.length, w j - ∑ j ∈ range N.length, w' j) * b g := by
        rw [← sum_sub_distrib, ← sum_sub_distrib, sum_mul, ← sum_sub_distrib]; exact sum_congr rfl fun j _ => by ring
      rw [e1, e2]
      ring
    rw [e]
    set D := (k : K) * ∑ j ∈ range N.length, |w j - w' j| with hD
    have h1 : |(1 - ∑ j ∈ range N.length, w j) * (a g - b g)| ≤ (1 - ∑ j ∈ range N.length, w j) * D := by
      rw [abs_mul, abs_of_nonneg (by linarith)]
      exact mul_le_mul_of_nonneg_left (ih g hg) (by linarith)
    have h2 : |∑ j ∈ range N.length, w j * (a (neighbour N j (s j) g) - b (neighbour N j (s j) g))| ≤
        (∑ j ∈ range N.length, w j) * D := by
      rw [sum_mul]
      refine (abs_sum_le_sum_abs _ _).trans (sum_le_sum fun j hj => ?_)
      rw [abs_mul, abs_of_nonneg (hw j (mem_range.1 hj))]
      exact mul_le_mul_of_nonneg_left (ih _ (neighbour_inGrid hg j (s j))) (hw j (mem_range.1 hj))
    have h3 : |∑ j ∈ range N.length, (w j - w' j) * (b (neighbour N j (s j) g) - b g)| ≤
        ∑ j ∈ range N.length, |w j - w' j| := by
      refine (abs_sum_le_sum_abs _ _).trans (sum_le_sum fun j _ => ?_)
      rw [abs_mul]
      refine mul_le_of_le_one_right (abs_nonneg _) (abs_le.2 ?_)
      have b1 := hb g hg
      have b2 := hb _ (neighbour_inGrid hg j (s j))
      exact ⟨by linarith [b1.2, b2.1], by linarith [b1.1, b2.2]⟩
    refine (abs_add_le _ _).trans ((add_le_add ((abs_add_le _ _).trans (add_le_add h1 h2)) h3).trans (le_of_eq ?_))
    rw [hD]
    push_cast
    ring

end

/-- The field of the program with IEEE rounding and that of the exact program. -/
theorem driver_field_near (n : Nat) (hn : 0 < n) (hn2 : n ≤ 1290) (k : Int) (hk : k < 2 ^ 31) :
    ∃ (s' : Upwind Dbl) (s : Upwind ℚ) (u : List Nat → ℚ), Upwind.mainRun (⟨rnd (1 / 10)⟩ : Dbl) n k = .ok s' ∧
      Upwind.mainRun (0.1 : ℚ) n k = .ok s ∧ Stores [n, n, n] s.f u ∧ Near [n, n, n] Dbl.val s'.f u (23 * k.toNat / 2 ^ 52) := by
  have hmax : (1 : ℚ) ≤ (HasMax.dblMax : Dbl).val := by decide +kernel
  have htiny : (2 : ℚ) ^ 20 * (1 / 2 ^ 1022) ≤ 1 := by
    have := tiny_le 1022 (by norm_num)
    have h2 : (2 : ℚ) ^ 20 * (1 / 2 ^ 200) ≤ 1 := by norm_num
    exact le_trans (mul_le_mul_of_nonneg_left this (by positivity)) h2
  have hcr := (rnd_roundsTo (1 / 10)).2 (Or.inr (by
      rw [abs_of_pos (by norm_num)]
      exact (tiny_le 1022 (by norm_num)).trans (by norm_num)))
  have hq1 : (1 : ℚ) ≤ n := by exact_mod_cast hn
  have hq2 : (n : ℚ) ≤ 1290 := by exact_mod_cast hn2
  obtain ⟨edt, hdt, hnorm, hcour⟩ := driver_hyps Dbl.rounded hmax htiny ⟨rnd (1 / 10)⟩ hcr n hn hn2
  obtain ⟨-, hrel⟩ := mainDt_rounded Dbl.rounded hmax ⟨rnd (1 / 10)⟩ hcr hn (by
    have h1 := tiny_le 1022 (by norm_num)
    have h0 : (0 : ℚ) ≤ 1 / 2 ^ 1022 := by positivity
    generalize (1 : ℚ) / 2 ^ 1022 = t at h1 h0 ⊢
    have h2 : t * n ≤ 1 / 2 ^ 200 * 1290 := mul_le_mul h1 hq2 (by linarith) (by norm_num)
    have h3 : 100 * ((1 : ℚ) / 2 ^ 200 * 1290) ≤ 1 := by norm_num
    linarith)
  generalize (⟨rnd (1 / 10)⟩ : Dbl) * (1 / (n : Dbl)) / 1 = dt at edt hdt hnorm hcour hrel
  have hp : ∀ m ∈ List.replicate 3 n, 0 < m := by intro m hm; rw [(List.mem_replicate.1 hm).2]; exact hn
  have hcells : (List.replicate 3 n).prod < 2 ^ 31 := by
    have : n * (n * n) ≤ 1290 * (1290 * 1290) := Nat.mul_le_mul hn2 (Nat.mul_le_mul hn2 hn2)
    simp only [List.prod_replicate]
    have e : n ^ 3 = n * (n * n) := by ring
    rw [e]; omega
  have haxis : ∀ m ∈ List.replicate 3 n, m < 2 ^ 30 := by
    intro m hm; rw [(List.mem_replicate.1 hm).2]; omega
  have hLpos : ∀ x ∈ List.replicate 3 (1 : Dbl), 0 < x.val := by
    intro x hx; rw [(List.mem_replicate.1 hx).2, Dbl.rounded.one]; exact zero_lt_one
  have hg : GoodGrid (List.replicate 3 n) := ⟨hp, hcells, haxis⟩
  have hnewD := new_built (N := List.replicate 3 n) (v := List.replicate 3 (1 : Dbl)) (L := List.replicate 3 (1 : Dbl)) (by simp)
    (by simp) hg (by simp) (by simp)
  have hnewQ := new_built (N := List.replicate 3 n) (v := List.replicate 3 (1 : ℚ)) (L := List.replicate 3 (1 : ℚ)) (by simp)
    (by simp) hg (by simp) (by simp)
  have hcorner : (fun g => (cornerField g : Dbl).val) = (cornerField : List Nat → ℚ) := by
    funext g
    unfold cornerField
    split <;> rfl
  have hones : (List.replicate 3 (1 : Dbl)).map Dbl.val = List.replicate 3 (1 : ℚ) := by
    rw [List.map_replicate, Dbl.rounded.one]
  obtain ⟨s', e1, hnear⟩ := C58_upwind_error Dbl.rounded (List.replicate 3 n) (by simp) (by simp) hp hcells haxis
    (List.replicate 3 1) (List.replicate 3 1) (by simp) (by simp) hLpos _ hnewD dt hdt.le hcour hnorm _ _
    (built_stores (v := List.replicate 3 (1 : Dbl)) (L := List.replicate 3 1) hg) 1 zero_le_one (by
      intro g _
      unfold cornerField
      split
      · rw [Dbl.rounded.one, abs_one]
      · rw [Dbl.rounded.zero, abs_zero]; exact zero_le_one) k
  obtain ⟨_, _, e2⟩ := advect_spec (by simp) (by simp) hg (by simp) (by simp) hnewQ
    (built_stores (v := List.replicate 3 (1 : ℚ)) (L := List.replicate 3 1) hg) k (1 / 10 / (n : ℚ))
  rw [hcorner, hones, coeff_neg, List.length_replicate] at hnear
  rw [hones] at hcour
  obtain ⟨-, hb⟩ := driver_bounds_double n hn2 k hk
  have hone : ∀ j < 3, (List.replicate 3 (1 : ℚ)).getD j 0 = 1 := by
    intro j hj; have : j = 0 ∨ j = 1 ∨ j = 2 := by omega
    rcases this with rfl | rfl | rfl <;> rfl
  have hmany : ∀ j < 3, (List.replicate 3 n).getD j 0 = n := by
    intro j hj; have : j = 0 ∨ j = 1 ∨ j = 2 := by omega
    rcases this with rfl | rfl | rfl <;> rfl
  have hweight : ∀ (x : ℚ) (j : Nat), j < 3 →
      x * |(List.replicate 3 (1 : ℚ)).getD j 0| / cellWidth (List.replicate 3 (1 : ℚ)) (List.replicate 3 n) j = x * n := by
    intro x j hj
    unfold cellWidth
    rw [hone j hj, hmany j hj, abs_one, mul_one, div_div_eq_mul_div, div_one]
  have hD : Upwind.mainRun (⟨rnd (1 / 10)⟩ : Dbl) n k = .ok s' := by
    unfold Upwind.mainRun
    rw [szOfInt_ofNat (by unfold W; omega)]
    simp only [List.length_replicate]
    rw [edt]
    simp only [M.ok_bind]
    rw [List.length_replicate] at hnewD
    rw [hnewD]
    exact e1
  have hQ : Upwind.mainRun (0.1 : ℚ) n k =
      (built (List.replicate 3 (1 : ℚ)) (List.replicate 3 1) (List.replicate 3 n)).advect k (1 / 10 / (n : ℚ)) := by
    unfold Upwind.mainRun
    rw [szOfInt_ofNat (by unfold W; omega)]
    simp only [List.length_replicate]
    rw [_root_.Fidi.mainDt_eq hn]
    simp only [M.ok_bind]
    rw [List.length_replicate] at hnewQ
    rw [hnewQ]
    rfl
  refine ⟨s', _, _, hD, hQ.trans e2, Stores.listOf hp _, hnear.1, fun g hgr => ?_⟩
  obtain ⟨x, hx, hxe⟩ := hnear.2 g hgr
  refine ⟨x, hx, ?_⟩
  rw [coeff_neg]
  have hn0 : (n : ℚ) ≠ 0 := by linarith
  have hsum : ∀ x : ℚ, ∑ j ∈ range (List.replicate 3 n).length,
      x * |(List.replicate 3 (1 : ℚ)).getD j 0| / cellWidth (List.replicate 3 (1 : ℚ)) (List.replicate 3 n) j = 3 * (x * n) := by
    intro x
    rw [List.length_replicate, sum_congr rfl fun j hj => hweight x j (mem_range.1 hj), sum_const, card_range, nsmul_eq_mul]
    norm_num
  rw [courant_eq, hsum] at hcour
  have h1 := iter_weights (N := List.replicate 3 n) (upDir (List.replicate 3 (1 : ℚ)))
    (w := fun j => dt.val * |(List.replicate 3 (1 : ℚ)).getD j 0| / cellWidth (List.replicate 3 (1 : ℚ)) (List.replicate 3 n) j)
    (w' := fun j => 1 / 10 / (n : ℚ) * |(List.replicate 3 (1 : ℚ)).getD j 0| /
      cellWidth (List.replicate 3 (1 : ℚ)) (List.replicate 3 n) j)
    (fun j hj => by rw [hweight _ _ (by simpa using hj)]; positivity) (by rw [hsum]; exact hcour)
    (fun j hj => by rw [hweight _ _ (by simpa using hj)]; positivity)
    (by rw [hsum, div_mul_cancel₀ _ hn0]; norm_num)
    (u := cornerField) (by
      intro g _
      unfold cornerField
      split
      · exact ⟨zero_le_one, le_refl _⟩
      · exact ⟨le_refl _, zero_le_one⟩) k.toNat g hgr
  have hdiff : ∑ j ∈ range (List.replicate 3 n).length,
      |dt.val * |(List.replicate 3 (1 : ℚ)).getD j 0| / cellWidth (List.replicate 3 (1 : ℚ)) (List.replicate 3 n) j -
        1 / 10 / (n : ℚ) * |(List.replicate 3 (1 : ℚ)).getD j 0| /
          cellWidth (List.replicate 3 (1 : ℚ)) (List.replicate 3 n) j| ≤ 1 / 2 ^ 52 := by
    rw [List.length_replicate, sum_congr rfl fun j hj => by rw [hweight _ j (mem_range.1 hj), hweight _ j (mem_range.1 hj)],
      sum_const, card_range, nsmul_eq_mul, ← sub_mul, abs_mul, abs_of_nonneg (by linarith : (0 : ℚ) ≤ n)]
    unfold Rel at hrel
    rw [abs_of_pos (by positivity : (0 : ℚ) < 1 / 10 / n)] at hrel
    have h2 := mul_le_mul_of_nonneg_right hrel (by linarith : (0 : ℚ) ≤ n)
    rw [mul_assoc, div_mul_cancel₀ _ hn0] at h2
    norm_num at h2 ⊢
    linarith
  have h3 := mul_le_mul_of_nonneg_left hdiff (Nat.cast_nonneg k.toNat : (0 : ℚ) ≤ k.toNat)
  refine (abs_sub_le _ _ _).trans ((add_le_add (hxe.trans hb) (h1.trans h3)).trans (le_of_eq ?_))
  ring

end Fidi
