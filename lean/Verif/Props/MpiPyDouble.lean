import Verif.Lemmas.BoxRounding
import Verif.Props.OtherDouble
import Verif.Props.CTestMpi

/-
Properties C58, C62 and C79 for upwindMPI.py with IEEE numbers.
-/
set_option linter.unusedSectionVars false
set_option exponentiation.threshold 1100

namespace Fidi
open Spec Upwind Finset CTest

/-- The time step of the programs. -/
theorem driver_dt_small {n : Nat} (hn : 0 < n) (hn2 : n ≤ 1290) :
    9 / 100 ≤ ((⟨rnd (1 / 10)⟩ : Dbl) * (1 / (n : Dbl)) / 1).val * n ∧
    ((⟨rnd (1 / 10)⟩ : Dbl) * (1 / (n : Dbl)) / 1).val * n ≤ 11 / 100 := by
  have hmax : (1 : ℚ) ≤ (HasMax.dblMax : Dbl).val := by decide +kernel
  have hq : (n : ℚ) ≤ 1290 := by exact_mod_cast hn2
  have hq1 : (0 : ℚ) < n := by exact_mod_cast hn
  obtain ⟨-, hrel⟩ := mainDt_rounded Dbl.rounded hmax ⟨rnd (1 / 10)⟩
    ((rnd_roundsTo (1 / 10)).2 (Or.inr (by norm_num [abs_of_pos]))) hn (by
      have : (100 : ℚ) * (1 / 2 ^ 1022) * n ≤ 100 * (1 / 2 ^ 1022) * 1290 := mul_le_mul_of_nonneg_left hq (by positivity)
      exact this.trans (by norm_num))
  generalize ((⟨rnd (1 / 10)⟩ : Dbl) * (1 / (n : Dbl)) / 1).val = d at *
  have hpos10 : (0 : ℚ) < 1 / 10 / n := by positivity
  have hr6 : |d - 1 / 10 / (n : ℚ)| ≤ 6 / 100 * (1 / 10 / n) := by
    have := hrel.mono (by norm_num : 6 * (1 / 2 ^ 53 : ℚ) ≤ 6 / 100)
    unfold Rel at this
    rwa [abs_of_pos hpos10] at this
  rw [abs_le] at hr6
  have e : 1 / 10 / (n : ℚ) * n = 1 / 10 := div_mul_cancel₀ _ hq1.ne'
  have l1 := mul_le_mul_of_nonneg_right hr6.1 hq1.le
  have l2 := mul_le_mul_of_nonneg_right hr6.2 hq1.le
  constructor <;> nlinarith

/-- The coefficients of the program with IEEE numbers. -/
theorem mpi_coeffs {n : Nat} (hn : 0 < n) (hn2 : n ≤ 1290) {j : Nat} (hj : j < 3) :
    ∃ x : Dbl, axisCoeff ([1, 1, 1] : List F64) [1, 1, 1] [n, n, n] j = .fin x ∧ Rel (54 / 10 * (1 / 2 ^ 53)) x.val (-(n : ℚ)) ∧
      F64.fin ((⟨rnd (1 / 10)⟩ : Dbl) * (1 / (n : Dbl)) / 1) * .fin x =
        .fin ((⟨rnd (1 / 10)⟩ : Dbl) * (1 / (n : Dbl)) / 1 * x) ∧
      |((⟨rnd (1 / 10)⟩ : Dbl) * (1 / (n : Dbl)) / 1 * x).val| ≤ 2 ∧
      Rel (65 / 10 * (1 / 2 ^ 53)) ((⟨rnd (1 / 10)⟩ : Dbl) * (1 / (n : Dbl)) / 1 * x).val
        (-(((⟨rnd (1 / 10)⟩ : Dbl) * (1 / (n : Dbl)) / 1).val * n)) := by
  obtain ⟨hdt, hfit, hr⟩ := driver_dbl hn hn2
  have hj' : j < [n, n, n].length := hj
  have hup : upDir [(1 : Dbl), 1, 1] j = -1 := by
    have : ∀ j < 3, upDir [(1 : Dbl), 1, 1] j = -1 := by decide +kernel
    exact this j hj
  have e1 : (([1, 1, 1] : List Dbl).map Dbl.val).getD j 0 = 1 := by
    have : ∀ j < 3, (([1, 1, 1] : List Dbl).map Dbl.val).getD j 0 = 1 := by decide +kernel
    exact this j hj
  have e2 : ([n, n, n] : List Nat).getD j 0 = n := by
    have : j = 0 ∨ j = 1 ∨ j = 2 := by omega
    rcases this with rfl | rfl | rfl <;> rfl
  have ew : cellWidth (([1, 1, 1] : List Dbl).map Dbl.val) [n, n, n] j = 1 / (n : ℚ) := by
    unfold cellWidth; rw [e1, e2]
  have ev : (([1, 1, 1] : List Dbl).getD j 0).val = 1 := by rw [← getD_map_val Dbl.rounded, e1]
  obtain ⟨f1, r1⟩ := hfit.rate_rel hj' (hr j hj)
  obtain ⟨f2, b2⟩ := hfit.rate_fin hj' (hr j hj)
  have r2 := coeff_python_rel Dbl.rounded hfit.normal hj' (hfit.width_rel hj')
  rw [f1] at f2
  rw [hup] at f1 r1 f2 b2 r2
  refine ⟨([1, 1, 1] : List Dbl).getD j 0 * ((-1 : Int) : Dbl) / cellWidth [1, 1, 1] [n, n, n] j, ?_, ?_, f2, b2, ?_⟩
  · rw [← f1, ← getD_map_fin, ← hfit.width_fin hj']
    rfl
  · rw [ev, ew] at r1
    refine cast ?_ r1
    congr 1
    push_cast
    rw [one_mul, neg_div, one_div_one_div]
  · rw [upCoeff_eq, e1, ew, abs_one, mul_one] at r2
    refine cast ?_ r2
    congr 1
    rw [div_div_eq_mul_div, div_one]

/-- The sum of three coefficients, added in any order and with some zeros. -/
theorem three_sum {n : Nat} (hn : 0 < n) (hn2 : n ≤ 1290) {x : Nat → Dbl}
    (hx : ∀ j, j < 3 → Rel (54 / 10 * (1 / 2 ^ 53)) (x j).val (-(n : ℚ))) {m : Nat} (hm : m ≤ 8) {t : F64}
    (h : AnySum (List.replicate m 0 ++ (List.range 3).map fun j => F64.fin (x j)) t) :
    ∃ s : Dbl, t = .fin s ∧ Rel (157 / 10 * (1 / 2 ^ 53)) s.val (-(3 * n : ℚ)) := by
  have hq1 : (1 : ℚ) ≤ n := by exact_mod_cast hn
  have hq2 : (n : ℚ) ≤ 1290 := by exact_mod_cast hn2
  set ds := List.replicate m (0 : Dbl) ++ (List.range 3).map x with hds
  have hlen : ds.length = m + 3 := by simp [hds]
  have hxb : ∀ j, j < 3 → |(x j).val| ≤ (1 + 54 / 10 * (1 / 2 ^ 53)) * n := by
    intro j hj
    have := (hx j hj).abs_le
    rwa [abs_neg, abs_of_nonneg (by linarith : (0 : ℚ) ≤ n)] at this
  have hb : ∀ y ∈ ds, |y.val| ≤ 2 ^ 940 := by
    intro y hy
    rcases List.mem_append.1 hy with hy | hy
    · rw [(List.mem_replicate.1 hy).2, Dbl.rounded.zero, abs_zero]; positivity
    · obtain ⟨j, hj, rfl⟩ := List.mem_map.1 hy
      refine (hxb j (List.mem_range.1 hj)).trans ?_
      refine (mul_le_mul_of_nonneg_left hq2 (by positivity)).trans (by norm_num)
  have hp : (List.replicate m (0 : F64) ++ (List.range 3).map fun j => F64.fin (x j)) = ds.map F64.fin := by
    rw [hds, List.map_append, List.map_replicate, List.map_map]
    rfl
  rw [hp] at h
  obtain ⟨s, rfl, ys, hys, ht⟩ := (mpiSum_fin (by rw [hlen]; omega) hb t).1 (mpiSum_iff.2 h)
  refine ⟨s, rfl, ?_⟩
  obtain ⟨A, hA, hs⟩ := sumTree_error Dbl.rounded ht
  rw [hys.length_eq, hlen] at hA
  have hA10 : A ≤ 10 := by omega
  have e1 : (ys.map Dbl.val).sum = (x 0).val + (x 1).val + (x 2).val := by
    rw [(hys.map Dbl.val).sum_eq, hds, List.map_append, List.sum_append, List.map_replicate, Dbl.rounded.zero, List.sum_replicate,
      smul_zero, zero_add]
    simp [List.range_succ]
    ring
  have e2 : (ys.map fun x => |x.val|).sum = |(x 0).val| + |(x 1).val| + |(x 2).val| := by
    rw [(hys.map fun x : Dbl => |x.val|).sum_eq, hds, List.map_append, List.sum_append, List.map_replicate, Dbl.rounded.zero, abs_zero,
      List.sum_replicate, smul_zero, zero_add]
    simp [List.range_succ]
    ring
  rw [e1, e2] at hs
  have hpow : (1 + 1 / 2 ^ 53 : ℚ) ^ A ≤ 1 + 101 / 10 * (1 / 2 ^ 53) :=
    (pow_le_pow_right₀ (by norm_num) hA10).trans (by norm_num)
  have hAq : (A : ℚ) ≤ 10 := by exact_mod_cast hA10
  have hA0 : (0 : ℚ) ≤ A := Nat.cast_nonneg _
  have hr : ∀ j, j < 3 → |(x j).val + n| ≤ 54 / 10 * (1 / 2 ^ 53) * n := by
    intro j hj
    have := hx j hj
    unfold Rel at this
    rwa [abs_neg, abs_of_nonneg (by linarith : (0 : ℚ) ≤ n), sub_neg_eq_add] at this
  have r0 := hr 0 (by decide)
  have r1 := hr 1 (by decide)
  have r2 := hr 2 (by decide)
  have b0 := hxb 0 (by decide)
  have b1 := hxb 1 (by decide)
  have b2 := hxb 2 (by decide)
  generalize (x 0).val = y0 at *
  generalize (x 1).val = y1 at *
  generalize (x 2).val = y2 at *
  have hη : (A : ℚ) * (1 / 2 ^ 1075) ≤ 1 / 2 ^ 70 := by
    refine (mul_le_mul_of_nonneg_right hAq (by positivity)).trans (by norm_num)
  have hS0 : 0 ≤ |y0| + |y1| + |y2| := by positivity
  have k1 : (1 + 1 / 2 ^ 53 : ℚ) ^ A * (|y0| + |y1| + |y2| + A * (1 / 2 ^ 1075)) ≤
      (1 + 101 / 10 * (1 / 2 ^ 53)) * (|y0| + |y1| + |y2| + 1 / 2 ^ 70) :=
    mul_le_mul hpow (by linarith) (add_nonneg hS0 (mul_nonneg hA0 (by positivity))) (by norm_num)
  have k2 : |s.val - -(3 * n : ℚ)| ≤ |s.val - (y0 + y1 + y2)| + (|y0 + n| + |y1 + n| + |y2 + n|) := by
    have e : s.val - -(3 * n : ℚ) = (s.val - (y0 + y1 + y2)) + ((y0 + n) + (y1 + n) + (y2 + n)) := by ring
    rw [e]
    exact (abs_add_le _ _).trans (add_le_add_right (abs_add_three _ _ _) _)
  unfold Rel
  rw [abs_neg, abs_of_nonneg (by linarith : (0 : ℚ) ≤ 3 * n)]
  have k3 := hs.trans (sub_le_sub_right k1 _)
  generalize |y0| = a0 at *
  generalize |y1| = a1 at *
  generalize |y2| = a2 at *
  linarith

/-- The steps of the program with IEEE numbers: each is a step of `splitStep` without overflow, with coefficients close to the exact
ones. -/
theorem mpi_box_step {n : Nat} (hn : 0 < n) (hn2 : n ≤ 1290) {sum : List F64 → F64} (hsum : SumsUp 8 sum) (box : List Nat) :
    ∃ (c : Dbl) (w : Nat → Dbl) (w' : Nat → F64), boxStep sum (programStep (.inf false) (F64.fin ⟨rnd (1 / 10)⟩) (1 / (n : F64)))
        [1, 1, 1] [1, 1, 1] [n, n, n] box = splitStep [n, n, n] box (.fin c) w' ∧
      |c.val| ≤ 2 ∧ (∀ j, j < 3 → w' j = .fin (w j) ∧ |(w j).val| ≤ 2) ∧
      Rel (18 * (1 / 2 ^ 53)) c.val (-∑ _j ∈ range 3, ((⟨rnd (1 / 10)⟩ : Dbl) * (1 / (n : Dbl)) / 1).val * n) ∧
      ∀ j, j < 3 → Rel (65 / 10 * (1 / 2 ^ 53)) (w j).val (-(((⟨rnd (1 / 10)⟩ : Dbl) * (1 / (n : Dbl)) / 1).val * n)) := by
  have hq1 : (1 : ℚ) ≤ n := by exact_mod_cast hn
  have hq2 : (n : ℚ) ≤ 1290 := by exact_mod_cast hn2
  obtain ⟨d1, d2⟩ := driver_dt_small hn hn2
  have hex : ∀ j : Nat, ∃ x : Dbl, j < 3 → axisCoeff ([1, 1, 1] : List F64) [1, 1, 1] [n, n, n] j = .fin x ∧
      Rel (54 / 10 * (1 / 2 ^ 53)) x.val (-(n : ℚ)) ∧
      F64.fin ((⟨rnd (1 / 10)⟩ : Dbl) * (1 / (n : Dbl)) / 1) * .fin x =
        .fin ((⟨rnd (1 / 10)⟩ : Dbl) * (1 / (n : Dbl)) / 1 * x) ∧
      |((⟨rnd (1 / 10)⟩ : Dbl) * (1 / (n : Dbl)) / 1 * x).val| ≤ 2 ∧
      Rel (65 / 10 * (1 / 2 ^ 53)) ((⟨rnd (1 / 10)⟩ : Dbl) * (1 / (n : Dbl)) / 1 * x).val
        (-(((⟨rnd (1 / 10)⟩ : Dbl) * (1 / (n : Dbl)) / 1).val * n)) := by
    intro j
    by_cases hj : j < 3
    · obtain ⟨x, hx⟩ := mpi_coeffs hn hn2 hj
      exact ⟨x, fun _ => hx⟩
    · exact ⟨0, fun h => absurd h hj⟩
  choose x hx using hex
  have hdt0 : (0 : ℚ) < ((⟨rnd (1 / 10)⟩ : Dbl) * (1 / (n : Dbl)) / 1).val := (driver_dbl hn hn2).1
  rw [programStep_double hn hn2 fun x _ => inf_top x]
  generalize (⟨rnd (1 / 10)⟩ : Dbl) * (1 / (n : Dbl)) / 1 = dt at *
  obtain ⟨m, hm, hs⟩ := hsum ((List.range 3).map (axisCoeff ([1, 1, 1] : List F64) [1, 1, 1] [n, n, n])) (by simp)
  have hl : (List.range 3).map (axisCoeff ([1, 1, 1] : List F64) [1, 1, 1] [n, n, n]) = (List.range 3).map fun j => F64.fin (x j) :=
    List.map_congr_left fun j hj => (hx j (List.mem_range.1 hj)).1
  have hs' := hs
  rw [hl] at hs
  obtain ⟨s, es, rs⟩ := three_sum hn hn2 (fun j hj => (hx j hj).2.1) hm hs
  have rc : Rel (18 * (1 / 2 ^ 53)) (dt * s).val (dt.val * -(3 * n : ℚ)) := by
    refine mul_rel Dbl.rounded (p := 0) (q := 157 / 10) (le_refl _) (by norm_num) (self_rel _) rs (Or.inr ?_) (by norm_num)
      (by norm_num)
    rw [mul_neg, abs_neg, abs_of_nonneg (by positivity)]
    have : (2 : ℚ) * (1 / 2 ^ 1022) ≤ 27 / 100 := by norm_num
    linarith
  have b1 : |(dt * s).val| ≤ 2 := by
    have := rc.le_two (by norm_num)
    rw [mul_neg, abs_neg, abs_of_nonneg (show 0 ≤ dt.val * (3 * (n : ℚ)) by positivity)] at this
    linarith
  have f1 : F64.fin dt * .fin s = .fin (dt * s) := F64.fin_mul (le_max (b1.trans (by norm_num)))
  refine ⟨dt * s, fun j => dt * x j, fun j => F64.fin dt * axisCoeff ([1, 1, 1] : List F64) [1, 1, 1] [n, n, n] j, ?_, b1,
    fun j hj => ⟨?_, (hx j hj).2.2.2.1⟩, ?_, fun j hj => (hx j hj).2.2.2.2⟩
  · unfold boxStep
    show splitStep _ _ (F64.fin dt * sum ((List.range 3).map (axisCoeff ([1, 1, 1] : List F64) [1, 1, 1] [n, n, n]))) _ = _
    rw [hl, es, f1]
  · show F64.fin dt * axisCoeff ([1, 1, 1] : List F64) [1, 1, 1] [n, n, n] j = _
    rw [(hx j hj).1, (hx j hj).2.2.1]
  · refine cast ?_ rc
    congr 1
    rw [sum_const, card_range, nsmul_eq_mul]
    push_cast
    ring

/-- The field with IEEE numbers: finite, close to the exact one, with a sum of magnitudes close to 1. -/
theorem mpi_field {n : Nat} (hn : 0 < n) (hn2 : n ≤ 1290) {k : Nat} (hk : k ≤ 2 ^ 31) {sum : List F64 → F64} (hsum : SumsUp 8 sum)
    (box : List Nat) :
    ∃ w : List Nat → Dbl, (∀ g, InGrid [n, n, n] g → (boxStep sum (programStep (.inf false) (F64.fin ⟨rnd (1 / 10)⟩) (1 / (n : F64)))
        [1, 1, 1] [1, 1, 1] [n, n, n] box)^[k] cornerField g = .fin (w g)) ∧
      (∀ g, InGrid [n, n, n] g → |(w g).val| ≤ 2 ^ 500) ∧
      (∀ g, InGrid [n, n, n] g → |(w g).val - (upwindStep [n, n, n] (fun _ => -1)
        fun _ => -(((⟨rnd (1 / 10)⟩ : Dbl) * (1 / (n : Dbl)) / 1).val * (n : ℚ)))^[k] cornerField g| ≤
          grown 3 (1 / 2 ^ 53) (4 * (1 / 2 ^ 1075)) k 1 - 1) ∧
      (total [n, n, n] fun g => |(w g).val|) ≤ grown 3 (1 / 2 ^ 53 : ℚ) (4 * (1 / 2 ^ 1075) * ([n, n, n].prod : ℚ)) k 1 ∧
      |(total [n, n, n] fun g => (w g).val) - 1| ≤ grown 3 (1 / 2 ^ 53 : ℚ) (4 * (1 / 2 ^ 1075) * ([n, n, n].prod : ℚ)) k 1 - 1 := by
  obtain ⟨hpos, hcells, _, _⟩ := grid_of hn hn2
  obtain ⟨d1, d2⟩ := driver_dt_small hn hn2
  obtain ⟨c, w, w', hstep, hc2, hw2, hc, hw⟩ := mpi_box_step hn hn2 hsum box
  have ha : ∀ j : Nat, 0 ≤ (fun _ => ((⟨rnd (1 / 10)⟩ : Dbl) * (1 / (n : Dbl)) / 1).val * n) j := fun _ => by
    show 0 ≤ ((⟨rnd (1 / 10)⟩ : Dbl) * (1 / (n : Dbl)) / 1).val * n
    linarith
  have hs : ∑ _j ∈ range [n, n, n].length, ((⟨rnd (1 / 10)⟩ : Dbl) * (1 / (n : Dbl)) / 1).val * n ≤ 1 / 2 := by
    rw [sum_const, card_range, nsmul_eq_mul]
    push_cast [List.length]
    linarith
  obtain ⟨hB, hC⟩ := corner_total hpos
  have hmaxn := fun i => split_iter_error Dbl.rounded (maxNorm [n, n, n]) rfl box ha hs hc hw cornerField zero_le_one
    (fun g _ => abs_corner Dbl.rounded g) i
  obtain ⟨q1, q2⟩ := split_iter_error Dbl.rounded (sumNorm hpos) rfl box ha hs hc hw cornerField zero_le_one (le_of_eq hB) k
  have hval : (fun g : List Nat => (cornerField g : Dbl).val) = cornerField := by
    funext g; exact val_corner Dbl.rounded g
  have hz0 : (0 : ℚ) ≤ 4 * (1 / 2 ^ 1075) := by positivity
  have hz1 : (4 * (1 / 2 ^ 1075) : ℚ) ≤ 1 / 2 ^ 190 := by norm_num
  have hle : ∀ i, i ≤ k → ∀ g, InGrid [n, n, n] g → |((splitStep [n, n, n] box c w)^[i] cornerField g).val| ≤ 2 ^ 500 := by
    intro i hi g hg
    have h := (hmaxn i).1 g hg
    rw [mul_one] at h
    exact h.trans (grown_small (by omega) hz0 hz1)
  refine ⟨(splitStep [n, n, n] box c w)^[k] cornerField, ?_, hle k le_rfl, fun g hg => ?_, q1, ?_⟩
  · rw [hstep]
    exact split_iter_fin (N := [n, n, n]) rfl box hc2 hw2 (fun g _ => corner_fin g) k fun i hi => hle i hi.le
  · have h := (hmaxn k).2 g hg
    rw [mul_one, hval] at h
    exact h
  · have hex : total [n, n, n] ((upwindStep [n, n, n] (fun _ => -1)
        fun _ => -(((⟨rnd (1 / 10)⟩ : Dbl) * (1 / (n : Dbl)) / 1).val * n))^[k] (fun g => (cornerField g : Dbl).val)) = 1 := by
      rw [total_iter hpos]
      exact hC
    conv_lhs => rw [← hex]
    refine le_trans ?_ q2
    unfold total
    rw [← sum_sub_distrib]
    exact abs_sum_le_sum_abs _ _

/-- The bound on the error of the values. -/
theorem grown_error {k : Nat} (hk : k ≤ 2 ^ 31) {z : ℚ} (hz0 : 0 ≤ z) (hz1 : z ≤ 1 / 2 ^ 190) :
    grown 3 (1 / 2 ^ 53) z k 1 - 1 ≤ 22 * k / 2 ^ 52 := by
  have hkn : (k : ℚ) ≤ 2 ^ 31 := by exact_mod_cast hk
  have hk0 : (0 : ℚ) ≤ k := Nat.cast_nonneg _
  have hb : (k : ℚ) * (22 / 2 ^ 53) ≤ 1 / 2 := by
    refine (mul_le_mul_of_nonneg_right hkn (by norm_num)).trans (by norm_num)
  have h1 := (grown_double hz0 (hz1.trans (by norm_num)) k).resolve_right (by linarith)
  generalize grown 3 (1 / 2 ^ 53) z k 1 = G at *
  have e : 22 * (k : ℚ) / 2 ^ 52 = 2 * (k * (22 / 2 ^ 53)) := by ring
  rw [e]
  have hx0 : 0 ≤ (k : ℚ) * (22 / 2 ^ 53) := by positivity
  generalize (k : ℚ) * (22 / 2 ^ 53) = x at *
  nlinarith

/-- C58: with IEEE numbers, whatever the boxes and the order in which `numpy.sum` adds the three coefficients, the values that upwindMPI.py
computes are finite and within `22 steps/2^52` of those of the exact scheme, which has the time step that the program computes. -/
theorem C58_python_mpi_field_double (sum : List F64 → F64) (hsum : SumsUp 8 sum) (n : Nat) (hn : 0 < n) (hn2 : n ≤ 1290) (box : List Nat)
    (k : Nat) (hk : k ≤ 2 ^ 31) (g : List Nat) (hg : InGrid [n, n, n] g) :
    ∃ x dt : Dbl, programStep (.inf false) (F64.fin ⟨rnd (1 / 10)⟩) (1 / (n : F64)) = .fin dt ∧
      (boxStep sum (.fin dt) [1, 1, 1] [1, 1, 1] [n, n, n] box)^[k] cornerField g = .fin x ∧
      |x.val - (upwindStep [n, n, n] (upDir [(1 : ℚ), 1, 1]) (upCoeff dt.val [1, 1, 1] [1, 1, 1] [n, n, n]))^[k] cornerField g| ≤
        22 * k / 2 ^ 52 := by
  obtain ⟨w, h1, -, h3, -, -⟩ := mpi_field hn hn2 hk hsum box
  have edt := programStep_double hn hn2 (top := .inf false) fun x _ => inf_top x
  rw [edt] at h1
  refine ⟨w g, _, edt, h1 g hg, ?_⟩
  refine le_trans (le_of_eq ?_) ((h3 g hg).trans (grown_error hk (by positivity) (by norm_num)))
  have hstep : upwindStep [n, n, n] (upDir [(1 : ℚ), 1, 1])
      (upCoeff ((⟨rnd (1 / 10)⟩ : Dbl) * (1 / (n : Dbl)) / 1).val [1, 1, 1] [1, 1, 1] [n, n, n]) =
      upwindStep [n, n, n] (fun _ => -1) fun _ => -(((⟨rnd (1 / 10)⟩ : Dbl) * (1 / (n : Dbl)) / 1).val * n) := by
    funext u g
    rw [upwindStep_eq, upwindStep_eq]
    congr 1
    refine sum_congr rfl fun j hj => ?_
    have hj : j < 3 := mem_range.1 hj
    have hup : upDir [(1 : ℚ), 1, 1] j = -1 := by
      have : ∀ j < 3, upDir [(1 : ℚ), 1, 1] j = -1 := by decide +kernel
      exact this j hj
    have e1 : ([1, 1, 1] : List ℚ).getD j 0 = 1 := by
      have : ∀ j < 3, ([1, 1, 1] : List ℚ).getD j 0 = 1 := by decide +kernel
      exact this j hj
    have e2 : ([n, n, n] : List Nat).getD j 0 = n := by
      have : j = 0 ∨ j = 1 ∨ j = 2 := by omega
      rcases this with rfl | rfl | rfl <;> rfl
    rw [hup, upCoeff_eq, e1]
    unfold cellWidth
    rw [e1, e2, abs_one, mul_one, div_div_eq_mul_div, div_one]
  rw [hstep]

/-- The sum of the field, in any order and with some zeros. -/
theorem mpi_sum_double {n : Nat} (hn : 0 < n) (hn2 : n ≤ 1290) {steps : Int} (hk : steps < 2 ^ 31) {sum : List F64 → F64}
    (hsum : SumsUp 8 sum) {dc : MpiNum} {size : Nat} {box : Nat × Nat × Nat} (hdc : dc.Good size box (n, n, n)) {f : Nat → Arr3 F64}
    (hf : ∀ rk, rk < size → ∀ x y z, x < box.1 → y < box.2.1 → z < box.2.2 →
      f rk x y z = (boxStep sum (programStep (.inf false) (F64.fin ⟨rnd (1 / 10)⟩) (1 / (n : F64))) [1, 1, 1] [1, 1, 1] [n, n, n]
        [box.1, box.2.1, box.2.2])^[steps.toNat] cornerField
        [(dc.coords rk).1 * box.1 + x, (dc.coords rk).2.1 * box.2.1 + y, (dc.coords rk).2.2 * box.2.2 + z])
    {m : Nat} (hm : m ≤ 65536) {t : F64} (h : AnySum (List.replicate m 0 ++ (List.range size).flatMap fun rk =>
      (List.range box.1).flatMap fun x => (List.range box.2.1).flatMap fun y => (List.range box.2.2).map fun z => f rk x y z) t) :
    ∃ s : Dbl, t = .fin s ∧ |s.val - 1| ≤ ((n : ℚ) ^ 3 + m + 22 * steps.toNat) / 2 ^ 52 := by
  have hk' : steps.toNat ≤ 2 ^ 31 := by omega
  obtain ⟨w, h1, h2, -, q1, q3⟩ := mpi_field hn hn2 hk' hsum [box.1, box.2.1, box.2.2]
  have h3 : n ^ 3 ≤ 1290 ^ 3 := Nat.pow_le_pow_left hn2 3
  refine field_sum_double hn hn2 hk' (by positivity) (by norm_num) h1 h2 q1 q3 (box_values_perm hdc hf) ?_ h
  have : (1290 : Nat) ^ 3 + 65536 ≤ 2 ^ 31 := by norm_num
  omega

/-- Adding to 0 from the left. -/
theorem anySum_foldl {R : Type} [Zero R] [Add R] (l : List R) : AnySum (List.replicate 1 0 ++ l) (l.foldl (· + ·) 0) := by
  have key : ∀ (l ys : List R) (y : R), AnySum ys y → AnySum (ys ++ l) (l.foldl (· + ·) y) := by
    intro l
    induction l with
    | nil => intro ys y h; rwa [List.append_nil]
    | cons x l ih =>
      intro ys y h
      have := ih (ys ++ [x]) (y + x) (.add h (.one x))
      rwa [List.append_assoc] at this
  exact key l [0] 0 (.one 0)

section
variable [DoubleText F64]

/-- C58: with IEEE numbers upwindMPI.py ends on all processes with status 0 and prints a check sum within `(cells + 22 steps + 1)/2^52`
of 1, whatever the number of processes and the order in which `numpy.sum` adds the three coefficients. So is every sum of the values of
all processes in any other order and with any bracketing. -/
theorem C58_python_mpi_main_double (decomp : Nat → Nat → Option (MpiNum × (Nat × Nat × Nat))) (readInt : Str → Option Int)
    (time : Str) (sum : List F64 → F64) (hsum : SumsUp 8 sum) (size : Nat) (prog : Str) (args : List Str) (n : Nat) (steps : Int)
    (vtk : Bool) (h : Asks (fun a z => readInt a = some z) 100 args n steps vtk) (hn : 0 < n) (hn2 : n ≤ 1290) (hk : steps < 2 ^ 31)
    (dc : MpiNum) (box : Nat × Nat × Nat) (hd : decomp size n = some (dc, box)) (hdc : dc.Good size box (n, n, n))
    (hw : ∀ x : F64, IsWord (DoubleText.showDouble x)) :
    ∃ (f : Nat → Arr3 F64) (s : Dbl) (file : Str),
      (∀ rk, rk < size → ∀ x y z, x < box.1 → y < box.2.1 → z < box.2.2 →
        f rk x y z = (boxStep sum (programStep (.inf false) (F64.fin ⟨rnd (1 / 10)⟩) (1 / (n : F64))) [1, 1, 1] [1, 1, 1] [n, n, n]
            [box.1, box.2.1, box.2.2])^[steps.toNat] cornerField
          [(dc.coords rk).1 * box.1 + x, (dc.coords rk).2.1 * box.2.1 + y, (dc.coords rk).2.2 * box.2.2 + z]) ∧
      PyMpi.main decomp readInt time (F64.fin ⟨rnd (1 / 10)⟩) (.inf false) sum size (prog :: args) =
        .ok ⟨(List.range size).map fun rk =>
          if rk = 0 then {
            out := localText 0 box ++ mpiText n time ++ sumLine (DoubleText.showDouble (F64.fin s)), err := []
            files := if vtk then [("upMPI.vtk".toList, file)] else [], status := 0 }
          else { out := localText rk box, err := [], files := [], status := 0 }⟩ ∧
      |s.val - 1| ≤ ((n : ℚ) ^ 3 + 22 * steps.toNat + 1) / 2 ^ 52 ∧
      ∀ m t, m ≤ 65536 → AnySum (List.replicate m 0 ++ (List.range size).flatMap fun rk => (List.range box.1).flatMap fun x =>
        (List.range box.2.1).flatMap fun y => (List.range box.2.2).map fun z => f rk x y z) t →
        ∃ s : Dbl, t = .fin s ∧ |s.val - 1| ≤ ((n : ℚ) ^ 3 + m + 22 * steps.toNat) / 2 ^ 52 := by
  obtain ⟨f, s, text, grid, hf, hs, -, -, -, -, -, hmain⟩ := C62_run_partial decomp readInt time (F64.fin ⟨rnd (1 / 10)⟩) (.inf false) sum
    size prog args n steps vtk h hn dc box hd hdc F64.cast_nat_int (by decide +kernel) hw
  obtain ⟨s', e, hb⟩ := mpi_sum_double hn hn2 hk hsum hdc hf (m := 1) (by decide) (anySum_foldl _)
  rw [← hs] at e
  rw [e] at hmain
  refine ⟨f, s', text, hf, hmain, hb.trans (le_of_eq ?_), fun m t hm ht => mpi_sum_double hn hn2 hk hsum hdc hf hm ht⟩
  push_cast
  ring

/-- C79: with IEEE numbers the test upwindPythonMpi passes on one process, and on any number of processes if the line with the check sum
comes out in one piece, for `cells + 22 steps` up to 2.25e9, provided numbers within 5e-7 of 1 are printed with a 0 or 1 in
front. -/
theorem C79_python_mpi_passes_double (decomp : Nat → Nat → Option (MpiNum × (Nat × Nat × Nat))) (readInt : Str → Option Int)
    (time : Str) (sum : List F64 → F64) (hsum : SumsUp 8 sum) (size : Nat) (hsize : 0 < size) (prog a b : Str) (n : Nat) (steps : Int)
    (ha : readInt a = some (n : Int)) (hb : readInt b = some steps) (hn : 0 < n) (hn2 : n ≤ 1290) (hk : steps < 2 ^ 31)
    (hsmall : n ^ 3 + 1 + 22 * steps.toNat ≤ 2251799813) (dc : MpiNum) (box : Nat × Nat × Nat) (hd : decomp size n = some (dc, box))
    (hdc : dc.Good size box (n, n, n)) (hw : ∀ x : F64, IsWord (DoubleText.showDouble x))
    (hh : ∀ x : F64, 'h' ∉ DoubleText.showDouble x) (ht : 'h' ∉ time)
    (hone : ∀ s : Dbl, |s.val - 1| ≤ 5 / 10 ^ 7 → ['0'] <+: DoubleText.showDouble (F64.fin s) ∨
      ['1'] <+: DoubleText.showDouble (F64.fin s)) :
    ∃ (e : MpiExit) (s : Dbl), PyMpi.main decomp readInt time (F64.fin ⟨rnd (1 / 10)⟩) (.inf false) sum size (prog :: upwindArgs a b) =
        .ok e ∧
      (∀ text status, Merge (e.ranks.flatMap fun r => [r.out, r.err]) text → sumLine (DoubleText.showDouble (F64.fin s)) <:+: text →
        scriptTest.passes text status = true) ∧
      (size = 1 → ∀ v, MpiVerdict scriptTest e v ↔ v = true) := by
  obtain ⟨e, f, s, hf, hs, hmain, hv, hv1⟩ := C79_python_mpi_verdict decomp readInt time (F64.fin ⟨rnd (1 / 10)⟩) (.inf false) sum
    size hsize prog a b n steps ha hb hn dc box hd hdc F64.cast_nat_int (by decide +kernel) hw hh ht
  obtain ⟨s', es, hbd⟩ := mpi_sum_double hn hn2 hk hsum hdc hf (m := 1) (by decide) (anySum_foldl _)
  rw [← hs] at es
  subst es
  have hacc : ∃ c ∈ accepted, [c] <+: DoubleText.showDouble (F64.fin s') := by
    rcases hone s' (near_one_of hsmall hbd) with h | h
    · exact ⟨'0', by decide, h⟩
    · exact ⟨'1', by decide, h⟩
  exact ⟨e, s', hmain, fun text status hm hl => (hv text status hm hl).2 hacc, fun h1 v =>
    (hv1 h1 v).trans ⟨fun h => h.2 hacc, fun h => ⟨fun _ => hacc, fun _ => h⟩⟩⟩

end

/-! ### Non-vacuity -/

theorem text_no_h (x : F64) : 'h' ∉ x.text := by
  have hp : ∀ c, plainChar c = true → c ≠ 'h' := by
    intro c h
    unfold plainChar at h
    simp only [Bool.or_eq_true, beq_iff_eq] at h
    rcases h with (((h | rfl) | rfl) | rfl) | rfl
    · rintro rfl
      exact absurd h (by decide)
    all_goals decide
  have hpos : ∀ q : ℚ, 0 < q → 'h' ∉ showPos q := by
    intro q hq hc
    obtain ⟨_, _, _, _, _, _, _, h1, h2⟩ := showPos_spec hq
    exact hp 'h' (h1 _ hc) rfl
  cases x with
  | fin x =>
    show 'h' ∉ showG x.val
    unfold showG
    split
    · decide
    · rename_i h0
      split
      · rename_i h; exact hpos _ h
      · rename_i h
        intro hc
        rcases List.mem_cons.1 hc with hc | hc
        · exact absurd hc (by decide)
        · exact hpos (-x.val) (by
            rcases lt_trichotomy x.val 0 with g | g | g
            · linarith
            · exact absurd g h0
            · exact absurd g h) hc
  | inf b => cases b <;> decide
  | nan => decide

/-- A cell on the side of a box. -/
example : ∃ x dt : Dbl, programStep (.inf false) (F64.fin ⟨rnd (1 / 10)⟩) (1 / ((6 : Nat) : F64)) = .fin dt ∧
    (boxStep (fun l => l.foldl (· + ·) 0) (F64.fin dt) [1, 1, 1] [1, 1, 1] [6, 6, 6] [3, 2, 6])^[4] cornerField [3, 1, 2] = .fin x ∧
    |x.val - (upwindStep [6, 6, 6] (upDir [(1 : ℚ), 1, 1]) (upCoeff dt.val [1, 1, 1] [1, 1, 1] [6, 6, 6]))^[4] cornerField [3, 1, 2]| ≤
      22 * (4 : Nat) / 2 ^ 52 :=
  C58_python_mpi_field_double _ (fun l hl => by
      obtain ⟨z, hz, h⟩ := sumsUp_fold.1 l hl
      exact ⟨z, by omega, h⟩) 6 (by decide) (by decide) _ 4 (by decide) _ ⟨by decide, by decide, by decide, trivial⟩

/-- Six processes: the check sum of the program, and the verdict on one process, with the texts of `F64.text`. -/
example (atof : Str → F64) :
    letI := F64.textWith atof
    (∃ (e : MpiExit) (s : Dbl), PyMpi.main (fun _ _ => some (rowMajor 2 3 1, (6, 4, 12))) readSample "0.125".toList
        (F64.fin ⟨rnd (1 / 10)⟩) (.inf false) (fun l => l.foldl (· + ·) 0) 6 ("upwindMPI.py".toList :: upwindArgs "12".toList "7".toList) =
        .ok e ∧ |s.val - 1| ≤ ((12 : Nat) ^ 3 + 22 * (7 : Int).toNat + 1) / 2 ^ 52) ∧
    ∃ e, PyMpi.main (fun _ _ => some (rowMajor 1 1 1, (12, 12, 12))) readSample "0.125".toList (F64.fin ⟨rnd (1 / 10)⟩) (.inf false)
        (fun l => l.foldl (· + ·) 0) 1 ("upwindMPI.py".toList :: upwindArgs "12".toList "7".toList) = .ok e ∧
      ∀ v, MpiVerdict scriptTest e v ↔ v = true := by
  let _ := F64.textWith atof
  have hsum : SumsUp 8 (fun l : List F64 => l.foldl (· + ·) 0) := fun l hl => by
    obtain ⟨z, hz, h⟩ := sumsUp_fold.1 l hl
    exact ⟨z, by omega, h⟩
  have hone : ∀ s : Dbl, |s.val - 1| ≤ 5 / 10 ^ 7 → ['0'] <+: DoubleText.showDouble (F64.fin s) ∨
      ['1'] <+: DoubleText.showDouble (F64.fin s) := fun s hs => .inr (by
    have : (F64.fin s).text = "1".toList := by
      rw [C80_one_iff]
      rw [abs_le] at hs
      constructor <;> linarith [hs.1, hs.2]
    rw [show DoubleText.showDouble (F64.fin s) = (F64.fin s).text from rfl, this]
    exact ⟨[], rfl⟩)
  constructor
  · obtain ⟨f, s, file, -, hm, hb, -⟩ := C58_python_mpi_main_double (fun _ _ => some (rowMajor 2 3 1, (6, 4, 12))) readSample
      "0.125".toList _ hsum 6 "upwindMPI.py".toList (upwindArgs "12".toList "7".toList) 12 7 false
      (C78_other_sizes_partial _ 100 _ _ 12 7 (by decide) (by decide)) (by decide) (by decide) (by decide) (rowMajor 2 3 1) (6, 4, 12) rfl
      (rowMajor_good 2 3 1 (6, 4, 12) (by decide) (by decide) (by decide)) (words_of fun _ => rfl).1
    exact ⟨_, s, hm, hb⟩
  · obtain ⟨e, s, hm, -, hv⟩ := C79_python_mpi_passes_double (fun _ _ => some (rowMajor 1 1 1, (12, 12, 12))) readSample "0.125".toList
      _ hsum 1 (by decide) "upwindMPI.py".toList "12".toList "7".toList 12 7 (by decide) (by decide) (by decide) (by decide) (by decide)
      (by decide) (rowMajor 1 1 1) (12, 12, 12) rfl (rowMajor_good 1 1 1 (12, 12, 12) (by decide) (by decide) (by decide))
      (words_of fun _ => rfl).1 (fun x => text_no_h x) (by decide) hone
    exact ⟨e, hm, hv rfl⟩

end Fidi
