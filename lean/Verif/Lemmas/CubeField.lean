import Verif.Spec.CubeField
import Verif.Lemmas.UpwindFieldDouble
import Verif.Props.MpiPyDouble

/-
The fields of the programs named upwind with IEEE numbers and the exact field.
-/
set_option linter.unusedSectionVars false
set_option exponentiation.threshold 1100

namespace Fidi
open Spec Upwind Finset

/-- The Courant number along an axis that the programs get in `double`. -/
theorem driver_dt_near {n : Nat} (hn : 0 < n) (hn2 : n ≤ 1290) :
    3 * |((⟨rnd (1 / 10)⟩ : Dbl) * (1 / (n : Dbl)) / 1).val * n - 1 / 10| ≤ 1 / 2 ^ 52 := by
  have hmax : (1 : ℚ) ≤ (HasMax.dblMax : Dbl).val := by decide +kernel
  have hcr := (rnd_roundsTo (1 / 10)).2 (Or.inr (by
      rw [abs_of_pos (by norm_num)]
      exact (tiny_le 1022 (by norm_num)).trans (by norm_num)))
  have hq1 : (1 : ℚ) ≤ n := by exact_mod_cast hn
  have hq2 : (n : ℚ) ≤ 1290 := by exact_mod_cast hn2
  have hn0 : (n : ℚ) ≠ 0 := by linarith
  obtain ⟨-, hrel⟩ := mainDt_rounded Dbl.rounded hmax ⟨rnd (1 / 10)⟩ hcr hn (by
    have h1 := tiny_le 1022 (by norm_num)
    have h0 : (0 : ℚ) ≤ 1 / 2 ^ 1022 := by positivity
    generalize (1 : ℚ) / 2 ^ 1022 = t at h1 h0 ⊢
    have h2 : t * n ≤ 1 / 2 ^ 200 * 1290 := mul_le_mul h1 hq2 (by linarith) (by norm_num)
    have h3 : 100 * ((1 : ℚ) / 2 ^ 200 * 1290) ≤ 1 := by norm_num
    linarith)
  generalize (⟨rnd (1 / 10)⟩ : Dbl) * (1 / (n : Dbl)) / 1 = dt at hrel ⊢
  unfold Rel at hrel
  rw [abs_of_pos (by positivity : (0 : ℚ) < 1 / 10 / n)] at hrel
  have h2 := mul_le_mul_of_nonneg_right hrel (by linarith : (0 : ℚ) ≤ n)
  rw [mul_assoc, div_mul_cancel₀ _ hn0] at h2
  have e : dt.val * n - 1 / 10 = (dt.val - 1 / 10 / n) * n := by
    rw [sub_mul, div_mul_cancel₀ _ hn0]
  rw [e, abs_mul, abs_of_nonneg (by linarith : (0 : ℚ) ≤ n)]
  norm_num at h2 ⊢
  linarith

/-- One step with unit velocity on the unit cube. -/
theorem unit_step (n : Nat) (dt : ℚ) : upwindStep [n, n, n] (upDir [(1 : ℚ), 1, 1]) (upCoeff dt [1, 1, 1] [1, 1, 1] [n, n, n]) =
    upwindStep [n, n, n] (fun _ => -1) fun _ => -(dt * n) := by
  funext u g
  rw [upwindStep_eq, upwindStep_eq]
  congr 1
  refine sum_congr rfl fun j hj => ?_
  have hj : j < 3 := mem_range.1 hj
  have hup : upDir [(1 : ℚ), 1, 1] j = -1 := by
    have : ∀ j < 3, upDir [(1 : ℚ), 1, 1] j = -1 := by decide +kernel
    exact this j hj
  have e1 : ([1, 1, 1] : List ℚ).getD j 0 = 1 := by
    have : ∀ j < 3, ([1, 1, 1] : List ℚ).getD j 0 = 1 := by decide +kernel
    exact this j hj
  have e2 : ([n, n, n] : List Nat).getD j 0 = n := by
    have : j = 0 ∨ j = 1 ∨ j = 2 := by omega
    rcases this with rfl | rfl | rfl <;> rfl
  rw [hup, upCoeff_eq, e1]
  unfold cellWidth
  rw [e1, e2, abs_one, mul_one, div_div_eq_mul_div, div_one]

theorem corner_between (g : List Nat) : 0 ≤ (cornerField g : ℚ) ∧ (cornerField g : ℚ) ≤ 1 := by
  unfold cornerField
  split
  · exact ⟨zero_le_one, le_refl _⟩
  · exact ⟨le_refl _, zero_le_one⟩

/-- The values of the exact field. -/
theorem cubeField_between (n k : Nat) {g : List Nat} (hg : InGrid [n, n, n] g) : 0 ≤ cubeField n k g ∧ cubeField n k g ≤ 1 :=
  iter_between (N := [n, n, n]) (fun _ => -1) (w := fun _ => (1 / 10 : ℚ)) (fun _ _ => by norm_num) (by norm_num)
    (fun g _ => corner_between g) k g hg

/-- The time step of the programs instead of the exact one. -/
theorem cubeField_near {n : Nat} (hn : 0 < n) (hn2 : n ≤ 1290) (k : Nat) {g : List Nat} (hg : InGrid [n, n, n] g) :
    |(upwindStep [n, n, n] (fun _ => -1) fun _ => -(((⟨rnd (1 / 10)⟩ : Dbl) * (1 / (n : Dbl)) / 1).val * n))^[k] cornerField g -
      cubeField n k g| ≤ k / 2 ^ 52 := by
  obtain ⟨d1, d2⟩ := driver_dt_small hn hn2
  have d3 := driver_dt_near hn hn2
  generalize ((⟨rnd (1 / 10)⟩ : Dbl) * (1 / (n : Dbl)) / 1).val * (n : ℚ) = c at d1 d2 d3 ⊢
  have h := iter_weights (N := [n, n, n]) (fun _ => -1) (w := fun _ => c) (w' := fun _ => (1 / 10 : ℚ))
    (fun _ _ => by linarith) (by rw [sum_const, card_range, nsmul_eq_mul]; push_cast [List.length]; linarith)
    (fun _ _ => by norm_num) (by norm_num) (fun g _ => corner_between g) k g hg
  rw [sum_const, card_range, nsmul_eq_mul] at h
  push_cast [List.length] at h
  refine h.trans ?_
  have h3 := mul_le_mul_of_nonneg_left d3 (Nat.cast_nonneg k : (0 : ℚ) ≤ k)
  norm_num at h3 ⊢
  linarith

/-- The field of a program in `double` with any way to compute the change along an axis. -/
theorem program_field_near {n : Nat} (hn : 0 < n) (hn2 : n ≤ 1290) {k : Nat} (hk : k ≤ 2 ^ 31) {z : ℚ} (hz : 0 ≤ z)
    (hz1 : z + 1 / 2 ^ 1075 ≤ 1 / 2 ^ 190) {chg : Nat → Dbl → Dbl → Dbl} {chg' : Nat → F64 → F64 → F64}
    (hok : ChangeOk Dbl.val (1 / 2 ^ 53) z (upCoeff ((⟨rnd (1 / 10)⟩ : Dbl) * (1 / (n : Dbl)) / 1).val
      (([1, 1, 1] : List Dbl).map Dbl.val) (([1, 1, 1] : List Dbl).map Dbl.val) [n, n, n]) 3 chg) (hfin : ChangeFin 3 chg chg')
    {g : List Nat} (hg : InGrid [n, n, n] g) :
    ∃ x : Dbl, (schemeStep [n, n, n] (upDir [(1 : F64), 1, 1]) chg')^[k] cornerField g = .fin x ∧
      |x.val - cubeField n k g| ≤ 23 * k / 2 ^ 52 := by
  obtain ⟨hdt, hfit, _⟩ := driver_dbl hn hn2
  have hz0 : (0 : ℚ) ≤ z + 1 / 2 ^ 1075 := by positivity
  have hgrown := grown_small hk hz0 hz1
  have h1 := iter_fin (N := [n, n, n]) hdt.le hfit.pos hfit.courant hz hok hfin (fun g _ => corner_fin g) zero_le_one
    (fun g _ => abs_corner Dbl.rounded g) k hgrown
  have h2 := (scheme_error Dbl.rounded (maxNorm [n, n, n]) hdt.le hfit.pos hfit.courant hz hok cornerField zero_le_one
    (fun g _ => abs_corner Dbl.rounded g) k).2 g hg
  have hval : (fun g : List Nat => (cornerField g : Dbl).val) = cornerField := by
    funext g; exact val_corner Dbl.rounded g
  have hones : ([1, 1, 1] : List Dbl).map Dbl.val = [1, 1, 1] := by
    simp only [List.map_cons, List.map_nil, Dbl.rounded.one]
  rw [mul_one, hval, hones, unit_step] at h2
  refine ⟨_, by
    rw [show upDir [(1 : F64), 1, 1] = upDir [(1 : Dbl), 1, 1] from upDir_fin (v := [(1 : Dbl), 1, 1])]
    exact h1 g hg, ?_⟩
  have h3 := cubeField_near hn hn2 k hg
  refine (abs_sub_le _ _ _).trans ((add_le_add (h2.trans (grown_error hk hz0 hz1)) h3).trans (le_of_eq ?_))
  ring

/-- The time step of the versions for accelerators. -/
theorem acc_step {n : Nat} (hn : 0 < n) (hn2 : n ≤ 1290) :
    driverStep HasMax.dblMax (F64.fin ⟨rnd (1 / 10)⟩) (1 / ((n : Int) : F64)) =
      .fin ((⟨rnd (1 / 10)⟩ : Dbl) * (1 / (n : Dbl)) / 1) := by
  have eF := driver_dt_fin hn hn2
  rw [F64.cast_nat_int]
  have := mainDt_equal (F64.fin ⟨rnd (1 / 10)⟩) n (by
    rw [eF.1]
    exact lt_of_le_of_lt (le_abs_self _) eF.2) (by
    rw [eF.1]
    exact lt_irrefl (_ : ℚ))
  rw [← eF.1]
  exact Except.ok.inj this

/-- The change along an axis of the versions for accelerators stays finite. -/
theorem acc_change_fin {n : Nat} (hn : 0 < n) (hn2 : n ≤ 1290) :
    ChangeFin 3 (fun j a b => ((⟨rnd (1 / 10)⟩ : Dbl) * (1 / (n : Dbl)) / 1) * (([1, 1, 1] : List Dbl).getD j 0 *
        ((upDir [(1 : Dbl), 1, 1] j : Int) : Dbl) / (([1, 1, 1] : List Dbl).getD j 0 / (([n, n, n].getD j 0 : Int) : Dbl))) * (a - b))
      fun _ a b => F64.fin ((⟨rnd (1 / 10)⟩ : Dbl) * (1 / (n : Dbl)) / 1) *
        (1 * ((upDir [(1 : F64)] 0 : Int) : F64) / (1 / ((n : Int) : F64))) * (a - b) := by
  obtain ⟨hdt, hfit, hr⟩ := driver_dbl hn hn2
  have e2 : ∀ j < 3, ([n, n, n] : List Nat).getD j 0 = n := by
    intro j hj
    have : j = 0 ∨ j = 1 ∨ j = 2 := by omega
    rcases this with rfl | rfl | rfl <;> rfl
  generalize (⟨rnd (1 / 10)⟩ : Dbl) * (1 / (n : Dbl)) / 1 = dt at *
  intro j hj x y hx hy
  obtain ⟨e, h⟩ := hfit.rate_fin hj (hr j hj)
  have e1 : (1 : F64) / ((n : Int) : F64) = .fin (cellWidth [1, 1, 1] [n, n, n] j) := by
    rw [← hfit.width_fin hj, F64.cast_nat_int]
    unfold cellWidth
    rw [e2 j hj]
    have : ∀ j < 3, (([1, 1, 1] : List Dbl).map F64.fin).getD j 0 = 1 := by decide +kernel
    rw [this j hj]
  have e3 : ([1, 1, 1] : List Dbl).getD j 0 / (([n, n, n].getD j 0 : Int) : Dbl) = cellWidth [1, 1, 1] [n, n, n] j := by
    rw [Dbl.cast_nat_int]
    rfl
  have e4 : ([1, 1, 1] : List Dbl).getD j 0 = 1 := by
    have : ∀ j < 3, ([1, 1, 1] : List Dbl).getD j 0 = 1 := by decide +kernel
    exact this j hj
  have e5 : upDir [(1 : F64)] 0 = upDir [(1 : Dbl), 1, 1] j := by
    have : ∀ j < 3, upDir [(1 : F64)] 0 = upDir [(1 : Dbl), 1, 1] j := by decide +kernel
    exact this j hj
  simp only []
  rw [e3, e1, e5, diff_fin hx hy, ← prod_fin h (diff_le hx hy) (by norm_num) (by norm_num), ← e, e4]
  rfl

/-- The exact program. -/
theorem exact_run {n : Nat} (hn : 0 < n) (hn2 : n ≤ 1290) (k : Int) :
    ∃ s : Upwind ℚ, Upwind.mainRun (0.1 : ℚ) n k = .ok s ∧ Stores [n, n, n] s.f (cubeField n k.toNat) := by
  have hp : ∀ m ∈ List.replicate 3 n, 0 < m := by intro m hm; rw [(List.mem_replicate.1 hm).2]; exact hn
  have hcells : (List.replicate 3 n).prod < 2 ^ 31 := by
    have : n * (n * n) ≤ 1290 * (1290 * 1290) := Nat.mul_le_mul hn2 (Nat.mul_le_mul hn2 hn2)
    simp only [List.prod_replicate]
    have e : n ^ 3 = n * (n * n) := by ring
    rw [e]; omega
  have haxis : ∀ m ∈ List.replicate 3 n, m < 2 ^ 30 := by
    intro m hm; rw [(List.mem_replicate.1 hm).2]; omega
  have hg : GoodGrid (List.replicate 3 n) := ⟨hp, hcells, haxis⟩
  have hnewQ := new_built (N := List.replicate 3 n) (v := List.replicate 3 (1 : ℚ)) (L := List.replicate 3 (1 : ℚ)) (by simp)
    (by simp) hg (by simp) (by simp)
  obtain ⟨_, _, e2⟩ := advect_spec (by simp) (by simp) hg (by simp) (by simp) hnewQ
    (built_stores (v := List.replicate 3 (1 : ℚ)) (L := List.replicate 3 1) hg) k (1 / 10 / (n : ℚ))
  have hQ : Upwind.mainRun (0.1 : ℚ) n k =
      (built (List.replicate 3 (1 : ℚ)) (List.replicate 3 1) (List.replicate 3 n)).advect k (1 / 10 / (n : ℚ)) := by
    unfold Upwind.mainRun
    rw [szOfInt_ofNat (by unfold W; omega)]
    simp only [List.length_replicate]
    rw [_root_.Fidi.mainDt_eq hn]
    simp only [M.ok_bind]
    rw [List.length_replicate] at hnewQ
    rw [hnewQ]
    rfl
  refine ⟨_, hQ.trans e2, ?_⟩
  have hn0 : (n : ℚ) ≠ 0 := by exact_mod_cast hn.ne'
  have e : cubeField n k.toNat = (upwindStep (List.replicate 3 n) (upDir (List.replicate 3 (1 : ℚ)))
      (upCoeff (1 / 10 / (n : ℚ)) (List.replicate 3 1) (List.replicate 3 1) (List.replicate 3 n)))^[k.toNat] cornerField := by
    have h := unit_step n (1 / 10 / (n : ℚ))
    rw [div_mul_cancel₀ _ hn0] at h
    unfold cubeField
    rw [← h]
    rfl
  rw [e]
  exact Stores.listOf hp _

end Fidi
