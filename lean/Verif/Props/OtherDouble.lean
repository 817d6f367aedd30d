import Verif.Props.AccDouble
import Verif.Lemmas.GridSum
import Verif.Spec.AnyOrder
import Verif.Props.MainsOther
import Verif.Lemmas.IeeeFilter

/-
Properties C58 and C79 for the Fortran, Python and Julia programs with IEEE numbers.
-/
set_option linter.unusedSectionVars false
set_option exponentiation.threshold 1100

namespace Fidi
open Spec Upwind Finset CTest

/-- The bounds of C58 with the rounding of `double` and any number of additions. -/
theorem sum_bound_double {A M k : Nat} (hA : A ≤ 2 ^ 32) (hM : M ≤ 2 ^ 31) (hk : k ≤ 2 ^ 31) {z : ℚ} (hz : 0 ≤ z)
    (hz1 : z ≤ 1 / 2 ^ 190) :
    (1 + 1 / 2 ^ 53 : ℚ) ^ A * (grown 3 (1 / 2 ^ 53 : ℚ) (z * M) k 1 + A * (1 / 2 ^ 1075)) - 1 ≤ (A + 22 * k + 1) / 2 ^ 52 := by
  have hη := tiny_le 1075 (by norm_num)
  have hη0 : (0 : ℚ) ≤ 1 / 2 ^ 1075 := by positivity
  generalize (1 : ℚ) / 2 ^ 1075 = η at *
  have hkn : (k : ℚ) ≤ 2 ^ 31 := by exact_mod_cast hk
  have hk0 : (0 : ℚ) ≤ (k : ℚ) := Nat.cast_nonneg _
  have hMq : (M : ℚ) ≤ 2 ^ 31 := by exact_mod_cast hM
  have hM0 : (0 : ℚ) ≤ M := Nat.cast_nonneg _
  have hAq : (A : ℚ) ≤ 2 ^ 32 := by exact_mod_cast hA
  have hA0 : (0 : ℚ) ≤ A := Nat.cast_nonneg _
  have hsmall : ¬ (1 : ℚ) < k * (22 / 2 ^ 53) := by
    rw [not_lt]
    refine (mul_le_mul_of_nonneg_right hkn (by norm_num)).trans (by norm_num)
  have hAη : (A : ℚ) * η ≤ 1 / 2 ^ 168 := by
    refine (mul_le_mul hAq hη hη0 (by positivity)).trans ?_
    norm_num
  have hAη0 : 0 ≤ (A : ℚ) * η := mul_nonneg hA0 hη0
  have g2 := (grown_double (η := z * M) (mul_nonneg hz hM0) ((mul_le_mul hz1 hMq hM0 (by positivity)).trans (by norm_num))
    k).resolve_right hsmall
  have hG : (1 : ℚ) ≤ grown 3 (1 / 2 ^ 53) (z * M) k 1 := by
    unfold grown
    have b1 : (1 : ℚ) ≤ (1 + stepError 3 (1 / 2 ^ 53 : ℚ)) ^ k :=
      one_le_pow₀ (by linarith [stepError_nonneg (r := (1 / 2 ^ 53 : ℚ)) (by positivity) 3])
    have b2 : 0 ≤ (k : ℚ) * stepUnderflow 3 (1 / 2 ^ 53) (z * M) :=
      mul_nonneg hk0 (stepUnderflow_nonneg (by positivity) (mul_nonneg hz hM0) 3)
    nlinarith
  have hb0 : (0 : ℚ) ≤ k * (22 / 2 ^ 53) := mul_nonneg hk0 (by norm_num)
  have hb1 : (k : ℚ) * (22 / 2 ^ 53) ≤ 1 / 2 ^ 15 := by
    refine (mul_le_mul_of_nonneg_right hkn (by norm_num)).trans (by norm_num)
  have p1 := pow_mul_le_one (x := 1 / 2 ^ 53) (by positivity) (by norm_num) (le_refl ((A : ℚ) * (1 / 2 ^ 53)))
  have hAr : (A : ℚ) * (1 / 2 ^ 53) ≤ 1 / 2 ^ 21 := by
    refine (mul_le_mul_of_nonneg_right hAq (by norm_num)).trans (by norm_num)
  have hAr0 : (0 : ℚ) ≤ A * (1 / 2 ^ 53) := mul_nonneg hA0 (by norm_num)
  set G := grown 3 (1 / 2 ^ 53) (z * M) k 1
  have hX : (0 : ℚ) ≤ (1 + 1 / 2 ^ 53) ^ A := by positivity
  have p2 := combine (by linarith) hAr0 hb0 (by linarith [(by norm_num : (1 : ℚ) / 2 ^ 15 ≤ 1)]) hX p1 g2
  have p3 := combine (X := (1 + 1 / 2 ^ 53) ^ A * G) (Y := 1 + A * η) (b := A * η) (by linarith)
    (by linarith) hAη0 (hAη.trans (by norm_num)) (mul_nonneg hX (by linarith)) p2 one_add_mul_sub
  have p4 := le_of_combined p3 (by linarith) (by
    have : (1 : ℚ) / 2 ^ 21 + 1 / 2 ^ 15 + 1 / 2 ^ 168 ≤ 1 / 2 := by norm_num
    linarith)
  have p5 : (1 + 1 / 2 ^ 53) ^ A * (G + A * η) ≤ (1 + 1 / 2 ^ 53) ^ A * G * (1 + A * η) := by
    rw [mul_assoc]
    apply mul_le_mul_of_nonneg_left _ hX
    nlinarith
  have p6 : ((A : ℚ) + 22 * k + 1) / 2 ^ 52 = 2 * (A * (1 / 2 ^ 53) + k * (22 / 2 ^ 53) + 1 / 2 ^ 53) := by ring
  rw [p6]
  have p7 : (1 : ℚ) / 2 ^ 168 ≤ 1 / 2 ^ 53 := by norm_num
  linarith

/-- The sum of a field in `double`, added in any order and with some zeros, if the exact sums of its values and of their magnitudes are as
close to 1 as after `k` steps. -/
theorem field_sum_double {n : Nat} (hn : 0 < n) (hn2 : n ≤ 1290) {k : Nat} (hk : k ≤ 2 ^ 31) {z : ℚ} (hz : 0 ≤ z)
    (hz1 : z ≤ 1 / 2 ^ 190) {w : List Nat → Dbl} {w' : List Nat → F64} (h1 : ∀ g, InGrid [n, n, n] g → w' g = .fin (w g))
    (hmax : ∀ g, InGrid [n, n, n] g → |(w g).val| ≤ 2 ^ 500)
    (q1 : (total [n, n, n] fun g => |(w g).val|) ≤ grown 3 (1 / 2 ^ 53) (z * [n, n, n].prod) k 1)
    (q3 : |(total [n, n, n] fun g => (w g).val) - 1| ≤ grown 3 (1 / 2 ^ 53) (z * [n, n, n].prod) k 1 - 1)
    {l : List F64} (hl : l.Perm (listOf [n, n, n] w')) {m : Nat} (hm : n ^ 3 + m ≤ 2 ^ 31) {t : F64}
    (h : AnySum (List.replicate m 0 ++ l) t) :
    ∃ s : Dbl, t = .fin s ∧ |s.val - 1| ≤ ((n : ℚ) ^ 3 + m + 22 * k) / 2 ^ 52 := by
  obtain ⟨hpos, hcells, _, _⟩ := grid_of hn hn2
  have e3 : [n, n, n].prod = n ^ 3 := by simp; ring
  have h2 := listOf_fin hpos h1
  rw [h2] at hl
  set ds := List.replicate m (0 : Dbl) ++ listOf [n, n, n] w with hds
  have hlen : ds.length = m + n ^ 3 := by rw [hds, List.length_append, List.length_replicate, length_listOf, e3]
  have hp : (List.replicate m (0 : F64) ++ l).Perm (ds.map F64.fin) := by
    rw [hds, List.map_append, List.map_replicate]
    exact hl.append_left _
  have hb : ∀ x ∈ ds, |x.val| ≤ 2 ^ 940 := by
    intro x hx
    rcases List.mem_append.1 hx with hx | hx
    · rw [(List.mem_replicate.1 hx).2, Dbl.rounded.zero, abs_zero]; positivity
    · unfold listOf at hx
      obtain ⟨i, _, rfl⟩ := List.mem_map.1 hx
      exact (hmax _ (cellAt_inGrid hpos i)).trans (by norm_num)
  obtain ⟨s, rfl, ys, hys, ht⟩ := (mpiSum_fin (by rw [hlen]; omega) hb t).1 (mpiSum_iff.2 ((anySum_perm hp).1 h))
  refine ⟨s, rfl, ?_⟩
  obtain ⟨A, hA, hs⟩ := sumTree_error Dbl.rounded ht
  rw [hys.length_eq, hlen] at hA
  -- the sums of the values and of the magnitudes
  have e1 : (ys.map Dbl.val).sum = total [n, n, n] fun g => (w g).val := by
    rw [(hys.map Dbl.val).sum_eq, hds, List.map_append, List.sum_append, List.map_replicate, Dbl.rounded.zero, List.sum_replicate,
      smul_zero, zero_add, ← sum_listOf]
    unfold listOf; rw [List.map_map]; rfl
  have e2 : (ys.map fun x => |x.val|).sum = total [n, n, n] fun g => |(w g).val| := by
    rw [(hys.map fun x : Dbl => |x.val|).sum_eq, hds, List.map_append, List.sum_append, List.map_replicate, Dbl.rounded.zero, abs_zero,
      List.sum_replicate, smul_zero, zero_add, ← sum_listOf]
    unfold listOf; rw [List.map_map]; rfl
  rw [e1, e2] at hs
  have hA2 : A ≤ 2 ^ 32 := by omega
  have hM2 : n ^ 3 ≤ 2 ^ 31 := by omega
  have q4 := sum_bound_double (A := A) (M := n ^ 3) hA2 hM2 hk hz hz1
  rw [e3] at q1 q3
  have q5 : ((n : ℚ) ^ 3 + m + 22 * k) / 2 ^ 52 = (A + 22 * k + 1) / 2 ^ 52 := by
    have : (m : ℚ) + (n : ℚ) ^ 3 = A + 1 := by exact_mod_cast hA
    rw [show (n : ℚ) ^ 3 + m + 22 * k = (m : ℚ) + n ^ 3 + 22 * k by ring, this]
    ring
  rw [q5]
  refine le_trans ?_ q4
  generalize grown 3 (1 / 2 ^ 53 : ℚ) (z * ((n ^ 3 : Nat) : ℚ)) k 1 = G at *
  have hp1 : (1 : ℚ) ≤ (1 + 1 / 2 ^ 53) ^ A := one_le_pow₀ (by norm_num)
  have q6 : ((1 + 1 / 2 ^ 53) ^ A - 1) * (total [n, n, n] fun g => |(w g).val|) ≤ ((1 + 1 / 2 ^ 53 : ℚ) ^ A - 1) * G :=
    mul_le_mul_of_nonneg_left q1 (by linarith)
  have q7 : |s.val - 1| ≤ |s.val - total [n, n, n] fun g => (w g).val| + |(total [n, n, n] fun g => (w g).val) - 1| := by
    have := abs_add_le (s.val - total [n, n, n] fun g => (w g).val) ((total [n, n, n] fun g => (w g).val) - 1)
    rwa [sub_add_sub_cancel] at this
  linarith

/-- The bound on the field stays far below the largest `double`. -/
theorem grown_small {k : Nat} (hk : k ≤ 2 ^ 31) {z : ℚ} (hz0 : 0 ≤ z) (hz1 : z ≤ 1 / 2 ^ 190) :
    grown 3 (1 / 2 ^ 53) z k 1 ≤ (2 : ℚ) ^ 500 := by
  have hkn : (k : ℚ) ≤ 2 ^ 31 := by exact_mod_cast hk
  have hb : (k : ℚ) * (22 / 2 ^ 53) ≤ 1 / 2 := by
    refine (mul_le_mul_of_nonneg_right hkn (by norm_num)).trans (by norm_num)
  have h1 := (grown_double hz0 (hz1.trans (by norm_num)) k).resolve_right (by linarith)
  have h0 : (0 : ℚ) ≤ grown 3 (1 / 2 ^ 53) z k 1 := mul_nonneg (pow_nonneg (by
    linarith [stepError_nonneg (r := (1 / 2 ^ 53 : ℚ)) (by positivity) 3]) _)
    (add_nonneg zero_le_one (mul_nonneg (Nat.cast_nonneg _) (stepUnderflow_nonneg (by positivity) hz0 _)))
  have h2 := mul_le_mul_of_nonneg_left hb h0
  linarith [(by norm_num : (2 : ℚ) ≤ 2 ^ 500)]

/-- The corner field in `double`: its magnitudes add up to 1. -/
theorem corner_total {n : Nat} (hpos : ∀ x ∈ [n, n, n], 0 < x) : (total [n, n, n] fun g => |(cornerField g : Dbl).val|) = 1 ∧
    (total [n, n, n] fun g => (cornerField g : Dbl).val) = 1 := by
  have hc : ∀ g : List Nat, (cornerField g : Dbl).val = cornerField g := fun g => val_corner Dbl.rounded g
  have habs : ∀ g : List Nat, |(cornerField g : ℚ)| = cornerField g := by
    intro g; unfold cornerField; split <;> simp
  have hone : total [n, n, n] (cornerField : List Nat → ℚ) = 1 := total_corner3 hpos
  constructor
  · simp only [hc, habs]
    exact hone
  · simp only [hc]
    exact hone

/-- The sum of the field of a program in `double`, added in any order and with some zeros, with any way to compute the change along an
axis. -/
theorem program_sum_double {n : Nat} (hn : 0 < n) (hn2 : n ≤ 1290) {k : Nat} (hk : k ≤ 2 ^ 31) {z : ℚ} (hz : 0 ≤ z)
    (hz1 : z + 1 / 2 ^ 1075 ≤ 1 / 2 ^ 190) {chg : Nat → Dbl → Dbl → Dbl} {chg' : Nat → F64 → F64 → F64}
    (hok : ChangeOk Dbl.val (1 / 2 ^ 53) z (upCoeff ((⟨rnd (1 / 10)⟩ : Dbl) * (1 / (n : Dbl)) / 1).val
      (([1, 1, 1] : List Dbl).map Dbl.val) (([1, 1, 1] : List Dbl).map Dbl.val) [n, n, n]) 3 chg) (hfin : ChangeFin 3 chg chg')
    {l : List F64} (hl : l.Perm (listOf [n, n, n] ((schemeStep [n, n, n] (upDir [(1 : F64), 1, 1]) chg')^[k] cornerField)))
    {m : Nat} (hm : n ^ 3 + m ≤ 2 ^ 31) {t : F64} (h : AnySum (List.replicate m 0 ++ l) t) :
    ∃ s : Dbl, t = .fin s ∧ |s.val - 1| ≤ ((n : ℚ) ^ 3 + m + 22 * k) / 2 ^ 52 := by
  obtain ⟨hdt, hfit, _⟩ := driver_dbl hn hn2
  obtain ⟨hpos, hcells, _, _⟩ := grid_of hn hn2
  have hz0 : (0 : ℚ) ≤ z + 1 / 2 ^ 1075 := by positivity
  have hgrown := grown_small hk hz0 hz1
  have h1 := iter_fin (N := [n, n, n]) hdt.le hfit.pos hfit.courant hz hok hfin (fun g _ => corner_fin g) zero_le_one
    (fun g _ => abs_corner Dbl.rounded g) k hgrown
  rw [show upDir [(1 : F64), 1, 1] = upDir [(1 : Dbl), 1, 1] from upDir_fin (v := [(1 : Dbl), 1, 1])] at hl
  obtain ⟨hB, hC⟩ := corner_total hpos
  obtain ⟨q1, q2⟩ := scheme_error Dbl.rounded (sumNorm hpos) hdt.le hfit.pos hfit.courant hz hok cornerField
    zero_le_one (le_of_eq hB) k
  refine field_sum_double hn hn2 hk hz0 hz1 h1 (fun g hg => ?_) q1 ?_ hl hm h
  · have h4 := (scheme_error Dbl.rounded (maxNorm [n, n, n]) hdt.le hfit.pos hfit.courant hz hok cornerField zero_le_one
      (fun g _ => abs_corner Dbl.rounded g) k).1 g hg
    rw [mul_one] at h4
    exact h4.trans hgrown
  · have hex : total [n, n, n] ((upwindStep [n, n, n] (upDir (([1, 1, 1] : List Dbl).map Dbl.val))
        (upCoeff ((⟨rnd (1 / 10)⟩ : Dbl) * (1 / (n : Dbl)) / 1).val (([1, 1, 1] : List Dbl).map Dbl.val)
          (([1, 1, 1] : List Dbl).map Dbl.val) [n, n, n]))^[k] (fun g => (cornerField g : Dbl).val)) = 1 := by
      rw [total_iter hpos]
      exact hC
    rw [← hex]
    refine le_trans ?_ (q2.trans (by rw [hex]; exact le_of_eq rfl))
    unfold total
    rw [← sum_sub_distrib]
    exact abs_sum_le_sum_abs _ _

theorem storesCol_list {N : List Nat} (hp : ∀ n ∈ N, 0 < n) {f : List F64} {u : List Nat → F64} (hst : StoresCol N f u) :
    f = JlUpwind.listC N u := by
  apply ext_of_getElem? (by rw [hst.1]; simp [JlUpwind.listC])
  intro i hi
  have hi : i < N.prod := by simpa [JlUpwind.listC] using hi
  have h1 := hst.2 _ (JlUpwind.cellC_inGrid hp i)
  have h2 := (JlUpwind.listC_stores u).2 _ (JlUpwind.cellC_inGrid hp i)
  rw [← JlUpwind.flatC_eq (JlUpwind.cellC_inGrid hp i), JlUpwind.flatC_cellC hp hi] at h1 h2
  rw [h1, h2]

/-- The values in the order of Julia. -/
theorem listC_perm {R : Type} {N : List Nat} (hp : ∀ n ∈ N, 0 < n) (u : List Nat → R) : (JlUpwind.listC N u).Perm (listOf N u) := by
  unfold JlUpwind.listC listOf
  have h : ((List.range N.prod).map fun i => JlUpwind.cellC N i).Perm ((List.range N.prod).map fun i => cellAt N i) := by
    rw [List.perm_ext_iff_of_nodup]
    · intro g
      constructor
      · intro h
        obtain ⟨i, _, rfl⟩ := List.mem_map.1 h
        have hg := JlUpwind.cellC_inGrid hp i
        exact List.mem_map.2 ⟨rankOf N (JlUpwind.cellC N i), List.mem_range.2 (rankOf_lt hg), cellAt_rankOf hg⟩
      · intro h
        obtain ⟨i, _, rfl⟩ := List.mem_map.1 h
        have hg := cellAt_inGrid hp i
        exact List.mem_map.2 ⟨JlUpwind.flatC N (cellAt N i), List.mem_range.2 (JlUpwind.flatC_lt hg), JlUpwind.cellC_flatC hg⟩
    · refine List.Nodup.map_on (fun i hi j hj e => ?_) List.nodup_range
      rw [← JlUpwind.flatC_cellC hp (List.mem_range.1 hi), e, JlUpwind.flatC_cellC hp (List.mem_range.1 hj)]
    · refine List.Nodup.map_on (fun i hi j hj e => ?_) List.nodup_range
      rw [← rankOf_cellAt hp (List.mem_range.1 hi), e, rankOf_cellAt hp (List.mem_range.1 hj)]
  have := h.map u
  rwa [List.map_map, List.map_map] at this

/-- The time step of the programs, which start from an infinity or from the largest number. -/
theorem programStep_double {n : Nat} (hn : 0 < n) (hn2 : n ≤ 1290) {top : F64} (htop : ∀ x : Dbl, |x.val| < maxFinite → ¬ top < .fin x) :
    programStep top (F64.fin ⟨rnd (1 / 10)⟩) (1 / (n : F64)) = .fin ((⟨rnd (1 / 10)⟩ : Dbl) * (1 / (n : Dbl)) / 1) := by
  obtain ⟨e, h⟩ := driver_dt_fin hn hn2
  unfold programStep smallestLast
  rw [e]
  simp only [List.replicate_succ, List.replicate_zero, List.foldl_cons, List.foldl_nil, if_neg (htop _ h), ite_self]

theorem inf_top (x : Dbl) : ¬ F64.inf false < .fin x := fun h => by
  have h : false = true := h
  cases h

theorem max_top (x : Dbl) (h : |x.val| < maxFinite) : ¬ (HasMax.dblMax : F64) < .fin x :=
  not_lt.2 ((le_abs_self _).trans h.le)

/-- The sum that a library computes of a field. -/
theorem lib_sum {n : Nat} (hn : 0 < n) (hn2 : n ≤ 1290) {steps : Int} (hk : steps < 2 ^ 31) {z : ℚ} (hz : 0 ≤ z)
    (hz1 : z + 1 / 2 ^ 1075 ≤ 1 / 2 ^ 190) {chg : Nat → Dbl → Dbl → Dbl} {chg' : Nat → F64 → F64 → F64}
    (hok : ChangeOk Dbl.val (1 / 2 ^ 53) z (upCoeff ((⟨rnd (1 / 10)⟩ : Dbl) * (1 / (n : Dbl)) / 1).val
      (([1, 1, 1] : List Dbl).map Dbl.val) (([1, 1, 1] : List Dbl).map Dbl.val) [n, n, n]) 3 chg) (hfin : ChangeFin 3 chg chg')
    {l : List F64} (hl : l.Perm (listOf [n, n, n] (programField n chg' steps)))
    {m : Nat} (hm : m ≤ 65536) {sum : List F64 → F64} (hsum : SumsUp m sum) :
    ∃ s : Dbl, sum l = .fin s ∧ |s.val - 1| ≤ ((n : ℚ) ^ 3 + m + 22 * steps.toNat) / 2 ^ 52 := by
  obtain ⟨hpos, _, _, _⟩ := grid_of hn hn2
  have h3 : n ^ 3 ≤ 1290 ^ 3 := Nat.pow_le_pow_left hn2 3
  have hne : l ≠ [] := by
    intro h0
    have h1 := hl.length_eq
    rw [h0, length_listOf] at h1
    have : 0 < [n, n, n].prod := by simp; omega
    simp only [List.length_nil] at h1
    omega
  obtain ⟨q, hq, hs⟩ := hsum l hne
  obtain ⟨s, e, hb⟩ := program_sum_double hn hn2 (k := steps.toNat) (by omega) hz hz1 hok hfin hl (by
    have : (1290 : Nat) ^ 3 + 65536 ≤ 2 ^ 31 := by norm_num
    omega) hs
  refine ⟨s, e, hb.trans ?_⟩
  have : (q : ℚ) ≤ m := by exact_mod_cast hq
  rw [div_le_div_iff_of_pos_right (by positivity)]
  linarith

section
variable [DoubleText F64]

omit [DoubleText F64] in
/-- The sum that the Python program prints. -/
theorem python_sum {n : Nat} (hn : 0 < n) (hn2 : n ≤ 1290) {steps : Int} (hk : steps < 2 ^ 31) {m : Nat} (hm : m ≤ 65536)
    {sum : List F64 → F64} (hsum : SumsUp m sum) {f : List F64} (hst : Stores [n, n, n] f (programField n (changeTimeLast
      (programStep (.inf false) (F64.fin ⟨rnd (1 / 10)⟩) (1 / (n : F64))) [1, 1, 1] [1, 1, 1] [n, n, n]) steps)) :
    ∃ s : Dbl, sum f = .fin s ∧ |s.val - 1| ≤ ((n : ℚ) ^ 3 + m + 22 * steps.toNat) / 2 ^ 52 := by
  obtain ⟨hdt, hfit, hr⟩ := driver_dbl hn hn2
  obtain ⟨hpos, _, _, _⟩ := grid_of hn hn2
  rw [programStep_double hn hn2 fun x _ => inf_top x] at hst
  exact lib_sum hn hn2 hk (z := 3 * (1 / 2 ^ 1075)) (by positivity) (by norm_num)
    (change_python Dbl.rounded hfit.normal (coeff_le_one hdt.le hfit.pos hfit.courant)) (hfit.change_python hr)
    (by rw [(stores_iff hpos).1 hst]; exact List.Perm.refl _) hm hsum

/-- The sum that the Julia programs print. -/
theorem julia_sum {n : Nat} (hn : 0 < n) (hn2 : n ≤ 1290) {steps : Int} (hk : steps < 2 ^ 31) {m : Nat} (hm : m ≤ 65536)
    {sum : List F64 → F64} (hsum : SumsUp m sum) {f : List F64} (hst : StoresCol [n, n, n] f ((upwindStep [n, n, n]
      (upDir [(1 : F64), 1, 1]) (upCoeff (programStep (.inf false) (F64.fin ⟨rnd (1 / 10)⟩) (1 / (n : F64))) [1, 1, 1] [1, 1, 1]
        [n, n, n]))^[steps.toNat] cornerField)) :
    ∃ s : Dbl, sum f = .fin s ∧ |s.val - 1| ≤ ((n : ℚ) ^ 3 + m + 22 * steps.toNat) / 2 ^ 52 := by
  obtain ⟨hdt, hfit, hr⟩ := driver_dbl hn hn2
  obtain ⟨hpos, _, _, _⟩ := grid_of hn hn2
  rw [programStep_double hn hn2 fun x _ => inf_top x, upwindStep_is_scheme] at hst
  exact lib_sum hn hn2 hk (z := 3 * (1 / 2 ^ 1075)) (by positivity) (by norm_num)
    (change_cpp Dbl.rounded hfit.normal (coeff_le_one hdt.le hfit.pos hfit.courant)) hfit.change_cpp
    (by rw [storesCol_list hpos hst]; exact listC_perm hpos _) hm hsum

/-- The sum that the Fortran programs print. -/
theorem fortran_sum {n : Nat} (hn : 0 < n) (hn2 : n ≤ 1290) {steps : Int} (hk : steps < 2 ^ 31) {m : Nat} (hm : m ≤ 65536)
    {sum : List F64 → F64} (hsum : SumsUp m sum) {f : List F64} (hst : Stores [n, n, n] f (programField n (changeDivLast
      (programStep HasMax.dblMax (F64.fin ⟨rnd (1 / 10)⟩) (1 / (n : F64))) [1, 1, 1] [1, 1, 1] [n, n, n]) steps)) :
    ∃ s : Dbl, sum f = .fin s ∧ |s.val - 1| ≤ ((n : ℚ) ^ 3 + m + 22 * steps.toNat) / 2 ^ 52 := by
  obtain ⟨hdt, hfit, hr⟩ := driver_dbl hn hn2
  obtain ⟨hpos, _, _, _⟩ := grid_of hn hn2
  have hq : (n : ℚ) ≤ 1290 := by exact_mod_cast hn2
  have hq1 : (0 : ℚ) < n := by exact_mod_cast hn
  have hzz : ∀ j, j < [n, n, n].length → (3 + 2 / |cellWidth (([1, 1, 1] : List Dbl).map Dbl.val) [n, n, n] j|) * (1 / 2 ^ 1075) ≤
      (2583 / 2 ^ 1075 : ℚ) := by
    intro j hj
    have hj : j < 3 := hj
    have e : ∀ j < 3, (([1, 1, 1] : List Dbl).map Dbl.val).getD j 0 = 1 := by decide +kernel
    have e2 : ∀ j < 3, ([n, n, n] : List Nat).getD j 0 = n := by
      intro j hj
      have : j = 0 ∨ j = 1 ∨ j = 2 := by omega
      rcases this with rfl | rfl | rfl <;> rfl
    unfold cellWidth
    rw [e j hj, e2 j hj, abs_of_pos (by positivity), div_div_eq_mul_div, div_one, show (2583 / 2 ^ 1075 : ℚ) = 2583 * (1 / 2 ^ 1075) by
      ring]
    exact mul_le_mul_of_nonneg_right (by linarith) (by positivity)
  rw [programStep_double hn hn2 max_top] at hst
  exact lib_sum hn hn2 hk (z := 2583 / 2 ^ 1075) (by positivity) (by norm_num)
    (change_fortran Dbl.rounded hfit.normal (coeff_le_one hdt.le hfit.pos hfit.courant) hzz)
    (hfit.change_fortran hzz (by norm_num))
    (by rw [(stores_iff hpos).1 hst]; exact List.Perm.refl _) hm hsum

/-- C58: upwind.py with IEEE numbers: for every number of cells from 1 to 1290 and every number of steps below 2^31 the check sum it
prints is finite and within `(cells + m + 22 steps) / 2^52` of 1, whatever the order in which `numpy.sum` adds and if it adds at most
`m` zeros. -/
theorem C58_python_main_double (readInt : Str → Option Int) (sum : List F64 → F64) (m : Nat) (hm : m ≤ 65536) (hsum : SumsUp m sum)
    (prog : Str) (args : List Str) (n : Nat) (steps : Int) (vtk : Bool) (h : Asks (fun a z => readInt a = some z) 100 args n steps vtk)
    (hn : 0 < n) (hn2 : n ≤ 1290) (hk : steps < 2 ^ 31) (hw : ∀ x : F64, IsWord (DoubleText.showDouble x)) :
    ∃ (e : Exit) (s : Dbl), PyUpwind.main readInt (F64.fin ⟨rnd (1 / 10)⟩) (.inf false) sum (prog :: args) = .ok e ∧ e.status = 0 ∧
      e.out = scriptText "  " n steps (DoubleText.showDouble (F64.fin s)) ∧
      |s.val - 1| ≤ ((n : ℚ) ^ 3 + m + 22 * steps.toNat) / 2 ^ 52 := by
  obtain ⟨f, _, _, hst, _, _, _, _, e⟩ := C60_python_run_partial readInt (F64.fin ⟨rnd (1 / 10)⟩) (.inf false) sum prog args n steps
    vtk h hn hn2 F64.cast_nat_int hw
  obtain ⟨s, hs, hb⟩ := python_sum hn hn2 hk hm hsum hst
  exact ⟨_, s, e, rfl, by rw [hs], hb⟩

/-- C58: so do upwind.jl and upwind3.jl. -/
theorem C58_julia_main_double (readInt : Str → Option Int) (sum : List F64 → F64) (m : Nat) (hm : m ≤ 65536) (hsum : SumsUp m sum)
    (script : Str) (args : List Str) (n : Nat) (steps : Int) (hn : 0 < n) (hn2 : n ≤ 1290) (hk : steps < 2 ^ 31) :
    (Asks (fun a z => readInt a = some z) 100 args n steps false →
      ∃ (e : Exit) (s : Dbl), JlUpwind.main readInt (F64.fin ⟨rnd (1 / 10)⟩) (.inf false) sum script args = .ok e ∧ e.status = 0 ∧
        e.out = scriptText " " n steps (DoubleText.showDouble (F64.fin s)) ∧
        |s.val - 1| ≤ ((n : ℚ) ^ 3 + m + 22 * steps.toNat) / 2 ^ 52) ∧
    ((args = [] ∧ n = 128 ∧ steps = 2) ∨ Asks (fun a z => readInt a = some z) 2 args n steps false →
      ∃ (e : Exit) (s : Dbl), JlUpwind.main3 readInt (F64.fin ⟨rnd (1 / 10)⟩) (.inf false) sum args = .ok e ∧ e.status = 0 ∧
        e.out = scriptText " " n steps (DoubleText.showDouble (F64.fin s)) ∧
        |s.val - 1| ≤ ((n : ℚ) ^ 3 + m + 22 * steps.toNat) / 2 ^ 52) := by
  have hc : n * n * n + 1 < 2 ^ 63 := by
    have := Nat.mul_le_mul (Nat.mul_le_mul hn2 hn2) hn2
    omega
  constructor
  · intro h
    obtain ⟨f, hst, e⟩ := C60_julia_run_partial readInt (F64.fin ⟨rnd (1 / 10)⟩) (.inf false) sum script args n steps h hn hc
      F64.cast_nat_int
    obtain ⟨s, hs, hb⟩ := julia_sum hn hn2 hk hm hsum hst
    exact ⟨_, s, e, rfl, by rw [hs], hb⟩
  · intro h
    obtain ⟨f, hst, e⟩ := C60_julia3_run_partial readInt (F64.fin ⟨rnd (1 / 10)⟩) (.inf false) sum args n steps h hn hc
      F64.cast_nat_int
    obtain ⟨s, hs, hb⟩ := julia_sum hn hn2 hk hm hsum hst
    exact ⟨_, s, e, rfl, by rw [hs], hb⟩

/-- C58: so does every execution of the Fortran programs. -/
theorem C58_fortran_main_double (readInt : Str → Option Int) (sum : List F64 → F64) (m : Nat) (hm : m ≤ 65536) (hsum : SumsUp m sum)
    (threads rest prog : Str) (args : List Str) (n : Nat) (steps : Int) (vtk : Bool) (hprog : ∃ c ∈ prog.take 32, c ≠ ' ')
    (hargs : ∀ a ∈ args, FitsIn 32 a) (h : Asks (fun a z => readInt (filled 32 a) = some z) 100 args n steps vtk)
    (hn : 0 < n) (hn2 : n ≤ 1290) (hsteps : steps + 1 < 2 ^ 31) (hw : ∀ x : F64, IsWord (DoubleText.showDouble x))
    (hl : ∀ x : F64, (DoubleText.showDouble x).length ≤ 20) :
    (∃ x, FUpwind.Main readInt (F64.fin ⟨rnd (1 / 10)⟩) HasMax.dblMax sum threads rest (prog :: args) x) ∧
    ∀ x, FUpwind.Main readInt (F64.fin ⟨rnd (1 / 10)⟩) HasMax.dblMax sum threads rest (prog :: args) x →
      ∃ (e : Exit) (s : Dbl), x = .ok e ∧ e.status = 0 ∧
        e.out = threads ++ fortranText rest n steps (DoubleText.showDouble (F64.fin s)) ∧
        |s.val - 1| ≤ ((n : ℚ) ^ 3 + m + 22 * steps.toNat) / 2 ^ 52 := by
  obtain ⟨f, _, hst, _, hex, hall⟩ := C60_fortran_run_partial readInt (F64.fin ⟨rnd (1 / 10)⟩) HasMax.dblMax sum threads rest prog args
    n steps vtk hprog hargs h hn hn2 hsteps F64.cast_nat_int hw hl
  obtain ⟨s, hs, hb⟩ := fortran_sum hn hn2 (by omega) hm hsum hst
  exact ⟨hex, fun x hx => ⟨_, s, hall x hx, rfl, by rw [hs], hb⟩⟩

/-- Near enough to 1. -/
theorem near_one_of {s : Dbl} {n m k : Nat} (hsmall : n ^ 3 + m + 22 * k ≤ 2251799813)
    (h : |s.val - 1| ≤ ((n : ℚ) ^ 3 + m + 22 * k) / 2 ^ 52) : |s.val - 1| ≤ 5 / 10 ^ 7 := by
  have hq : (n : ℚ) ^ 3 + m + 22 * (k : ℚ) ≤ 2251799813 := by exact_mod_cast hsmall
  refine h.trans ((div_le_div_of_nonneg_right hq (by positivity)).trans (by norm_num))

/-- C79: with IEEE numbers the tests upwindPython, upwindJulia, upwindJulia3 pass and so does every execution of the tests of the
Fortran programs, for `n^3 + 22 steps` up to 2.25e9 and whatever the order in which the libraries add, provided numbers within 5e-7 of
1 are printed with a 0 or 1 in front (and, in Fortran, in at most 15 characters). -/
theorem C79_other_passes_double (readInt : Str → Option Int) (sum : List F64 → F64) (m : Nat) (hm : m ≤ 65536) (hsum : SumsUp m sum)
    (prog a b : Str) (n : Nat) (steps : Int) (hn : 0 < n) (hn2 : n ≤ 1290) (hsteps : steps + 1 < 2 ^ 31)
    (hsmall : n ^ 3 + m + 22 * steps.toNat ≤ 2251799813) (hw : ∀ x : F64, IsWord (DoubleText.showDouble x))
    (hk : ∀ x : F64, 'k' ∉ DoubleText.showDouble x)
    (hone : ∀ s : Dbl, |s.val - 1| ≤ 5 / 10 ^ 7 → ['0'] <+: DoubleText.showDouble (F64.fin s) ∨
      ['1'] <+: DoubleText.showDouble (F64.fin s)) :
    (readInt a = some (n : Int) → readInt b = some steps →
      (∃ e, PyUpwind.main readInt (F64.fin ⟨rnd (1 / 10)⟩) (.inf false) sum (prog :: upwindArgs a b) = .ok e ∧
        ∀ v, Verdict scriptTest e v ↔ v = true) ∧
      (∃ e, JlUpwind.main readInt (F64.fin ⟨rnd (1 / 10)⟩) (.inf false) sum prog (upwindArgs a b) = .ok e ∧
        ∀ v, Verdict scriptTest e v ↔ v = true) ∧
      ∃ e, JlUpwind.main3 readInt (F64.fin ⟨rnd (1 / 10)⟩) (.inf false) sum (upwindArgs a b) = .ok e ∧
        ∀ v, Verdict scriptTest e v ↔ v = true) ∧
    ∀ (threads rest : Str), 'k' ∉ threads → 'k' ∉ rest → (∃ c ∈ prog.take 32, c ≠ ' ') → FitsIn 32 a → FitsIn 32 b →
      readInt (filled 32 a) = some (n : Int) → readInt (filled 32 b) = some steps →
      (∀ x : F64, (DoubleText.showDouble x).length ≤ 15) →
      (∃ x, FUpwind.Main readInt (F64.fin ⟨rnd (1 / 10)⟩) HasMax.dblMax sum threads rest (prog :: upwindArgs a b) x) ∧
      ∀ x, FUpwind.Main readInt (F64.fin ⟨rnd (1 / 10)⟩) HasMax.dblMax sum threads rest (prog :: upwindArgs a b) x →
        ∃ e, x = .ok e ∧ ∀ v, Verdict upwindTest e v ↔ v = true := by
  have hacc : ∀ s : Dbl, |s.val - 1| ≤ ((n : ℚ) ^ 3 + m + 22 * steps.toNat) / 2 ^ 52 →
      ∃ c ∈ accepted, [c] <+: DoubleText.showDouble (F64.fin s) := by
    intro s hs
    rcases hone s (near_one_of hsmall hs) with h | h
    · exact ⟨'0', by decide, h⟩
    · exact ⟨'1', by decide, h⟩
  have hc : n * n * n + 1 < 2 ^ 63 := by
    have := Nat.mul_le_mul (Nat.mul_le_mul hn2 hn2) hn2
    omega
  refine ⟨fun ha hb => ⟨?_, ?_⟩, fun threads rest ht hr hprog hfa hfb ha hb hl => ?_⟩
  · obtain ⟨e, f, he, hst, hv⟩ := C79_python_verdict readInt (F64.fin ⟨rnd (1 / 10)⟩) (.inf false) sum prog a b n steps ha hb hn hn2
      F64.cast_nat_int hw hk
    obtain ⟨s, hs, hbd⟩ := python_sum hn hn2 (by omega) hm hsum hst
    refine ⟨e, he, fun v => ?_⟩
    rw [hv, hs]
    exact ⟨fun h => h.2 (hacc s hbd), fun h => ⟨fun _ => hacc s hbd, fun _ => h⟩⟩
  · obtain ⟨e, e3, f, he, he3, hst, hv⟩ := C79_julia_verdict readInt (F64.fin ⟨rnd (1 / 10)⟩) (.inf false) sum prog a b n steps ha hb hn
      hc F64.cast_nat_int hw hk
    obtain ⟨s, hs, hbd⟩ := julia_sum hn hn2 (by omega) hm hsum hst
    have key : ∀ v, Verdict scriptTest e v ↔ v = true := by
      intro v
      rw [(hv v).1, hs]
      exact ⟨fun h => h.2 (hacc s hbd), fun h => ⟨fun _ => hacc s hbd, fun _ => h⟩⟩
    exact ⟨⟨e, he, key⟩, e3, he3, fun v => ((hv v).2).trans (key v)⟩
  · obtain ⟨f, hst, hex, hall⟩ := C79_fortran_verdict readInt (F64.fin ⟨rnd (1 / 10)⟩) HasMax.dblMax sum threads rest prog a b n steps
      hprog hfa hfb ha hb hn hn2 hsteps F64.cast_nat_int hw (fun x => (hl x).trans (by decide)) hk ht hr
    obtain ⟨s, hs, hbd⟩ := fortran_sum hn hn2 (by omega) hm hsum hst
    refine ⟨hex, fun x hx => ?_⟩
    obtain ⟨e, he, hv⟩ := hall x hx
    refine ⟨e, he, fun v => ?_⟩
    rw [hv, hs]
    exact ⟨fun h => h.2 ⟨hl _, hacc s hbd⟩, fun h => ⟨fun _ => ⟨hl _, hacc s hbd⟩, fun _ => h⟩⟩

end

/-! ### Non-vacuity -/

/-- Adding from the left, and from the right to a 0, are sums in the sense of `SumsUp`. -/
theorem sumsUp_fold {R : Type} [Zero R] [Add R] : SumsUp 1 (fun l : List R => l.foldl (· + ·) 0) ∧
    SumsUp 1 (fun l : List R => l.foldr (· + ·) 0) := by
  constructor
  · intro l _
    refine ⟨1, le_refl _, ?_⟩
    have key : ∀ (l ys : List R) (y : R), AnySum ys y → AnySum (ys ++ l) (l.foldl (· + ·) y) := by
      intro l
      induction l with
      | nil => intro ys y h; rwa [List.append_nil]
      | cons x l ih =>
        intro ys y h
        have := ih (ys ++ [x]) (y + x) (.add h (.one x))
        rwa [List.append_assoc] at this
    exact key l [0] 0 (.one 0)
  · intro l _
    refine ⟨1, le_refl _, ?_⟩
    have key : ∀ l : List R, AnySum (l ++ [0]) (l.foldr (· + ·) 0) := by
      intro l
      induction l with
      | nil => exact .one 0
      | cons x l ih => exact AnySum.add (xs := [x]) (.one x) ih
    exact .perm List.perm_append_comm (key l)

/-- Numbers are read as 12 and 7. -/
def readSample (s : Str) : Option Int := if s = ['7'] then some 7 else if s.take 2 = ['1', '2'] then some 12 else
  if s.take 2 = ['7', ' '] then some 7 else none

/-- The tests of `C79_other_passes_double` in Python and Julia, with the texts of `F64.text`. -/
example (atof : Str → F64) :
    letI := F64.textWith atof
    (∃ e, PyUpwind.main readSample (F64.fin ⟨rnd (1 / 10)⟩) (.inf false) (fun l => l.foldr (· + ·) 0)
      ("upwind.py".toList :: upwindArgs "12".toList "7".toList) = .ok e ∧ ∀ v, Verdict scriptTest e v ↔ v = true) ∧
    ∃ e, JlUpwind.main3 readSample (F64.fin ⟨rnd (1 / 10)⟩) (.inf false) (fun l => l.foldr (· + ·) 0)
      (upwindArgs "12".toList "7".toList) = .ok e ∧ ∀ v, Verdict scriptTest e v ↔ v = true := by
  let _ := F64.textWith atof
  have h := (C79_other_passes_double readSample (fun l => l.foldr (· + ·) 0) 1 (by decide) sumsUp_fold.2 "upwind.py".toList "12".toList
    "7".toList 12 7 (by decide) (by decide) (by decide) (by decide) (words_of fun _ => rfl).1 (words_of fun _ => rfl).2
    (fun s hs => .inr (by
      have : (F64.fin s).text = "1".toList := by
        rw [C80_one_iff]
        rw [abs_le] at hs
        constructor <;> linarith [hs.1, hs.2]
      rw [show DoubleText.showDouble (F64.fin s) = (F64.fin s).text from rfl, this]
      exact ⟨[], rfl⟩))).1 (by decide) (by decide)
  exact ⟨h.1, h.2.2⟩

/-- Those of the Fortran programs, with a text that fits the columns. -/
example (atof : Str → F64) :
    letI : DoubleText F64 := ⟨atof, fun _ => "1.000000000".toList⟩
    ∃ x, FUpwind.Main readSample (F64.fin ⟨rnd (1 / 10)⟩) HasMax.dblMax (fun l => l.foldl (· + ·) 0) [] []
      ("upwindF08".toList :: upwindArgs "12".toList "7".toList) x := by
  let _ : DoubleText F64 := ⟨atof, fun _ => "1.000000000".toList⟩
  refine ((C79_other_passes_double readSample (fun l => l.foldl (· + ·) 0) 1 (by decide) sumsUp_fold.1 "upwindF08".toList "12".toList
    "7".toList 12 7 (by decide) (by decide) (by decide) (by decide) (fun _ => ?_) (fun _ => ?_) (fun _ _ => .inr ?_)).2 [] [] (by simp)
    (by simp) ⟨'u', by decide, by decide⟩ ⟨by decide, '2', by decide, by decide⟩ ⟨by decide, '7', by decide, by decide⟩ (by decide)
    (by decide) (fun _ => ?_)).1
  · show IsWord "1.000000000".toList
    exact ⟨by decide, by decide⟩
  · show 'k' ∉ "1.000000000".toList
    decide
  · show ['1'] <+: "1.000000000".toList
    exact ⟨_, rfl⟩
  · show "1.000000000".toList.length ≤ 15
    decide

end Fidi
