import Verif.Props.FormatG
import Verif.Props.FilterRounding

/-
Properties C79 and C80 for upwindAcc, upwindAcc2 and upwindOMP5 with IEEE numbers.
-/
set_option linter.unusedSectionVars false
set_option exponentiation.threshold 1100

namespace Fidi
open Spec Upwind Finset CTest

/-- What the drivers need of the time step, in `double`. -/
theorem driver_dbl {n : Nat} (hn : 0 < n) (hn2 : n ≤ 1290) :
    0 < ((⟨rnd (1 / 10)⟩ : Dbl) * (1 / (n : Dbl)) / 1).val ∧
    FitCoeffs ((⟨rnd (1 / 10)⟩ : Dbl) * (1 / (n : Dbl)) / 1) [1, 1, 1] [1, 1, 1] [n, n, n] ∧
    ∀ j, j < 3 → |(([1, 1, 1] : List Dbl).map Dbl.val).getD j 0 / cellWidth (([1, 1, 1] : List Dbl).map Dbl.val) [n, n, n] j| ≤
      2 ^ 500 := by
  have hmax : (1 : ℚ) ≤ (HasMax.dblMax : Dbl).val := by decide +kernel
  have htiny : (2 : ℚ) ^ 20 * (1 / 2 ^ 1022) ≤ 1 := by norm_num
  obtain ⟨_, hdt, hnorm, hcour⟩ := driver_hyps Dbl.rounded hmax htiny ⟨rnd (1 / 10)⟩
    ((rnd_roundsTo (1 / 10)).2 (Or.inr (by norm_num [abs_of_pos]))) n hn hn2
  have hone : ∀ x ∈ ([1, 1, 1] : List Dbl), x = 1 := by simp
  have hq : (n : ℚ) ≤ 1290 := by exact_mod_cast hn2
  have hq1 : (0 : ℚ) < n := by exact_mod_cast hn
  refine ⟨hdt, ⟨hdt.le, fun x hx => ?_, rfl, hcour, hnorm, fun m hm => ?_, fun x hx => ?_⟩, fun j hj => ?_⟩
  · rw [hone x hx, Dbl.rounded.one]; exact zero_lt_one
  · obtain rfl : m = n := by simpa using hm
    exact ⟨hn, by omega⟩
  · rw [hone x hx, Dbl.rounded.one]; exact one_le_pow₀ (by norm_num)
  · have e : ∀ j < 3, (([1, 1, 1] : List Dbl).map Dbl.val).getD j 0 = 1 := by decide +kernel
    have e2 : ∀ j < 3, ([n, n, n] : List Nat).getD j 0 = n := by
      intro j hj
      have : j = 0 ∨ j = 1 ∨ j = 2 := by omega
      rcases this with rfl | rfl | rfl <;> rfl
    unfold cellWidth
    rw [e j hj, e2 j hj, one_div_one_div, abs_of_pos hq1]
    exact hq.trans (by norm_num)

/-- The sum of the field of a driver in `double` with any way to compute the change along an axis. -/
theorem driver_sum_double {n : Nat} (hn : 0 < n) (hn2 : n ≤ 1290) {k : Int} (hk : k < 2 ^ 31) {chg : Nat → Dbl → Dbl → Dbl}
    {chg' : Nat → F64 → F64 → F64}
    (hok : ChangeOk Dbl.val (1 / 2 ^ 53) (3 * (1 / 2 ^ 1075)) (upCoeff ((⟨rnd (1 / 10)⟩ : Dbl) * (1 / (n : Dbl)) / 1).val
      (([1, 1, 1] : List Dbl).map Dbl.val) (([1, 1, 1] : List Dbl).map Dbl.val) [n, n, n]) 3 chg) (hfin : ChangeFin 3 chg chg') :
    ∃ s : Dbl, (listOf [n, n, n] ((schemeStep [n, n, n] (upDir [(1 : F64), 1, 1]) chg')^[k.toNat] cornerField)).foldl (· + ·) 0 =
      .fin s ∧ |s.val - 1| ≤ ((n : ℚ) ^ 3 + 22 * k.toNat + 1) / 2 ^ 52 := by
  obtain ⟨hdt, hfit, _⟩ := driver_dbl hn hn2
  obtain ⟨hpos, hcells, _, _⟩ := grid_of hn hn2
  have hz : (0 : ℚ) ≤ 3 * (1 / 2 ^ 1075) := by positivity
  have ez : (3 * (1 / 2 ^ 1075) + 1 / 2 ^ 1075 : ℚ) = 4 / 2 ^ 1075 := by ring
  have hgrown := driver_grown k hk
  have h1 := iter_fin (N := [n, n, n]) hdt.le hfit.pos hfit.courant hz hok hfin (fun g _ => corner_fin g) zero_le_one
    (fun g _ => abs_corner Dbl.rounded g) k.toNat (by rw [ez]; exact hgrown)
  have h2 := listOf_fin hpos h1
  refine ⟨(listOf [n, n, n] ((schemeStep [n, n, n] (upDir [(1 : Dbl), 1, 1]) chg)^[k.toNat] cornerField)).foldl (· + ·) 0, ?_, ?_⟩
  · rw [show upDir [(1 : F64), 1, 1] = upDir [(1 : Dbl), 1, 1] from upDir_fin (v := [(1 : Dbl), 1, 1])]
    rw [h2]
    refine sum_fin _ (by rw [length_listOf]; omega) fun x hx => ?_
    unfold listOf at hx
    obtain ⟨i, _, rfl⟩ := List.mem_map.1 hx
    have h4 := (scheme_error Dbl.rounded (maxNorm [n, n, n]) hdt.le hfit.pos hfit.courant hz hok cornerField zero_le_one
      (fun g _ => abs_corner Dbl.rounded g) k.toNat).1 (cellAt [n, n, n] i) (cellAt_inGrid hpos i)
    rw [mul_one, ez] at h4
    exact (h4.trans hgrown).trans (by norm_num)
  · have h5 := sum_error Dbl.rounded hpos hdt.le hfit.pos hfit.courant hz hok cornerField k.toNat
    have hc : ∀ g : List Nat, (cornerField g : Dbl).val = cornerField g := fun g => val_corner Dbl.rounded g
    have habs : ∀ g : List Nat, |(cornerField g : ℚ)| = cornerField g := by
      intro g; unfold cornerField; split <;> simp
    have ht : total [n, n, n] (cornerField : List Nat → ℚ) = 1 := total_corner3 hpos
    simp only [hc, habs] at h5
    rw [show (fun g : List Nat => (cornerField g : ℚ)) = cornerField from rfl, ht] at h5
    refine h5.trans ?_
    have hb := (driver_bounds_double n hn2 k hk).1
    have e3 : [n, n, n].prod = n ^ 3 := by simp; ring
    rw [e3, show (3 * (1 / 2 ^ 1075) + 1 / 2 ^ 1075 : ℚ) = 4 * (1 / 2 ^ 1075) by ring]
    exact hb

/-- The coefficient of the versions for accelerators. -/
theorem driver_acc_change {n : Nat} (hn : 0 < n) (hn2 : n ≤ 1290) (k : Int) (hk : k < 2 ^ 31) {f : List F64}
    (hst : Stores [n, n, n] f (driverField n (fun _ => driverStep HasMax.dblMax (F64.fin ⟨rnd (1 / 10)⟩) (1 / ((n : Int) : F64)) *
      (1 * ((upDir [(1 : F64)] 0 : Int) : F64) / (1 / ((n : Int) : F64)))) k)) :
    ∃ s : Dbl, f.foldl (· + ·) 0 = .fin s ∧ |s.val - 1| ≤ ((n : ℚ) ^ 3 + 22 * k.toNat + 1) / 2 ^ 52 := by
  obtain ⟨hdt, hfit, hr⟩ := driver_dbl hn hn2
  obtain ⟨hpos, hcells, _, _⟩ := grid_of hn hn2
  have e2 : ∀ j < 3, ([n, n, n] : List Nat).getD j 0 = n := by
    intro j hj
    have : j = 0 ∨ j = 1 ∨ j = 2 := by omega
    rcases this with rfl | rfl | rfl <;> rfl
  have hstep : driverStep HasMax.dblMax (F64.fin ⟨rnd (1 / 10)⟩) (1 / ((n : Int) : F64)) =
      .fin ((⟨rnd (1 / 10)⟩ : Dbl) * (1 / (n : Dbl)) / 1) := by
    have eF := driver_dt_fin hn hn2
    rw [F64.cast_nat_int]
    have := mainDt_equal (F64.fin ⟨rnd (1 / 10)⟩) n (by
      rw [eF.1]
      exact lt_of_le_of_lt (le_abs_self _) eF.2) (by
      rw [eF.1]
      exact lt_irrefl (_ : ℚ))
    rw [← eF.1]
    exact Except.ok.inj this
  rw [hstep] at hst
  have hok := change_acc Dbl.rounded hfit.normal (coeff_le_one hdt.le hfit.pos hfit.courant)
  generalize hdte : (⟨rnd (1 / 10)⟩ : Dbl) * (1 / (n : Dbl)) / 1 = dt at *
  obtain ⟨s, h1, h2⟩ := driver_sum_double hn hn2 hk (chg' := fun j a b =>
      F64.fin dt * (1 * ((upDir [(1 : F64)] 0 : Int) : F64) / (1 / ((n : Int) : F64))) * (a - b)) (by rw [hdte]; exact hok) (by
    intro j hj x y hx hy
    obtain ⟨e, h⟩ := hfit.rate_fin hj (hr j hj)
    have e1 : (1 : F64) / ((n : Int) : F64) = .fin (cellWidth [1, 1, 1] [n, n, n] j) := by
      rw [← hfit.width_fin hj, F64.cast_nat_int]
      unfold cellWidth
      rw [e2 j hj]
      have : ∀ j < 3, (([1, 1, 1] : List Dbl).map F64.fin).getD j 0 = 1 := by decide +kernel
      rw [this j hj]
    have e3 : ([1, 1, 1] : List Dbl).getD j 0 / (([n, n, n].getD j 0 : Int) : Dbl) = cellWidth [1, 1, 1] [n, n, n] j := by
      rw [Dbl.cast_nat_int]
      rfl
    have e4 : ([1, 1, 1] : List Dbl).getD j 0 = 1 := by
      have : ∀ j < 3, ([1, 1, 1] : List Dbl).getD j 0 = 1 := by decide +kernel
      exact this j hj
    have e5 : upDir [(1 : F64)] 0 = upDir [(1 : Dbl), 1, 1] j := by
      have : ∀ j < 3, upDir [(1 : F64)] 0 = upDir [(1 : Dbl), 1, 1] j := by decide +kernel
      exact this j hj
    simp only []
    rw [e3, e1, e5, diff_fin hx hy, ← prod_fin h (diff_le hx hy) (by norm_num) (by norm_num), ← e, e4]
    rfl)
  refine ⟨s, ?_, h2⟩
  rw [← h1, (stores_iff hpos).1 hst]
  rfl

/-- A check sum this near to 1 is printed as 1. -/
theorem one_of_near {s : Dbl} {n k : Nat} (hsmall : n ^ 3 + 22 * k < 2251799813)
    (h : |s.val - 1| ≤ ((n : ℚ) ^ 3 + 22 * k + 1) / 2 ^ 52) : (F64.fin s).text = "1".toList := by
  rw [C80_one_iff]
  have hq : (n : ℚ) ^ 3 + 22 * (k : ℚ) + 1 ≤ 2251799813 := by
    have : n ^ 3 + 22 * k + 1 ≤ 2251799813 := hsmall
    exact_mod_cast this
  have hb' : |s.val - 1| ≤ 2251799813 / 2 ^ 52 := h.trans (by
    rw [div_le_div_iff_of_pos_right (by positivity)]; exact hq)
  rw [abs_le] at hb'
  norm_num at hb' ⊢
  constructor <;> linarith [hb'.1, hb'.2]

section
variable [DoubleText F64] [Upwind.HasSqrt F64]

/-- C80: every complete execution of upwindAcc and upwindAcc2, and of upwindOMP5 with one step or one team, with IEEE numbers prints
the check sum 1, exactly this text, for every command line, number of cells and number of steps with
`n^3 + 22 steps < 2251799813`. -/
theorem C80_acc_check_sum (htext : ∀ x : F64, DoubleText.showDouble x = x.text) (l : UpwindAcc.Loop) (T : Nat) (hT : 0 < T)
    (may : Nat → Nat → Nat → Prop) (hmay : ∀ k i, ∃ t, t < T ∧ may k i t) (exec : Str) (args : List Str)
    (h : AllKnown (upwindNames l.hasStd) args) (n : Nat) (steps : Int)
    (h1 : IntValue Reads args "-numCells".toList 128 n) (h2 : IntValue Reads args "-numSteps".toList 10 steps)
    (hh : flagValue args "-h".toList = false) (hn : 0 < n) (hn2 : n ≤ 1290) (hone : l = .omp5 → steps ≤ 1 ∨ T = 1)
    (hsmall : n ^ 3 + 22 * steps.toNat < 2251799813) :
    (∃ x, UpwindAcc.Main l (F64.fin ⟨rnd (1 / 10)⟩) T may (exec :: args) x) ∧
    ∀ x, UpwindAcc.Main l (F64.fin ⟨rnd (1 / 10)⟩) T may (exec :: args) x → ∃ (e : Exit) (f : List F64), x = .ok e ∧ e.status = 0 ∧
      e.out = resultText F64.text Upwind.HasSqrt.sqrt n steps (l.hasStd && flagValue args "-std".toList) f ∧
      F64.text (f.foldl (· + ·) 0) = "1".toList := by
  obtain ⟨hex, hall⟩ := C56_acc_run_partial l (F64.fin ⟨rnd (1 / 10)⟩) T hT may hmay exec args h n steps h1 h2 hh hn hn2 hone
    (words_of htext).1
  refine ⟨hex, fun x hx => ?_⟩
  obtain ⟨f, text, hst, _, e⟩ := hall x hx
  refine ⟨_, f, e, rfl, ?_, ?_⟩
  · rw [show (DoubleText.showDouble : F64 → Str) = F64.text from funext htext]
  · obtain ⟨s, hs, hb⟩ := driver_acc_change hn hn2 steps (by omega) hst
    rw [hs]
    exact one_of_near hsmall hb

/-- C79: with IEEE numbers the tests upwindAccCxx and upwindAcc2Cxx pass, whatever the execution. -/
theorem C79_acc_passes_double (htext : ∀ x : F64, DoubleText.showDouble x = x.text) (l : UpwindAcc.Loop) (hl : l ≠ .omp5)
    (T : Nat) (hT : 0 < T) (may : Nat → Nat → Nat → Prop) (hmay : ∀ k i, ∃ t, t < T ∧ may k i t) (exec a b : Str)
    (ha : ¬ LooksLikeOption a) (hb : ¬ LooksLikeOption b) (x : M Exit)
    (hx : UpwindAcc.Main l (F64.fin ⟨rnd (1 / 10)⟩) T may (exec :: upwindArgs a b) x) :
    ∃ e, x = .ok e ∧ ∀ v, Verdict upwindTest e v ↔ v = true := by
  obtain ⟨e, f, he, hst, hv⟩ := C79_acc_verdict l hl (F64.fin ⟨rnd (1 / 10)⟩) T hT may hmay exec a b ha hb (words_of htext).1
    (words_of htext).2 x hx
  refine ⟨e, he, fun v => ?_⟩
  obtain ⟨s, hs, hbd⟩ := driver_acc_change (n := 128) (by decide) (by decide) 10 (by decide) hst
  rw [hv, hs, htext, one_of_near (by decide) hbd]
  have : ∃ c ∈ accepted, [c] <+: "1".toList := ⟨'1', by decide, [], rfl⟩
  exact ⟨fun h => h.2 this, fun h => ⟨fun _ => this, fun _ => h⟩⟩

end

/-- Something with `p`, which implies being `f e` with `q e`, exists. -/
theorem exists_ran {α β : Type} {p : α → Prop} {f : β → α} {q : β → Prop} (h : ∃ x, p x) (h' : ∀ x, p x → ∃ e, x = f e ∧ q e) :
    ∃ e, p (f e) ∧ q e := by
  obtain ⟨x, hx⟩ := h
  obtain ⟨e, rfl, hq⟩ := h' x hx
  exact ⟨e, hx, hq⟩

section
variable [DoubleText F64] [Upwind.HasSqrt F64]

/-- The tests of `C79_acc_passes_double` run and pass, with three threads that may each execute every iteration. -/
theorem acc_test_example (htext : ∀ x : F64, DoubleText.showDouble x = x.text) :
    ∃ e, UpwindAcc.Main .acc2 (F64.fin ⟨rnd (1 / 10)⟩) 3 (fun _ _ _ => True)
      ("upwindAcc2Cxx".toList :: upwindArgs "32".toList "10".toList) (.ok e) ∧ ∀ v, Verdict upwindTest e v ↔ v = true := by
  have h1 : ¬ LooksLikeOption "32".toList := plain_of_head (c := '3') (s := ['2']) (by decide)
  have h2 : ¬ LooksLikeOption "10".toList := plain_of_head (c := '1') (s := ['0']) (by decide)
  have hm : ∀ k i : Nat, ∃ t, t < 3 ∧ (fun _ _ _ : Nat => True) k i t := fun _ _ => ⟨0, by decide, trivial⟩
  exact exists_ran (C78_acc_size .acc2 (by decide) (F64.fin ⟨rnd (1 / 10)⟩) 3 (by decide) (fun _ _ _ => True) hm
    "upwindAcc2Cxx".toList _ _ h1 h2 (words_of htext).1).1 (C79_acc_passes_double htext .acc2 (by decide) 3 (by decide)
      (fun _ _ _ => True) hm "upwindAcc2Cxx".toList _ _ h1 h2)

/-- `C80_acc_check_sum` for upwindOMP5 without arguments and with one team: 128 cells and 10 steps. -/
theorem acc_run_example (htext : ∀ x : F64, DoubleText.showDouble x = x.text) :
    ∃ e, UpwindAcc.Main .omp5 (F64.fin ⟨rnd (1 / 10)⟩) 1 (fun _ _ _ => True) ["upwindOMP5".toList] (.ok e) ∧
      ∃ f : List F64, e.status = 0 ∧ e.out = resultText F64.text Upwind.HasSqrt.sqrt 128 10
        (UpwindAcc.Loop.omp5.hasStd && flagValue [] "-std".toList) f ∧ F64.text (f.foldl (· + ·) 0) = "1".toList := by
  have hn : ∀ (name : Str) (i : Nat), ([] : List Str)[i]? = some name → False := by
    intro name i h
    cases h
  have key := C80_acc_check_sum htext .omp5 1 (by decide) (fun _ _ _ => True)
    (fun _ _ => ⟨0, by decide, trivial⟩) "upwindOMP5".toList [] (fun _ h => absurd h (by simp)) 128 10
    ⟨fun v ⟨i, h, _⟩ => (hn _ i h).elim, .inl ⟨fun i h => (hn _ i h).elim, rfl⟩⟩
    ⟨fun v ⟨i, h, _⟩ => (hn _ i h).elim, .inl ⟨fun i h => (hn _ i h).elim, rfl⟩⟩
    (by decide) (by decide) (by decide) (fun _ => .inr rfl) (by decide)
  refine exists_ran key.1 fun x => ?_
  simpa only [exists_and_left] using key.2 x

end

/-- Both hold with the text of `F64.text`. -/
example (sqrt : F64 → F64) (atof : Str → F64) :=
  And.intro (@acc_test_example (F64.textWith atof) ⟨sqrt⟩ (fun _ => rfl))
    (@acc_run_example (F64.textWith atof) ⟨sqrt⟩ (fun _ => rfl))

end Fidi
