import Verif.Lemmas.CubeField
import Verif.Props.UpwindFieldDouble
import Verif.Props.IeeeFilter
import Verif.Props.UpwindPar

/-
C89: with IEEE numbers all programs named upwind compute the same field, up to rounding.
-/
set_option linter.unusedSectionVars false
set_option exponentiation.threshold 1100

namespace Fidi
open Spec Upwind CTest

/-- All values are finite and within `23 steps / 2^52` of those of the exact scheme with Courant number 1/10. -/
def NearCube (n k : Nat) (u : List Nat → F64) : Prop :=
  ∀ g, InGrid [n, n, n] g → ∃ x : Dbl, u g = .fin x ∧ |x.val - cubeField n k g| ≤ 23 * k / 2 ^ 52

/-- C89: `cubeField` is what upwind.cxx computes in exact arithmetic, and with fewer steps than cells along an axis the probability of
C81. -/
theorem C89_exact (n : Nat) (hn : 0 < n) (hn2 : n ≤ 1290) (k : Int) :
    ∃ s : Upwind ℚ, Upwind.mainRun (0.1 : ℚ) n k = .ok s ∧ Stores [n, n, n] s.f (cubeField n k.toNat) ∧
      (k.toNat < n → ∀ g, InGrid [n, n, n] g → cubeField n k.toNat g = drawn k.toNat g) := by
  obtain ⟨s, e, hst⟩ := exact_run hn hn2 k
  refine ⟨s, e, hst, fun hk g hg => ?_⟩
  obtain ⟨s1, e1, h1⟩ := exact_run hn hn2 (k.toNat : Int)
  obtain ⟨s2, e2, h2⟩ := C81_driver_field n hn2 k.toNat hk
  rw [e1] at e2
  obtain rfl := Except.ok.inj e2
  rw [Int.toNat_natCast] at h1
  exact Option.some.inj ((h1.2 g hg).symm.trans (h2.2 g hg))

/-- C89: upwind.cxx and upwindOMPTasks.cxx, executed by one thread. -/
theorem C89_upwind (n : Nat) (hn : 0 < n) (hn2 : n ≤ 1290) (k : Int) (hk : k < 2 ^ 31) :
    ∃ (t : Upwind F64) (u : List Nat → F64), Upwind.mainRun (F64.fin ⟨rnd (1 / 10)⟩) n k = .ok t ∧ Stores [n, n, n] t.f u ∧
      NearCube n k.toNat u := by
  obtain ⟨s', s, u, e1, e2, hst, hnear⟩ := driver_field_near n hn hn2 k hk
  obtain ⟨s2, t, e3, e4, hf, -⟩ := C69_driver n hn hn2 k hk
  rw [e1] at e3
  obtain rfl := Except.ok.inj e3
  obtain ⟨s3, e5, h5⟩ := exact_run hn hn2 k
  rw [e2] at e5
  obtain rfl := Except.ok.inj e5
  refine ⟨t, fun g => t.f.getD (rankOf [n, n, n] g) 0, e4, ⟨by rw [hf, List.length_map, hnear.1], fun g hg => ?_⟩, fun g hg => ?_⟩
  · obtain ⟨x, hx, -⟩ := hnear.2 g hg
    show _ = some (t.f.getD (rankOf [n, n, n] g) 0)
    rw [List.getD_eq_getElem?_getD, hf, List.getElem?_map, hx]
    rfl
  · obtain ⟨x, hx, hxe⟩ := hnear.2 g hg
    have hu : u g = cubeField n k.toNat g := Option.some.inj ((hst.2 g hg).symm.trans (h5.2 g hg))
    rw [hu] at hxe
    refine ⟨x, ?_, hxe⟩
    show t.f.getD (rankOf [n, n, n] g) 0 = _
    rw [List.getD_eq_getElem?_getD, hf, List.getElem?_map, hx]
    rfl

/-- C89: every threaded execution of upwind.cxx and upwindOMPTasks.cxx. For the object and the time step of `main`, for every number of
threads, schedule and interleaving, no thread runs into undefined behaviour, and when all have left the region every element of the
field is within `23 steps / 2^52` of the exact scheme. -/
theorem C89_upwind_threads (n : Nat) (hn : 0 < n) (hn2 : n ≤ 1290) (k : Int) (hk : k < 2 ^ 31) (T : Nat) (hT : 0 < T)
    (may : Nat → Nat → Nat → Prop) :
    ∃ (dt : F64) (s0 : Upwind F64),
      Upwind.mainDt (F64.fin ⟨rnd (1 / 10)⟩) (List.replicate 3 1) (List.replicate 3 1) (List.replicate 3 n) = .ok dt ∧
      Upwind.new 3 (List.replicate 3 1) (List.replicate 3 1) (List.replicate 3 n) = .ok s0 ∧
      (Covers (s0.region k dt) T may → ∀ s, PReach (s0.region k dt) T may s0.memory s → ¬ s.Faulty s0.allocated T ∧
        (¬ s.Final (s0.region k dt) T → ∃ s', PStep (s0.region k dt) T may s s') ∧
        (s.Final (s0.region k dt) T → NearCube n k.toNat fun g => s.mem (.f, rankOf [n, n, n] g))) := by
  obtain ⟨t, u, e, hst, hu⟩ := C89_upwind n hn hn2 k hk
  have hp : ∀ m ∈ List.replicate 3 n, 0 < m := by intro m hm; rw [(List.mem_replicate.1 hm).2]; exact hn
  have hcells : (List.replicate 3 n).prod < 2 ^ 31 := by
    have : n * (n * n) ≤ 1290 * (1290 * 1290) := Nat.mul_le_mul hn2 (Nat.mul_le_mul hn2 hn2)
    simp only [List.prod_replicate]
    have e : n ^ 3 = n * (n * n) := by ring
    rw [e]; omega
  have haxis : ∀ m ∈ List.replicate 3 n, m < 2 ^ 30 := by
    intro m hm; rw [(List.mem_replicate.1 hm).2]; omega
  unfold Upwind.mainRun at e
  rw [szOfInt_ofNat (by unfold W; omega)] at e
  simp only [List.length_replicate] at e
  cases hdt : Upwind.mainDt (F64.fin ⟨rnd (1 / 10)⟩) (List.replicate 3 1) (List.replicate 3 1) (List.replicate 3 n) with
  | error x => rw [hdt] at e; cases e
  | ok dt =>
    cases hnew : Upwind.new 3 (List.replicate 3 (1 : F64)) (List.replicate 3 1) (List.replicate 3 n) with
    | error x => rw [hdt, hnew] at e; cases e
    | ok s0 =>
      rw [hdt, hnew] at e
      have e : s0.advect k dt = .ok t := e
      refine ⟨dt, s0, rfl, rfl, fun hc s hs => ?_⟩
      have hlen : s0.f.length = (List.replicate 3 n).prod := by
        obtain ⟨s1, h1, h2⟩ := C32_constructor (R := F64) (List.replicate 3 n) (by simp) (by simp) hp hcells haxis (List.replicate 3 1)
          (List.replicate 3 1) (by simp) (by simp)
        rw [List.length_replicate, hnew] at h1
        obtain rfl := Except.ok.inj h1
        exact h2.1
      obtain ⟨a1, a2, a3⟩ := C35_any_schedule (List.replicate 3 n) (by simp) (by simp) hp hcells haxis (List.replicate 3 (1 : F64))
        (List.replicate 3 1) (by simp) (by simp) s0 (by rw [List.length_replicate]; exact hnew) s0.f hlen k dt T hT may hc s hs
      refine ⟨a1, a2, fun hfin g hg => ?_⟩
      obtain ⟨s1, h1, -, h3⟩ := a3 hfin
      have h1 : s0.advect k dt = .ok s1 := h1
      rw [e] at h1
      obtain rfl := Except.ok.inj h1
      obtain ⟨x, hx, hb⟩ := hu g hg
      refine ⟨x, ?_, hb⟩
      have hr : rankOf [n, n, n] g < (List.replicate 3 n).prod := by
        have := List.getElem?_eq_some_iff.1 (hst.2 g hg)
        obtain ⟨h, -⟩ := this
        rw [hst.1] at h
        exact h
      exact (Option.some.inj ((h3 _ hr).symm.trans (hst.2 g hg))).trans hx

/-- Two such fields agree to `46 steps / 2^52`. -/
theorem NearCube.agree {n k : Nat} {u v : List Nat → F64} (hu : NearCube n k u) (hv : NearCube n k v) :
    ∀ g, InGrid [n, n, n] g → ∃ x y : Dbl, u g = .fin x ∧ v g = .fin y ∧ |x.val - y.val| ≤ 46 * k / 2 ^ 52 := by
  intro g hg
  obtain ⟨x, hx, h1⟩ := hu g hg
  obtain ⟨y, hy, h2⟩ := hv g hg
  rw [abs_sub_comm] at h2
  refine ⟨x, y, hx, hy, (abs_sub_le _ _ _).trans ((add_le_add h1 h2).trans (le_of_eq ?_))⟩
  ring

/-- C89: upwindMpi with any number of processes, for the numbers of cells with which it works (C31). -/
theorem C89_mpi (sz n : Nat) (hr : InRange sz [n, n, n]) (hN : n ∣ 2 ^ 64) (hex : ∃ d, ValidDecomp sz [n, n, n] d)
    (k : Nat) (hk : k < 2 ^ 31) :
    ∃ w u, UpwindMpi.run (F64.fin ⟨rnd (1 / 10)⟩) sz n k = .ok w ∧ Partition w sz [n, n, n] ∧ InputIs w u ∧
      NearCube n k u := by
  obtain ⟨w, w', v, e1, e2, hp, hi, hi', -⟩ := C69_upwindMpi sz n hr hN hex k hk
  obtain ⟨w2, u, e3, hp2, hi2, hb, -⟩ := C68_upwindMpi_double sz n hr hN hex k hk
  rw [e1] at e3
  obtain rfl := Except.ok.inj e3
  refine ⟨w', _, e2, hp, hi', fun g hg => ⟨v g, rfl, ?_⟩⟩
  obtain ⟨r, ⟨f, hr', hbx⟩, -⟩ := hp2.2 g hg
  have hf := List.mem_of_getElem? hr'
  have hv : v g = u g := Option.some.inj ((hi f hf g hbx).symm.trans (hi2 f hf g hbx))
  rw [hv]
  refine (hb g hg).trans (div_le_div_of_nonneg_right ?_ (by positivity))
  have : (0 : ℚ) ≤ k := Nat.cast_nonneg _
  linarith

/-- C89: so upwindMpi and upwind.cxx, which agree in exact arithmetic (C31), agree to `46 steps / 2^52`. -/
theorem C89_mpi_agrees (sz n : Nat) (hr : InRange sz [n, n, n]) (hN : n ∣ 2 ^ 64) (hex : ∃ d, ValidDecomp sz [n, n, n] d)
    (hn2 : n ≤ 1290) (k : Nat) (hk : k < 2 ^ 31) :
    ∃ (w : World F64) (t : Upwind F64), UpwindMpi.run (F64.fin ⟨rnd (1 / 10)⟩) sz n k = .ok w ∧ Partition w sz [n, n, n] ∧
      Upwind.mainRun (F64.fin ⟨rnd (1 / 10)⟩) n k = .ok t ∧
      ∀ f ∈ w, ∀ g, InBox f.lo f.hi g → InGrid [n, n, n] g → ∃ x y : Dbl, f.inData[cellPos f.lo f.hi g]? = some (.fin x) ∧
        t.f[rankOf [n, n, n] g]? = some (.fin y) ∧ |x.val - y.val| ≤ 46 * k / 2 ^ 52 := by
  obtain ⟨w, u, e1, hp, hi, hu⟩ := C89_mpi sz n hr hN hex k hk
  obtain ⟨t, v, e2, hst, hv⟩ := C89_upwind n (hr.pos n (by simp)) hn2 k (by omega)
  refine ⟨w, t, e1, hp, e2, fun f hf g hb hg => ?_⟩
  obtain ⟨x, y, hx, hy, h⟩ := hu.agree hv g hg
  exact ⟨x, y, by rw [hi f hf g hb, hx], by rw [hst.2 g hg, hy], h⟩

/-- The change of upwind.py. -/
theorem python_near {n : Nat} (hn : 0 < n) (hn2 : n ≤ 1290) {steps : Int} (hk : steps < 2 ^ 31) :
    NearCube n steps.toNat (programField n (changeTimeLast (programStep (.inf false) (F64.fin ⟨rnd (1 / 10)⟩) (1 / (n : F64)))
      [1, 1, 1] [1, 1, 1] [n, n, n]) steps) := by
  obtain ⟨hdt, hfit, hr⟩ := driver_dbl hn hn2
  rw [programStep_double hn hn2 fun x _ => inf_top x]
  exact fun g hg => program_field_near hn hn2 (k := steps.toNat) (by omega) (z := 3 * (1 / 2 ^ 1075)) (by positivity) (by norm_num)
    (change_python Dbl.rounded hfit.normal (coeff_le_one hdt.le hfit.pos hfit.courant)) (hfit.change_python hr) hg

/-- The change of the Julia programs. -/
theorem julia_near {n : Nat} (hn : 0 < n) (hn2 : n ≤ 1290) {steps : Int} (hk : steps < 2 ^ 31) :
    NearCube n steps.toNat ((upwindStep [n, n, n] (upDir [(1 : F64), 1, 1]) (upCoeff (programStep (.inf false)
      (F64.fin ⟨rnd (1 / 10)⟩) (1 / (n : F64))) [1, 1, 1] [1, 1, 1] [n, n, n]))^[steps.toNat] cornerField) := by
  obtain ⟨hdt, hfit, hr⟩ := driver_dbl hn hn2
  rw [programStep_double hn hn2 fun x _ => inf_top x, upwindStep_is_scheme]
  exact fun g hg => program_field_near hn hn2 (k := steps.toNat) (by omega) (z := 3 * (1 / 2 ^ 1075)) (by positivity) (by norm_num)
    (change_cpp Dbl.rounded hfit.normal (coeff_le_one hdt.le hfit.pos hfit.courant)) hfit.change_cpp hg

/-- The change of the Fortran programs. -/
theorem fortran_near {n : Nat} (hn : 0 < n) (hn2 : n ≤ 1290) {steps : Int} (hk : steps < 2 ^ 31) :
    NearCube n steps.toNat (programField n (changeDivLast (programStep HasMax.dblMax (F64.fin ⟨rnd (1 / 10)⟩) (1 / (n : F64)))
      [1, 1, 1] [1, 1, 1] [n, n, n]) steps) := by
  obtain ⟨hdt, hfit, hr⟩ := driver_dbl hn hn2
  have hq : (n : ℚ) ≤ 1290 := by exact_mod_cast hn2
  have hq1 : (0 : ℚ) < n := by exact_mod_cast hn
  have hzz : ∀ j, j < [n, n, n].length → (3 + 2 / |cellWidth (([1, 1, 1] : List Dbl).map Dbl.val) [n, n, n] j|) * (1 / 2 ^ 1075) ≤
      (2583 / 2 ^ 1075 : ℚ) := by
    intro j hj
    have hj : j < 3 := hj
    have e : ∀ j < 3, (([1, 1, 1] : List Dbl).map Dbl.val).getD j 0 = 1 := by decide +kernel
    have e2 : ([n, n, n] : List Nat).getD j 0 = n := by
      have : j = 0 ∨ j = 1 ∨ j = 2 := by omega
      rcases this with rfl | rfl | rfl <;> rfl
    unfold cellWidth
    rw [e j hj, e2, abs_of_pos (by positivity), div_div_eq_mul_div, div_one, show (2583 / 2 ^ 1075 : ℚ) = 2583 * (1 / 2 ^ 1075) by
      ring]
    exact mul_le_mul_of_nonneg_right (by linarith) (by positivity)
  rw [programStep_double hn hn2 max_top]
  exact fun g hg => program_field_near hn hn2 (k := steps.toNat) (by omega) (z := 2583 / 2 ^ 1075) (by positivity) (by norm_num)
    (change_fortran Dbl.rounded hfit.normal (coeff_le_one hdt.le hfit.pos hfit.courant) hzz)
    (hfit.change_fortran hzz (by norm_num)) hg

/-- The change of the versions for accelerators. -/
theorem acc_near {n : Nat} (hn : 0 < n) (hn2 : n ≤ 1290) {k : Int} (hk : k < 2 ^ 31) :
    NearCube n k.toNat (driverField n (fun _ => driverStep HasMax.dblMax (F64.fin ⟨rnd (1 / 10)⟩) (1 / ((n : Int) : F64)) *
      (1 * ((upDir [(1 : F64)] 0 : Int) : F64) / (1 / ((n : Int) : F64)))) k) := by
  obtain ⟨hdt, hfit, hr⟩ := driver_dbl hn hn2
  rw [acc_step hn hn2]
  exact fun g hg => program_field_near hn hn2 (k := k.toNat) (by omega) (z := 3 * (1 / 2 ^ 1075)) (by positivity) (by norm_num)
    (change_acc Dbl.rounded hfit.normal (coeff_le_one hdt.le hfit.pos hfit.courant)) (acc_change_fin hn hn2) hg

section
variable [DoubleText F64]

/-- C89: every execution of the Fortran programs. -/
theorem C89_fortran (readInt : Str → Option Int) (sum : List F64 → F64)
    (threads rest prog : Str) (args : List Str) (n : Nat) (steps : Int) (vtk : Bool) (hprog : ∃ c ∈ prog.take 32, c ≠ ' ')
    (hargs : ∀ a ∈ args, FitsIn 32 a) (h : Asks (fun a z => readInt (filled 32 a) = some z) 100 args n steps vtk)
    (hn : 0 < n) (hn2 : n ≤ 1290) (hsteps : steps + 1 < 2 ^ 31) (hw : ∀ x : F64, IsWord (DoubleText.showDouble x))
    (hl : ∀ x : F64, (DoubleText.showDouble x).length ≤ 20) :
    ∃ u f text, NearCube n steps.toNat u ∧ Stores [n, n, n] f u ∧
      RectFile DoubleText.showDouble [n, n, n] (fun _ => 1 / (n : F64)) u text ∧
      (∃ x, FUpwind.Main readInt (F64.fin ⟨rnd (1 / 10)⟩) HasMax.dblMax sum threads rest (prog :: args) x) ∧
      ∀ x, FUpwind.Main readInt (F64.fin ⟨rnd (1 / 10)⟩) HasMax.dblMax sum threads rest (prog :: args) x → x = .ok {
        out := threads ++ fortranText rest n steps (DoubleText.showDouble (sum f))
        err := []
        files := if vtk then [("up.vtk".toList, text)] else []
        status := 0 } := by
  obtain ⟨f, text, hst, hfile, hex, hall⟩ := C60_fortran_run_partial readInt (F64.fin ⟨rnd (1 / 10)⟩) HasMax.dblMax sum threads rest
    prog args n steps vtk hprog hargs h hn hn2 hsteps F64.cast_nat_int hw hl
  exact ⟨_, f, text, fortran_near hn hn2 (by omega), hst, hfile, hex, hall⟩

/-- C89: upwind.py. -/
theorem C89_python (readInt : Str → Option Int) (sum : List F64 → F64)
    (prog : Str) (args : List Str) (n : Nat) (steps : Int) (vtk : Bool) (h : Asks (fun a z => readInt a = some z) 100 args n steps vtk)
    (hn : 0 < n) (hn2 : n ≤ 1290) (hk : steps < 2 ^ 31) (hw : ∀ x : F64, IsWord (DoubleText.showDouble x)) :
    ∃ u f text grid, NearCube n steps.toNat u ∧ Stores [n, n, n] f u ∧
      readRectHead text = some grid ∧ grid.values.flatten = f.flatMap DoubleText.showDouble ∧
      PyUpwind.main readInt (F64.fin ⟨rnd (1 / 10)⟩) (.inf false) sum (prog :: args) = .ok {
        out := scriptText "  " n steps (DoubleText.showDouble (sum f))
        err := []
        files := if vtk then [("up.vtk".toList, text)] else []
        status := 0 } := by
  obtain ⟨f, text, grid, hst, hr, _, hv, _, e⟩ := C60_python_run_partial readInt (F64.fin ⟨rnd (1 / 10)⟩) (.inf false) sum prog args
    n steps vtk h hn hn2 F64.cast_nat_int hw
  exact ⟨_, f, text, grid, python_near hn hn2 hk, hst, hr, hv, e⟩

/-- C89: upwind.jl and upwind3.jl, which store the field column by column. -/
theorem C89_julia (readInt : Str → Option Int) (sum : List F64 → F64)
    (script : Str) (args : List Str) (n : Nat) (steps : Int) (hn : 0 < n) (hn2 : n ≤ 1290) (hk : steps < 2 ^ 31) :
    (Asks (fun a z => readInt a = some z) 100 args n steps false →
      ∃ u f, NearCube n steps.toNat u ∧ StoresCol [n, n, n] f u ∧
        JlUpwind.main readInt (F64.fin ⟨rnd (1 / 10)⟩) (.inf false) sum script args = .ok {
          out := scriptText " " n steps (DoubleText.showDouble (sum f)), err := [], files := [], status := 0 }) ∧
    ((args = [] ∧ n = 128 ∧ steps = 2) ∨ Asks (fun a z => readInt a = some z) 2 args n steps false →
      ∃ u f, NearCube n steps.toNat u ∧ StoresCol [n, n, n] f u ∧
        JlUpwind.main3 readInt (F64.fin ⟨rnd (1 / 10)⟩) (.inf false) sum args = .ok {
          out := scriptText " " n steps (DoubleText.showDouble (sum f)), err := [], files := [], status := 0 }) := by
  have hc : n * n * n + 1 < 2 ^ 63 := by
    have := Nat.mul_le_mul (Nat.mul_le_mul hn2 hn2) hn2
    omega
  constructor
  · intro h
    obtain ⟨f, hst, e⟩ := C60_julia_run_partial readInt (F64.fin ⟨rnd (1 / 10)⟩) (.inf false) sum script args n steps h hn hc
      F64.cast_nat_int
    exact ⟨_, f, julia_near hn hn2 hk, hst, e⟩
  · intro h
    obtain ⟨f, hst, e⟩ := C60_julia3_run_partial readInt (F64.fin ⟨rnd (1 / 10)⟩) (.inf false) sum args n steps h hn hc
      F64.cast_nat_int
    exact ⟨_, f, julia_near hn hn2 hk, hst, e⟩

/-- C89: upwindMPI.py on any number of processes. -/
theorem C89_python_mpi (decomp : Nat → Nat → Option (MpiNum × (Nat × Nat × Nat))) (readInt : Str → Option Int)
    (time : Str) (sum : List F64 → F64) (hsum : SumsUp 8 sum) (size : Nat) (prog : Str) (args : List Str) (n : Nat) (steps : Int)
    (vtk : Bool) (h : Asks (fun a z => readInt a = some z) 100 args n steps vtk) (hn : 0 < n) (hn2 : n ≤ 1290) (hk : steps < 2 ^ 31)
    (dc : MpiNum) (box : Nat × Nat × Nat) (hd : decomp size n = some (dc, box)) (hdc : dc.Good size box (n, n, n))
    (hw : ∀ x : F64, IsWord (DoubleText.showDouble x)) :
    ∃ (u : List Nat → F64) (f : Nat → Arr3 F64) (s : Dbl) (file : Str), NearCube n steps.toNat u ∧
      (∀ rk, rk < size → ∀ x y z, x < box.1 → y < box.2.1 → z < box.2.2 →
        f rk x y z = u [(dc.coords rk).1 * box.1 + x, (dc.coords rk).2.1 * box.2.1 + y, (dc.coords rk).2.2 * box.2.2 + z]) ∧
      AnySum (List.replicate 1 0 ++ (List.range size).flatMap fun rk => (List.range box.1).flatMap fun x =>
        (List.range box.2.1).flatMap fun y => (List.range box.2.2).map fun z => f rk x y z) (F64.fin s) ∧
      PyMpi.main decomp readInt time (F64.fin ⟨rnd (1 / 10)⟩) (.inf false) sum size (prog :: args) =
        .ok ⟨(List.range size).map fun rk =>
          if rk = 0 then {
            out := localText 0 box ++ mpiText n time ++ sumLine (DoubleText.showDouble (F64.fin s)), err := []
            files := if vtk then [("upMPI.vtk".toList, file)] else [], status := 0 }
          else { out := localText rk box, err := [], files := [], status := 0 }⟩ := by
  obtain ⟨f, s, text, grid, hf, hs, -, -, -, -, -, hmain⟩ := C62_run_partial decomp readInt time (F64.fin ⟨rnd (1 / 10)⟩) (.inf false) sum
    size prog args n steps vtk h hn dc box hd hdc F64.cast_nat_int (by decide +kernel) hw
  obtain ⟨s', e, -⟩ := mpi_sum_double hn hn2 hk hsum hdc hf (m := 1) (by decide) (anySum_foldl _)
  have hany := anySum_foldl ((List.range size).flatMap fun rk => (List.range box.1).flatMap fun x =>
    (List.range box.2.1).flatMap fun y => (List.range box.2.2).map fun z => f rk x y z)
  rw [e] at hany
  rw [← hs] at e
  rw [e] at hmain
  refine ⟨_, f, s', text, fun g hg => ?_, hf, hany, hmain⟩
  obtain ⟨w, h1, -, h3, -, -⟩ := mpi_field hn hn2 (k := steps.toNat) (by omega) hsum [box.1, box.2.1, box.2.2]
  refine ⟨w g, h1 g hg, ?_⟩
  refine (abs_sub_le _ _ _).trans ((add_le_add ((h3 g hg).trans (grown_error (by omega) (by positivity) (by norm_num)))
    (cubeField_near hn hn2 steps.toNat hg)).trans (le_of_eq ?_))
  ring

variable [Upwind.HasSqrt F64]

/-- C89: every execution of upwindAcc and upwindAcc2, and of upwindOMP5 with one step or one team. -/
theorem C89_acc (l : UpwindAcc.Loop) (T : Nat) (hT : 0 < T)
    (may : Nat → Nat → Nat → Prop) (hmay : ∀ k i, ∃ t, t < T ∧ may k i t) (exec : Str) (args : List Str)
    (h : AllKnown (upwindNames l.hasStd) args) (n : Nat) (steps : Int)
    (h1 : IntValue Reads args "-numCells".toList 128 n) (h2 : IntValue Reads args "-numSteps".toList 10 steps)
    (hh : flagValue args "-h".toList = false) (hn : 0 < n) (hn2 : n ≤ 1290) (hk : steps < 2 ^ 31)
    (hone : l = .omp5 → steps ≤ 1 ∨ T = 1) (hw : ∀ x : F64, IsWord (DoubleText.showDouble x)) :
    (∃ x, UpwindAcc.Main l (F64.fin ⟨rnd (1 / 10)⟩) T may (exec :: args) x) ∧
    ∀ x, UpwindAcc.Main l (F64.fin ⟨rnd (1 / 10)⟩) T may (exec :: args) x → ∃ u f text, NearCube n steps.toNat u ∧
      Stores [n, n, n] f u ∧ RectFile DoubleText.showDouble [n, n, n] (fun _ => 1 / ((n : Int) : F64)) u text ∧
      x = .ok {
        out := resultText DoubleText.showDouble Upwind.HasSqrt.sqrt n steps (l.hasStd && flagValue args "-std".toList) f
        err := []
        files := if flagValue args "-vtk".toList then [("up.vtk".toList, text)] else []
        status := 0 } := by
  obtain ⟨hex, hall⟩ := C56_acc_run_partial l (F64.fin ⟨rnd (1 / 10)⟩) T hT may hmay exec args h n steps h1 h2 hh hn hn2 hone hw
  refine ⟨hex, fun x hx => ?_⟩
  obtain ⟨f, text, hst, hfile, e⟩ := hall x hx
  exact ⟨_, f, text, acc_near hn hn2 hk, hst, hfile, e⟩

end

/-- C89: what a file with six digits says of such a field. -/
theorem C89_file {n k : Nat} {u : List Nat → F64} (hu : NearCube n k u) {width : Nat → F64} {text : Str}
    (h : RectFile F64.text [n, n, n] width u text) :
    ∃ grid, readRect text = some grid ∧ ∀ g, InGrid [n, n, n] g →
      ∃ q : ℚ, (grid.value (g.getD 2 0) (g.getD 1 0) (g.getD 0 0)).bind readDecimal = some q ∧
        |q - cubeField n k g| ≤ cubeField n k g / 200000 + 24 * k / 2 ^ 52 := by
  obtain ⟨grid, hr, -, -, -, hval⟩ := h
  refine ⟨grid, hr, fun g hg => ?_⟩
  obtain ⟨x, hx, hxe⟩ := hu g hg
  obtain ⟨q, a1, -, -, a4⟩ := C80_six_digits x
  refine ⟨q, by rw [hval g hg, Option.bind_some, hx]; exact a1, ?_⟩
  have h0 := (cubeField_between n k hg).1
  have h3 := abs_sub_le q x.val (cubeField n k g)
  have h4 : |x.val| ≤ cubeField n k g + 23 * k / 2 ^ 52 := by
    have := abs_sub_abs_le_abs_sub x.val (cubeField n k g)
    rw [abs_of_nonneg h0] at this
    linarith
  have h5 : (0 : ℚ) ≤ k := Nat.cast_nonneg _
  norm_num at hxe h4 ⊢
  linarith

/-! ### What this says of the fields -/

/-- C89: with fewer steps than cells along an axis the value in a cell is the probability of C81, up to rounding. -/
theorem C89_closed_form {n k : Nat} (hn : 0 < n) (hn2 : n ≤ 1290) (hk : k < n) {u : List Nat → F64} (hu : NearCube n k u) :
    ∀ g, InGrid [n, n, n] g → ∃ x : Dbl, u g = .fin x ∧ |x.val - drawn k g| ≤ 23 * k / 2 ^ 52 := by
  intro g hg
  obtain ⟨x, hx, h⟩ := hu g hg
  obtain ⟨_, -, -, hd⟩ := C89_exact n hn hn2 k
  have e := hd (by simpa using hk) g hg
  rw [Int.toNat_natCast] at e
  exact ⟨x, hx, e ▸ h⟩

/-- C89: all values are between 0 and 1, up to rounding. -/
theorem C89_range {n k : Nat} {u : List Nat → F64} (hu : NearCube n k u) :
    ∀ g, InGrid [n, n, n] g → ∃ x : Dbl, u g = .fin x ∧ -(23 * k / 2 ^ 52) ≤ x.val ∧ x.val ≤ 1 + 23 * k / 2 ^ 52 := by
  intro g hg
  obtain ⟨x, hx, h⟩ := hu g hg
  have h2 := abs_le.1 h
  have h3 := cubeField_between n k hg
  exact ⟨x, hx, by linarith, by linarith⟩

/-- C89: the fields are symmetric in their axes, up to rounding. -/
theorem C89_symmetric {n k : Nat} (hn : 0 < n) (hn2 : n ≤ 1290) {u : List Nat → F64} (hu : NearCube n k u) (σ : Equiv.Perm (Fin 3)) :
    ∀ g, InGrid [n, n, n] g → ∃ x y : Dbl, u g = .fin x ∧ u (reorder 0 σ g) = .fin y ∧ |x.val - y.val| ≤ 46 * k / 2 ^ 52 := by
  intro g hg
  have hg' : InGrid [n, n, n] (reorder 0 σ g) := by
    have h := reorder_inGrid (N := [n, n, n]) (σ := σ) rfl hg
    rwa [show reorder 0 σ [n, n, n] = [n, n, n] from
      List.eq_replicate_iff.2 ⟨reorder_length _, fun x hx => by
        have := mem_reorder (σ := σ) (l := [n, n, n]) rfl hx
        simpa using this⟩] at h
  obtain ⟨s, w, e, hw, hsym⟩ := C82_driver n hn hn2 k σ
  obtain ⟨s2, e2, h2⟩ := exact_run hn hn2 (k : Int)
  rw [e] at e2
  obtain rfl := Except.ok.inj e2
  rw [Int.toNat_natCast] at h2
  have huw : ∀ g, InGrid [n, n, n] g → cubeField n k g = w g := fun g hg => Option.some.inj ((h2.2 g hg).symm.trans (hw.2 g hg))
  obtain ⟨x, hx, hxe⟩ := hu g hg
  obtain ⟨y, hy, hye⟩ := hu _ hg'
  refine ⟨x, y, hx, hy, ?_⟩
  rw [huw _ hg', hsym g hg, ← huw g hg, abs_sub_comm] at hye
  refine (abs_sub_le _ _ _).trans ((add_le_add hxe hye).trans (le_of_eq ?_))
  ring

section
variable [DoubleText F64] [Upwind.HasSqrt F64]

/-- C89: the file up.vtk of upwindAcc, upwindAcc2 and upwindOMP5 with `-vtk`: the decimal number that stands for a cell is that of the
exact scheme, up to half a unit of the sixth digit and `24 steps / 2^52`. -/
theorem C89_acc_file (htext : ∀ x : F64, DoubleText.showDouble x = x.text) (l : UpwindAcc.Loop) (T : Nat) (hT : 0 < T)
    (may : Nat → Nat → Nat → Prop) (hmay : ∀ k i, ∃ t, t < T ∧ may k i t) (exec : Str) (args : List Str)
    (h : AllKnown (upwindNames l.hasStd) args) (n : Nat) (steps : Int)
    (h1 : IntValue Reads args "-numCells".toList 128 n) (h2 : IntValue Reads args "-numSteps".toList 10 steps)
    (hh : flagValue args "-h".toList = false) (hv : flagValue args "-vtk".toList = true) (hn : 0 < n) (hn2 : n ≤ 1290)
    (hk : steps < 2 ^ 31) (hone : l = .omp5 → steps ≤ 1 ∨ T = 1) :
    (∃ x, UpwindAcc.Main l (F64.fin ⟨rnd (1 / 10)⟩) T may (exec :: args) x) ∧
    ∀ x, UpwindAcc.Main l (F64.fin ⟨rnd (1 / 10)⟩) T may (exec :: args) x → ∃ e : Exit, x = .ok e ∧ e.status = 0 ∧
      ∃ text grid, e.files = [("up.vtk".toList, text)] ∧ readRect text = some grid ∧ ∀ g, InGrid [n, n, n] g →
        ∃ q : ℚ, (grid.value (g.getD 2 0) (g.getD 1 0) (g.getD 0 0)).bind readDecimal = some q ∧
          |q - cubeField n steps.toNat g| ≤ cubeField n steps.toNat g / 200000 + 24 * steps.toNat / 2 ^ 52 := by
  obtain ⟨hex, hall⟩ := C89_acc l T hT may hmay exec args h n steps h1 h2 hh hn hn2 hk hone (words_of htext).1
  refine ⟨hex, fun x hx => ?_⟩
  obtain ⟨u, f, text, hu, -, hfile, e⟩ := hall x hx
  rw [show (DoubleText.showDouble : F64 → Str) = F64.text from funext htext] at hfile
  obtain ⟨grid, hr, hq⟩ := C89_file hu hfile
  exact ⟨_, e, rfl, text, grid, if_pos hv, hr, hq⟩

end

/-! ### Non-vacuity -/

/-- The value that stays in the corner for 7 of 12 steps is 7/10 to the power of 7. -/
theorem corner_7 {u : List Nat → F64} (h : NearCube 12 7 u) :
    ∃ x : Dbl, u [0, 0, 0] = .fin x ∧ |x.val - 823543 / 10 ^ 7| ≤ 1 / 10 ^ 12 := by
  obtain ⟨x, hx, hb⟩ := h [0, 0, 0] (by simp [InGrid])
  obtain ⟨_, -, -, hd⟩ := C89_exact 12 (by decide) (by decide) 7
  have e := hd (by decide) [0, 0, 0] (by simp [InGrid])
  rw [show (7 : Int).toNat = 7 from rfl] at e
  rw [e, show drawn 7 [0, 0, 0] = 823543 / 10 ^ 7 by norm_num [drawn, Nat.factorial]] at hb
  exact ⟨x, hx, hb.trans (by norm_num)⟩

/-- 8 cells along each axis on 16 processes, a million steps: both programs run and agree to 10^-8. -/
example : ∃ (w : World F64) (t : Upwind F64), UpwindMpi.run (F64.fin ⟨rnd (1 / 10)⟩) 16 8 (1000000 : Nat) = .ok w ∧
    Upwind.mainRun (F64.fin ⟨rnd (1 / 10)⟩) (8 : Nat) (1000000 : Nat) = .ok t ∧
    ∃ f ∈ w, ∃ x y : Dbl, f.inData[cellPos f.lo f.hi [3, 5, 6]]? = some (.fin x) ∧
      t.f[rankOf [8, 8, 8] [3, 5, 6]]? = some (.fin y) ∧ |x.val - y.val| ≤ 1 / 10 ^ 7 := by
  obtain ⟨w, t, e1, hp, e2, h⟩ := C89_mpi_agrees 16 8
    ⟨by decide, by decide, by decide, by decide, by decide, by decide, by decide, by decide⟩ (by decide)
    ⟨[2, 2, 4], .cons (by decide) (.cons (by decide) (.cons (by decide) .nil)), rfl⟩ (by decide) 1000000 (by decide)
  have hg : InGrid [8, 8, 8] [3, 5, 6] := ⟨by decide, by decide, by decide, trivial⟩
  obtain ⟨r, ⟨f, hr, hb⟩, -⟩ := hp.2 [3, 5, 6] hg
  have hf := List.mem_of_getElem? hr
  obtain ⟨x, y, a, b, c⟩ := h f hf _ hb hg
  exact ⟨w, t, e1, e2, f, hf, x, y, a, b, c.trans (by norm_num)⟩

/-- upwindMpi with 8 cells along each axis on 16 processes and 7 steps: the value of a cell is a multinomial probability, it is that of
the cell with its coordinates reversed, and it is not negative beyond rounding. -/
example : ∃ (w : World F64) (u : List Nat → F64), UpwindMpi.run (F64.fin ⟨rnd (1 / 10)⟩) 16 8 (7 : Nat) = .ok w ∧ InputIs w u ∧
    ∃ x y : Dbl, u [1, 2, 3] = .fin x ∧ u [3, 2, 1] = .fin y ∧ |x.val - 294 / 10 ^ 6| ≤ 1 / 10 ^ 13 ∧
      |x.val - y.val| ≤ 1 / 10 ^ 13 ∧ -(1 / 10 ^ 13) ≤ y.val := by
  obtain ⟨w, u, e, -, hi, hu⟩ := C89_mpi 16 8
    ⟨by decide, by decide, by decide, by decide, by decide, by decide, by decide, by decide⟩ (by decide)
    ⟨[2, 2, 4], .cons (by decide) (.cons (by decide) (.cons (by decide) .nil)), rfl⟩ 7 (by decide)
  have hg : InGrid [8, 8, 8] [1, 2, 3] := ⟨by decide, by decide, by decide, trivial⟩
  have hg' : InGrid [8, 8, 8] [3, 2, 1] := ⟨by decide, by decide, by decide, trivial⟩
  obtain ⟨x, y, hx, hy, h⟩ := C89_symmetric (by decide) (by decide) hu (Equiv.swap 0 2) _ hg
  rw [show reorder 0 (Equiv.swap (0 : Fin 3) 2) [1, 2, 3] = [3, 2, 1] by decide] at hy
  obtain ⟨x', hx', h1⟩ := C89_closed_form (by decide) (by decide) (by decide) hu _ hg
  obtain ⟨y', hy', h2, -⟩ := C89_range hu _ hg'
  obtain rfl : x = x' := F64.fin.inj (hx.symm.trans hx')
  obtain rfl : y = y' := F64.fin.inj (hy.symm.trans hy')
  refine ⟨w, u, e, hi, x, y, hx, hy, ?_, h.trans (by norm_num), le_trans (by norm_num) h2⟩
  rw [show drawn 7 [1, 2, 3] = 294 / 10 ^ 6 by norm_num [drawn, Nat.factorial]] at h1
  exact h1.trans (by norm_num)

/-- Three threads and a dynamic schedule meet the hypotheses, and there is an execution that ends. -/
example : ∃ (dt : F64) (s0 : Upwind F64) (s : PState UpLoc F64),
    Upwind.mainDt (F64.fin ⟨rnd (1 / 10)⟩) (List.replicate 3 1) (List.replicate 3 1) (List.replicate 3 12) = .ok dt ∧
    Upwind.new 3 (List.replicate 3 1) (List.replicate 3 1) (List.replicate 3 12) = .ok s0 ∧
    PReach (s0.region 7 dt) 3 (fun _ _ _ => True) s0.memory s ∧ s.Final (s0.region 7 dt) 3 ∧
    ∃ x : Dbl, s.mem (.f, 0) = .fin x ∧ |x.val - 823543 / 10 ^ 7| ≤ 1 / 10 ^ 12 := by
  obtain ⟨dt, s0, e1, e2, h⟩ := C89_upwind_threads 12 (by decide) (by decide) 7 (by decide) 3 (by decide) (fun _ _ _ => True)
  have hc : Covers (s0.region 7 dt) 3 (fun _ _ _ => True) := fun _ _ _ _ => ⟨0, by omega, trivial⟩
  have hg : GoodGrid (List.replicate 3 12) := ⟨by decide, by decide, by decide⟩
  have hb : s0 = built (List.replicate 3 1) (List.replicate 3 1) (List.replicate 3 12) :=
    Except.ok.inj (e2.symm.trans (new_built (N := List.replicate 3 12) (by simp) (by simp) hg rfl rfl))
  obtain ⟨s, hs, hf⟩ := exists_final (reg := s0.region 7 dt) (T := 3) (may := fun _ _ _ => True) (B := 4 * 3) (by
    rw [hb]
    exact region_len (N := List.replicate 3 12) (v := List.replicate 3 (1 : F64)) (L := List.replicate 3 1)
      (f := (built (List.replicate 3 (1 : F64)) (List.replicate 3 1) (List.replicate 3 12)).f)
      (old := (built (List.replicate 3 (1 : F64)) (List.replicate 3 1) (List.replicate 3 12)).oldF) hg rfl 7 dt (by simp)) s0.memory fun s hs hn => (h hc s hs).2.1 hn
  obtain ⟨x, hx, hd⟩ := corner_7 ((h hc s hs).2.2 hf)
  exact ⟨dt, s0, s, e1, e2, hs, hf, x, hx, hd⟩

/-- upwind.py, upwind.jl, upwind3.jl and upwindMPI.py on six processes, with 12 cells and 7 steps. -/
example (atof : Str → F64) :
    letI := F64.textWith atof
    (∃ (e : Exit) (f : List F64) (x : Dbl), PyUpwind.main readSample (F64.fin ⟨rnd (1 / 10)⟩) (.inf false) (fun l => l.foldl (· + ·) 0)
      ("upwind.py".toList :: upwindArgs "12".toList "7".toList) = .ok e ∧ f[0]? = some (.fin x) ∧
        e.out = scriptText "  " 12 7 (F64.text (f.foldl (· + ·) 0)) ∧ |x.val - 823543 / 10 ^ 7| ≤ 1 / 10 ^ 12) ∧
    (∃ (e : Exit) (f : List F64) (x : Dbl), JlUpwind.main3 readSample (F64.fin ⟨rnd (1 / 10)⟩) (.inf false)
      (fun l => l.foldl (· + ·) 0) (upwindArgs "12".toList "7".toList) = .ok e ∧ f[0]? = some (.fin x) ∧
        |x.val - 823543 / 10 ^ 7| ≤ 1 / 10 ^ 12) ∧
    ∃ (e : MpiExit) (f : Nat → Arr3 F64) (x : Dbl), PyMpi.main (fun _ _ => some (rowMajor 2 3 1, (6, 4, 12))) readSample
      "0.125".toList (F64.fin ⟨rnd (1 / 10)⟩) (.inf false) (fun l => l.foldl (· + ·) 0) 6
      ("upwindMPI.py".toList :: upwindArgs "12".toList "7".toList) = .ok e ∧ f 0 0 0 0 = .fin x ∧
        |x.val - 823543 / 10 ^ 7| ≤ 1 / 10 ^ 12 := by
  let _ := F64.textWith atof
  have hsum : SumsUp 8 (fun l : List F64 => l.foldl (· + ·) 0) := fun l hl => by
    obtain ⟨z, hz, h⟩ := sumsUp_fold.1 l hl
    exact ⟨z, by omega, h⟩
  have hg : InGrid [12, 12, 12] [0, 0, 0] := by simp [InGrid]
  refine ⟨?_, ?_, ?_⟩
  · obtain ⟨u, f, text, grid, hu, hst, -, -, e⟩ := C89_python readSample (fun l => l.foldl (· + ·) 0) "upwind.py".toList
      (upwindArgs "12".toList "7".toList) 12 7 false (C78_other_sizes_partial _ 100 _ _ 12 7 (by decide) (by decide)) (by decide)
      (by decide) (by decide) (words_of fun _ => rfl).1
    obtain ⟨x, hx, hb⟩ := corner_7 hu
    exact ⟨_, f, x, e, (hst.2 _ hg).trans (congrArg some hx), rfl, hb⟩
  · obtain ⟨u, f, hu, hst, e⟩ := (C89_julia readSample (fun l => l.foldl (· + ·) 0) "upwind.jl".toList
      (upwindArgs "12".toList "7".toList) 12 7 (by decide) (by decide) (by decide)).2
      (.inr (C78_other_sizes_partial _ 2 _ _ 12 7 (by decide) (by decide)))
    obtain ⟨x, hx, hb⟩ := corner_7 hu
    exact ⟨_, f, x, e, (hst.2 _ hg).trans (congrArg some hx), hb⟩
  · obtain ⟨u, f, s, file, hu, hf, -, e⟩ := C89_python_mpi (fun _ _ => some (rowMajor 2 3 1, (6, 4, 12))) readSample
      "0.125".toList _ hsum 6 "upwindMPI.py".toList (upwindArgs "12".toList "7".toList) 12 7 false
      (C78_other_sizes_partial _ 100 _ _ 12 7 (by decide) (by decide)) (by decide) (by decide) (by decide) (rowMajor 2 3 1) (6, 4, 12)
      rfl (rowMajor_good 2 3 1 (6, 4, 12) (by decide) (by decide) (by decide)) (words_of fun _ => rfl).1
    obtain ⟨x, hx, hb⟩ := corner_7 hu
    exact ⟨_, f, x, e, (hf 0 (by decide) 0 0 0 (by decide) (by decide) (by decide)).trans hx, hb⟩

section
variable [DoubleText F64]

/-- An execution of the Fortran programs. -/
theorem fortran_field_example (hw : ∀ x : F64, IsWord (DoubleText.showDouble x))
    (hl : ∀ x : F64, (DoubleText.showDouble x).length ≤ 20) :
    ∃ e : Exit, FUpwind.Main readSample (F64.fin ⟨rnd (1 / 10)⟩) HasMax.dblMax
      (fun l => l.foldl (· + ·) 0) [] [] ("upwindF08".toList :: upwindArgs "12".toList "7".toList) (.ok e) ∧
      ∃ (f : List F64) (x : Dbl), e.out = fortranText [] 12 7 (DoubleText.showDouble (f.foldl (· + ·) 0)) ∧
        f[0]? = some (.fin x) ∧ |x.val - 823543 / 10 ^ 7| ≤ 1 / 10 ^ 12 := by
  obtain ⟨u, f, text, hu, hst, -, hex, hall⟩ := C89_fortran readSample (fun l => l.foldl (· + ·) 0) [] [] "upwindF08".toList
    (upwindArgs "12".toList "7".toList) 12 7 false ⟨'u', by decide, by decide⟩
    (by
      intro a ha
      simp only [upwindArgs, List.mem_cons, List.not_mem_nil, or_false] at ha
      rcases ha with rfl | rfl
      · exact ⟨by decide, '2', by decide, by decide⟩
      · exact ⟨by decide, '7', by decide, by decide⟩)
    (C78_other_sizes_partial _ 100 _ _ 12 7 (by decide) (by decide)) (by decide) (by decide) (by decide) hw hl
  obtain ⟨x, hx, hb⟩ := corner_7 hu
  refine exists_ran hex fun x' => Function.comp ?_ (hall x')
  exact fun e => ⟨_, e, f, x, rfl, (hst.2 [0, 0, 0] (by simp [InGrid])).trans (congrArg some hx), hb⟩

/-- upwindAcc2 with `-vtk`, three threads, 128 cells and 10 steps: the file says up to 10^-6 that 7/10 to the power of 10 is left in the
corner. -/
theorem acc_file_example [Upwind.HasSqrt F64] (htext : ∀ x : F64, DoubleText.showDouble x = x.text) :
    ∃ e : Exit, UpwindAcc.Main .acc2 (F64.fin ⟨rnd (1 / 10)⟩) 3 (fun _ _ _ => True) ["upwindAcc2".toList, "-vtk".toList] (.ok e) ∧
      ∃ (text : Str) (grid : RectGrid) (q : ℚ), e.files = [("up.vtk".toList, text)] ∧ readRect text = some grid ∧
      (grid.value 0 0 0).bind readDecimal = some q ∧ |q - 282475249 / 10 ^ 10| ≤ 1 / 10 ^ 6 := by
  have key : ∀ (name : Str) (i : Nat), name ≠ "-vtk".toList → ["-vtk".toList][i]? = some name → False := by
    intro name i hn h
    match i with
    | 0 => exact hn (Option.some.inj h).symm
    | i + 1 => cases h
  have h := C89_acc_file htext .acc2 3 (by decide) (fun _ _ _ => True) (fun _ _ => ⟨0, by decide, trivial⟩) "upwindAcc2".toList
    ["-vtk".toList] (by intro a ha _; rw [List.mem_singleton.1 ha]; decide) 128 10
    ⟨fun v ⟨i, h, _⟩ => (key _ i (by decide) h).elim, .inl ⟨fun i h => (key _ i (by decide) h).elim, rfl⟩⟩
    ⟨fun v ⟨i, h, _⟩ => (key _ i (by decide) h).elim, .inl ⟨fun i h => (key _ i (by decide) h).elim, rfl⟩⟩
    (by decide) (by decide) (by decide) (by decide) (by decide) (fun h => nomatch h)
  refine exists_ran h.1 fun x => Function.comp ?_ (h.2 x)
  rintro ⟨e, he, -, text, grid, hfiles, hr, hq⟩
  obtain ⟨q, hq1, hq2⟩ := hq [0, 0, 0] (by simp [InGrid])
  obtain ⟨_, -, -, hd⟩ := C89_exact 128 (by decide) (by decide) 10
  have ed := hd (by decide) [0, 0, 0] (by simp [InGrid])
  rw [ed, show drawn (10 : Int).toNat [0, 0, 0] = 282475249 / 10 ^ 10 by
    rw [show (10 : Int).toNat = 10 from rfl]; norm_num [drawn, Nat.factorial]] at hq2
  exact ⟨e, he, text, grid, q, hfiles, hr, hq1, hq2.trans (by
    rw [show (10 : Int).toNat = 10 from rfl]; norm_num)⟩

end

/-- Both with actual texts: one that fits the columns of Fortran and that of `F64.text`. -/
example (sqrt : F64 → F64) (atof : Str → F64) :=
  And.intro (@fortran_field_example ⟨atof, fun _ => "1.000000000".toList⟩
      (fun _ => show IsWord "1.000000000".toList from ⟨by decide, by decide⟩)
      (fun _ => show "1.000000000".toList.length ≤ 20 by decide))
    (@acc_file_example (F64.textWith atof) ⟨sqrt⟩ (fun _ => rfl))

end Fidi
