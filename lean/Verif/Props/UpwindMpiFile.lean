import Verif.Props.UpwindAll
import Verif.Props.MainsMpiDouble

/-
C89: the files of upwindMpi and upwind with IEEE numbers, for every number of steps.
-/
set_option linter.unusedSectionVars false

namespace Fidi
open Spec CmdLineArgParser

/-- The field of upwindMpi after `k` steps, as the closed form of its outcomes (C56) writes it. -/
theorem mpi_field_near {sz N : Nat} (hr : InRange sz [N, N, N]) (hN : N ∣ 2 ^ 64) (hex : ∃ d, ValidDecomp sz [N, N, N] d)
    (k : Nat) (hk : k < 2 ^ 31) :
    NearCube N k (stencilIter64 [N, N, N] (mpiStencil HasMax.dblMax (F64.fin ⟨rnd (1 / 10)⟩) N) cornerField k) := by
  obtain ⟨c, -, hf, -, hcd, _, _, hst, haxis, w, w0, es, _, e0, _, hall⟩ :=
    mpi_runs_build (R := F64) (by decide +kernel) (F64.fin ⟨rnd (1 / 10)⟩) sz N hr hN hex
  obtain ⟨wk, ek, hval, hwk⟩ := hall k
  have hrun : UpwindMpi.run (F64.fin ⟨rnd (1 / 10)⟩) sz N k = .ok wk := by
    unfold UpwindMpi.run
    rw [es, M.ok_bind, hval, e0, M.ok_bind, szOfInt_ofNat (by unfold W; omega), ek]
  have hg := hf.toGood
  have hin := input_of hg hwk (fun x f h => ⟨h.shape, h.data⟩)
  obtain ⟨w', u, e, hp, hi, hu⟩ := C89_mpi sz N hr hN hex k hk
  obtain rfl := Except.ok.inj (hrun.symm.trans e)
  have hcorner : ∀ g, InGrid [N, N, N] g → UpwindMpi.initialCondition (R := F64) g = cornerField g := by
    intro g hg
    have hN11 : N ≤ 2 ^ 11 := by
      have hc : N * (N * N) ≤ 2 ^ 32 := by simpa using hr.cells
      by_contra hlt
      have h1 : 2 ^ 11 ≤ N := by omega
      have h2 : (2 ^ 11) * (2 ^ 11 * 2 ^ 11) ≤ N * (N * N) := Nat.mul_le_mul h1 (Nat.mul_le_mul h1 h1)
      omega
    obtain ⟨a, b, c, rfl, ha, hb, hc⟩ := cell3 hg
    apply initialCondition_eq
    simp only [List.sum_cons, List.sum_nil]
    omega
  intro g hg
  obtain ⟨x, hx, hb⟩ := hu g hg
  refine ⟨x, ?_, hb⟩
  obtain ⟨r, ⟨f, hr', hbx⟩, -⟩ := hp.2 g hg
  have hf := List.mem_of_getElem? hr'
  have e1 : stencilIter c.dims c.st UpwindMpi.initialCondition k g = u g :=
    Option.some.inj ((hin f hf g hbx).symm.trans (hi f hf g hbx))
  rw [← hx, ← e1, hcd, ← stencilIter64_pow (by simpa using hN)]
  rw [hst] at haxis ⊢
  exact (stencilIter64_congr (fun p hp => (haxis p hp).1) hcorner k g hg).symm

variable [DoubleText F64]

/-- C89: the file upMpi.vtk of upwindMpi with `-vtk` and at least one step, whatever the order in which MPI adds: rank 0 writes it, and
the decimal number that stands for a cell is that of the exact scheme, up to half a unit of the sixth digit and `24 steps / 2^52`. -/
theorem C89_mpi_file (htext : ∀ x : F64, DoubleText.showDouble x = x.text) (times : Str) (sz : Nat) (exec : Str)
    (args : List Str) (h : AllKnown (upwindNames false) args) (N : Nat) (steps : Int)
    (h1 : IntValue Reads args "-numCells".toList 128 N) (h2 : IntValue Reads args "-numSteps".toList 10 steps)
    (hh : flagValue args "-h".toList = false) (hv : flagValue args "-vtk".toList = true) (hr : InRange sz [N, N, N])
    (hcells : N * N * N ≤ 2 ^ 31) (hex : ∃ d, ValidDecomp sz [N, N, N] d) (hN : N ∣ 2 ^ 64) (hs : 0 < steps) (hs2 : steps < 2 ^ 31) :
    (∃ x, UpwindMpi.Main (F64.fin ⟨rnd (1 / 10)⟩) times sz (exec :: args) x) ∧
    ∀ x, UpwindMpi.Main (F64.fin ⟨rnd (1 / 10)⟩) times sz (exec :: args) x → ∃ (e : MpiExit) (text : Str) (grid : StructGrid),
      x = .ok e ∧ (∀ r ∈ e.ranks, r.status = 0) ∧
      e.ranks.map (fun r => r.files) = ((List.range sz).map fun rk => if rk = 0 then [("upMpi.vtk".toList, text)] else []) ∧
      readStruct text = some grid ∧ ∀ g, InGrid [N, N, N] g →
        ∃ q : ℚ, (grid.value (g.getD 0 0) (g.getD 1 0) (g.getD 2 0)).bind readDecimal = some q ∧
          |q - cubeField N steps.toNat g| ≤ cubeField N steps.toNat g / 200000 + 24 * steps.toNat / 2 ^ 52 := by
  have hn : (steps % 2 ^ 64).toNat = steps.toNat := by
    rw [Int.emod_eq_of_lt hs.le (by omega)]
  obtain ⟨d, hd, hall, -⟩ := C56_upwindMpi_every_size (R := F64) (by decide +kernel) (F64.fin ⟨rnd (1 / 10)⟩) times sz exec args h N
    steps h1 h2 hh hr hcells hex (words_of htext).1
  rw [hn] at hall
  obtain ⟨files, -, f2, hall⟩ := hall (.inr (.inl hN))
  obtain ⟨text, rfl, grid, hgrid, -, -, -, -, hval⟩ := f2 hv
  rw [show (DoubleText.showDouble : F64 → Str) = F64.text from funext htext, if_neg (by omega)] at hval
  have hu := mpi_field_near hr hN hex steps.toNat (by omega)
  have hcell : ∀ g, InGrid [N, N, N] g →
      ∃ q : ℚ, (grid.value (g.getD 0 0) (g.getD 1 0) (g.getD 2 0)).bind readDecimal = some q ∧
        |q - cubeField N steps.toNat g| ≤ cubeField N steps.toNat g / 200000 + 24 * steps.toNat / 2 ^ 52 := by
    intro g hg
    obtain ⟨x, hx, hxe⟩ := hu g hg
    obtain ⟨q, a1, -, -, a4⟩ := C80_six_digits x
    refine ⟨q, by rw [hval g hg, Option.bind_some, hx]; exact a1, ?_⟩
    have h0 := (cubeField_between N steps.toNat hg).1
    have h3 := abs_sub_le q x.val (cubeField N steps.toNat g)
    have h4 : |x.val| ≤ cubeField N steps.toNat g + 23 * steps.toNat / 2 ^ 52 := by
      have := abs_sub_abs_le_abs_sub x.val (cubeField N steps.toNat g)
      rw [abs_of_nonneg h0] at this
      linarith
    have h5 : (0 : ℚ) ≤ (steps.toNat : ℚ) := Nat.cast_nonneg _
    norm_num only at hxe h4 ⊢
    linarith
  constructor
  · have hd0 : ∀ k ∈ d, 0 < k := by
      intro k hk
      obtain ⟨i, hi, rfl⟩ := List.getElem_of_mem hk
      have hi' : i < [N, N, N].length := by rw [hd.1.length_eq]; exact hi
      have hdvd := List.forall₂_iff_get.1 hd.1 |>.2 i hi' hi
      exact Nat.pos_of_dvd_of_pos hdvd (hr.pos _ (List.getElem_mem hi'))
    have hne : cellList (List.replicate d.length 0) d ≠ [] := by
      have hin := cellAt_inGrid hd0 0
      have := (mem_cellList (by simp) _).2 (inBox_zero.2 hin)
      exact List.ne_nil_of_mem this
    have hsome : ∀ u : List Nat → F64, ∃ s, GridSum [N, N, N] d u s := fun u => anySum_exists (by simpa using hne)
    choose S hS using hsome
    refine ⟨_, (hall _).2 ⟨(List.range steps.toNat).map fun j =>
      (S (stencilIter64 [N, N, N] (mpiStencil HasMax.dblMax (F64.fin ⟨rnd (1 / 10)⟩) N) cornerField j),
        S (stencilIter64 [N, N, N] (mpiStencil HasMax.dblMax (F64.fin ⟨rnd (1 / 10)⟩) N) cornerField (j + 1))),
      S _, by simp, fun j p hj => ?_, hS _, rfl⟩⟩
    rw [List.getElem?_map] at hj
    obtain ⟨i, hi, rfl⟩ := Option.map_eq_some_iff.1 hj
    obtain ⟨hi1, rfl⟩ := List.getElem?_eq_some_iff.1 hi
    rw [List.getElem_range]
    exact ⟨hS _, hS _⟩
  · intro x hx
    obtain ⟨sums, last, -, -, -, rfl⟩ := (hall x).1 hx
    refine ⟨_, text, grid, rfl, ?_, ?_, hgrid, hcell⟩
    · intro r hr
      obtain ⟨k, -, rfl⟩ := List.mem_map.1 hr
      by_cases hk : k = 0 <;> simp [hk]
    · simp only [List.map_map]
      refine List.map_congr_left fun k _ => ?_
      by_cases hk : k = 0 <;> simp [hk]

/-- C89: the file up1.vtk of upwind.cxx and upwindOMPTasks.cxx with `-vtk`, for every number of steps: the decimal number that stands
for a cell is that of the exact scheme, up to half a unit of the sixth digit and `24 steps / 2^52`. -/
theorem C89_upwind_file [Upwind.HasSqrt F64] (htext : ∀ x : F64, DoubleText.showDouble x = x.text) (omp : Option (Int × Int))
    (exec : Str) (args : List Str) (h : AllKnown (upwindNames true) args) (n : Nat) (steps : Int)
    (h1 : IntValue Reads args "-numCells".toList 128 n) (h2 : IntValue Reads args "-numSteps".toList 10 steps)
    (hh : flagValue args "-h".toList = false) (hv : flagValue args "-vtk".toList = true) (hn : 0 < n) (hn2 : n ≤ 1290)
    (hk : steps < 2 ^ 31) :
    ∃ (e : Exit) (text0 text1 : Str) (grid : RectGrid), Upwind.main (F64.fin ⟨rnd (1 / 10)⟩) omp (exec :: args) = .ok e ∧
      e.status = 0 ∧ e.files = [("up0.vtk".toList, text0), ("up1.vtk".toList, text1)] ∧ readRect text1 = some grid ∧
      ∀ g, InGrid [n, n, n] g → ∃ q : ℚ, (grid.value (g.getD 2 0) (g.getD 1 0) (g.getD 0 0)).bind readDecimal = some q ∧
        |q - cubeField n steps.toNat g| ≤ cubeField n steps.toNat g / 200000 + 24 * steps.toNat / 2 ^ 52 := by
  obtain ⟨f, text0, text1, hst, -, r1, e⟩ := C56_upwind_run (F64.fin ⟨rnd (1 / 10)⟩) omp exec args h n steps h1 h2 hh hn hn2
    (words_of htext).1
  obtain ⟨t, u, ht, htu, hu⟩ := C89_upwind n hn hn2 steps hk
  have hft := driver_field hn hn2 ht hst
  rw [show (DoubleText.showDouble : F64 → Str) = F64.text from funext htext] at r1
  obtain ⟨grid, hr, hall⟩ := C89_file (fun g hg => by
    obtain ⟨x, hx, hb⟩ := hu g hg
    refine ⟨x, ?_, hb⟩
    rw [← hx]
    rw [hft] at htu
    exact Option.some.inj ((hst.2 g hg).symm.trans (htu.2 g hg))) r1
  exact ⟨_, text0, text1, grid, e, rfl, if_pos hv, hr, hall⟩

/-- 16 cells along each axis, 10 steps, 8 processes: up to 10^-6 the file says that 7/10 to the power of 10 is left in the corner. -/
theorem mpi_file_example (htext : ∀ x : F64, DoubleText.showDouble x = x.text) (times : Str) :
    ∃ e : MpiExit, UpwindMpi.Main (F64.fin ⟨rnd (1 / 10)⟩) times 8
      ("upwindMpi".toList :: ["-vtk".toList, "-numCells".toList, "16".toList]) (.ok e) ∧
      ∃ (text : Str) (grid : StructGrid) (q : ℚ), e.ranks.map (fun r => r.files) =
        ([("upMpi.vtk".toList, text)] :: List.replicate 7 []) ∧ readStruct text = some grid ∧
        (grid.value 0 0 0).bind readDecimal = some q ∧ |q - 282475249 / 10 ^ 10| ≤ 1 / 10 ^ 6 := by
  have hk : AllKnown (upwindNames false) ["-vtk".toList, "-numCells".toList, "16".toList] := by
    intro a ha h
    simp only [List.mem_cons, List.not_mem_nil, or_false] at ha
    rcases ha with rfl | rfl | rfl
    · decide
    · decide
    · obtain ⟨_, _, h, _⟩ := h; simp at h
  have h1 : IntValue Reads ["-vtk".toList, "-numCells".toList, "16".toList] "-numCells".toList 128 (16 : Nat) :=
    intValue_only 1 (v := "16".toList) (by decide) (by decide) rfl (by decide)
  have h2 : IntValue Reads ["-vtk".toList, "-numCells".toList, "16".toList] "-numSteps".toList 10 10 := by
    have key : ∀ i : Nat, ["-vtk".toList, "-numCells".toList, "16".toList][i]? ≠ some "-numSteps".toList := by
      intro i
      match i with
      | 0 => decide
      | 1 => decide
      | 2 => decide
      | i + 3 => exact fun h => nomatch h
    exact ⟨fun v ⟨i, h, _⟩ => (key i h).elim, .inl ⟨fun i h => (key i h).elim, rfl⟩⟩
  have h := C89_mpi_file htext times 8 "upwindMpi".toList _ hk 16 10 h1 h2 (by decide) (by decide)
    ⟨by decide, by decide, by decide, by decide, by decide, by decide, by decide, by decide⟩ (by decide)
    ⟨[2, 2, 2], .cons (by decide) (.cons (by decide) (.cons (by decide) .nil)), by decide⟩ (by decide) (by decide) (by decide)
  obtain ⟨⟨x, hx⟩, hall⟩ := h
  obtain ⟨e, text, grid, rfl, -, hfiles, hr, hq⟩ := hall x hx
  obtain ⟨q, hq1, hq2⟩ := hq [0, 0, 0] (by simp [InGrid])
  obtain ⟨_, -, -, hd⟩ := C89_exact 16 (by decide) (by decide) 10
  have ed := hd (by decide) [0, 0, 0] (by simp [InGrid])
  rw [ed, show drawn (10 : Int).toNat [0, 0, 0] = 282475249 / 10 ^ 10 by
    rw [show (10 : Int).toNat = 10 from rfl]; norm_num [drawn, Nat.factorial]] at hq2
  exact ⟨e, hx, text, grid, q, hfiles, hr, hq1, hq2.trans (by
    rw [show (10 : Int).toNat = 10 from rfl]; norm_num)⟩

/-- A command line for a million steps with two cells along each axis and a file. -/
def longRun : List Str := ["-vtk".toList, "-numCells".toList, "2".toList, "-numSteps".toList, "1000000".toList]

/-- upwind with two cells along each axis and a million steps: every number in the file is between -10^-8 and 1 + 6 * 10^-6. -/
example [Upwind.HasSqrt F64] (htext : ∀ x : F64, DoubleText.showDouble x = x.text) :
    ∃ (e : Exit) (text0 text1 : Str) (grid : RectGrid) (q : ℚ), Upwind.main (F64.fin ⟨rnd (1 / 10)⟩) none
      ("upwind".toList :: longRun) = .ok e ∧ e.files = [("up0.vtk".toList, text0), ("up1.vtk".toList, text1)] ∧
      readRect text1 = some grid ∧ (grid.value 1 0 1).bind readDecimal = some q ∧ -(1 / 10 ^ 8) ≤ q ∧ q ≤ 1 + 6 / 10 ^ 6 := by
  have hk : AllKnown (upwindNames true) longRun := by
    intro a ha h
    simp only [longRun, List.mem_cons, List.not_mem_nil, or_false] at ha
    rcases ha with rfl | rfl | rfl | rfl | rfl
    · decide
    · decide
    · obtain ⟨_, _, h, _⟩ := h; simp at h
    · decide
    · obtain ⟨_, _, h, _⟩ := h; simp at h
  obtain ⟨e, text0, text1, grid, he, -, hf, hr, hall⟩ := C89_upwind_file htext none "upwind".toList longRun hk 2 1000000
    (intValue_only 1 (v := "2".toList) (by decide) (by decide) rfl (by decide))
    (intValue_only 3 (v := "1000000".toList) (by decide) (by decide) rfl (by decide)) (by decide) (by decide) (by decide) (by decide)
    (by decide)
  obtain ⟨q, hq, hb⟩ := hall [1, 0, 1] (by simp [InGrid])
  have h01 := cubeField_between 2 (1000000 : Int).toNat (g := [1, 0, 1]) (by simp [InGrid])
  refine ⟨e, text0, text1, grid, q, he, hf, hr, hq, ?_⟩
  generalize cubeField 2 (1000000 : Int).toNat [1, 0, 1] = c at hb h01
  rw [show (1000000 : Int).toNat = 1000000 from rfl] at hb
  have hb := abs_le.1 hb
  norm_num at hb ⊢
  constructor <;> linarith

end Fidi
