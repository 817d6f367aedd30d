import Verif.Lemmas.Mains
import Verif.Lemmas.MainsRun
import Verif.Props.Upwind

/-
Properties C53 and C56: the command lines, exit status and output of the drivers.
`R` is any type with the operations used and stands for `double`; `K` is a field (exact arithmetic).
-/
set_option linter.unusedSectionVars false

namespace Fidi
open Spec CmdLineArgParser

section
variable {R : Type} [Zero R] [One R] [Add R] [Sub R] [Mul R] [Div R] [NatCast R] [IntCast R] [LT R] [DecidableLT R]
  [HasMax R] [Upwind.HasSqrt R] [DoubleText R]

/-! ### C53 -/

theorem options_eq (l : UpwindAcc.Loop) :
    (l.options : CmdLineArgParser R) = if l.hasStd then withStd upwindOptions else upwindOptions := rfl

/-- C53, upwindAcc, upwindAcc2 and upwindOMP5: with an option the program does not have, the only outcome is the message
about it, the help with the defaults and status 1; nothing is computed, whatever the other arguments. -/
theorem C53_acc_unknown_option (l : UpwindAcc.Loop) (courant : R) (T : Nat) (may : Nat → Nat → Nat → Prop) (exec : Str)
    (args : List Str) (h : ¬ AllKnown (upwindNames l.hasStd) args) :
    ∃ a, FirstUnknown (upwindNames l.hasStd) args a ∧
      ∀ x, UpwindAcc.Main l courant T may (exec :: args) x ↔ x = .ok {
        out := a ++ " is not a valid option.\n".toList ++ upwindHelp l.hasStd exec 128 10 false false false
        err := "ERROR: wrong command line arguments\n".toList, files := [], status := 1 } := by
  obtain ⟨a, ha, e⟩ := upwind_unknown (R := R) l.hasStd exec h
  refine ⟨a, ha, fun x => ?_⟩
  have : UpwindAcc.mainStart (R := R) l.options (exec :: args) = .ok (.inl {
        out := a ++ " is not a valid option.\n".toList ++ upwindHelp l.hasStd exec 128 10 false false false
        err := "ERROR: wrong command line arguments\n".toList, files := [], status := 1 }) := by
    unfold UpwindAcc.mainStart
    rw [options_eq, e, M.ok_bind]
    dsimp only
    rw [upwindParser_help]
    rfl
  unfold UpwindAcc.Main
  rw [this]

/-- C53, upwindAcc, upwindAcc2 and upwindOMP5: with `-h` (an odd number of times) and otherwise valid arguments the only
outcome is the help with the values given and status 0; nothing is computed. -/
theorem C53_acc_help (l : UpwindAcc.Loop) (courant : R) (T : Nat) (may : Nat → Nat → Nat → Prop) (exec : Str)
    (args : List Str) (h : AllKnown (upwindNames l.hasStd) args) (cells steps : Int)
    (h1 : IntValue Reads args "-numCells".toList 128 cells) (h2 : IntValue Reads args "-numSteps".toList 10 steps)
    (hh : flagValue args "-h".toList = true) (x : M Exit) :
    UpwindAcc.Main l courant T may (exec :: args) x ↔ x = .ok {
      out := upwindHelp l.hasStd exec cells steps true (flagValue args "-std".toList) (flagValue args "-vtk".toList)
      err := [], files := [], status := 0 } := by
  have : UpwindAcc.mainStart (R := R) l.options (exec :: args) = .ok (.inl {
      out := upwindHelp l.hasStd exec cells steps true (flagValue args "-std".toList) (flagValue args "-vtk".toList)
      err := [], files := [], status := 0 }) := by
    unfold UpwindAcc.mainStart
    rw [options_eq, upwind_known l.hasStd exec h h1 h2, M.ok_bind]
    dsimp only
    rw [upwindParser_help, (upwindParser_get _ _ _ _ _ _ _).1, hh]
    rfl
  unfold UpwindAcc.Main
  rw [this]

/-- C53 (part), upwind and upwindOMPTasks: with an unknown option the outcome is the message about it, an error, and the
help with the defaults; nothing is computed, whatever the other arguments.
Missing: the status is 0 (`C53_upwind_status_fails`). -/
theorem C53_upwind_unknown_option_partial (courant : R) (omp : Option (Int × Int)) (exec : Str) (args : List Str)
    (h : ¬ AllKnown (upwindNames true) args) :
    ∃ a, FirstUnknown (upwindNames true) args a ∧ Upwind.main courant omp (exec :: args) = .ok {
        out := a ++ " is not a valid option.\n".toList ++ upwindHelp true exec 128 10 false false false
        err := "ERROR when parsing command line arguments\n".toList, files := [], status := 0 } := by
  obtain ⟨a, ha, e⟩ := upwind_unknown (R := R) true exec h
  refine ⟨a, ha, ?_⟩
  unfold Upwind.main
  rw [show withStd (upwindOptions (R := R)) = if true then withStd upwindOptions else upwindOptions from rfl, e, M.ok_bind]
  dsimp only
  rw [if_neg (by simp), upwindParser_help]
  rfl

/-- C53, upwind and upwindOMPTasks: with `-h` (an odd number of times) and otherwise valid arguments the outcome is the help
with the values given and status 0; nothing is computed. -/
theorem C53_upwind_help (courant : R) (omp : Option (Int × Int)) (exec : Str) (args : List Str)
    (h : AllKnown (upwindNames true) args) (cells steps : Int) (h1 : IntValue Reads args "-numCells".toList 128 cells)
    (h2 : IntValue Reads args "-numSteps".toList 10 steps) (hh : flagValue args "-h".toList = true) :
    Upwind.main courant omp (exec :: args) = .ok {
      out := upwindHelp true exec cells steps true (flagValue args "-std".toList) (flagValue args "-vtk".toList)
      err := [], files := [], status := 0 } := by
  unfold Upwind.main
  rw [show withStd (upwindOptions (R := R)) = if true then withStd upwindOptions else upwindOptions from rfl,
    upwind_known true exec h h1 h2, M.ok_bind]
  dsimp only
  rw [if_neg (by rw [(upwindParser_get _ _ _ _ _ _ _).1, hh]; simp), upwindParser_help, hh]
  rfl

/-- The MPI drivers after a failure of the parser. -/
theorem mpiUsage_false {sz : Nat} {args : CmdLineArgParser R} {msg text : Str} (h : args.help = .ok text) :
    mpiUsage sz false args msg = .ok ⟨(List.range sz).map fun rk =>
      { out := msg ++ text, err := if rk = 0 then "ERROR when parsing command line arguments\n".toList else [],
        files := [], status := 0 }⟩ := by
  unfold mpiUsage
  rw [h, M.ok_bind]
  simp only [Bool.not_false, Bool.true_and, beq_iff_eq]
  rfl

/-- The MPI drivers with `-h`. -/
theorem mpiUsage_true {sz : Nat} {args : CmdLineArgParser R} {text : Str} (h : args.help = .ok text) :
    mpiUsage sz true args [] = .ok ⟨List.replicate sz { out := text, err := [], files := [], status := 0 }⟩ := by
  unfold mpiUsage
  rw [h, M.ok_bind]
  have : ∀ e : Exit, (List.range sz).map (fun _ => e) = List.replicate sz e := by
    intro e; rw [List.map_const', List.length_range]
  rw [← this]
  rfl

/-- C53 (part), upwindMpi: with an unknown option the only outcome is the message about it and the help with the defaults on
every rank, and an error on rank 0; nothing is computed.
Missing: the status is 0 on all ranks (`C53_mpi_status_fails`). -/
theorem C53_upwindMpi_unknown_option_partial (courant : R) (times : Str) (sz : Nat) (exec : Str) (args : List Str)
    (h : ¬ AllKnown (upwindNames false) args) :
    ∃ a, FirstUnknown (upwindNames false) args a ∧ ∀ x, UpwindMpi.Main courant times sz (exec :: args) x ↔
      x = .ok ⟨(List.range sz).map fun rk =>
        { out := a ++ " is not a valid option.\n".toList ++ upwindHelp false exec 128 10 false false false
          err := if rk = 0 then "ERROR when parsing command line arguments\n".toList else [], files := [], status := 0 }⟩ := by
  obtain ⟨a, ha, e⟩ := upwind_unknown (R := R) false exec h
  refine ⟨a, ha, fun x => ?_⟩
  unfold UpwindMpi.Main
  rw [show upwindOptions (R := R) = if false then withStd upwindOptions else upwindOptions from rfl, e]
  dsimp only
  rw [if_neg (by rw [Bool.false_and]; exact Bool.false_ne_true), mpiUsage_false (upwindParser_help ..)]

/-- C53, upwindMpi: with `-h` (an odd number of times) and otherwise valid arguments the only outcome is the help with the
values given and status 0 on every rank; nothing is computed. -/
theorem C53_upwindMpi_help (courant : R) (times : Str) (sz : Nat) (exec : Str) (args : List Str)
    (h : AllKnown (upwindNames false) args) (cells steps : Int) (h1 : IntValue Reads args "-numCells".toList 128 cells)
    (h2 : IntValue Reads args "-numSteps".toList 10 steps) (hh : flagValue args "-h".toList = true) (x : M MpiExit) :
    UpwindMpi.Main courant times sz (exec :: args) x ↔ x = .ok ⟨List.replicate sz {
      out := upwindHelp false exec cells steps true (flagValue args "-std".toList) (flagValue args "-vtk".toList)
      err := [], files := [], status := 0 }⟩ := by
  unfold UpwindMpi.Main
  rw [show upwindOptions (R := R) = if false then withStd upwindOptions else upwindOptions from rfl,
    upwind_known false exec h h1 h2]
  dsimp only
  rw [if_neg (by rw [(upwindParser_get _ _ _ _ _ _ _).1, hh]; simp), mpiUsage_true (upwindParser_help ..), hh]

/-- C53 (part), laplacian: with an unknown option the only outcome is the message about it and the help with the defaults on
every rank, and an error on rank 0; nothing is computed.
Missing: the status is 0 on all ranks (`C53_mpi_status_fails`). -/
theorem C53_laplacian_unknown_option_partial [Neg R] [HasSin R] (times : Str) (sz : Nat) (exec : Str) (args : List Str)
    (h : ¬ AllKnown laplacianNames args) :
    ∃ a, FirstUnknown laplacianNames args a ∧ ∀ x, Laplacian.Main (R := R) times sz (exec :: args) x ↔
      x = .ok ⟨(List.range sz).map fun rk =>
        { out := a ++ " is not a valid option.\n".toList ++ laplacianHelp exec 8000 2 false false
          err := if rk = 0 then "ERROR when parsing command line arguments\n".toList else [], files := [], status := 0 }⟩ := by
  obtain ⟨a, ha, e⟩ := laplacian_unknown (R := R) exec h
  refine ⟨a, ha, fun x => ?_⟩
  unfold Laplacian.Main
  rw [e]
  dsimp only
  rw [if_neg (by rw [Bool.false_and]; exact Bool.false_ne_true), mpiUsage_false (laplacianParser_help ..)]

/-- C53, laplacian: with `-h` (an odd number of times) and otherwise valid arguments the only outcome is the help with the
values given and status 0 on every rank; nothing is computed. -/
theorem C53_laplacian_help [Neg R] [HasSin R] (times : Str) (sz : Nat) (exec : Str) (args : List Str)
    (h : AllKnown laplacianNames args) (cells dims : Int) (h1 : IntValue Reads args "-numCells".toList 8000 cells)
    (h2 : IntValue Reads args "-numDims".toList 2 dims) (hh : flagValue args "-h".toList = true) (x : M MpiExit) :
    Laplacian.Main (R := R) times sz (exec :: args) x ↔ x = .ok ⟨List.replicate sz {
      out := laplacianHelp exec cells dims true (flagValue args "-vtk".toList)
      err := [], files := [], status := 0 }⟩ := by
  unfold Laplacian.Main
  rw [laplacian_known exec h h1 h2]
  dsimp only
  rw [if_neg (by rw [(laplacianParser_get _ _ _ _ _).1, hh]; simp), mpiUsage_true (laplacianParser_help ..), hh]

/-- C53 is false for upwind and upwindOMPTasks: whatever the invalid command line, the status is 0. -/
theorem C53_upwind_status_fails (courant : R) (omp : Option (Int × Int)) (exec : Str) (args : List Str)
    (h : ¬ AllKnown (upwindNames true) args) : ∃ e, Upwind.main courant omp (exec :: args) = .ok e ∧ e.status = 0 := by
  obtain ⟨a, _, e⟩ := C53_upwind_unknown_option_partial courant omp exec args h
  exact ⟨_, e, rfl⟩

/-- C53 is false for the MPI drivers: whatever the invalid command line, all ranks end with status 0. -/
theorem C53_mpi_status_fails [Neg R] [HasSin R] (courant : R) (times : Str) (sz : Nat) (exec : Str) (args : List Str) :
    (¬ AllKnown (upwindNames false) args → ∃ e, UpwindMpi.Main courant times sz (exec :: args) (.ok e) ∧
      ∀ r ∈ e.ranks, r.status = 0) ∧
    (¬ AllKnown laplacianNames args → ∃ e, Laplacian.Main (R := R) times sz (exec :: args) (.ok e) ∧
      ∀ r ∈ e.ranks, r.status = 0) := by
  constructor
  · intro h
    obtain ⟨a, _, e⟩ := C53_upwindMpi_unknown_option_partial courant times sz exec args h
    refine ⟨_, (e _).2 rfl, fun r hr => ?_⟩
    obtain ⟨_, _, rfl⟩ := List.mem_map.1 hr
    rfl
  · intro h
    obtain ⟨a, _, e⟩ := C53_laplacian_unknown_option_partial (R := R) times sz exec args h
    refine ⟨_, (e _).2 rfl, fun r hr => ?_⟩
    obtain ⟨_, _, rfl⟩ := List.mem_map.1 hr
    rfl

/-! ### C56 -/

/-- C56, upwind and upwindOMPTasks: for every command line with known options only and without help, with `n` from 1 to 1290
cells along each axis, any number of steps and any values of the flags, the program runs without undefined behaviour, computes
the asked number of upwind steps (operation by operation), and prints exactly the sizes, the check sum and, with `-std`, the
spread of the result; with `-vtk` the files are readable and hold the initial field and the result. -/
theorem C56_upwind_run (courant : R) (omp : Option (Int × Int)) (exec : Str) (args : List Str)
    (h : AllKnown (upwindNames true) args) (n : Nat) (steps : Int) (h1 : IntValue Reads args "-numCells".toList 128 n)
    (h2 : IntValue Reads args "-numSteps".toList 10 steps) (hh : flagValue args "-h".toList = false)
    (hn : 0 < n) (hn2 : n ≤ 1290) (hw : ∀ x : R, IsWord (DoubleText.showDouble x)) :
    ∃ f text0 text1, Stores [n, n, n] f (driverField n
        (upCoeff (driverStep HasMax.dblMax courant (1 / (n : R))) [1, 1, 1] [1, 1, 1] [n, n, n]) steps) ∧
      RectFile DoubleText.showDouble [n, n, n] (fun _ => 1 / (n : R)) cornerField text0 ∧
      RectFile DoubleText.showDouble [n, n, n] (fun _ => 1 / (n : R)) (driverField n
        (upCoeff (driverStep HasMax.dblMax courant (1 / (n : R))) [1, 1, 1] [1, 1, 1] [n, n, n]) steps) text1 ∧
      Upwind.main courant omp (exec :: args) = .ok {
        out := threadsText omp ++ resultText DoubleText.showDouble Upwind.HasSqrt.sqrt n steps
          (flagValue args "-std".toList) f
        err := []
        files := if flagValue args "-vtk".toList then [("up0.vtk".toList, text0), ("up1.vtk".toList, text1)] else []
        status := 0 } := by
  obtain ⟨hpos, hcells, haxis, _⟩ := grid_of hn hn2
  have hg : Upwind.GoodGrid [n, n, n] := ⟨hpos, hcells, haxis⟩
  have hnew := Upwind.new_built (R := R) (N := [n, n, n]) (v := [1, 1, 1]) (L := [1, 1, 1]) (by simp) (by simp) hg rfl rfl
  generalize hdt : driverStep HasMax.dblMax courant (1 / (n : R)) = dt
  obtain ⟨o, _, hadv⟩ := Upwind.advect_spec (v := [(1 : R), 1, 1]) (L := [1, 1, 1]) (by simp) (by simp) hg rfl rfl hnew
    (Upwind.built_stores (v := [(1 : R), 1, 1]) (L := [1, 1, 1]) hg) steps dt
  have hprod : [n, n, n].prod % W = [n, n, n].prod := Nat.mod_eq_of_lt (by unfold W; omega)
  have hwid : (List.range [n, n, n].length).map (cellWidth [(1 : R), 1, 1] [n, n, n]) =
      (List.range [n, n, n].length).map (fun _ => 1 / (n : R)) := rfl
  obtain ⟨text0, e0, r0⟩ := saveVTK_rect (s := Upwind.built [(1 : R), 1, 1] [1, 1, 1] [n, n, n]) (N := [n, n, n]) (by simp)
    (by simp) hpos haxis rfl rfl hprod hwid (Upwind.built_stores hg) hw
  have hst := Stores.listOf hpos (driverField n (upCoeff dt [(1 : R), 1, 1] [1, 1, 1] [n, n, n]) steps)
  change Upwind.advect (Upwind.built [1, 1, 1] [1, 1, 1] [n, n, n]) steps dt = .ok (Upwind.withF [1, 1, 1] [1, 1, 1] [n, n, n]
    (listOf [n, n, n] (driverField n (upCoeff dt [1, 1, 1] [1, 1, 1] [n, n, n]) steps)) o) at hadv
  generalize driverField n (upCoeff dt [1, 1, 1] [1, 1, 1] [n, n, n]) steps = u at hst hadv ⊢
  generalize listOf [n, n, n] u = f at hst hadv
  obtain ⟨text1, e1, r1⟩ := saveVTK_rect (s := Upwind.withF [(1 : R), 1, 1] [1, 1, 1] [n, n, n] f o) (N := [n, n, n])
    (by simp) (by simp) hpos haxis rfl rfl hprod hwid hst hw
  have hstd : (Upwind.withF [(1 : R), 1, 1] [1, 1, 1] [n, n, n] f o).std = .ok (spread Upwind.HasSqrt.sqrt f) :=
    std_spread (hprod.trans hst.1.symm) (by show f.length < _; rw [hst.1]; exact hcells)
  refine ⟨f, text0, text1, hst, r0, r1, ?_⟩
  have hdt' : Upwind.mainDt courant (List.replicate 3 1) (List.replicate 3 1) (List.replicate 3 n) = .ok dt := by
    rw [← hdt]; rfl
  have hcheck : (Upwind.withF [(1 : R), 1, 1] [1, 1, 1] [n, n, n] f o).checksum = f.foldl (· + ·) 0 := rfl
  have hsz : szOfInt (n : Int) = n := szOfInt_ofNat (by unfold W; omega)
  unfold Upwind.main
  rw [show withStd (upwindOptions (R := R)) = if true then withStd upwindOptions else upwindOptions from rfl,
    upwind_known true exec h h1 h2, M.ok_bind]
  dsimp only
  obtain ⟨g1, g2, g3, g4, g5⟩ := upwindParser_get (R := R) true exec n steps (flagValue args "-h".toList)
    (flagValue args "-std".toList) (flagValue args "-vtk".toList)
  rw [g1, g2, g3, g4, g5, hh, if_pos (show (true && !false) = true from rfl)]
  unfold Upwind.mainBody
  simp only [hsz, List.length_replicate]
  rw [hdt', M.ok_bind, show List.replicate 3 (1 : R) = [1, 1, 1] from rfl, show List.replicate 3 n = [n, n, n] from rfl,
    show (3 : Nat) = [n, n, n].length from rfl, hnew, M.ok_bind, e0]
  rw [show [n, n, n].map showSz = [showSz n, showSz n, showSz n] from rfl, sizesText_eq (showSz_toString n), ompText_eq]
  unfold resultText
  cases flagValue args "-vtk".toList <;> cases flagValue args "-std".toList <;>
    simp only [if_true, if_false, Bool.false_eq_true, M.ok_bind, M.pure_eq, hadv, hstd, e1, hcheck, String.toList_append,
      checksumText, List.append_assoc, List.nil_append, List.cons_append, List.append_nil]

/-- C56, upwindAcc, upwindAcc2 and, with at most one time step or one team, upwindOMP5: for every number of threads and every
schedule that lets some thread execute each iteration, there is a complete execution, and every complete execution prints and
writes the result of the asked number of upwind steps.
Missing: upwindOMP5 with several teams and several time steps (`C38_time_steps_ordered_fails`). -/
theorem C56_acc_run_partial (l : UpwindAcc.Loop) (courant : R) (T : Nat) (hT : 0 < T) (may : Nat → Nat → Nat → Prop)
    (hmay : ∀ k i, ∃ t, t < T ∧ may k i t) (exec : Str) (args : List Str) (h : AllKnown (upwindNames l.hasStd) args) (n : Nat)
    (steps : Int) (h1 : IntValue Reads args "-numCells".toList 128 n) (h2 : IntValue Reads args "-numSteps".toList 10 steps)
    (hh : flagValue args "-h".toList = false) (hn : 0 < n) (hn2 : n ≤ 1290) (hone : l = .omp5 → steps ≤ 1 ∨ T = 1)
    (hw : ∀ x : R, IsWord (DoubleText.showDouble x)) :
    (∃ x, UpwindAcc.Main l courant T may (exec :: args) x) ∧
    ∀ x, UpwindAcc.Main l courant T may (exec :: args) x → ∃ f text,
      Stores [n, n, n] f (driverField n (fun _ => driverStep HasMax.dblMax courant (1 / ((n : Int) : R)) *
        (1 * ((upDir [(1 : R)] 0 : Int) : R) / (1 / ((n : Int) : R)))) steps) ∧
      RectFile DoubleText.showDouble [n, n, n] (fun _ => 1 / ((n : Int) : R)) (driverField n
        (fun _ => driverStep HasMax.dblMax courant (1 / ((n : Int) : R)) *
          (1 * ((upDir [(1 : R)] 0 : Int) : R) / (1 / ((n : Int) : R)))) steps) text ∧
      x = .ok {
        out := resultText DoubleText.showDouble Upwind.HasSqrt.sqrt n steps (l.hasStd && flagValue args "-std".toList) f
        err := []
        files := if flagValue args "-vtk".toList then [("up.vtk".toList, text)] else []
        status := 0 } := by
  obtain ⟨hpos, hcells, haxis, hcells'⟩ := grid_of hn hn2
  have h3 : UpwindAcc.Good3 n n n := ⟨hn, hn, hn, hcells', by omega, by omega, by omega⟩
  generalize hdt : driverStep HasMax.dblMax courant (1 / ((n : Int) : R)) = dt
  have hnew := UpwindAcc.new_eq3 [(1 : R), 1, 1] [1, 1, 1] n n n hn hn hn hcells' rfl rfl
  have hsetup : UpwindAcc.mainSetup courant (n : Int) steps =
      .ok (sizesText [showInt n, showInt n, showInt n] steps, dt, UpwindAcc.built [(1 : R), 1, 1] [1, 1, 1] n n n) := by
    unfold UpwindAcc.mainSetup
    simp only [List.length_replicate]
    rw [show UpwindAcc.mainDt courant (List.replicate 3 1) (List.replicate 3 1) (List.replicate 3 (n : Int)) = .ok dt by
      rw [← hdt]; rfl, M.ok_bind]
    rw [show UpwindAcc.new 3 (List.replicate 3 (1 : R)) (List.replicate 3 1) (List.replicate 3 (n : Int)) = _ from hnew]
    rfl
  have hstart : UpwindAcc.mainStart (R := R) l.options (exec :: args) = .ok (.inr (n, steps, flagValue args "-vtk".toList,
      (upwindParser l.hasStd exec n steps (flagValue args "-h".toList) (flagValue args "-std".toList)
        (flagValue args "-vtk".toList) : CmdLineArgParser R).getBool "-std".toList)) := by
    unfold UpwindAcc.mainStart
    rw [options_eq, upwind_known l.hasStd exec h h1 h2, M.ok_bind]
    dsimp only
    obtain ⟨g1, g2, g3, g4, _⟩ := upwindParser_get (R := R) l.hasStd exec n steps (flagValue args "-h".toList)
      (flagValue args "-std".toList) (flagValue args "-vtk".toList)
    rw [g1, g2, g3, g4, hh]
    rfl
  have hstd : (l.hasStd && (upwindParser l.hasStd exec n steps (flagValue args "-h".toList) (flagValue args "-std".toList)
        (flagValue args "-vtk".toList) : CmdLineArgParser R).getBool "-std".toList) =
      (l.hasStd && flagValue args "-std".toList) := by
    cases hl : l.hasStd with
    | false => rfl
    | true =>
      rw [(upwindParser_get (R := R) true exec n steps (flagValue args "-h".toList) (flagValue args "-std".toList)
        (flagValue args "-vtk".toList)).2.2.2.2]
  unfold UpwindAcc.Main
  rw [hstart]
  dsimp only
  rw [hsetup]
  dsimp only
  rw [hstd]
  obtain ⟨⟨f0, hrun⟩, hall⟩ := UpwindAcc.runs_spec (R := R) (v := [1, 1, 1]) (L := [1, 1, 1]) l h3 rfl rfl steps dt hT hone hmay
  refine ⟨⟨_, f0, hrun, rfl⟩, ?_⟩
  rintro x ⟨f, hf, rfl⟩
  have hst := hall f hf
  have hfield : (upwindStep [n, n, n] (upDir [(1 : R), 1, 1]) fun j => dt * ([(1 : R), 1, 1].getD j 0 *
        ((upDir [(1 : R), 1, 1] j : Int) : R) / ([(1 : R), 1, 1].getD j 0 / (([n, n, n].getD j 0 : Int) : R)))) =
      upwindStep [n, n, n] (upDir [(1 : R), 1, 1]) fun _ => dt * (1 * ((upDir [(1 : R)] 0 : Int) : R) / (1 / ((n : Int) : R))) := by
    funext u g
    rfl
  rw [hfield] at hst
  change Stores [n, n, n] f (driverField n (fun _ => dt * (1 * ((upDir [(1 : R)] 0 : Int) : R) / (1 / ((n : Int) : R)))) steps)
    at hst
  generalize driverField n (fun _ => dt * (1 * ((upDir [(1 : R)] 0 : Int) : R) / (1 / ((n : Int) : R)))) steps = u at hst ⊢
  generalize hs : (UpwindAcc.built [(1 : R), 1, 1] [1, 1, 1] n n n).view f = s
  have hsf : s.f = f := by rw [← hs]; rfl
  have hnt : s.ntot = [n, n, n].prod := by
    rw [← hs]
    show szOfInt ((n : Int) * (n * n)) = _
    rw [← Int.natCast_mul, ← Int.natCast_mul, szOfInt_ofNat (by unfold W; omega)]
    simp
  have hsz : szOfInt (n : Int) = n := szOfInt_ofNat (by unfold W; omega)
  obtain ⟨text, e, hr⟩ := saveVTK_rect (s := s) (N := [n, n, n]) (by simp) (by simp) hpos haxis (by rw [← hs]; rfl)
    (by rw [← hs]; show [szOfInt (n : Int), szOfInt (n : Int), szOfInt (n : Int)] = _; rw [hsz]) hnt
    (width := fun _ => 1 / ((n : Int) : R)) (by rw [← hs]; rfl) (by rw [hsf]; exact hst) hw
  refine ⟨f, text, hst, hr, ?_⟩
  have hsp : s.std = .ok (spread Upwind.HasSqrt.sqrt f) := by
    rw [std_spread (by rw [hnt, hsf, hst.1]) (by rw [hsf, hst.1]; exact hcells), hsf]
  have hcheck : s.checksum = f.foldl (· + ·) 0 := by rw [← hsf]; rfl
  unfold UpwindAcc.mainFinish
  rw [hcheck, sizesText_eq (n := n) (by rw [← showSz_toString]; rfl)]
  unfold resultText
  cases flagValue args "-vtk".toList <;> cases (l.hasStd && flagValue args "-std".toList) <;>
    simp only [if_true, if_false, Bool.false_eq_true, M.ok_bind, M.pure_eq, hsp, e, String.toList_append,
      checksumText, List.append_assoc, List.append_nil]

end
section
variable [Upwind.HasSqrt ℚ] [DoubleText ℚ]

/-- The field computed by the drivers with exact arithmetic. -/
theorem driverField_exact {n : Nat} (hn : 0 < n) (hn2 : n ≤ 1290) {steps : Int} {f : List ℚ}
    (hst : Stores [n, n, n] f (driverField n
      (upCoeff (driverStep HasMax.dblMax 0.1 (1 / (n : ℚ))) [1, 1, 1] [1, 1, 1] [n, n, n]) steps)) :
    f.foldl (· + ·) 0 = 1 ∧ ∀ x ∈ f, 0 ≤ x ∧ x ≤ 1 := by
  obtain ⟨hpos, hcells, haxis, _⟩ := grid_of hn hn2
  have hg : Upwind.GoodGrid [n, n, n] := ⟨hpos, hcells, haxis⟩
  have hnew := Upwind.new_built (R := ℚ) (N := [n, n, n]) (v := [1, 1, 1]) (L := [1, 1, 1]) (by simp) (by simp) hg rfl rfl
  obtain ⟨o, _, hadv⟩ := Upwind.advect_spec (v := [(1 : ℚ), 1, 1]) (L := [1, 1, 1]) (by simp) (by simp) hg rfl rfl hnew
    (Upwind.built_stores (v := [(1 : ℚ), 1, 1]) (L := [1, 1, 1]) hg) steps (driverStep HasMax.dblMax 0.1 (1 / (n : ℚ)))
  obtain ⟨s, e, h1, h2⟩ := C42_driver_run n hn hn2 steps
  rw [stores_iff hpos] at hst
  change Upwind.advect (Upwind.built [1, 1, 1] [1, 1, 1] [n, n, n]) steps _ = .ok (Upwind.withF [1, 1, 1] [1, 1, 1] [n, n, n]
    (listOf [n, n, n] (driverField n (upCoeff _ [1, 1, 1] [1, 1, 1] [n, n, n]) steps)) o) at hadv
  rw [← hst] at hadv
  unfold Upwind.mainRun at e
  rw [szOfInt_ofNat (by unfold W; omega)] at e
  simp only [List.length_replicate] at e
  rw [show Upwind.mainDt (0.1 : ℚ) (List.replicate 3 1) (List.replicate 3 1) (List.replicate 3 n) =
      .ok (driverStep HasMax.dblMax 0.1 (1 / (n : ℚ))) from rfl, M.ok_bind,
    show Upwind.new 3 (List.replicate 3 (1 : ℚ)) (List.replicate 3 1) (List.replicate 3 n) = _ from hnew, M.ok_bind,
    hadv] at e
  have := Except.ok.inj e
  rw [← this] at h1 h2
  exact ⟨h1, h2⟩

/-- C56: with exact arithmetic the check sum printed by upwind and upwindOMPTasks is 1, and the numbers of the field are
between 0 and 1. -/
theorem C56_upwind_check_sum (omp : Option (Int × Int)) (exec : Str) (args : List Str)
    (h : AllKnown (upwindNames true) args) (n : Nat) (steps : Int) (h1 : IntValue Reads args "-numCells".toList 128 n)
    (h2 : IntValue Reads args "-numSteps".toList 10 steps) (hh : flagValue args "-h".toList = false)
    (hn : 0 < n) (hn2 : n ≤ 1290) (hw : ∀ x : ℚ, IsWord (DoubleText.showDouble x)) :
    ∃ (e : Exit) (f : List ℚ), Upwind.main (0.1 : ℚ) omp (exec :: args) = .ok e ∧ e.status = 0 ∧
      e.out = threadsText omp ++ resultText DoubleText.showDouble Upwind.HasSqrt.sqrt n steps (flagValue args "-std".toList) f ∧
      f.foldl (· + ·) 0 = 1 ∧ ∀ x ∈ f, 0 ≤ x ∧ x ≤ 1 := by
  obtain ⟨f, t0, t1, hst, _, _, e⟩ := C56_upwind_run (0.1 : ℚ) omp exec args h n steps h1 h2 hh hn hn2 hw
  exact ⟨_, f, e, rfl, rfl, driverField_exact hn hn2 hst⟩

/-- C56: the same for every execution of upwindAcc and upwindAcc2 and, with at most one time step or one team, upwindOMP5.
Missing: upwindOMP5 with several teams and several time steps (`C38_time_steps_ordered_fails`). -/
theorem C56_acc_check_sum_partial (l : UpwindAcc.Loop) (T : Nat) (hT : 0 < T) (may : Nat → Nat → Nat → Prop)
    (hmay : ∀ k i, ∃ t, t < T ∧ may k i t) (exec : Str) (args : List Str) (h : AllKnown (upwindNames l.hasStd) args) (n : Nat)
    (steps : Int) (h1 : IntValue Reads args "-numCells".toList 128 n) (h2 : IntValue Reads args "-numSteps".toList 10 steps)
    (hh : flagValue args "-h".toList = false) (hn : 0 < n) (hn2 : n ≤ 1290) (hone : l = .omp5 → steps ≤ 1 ∨ T = 1)
    (hw : ∀ x : ℚ, IsWord (DoubleText.showDouble x)) (x : M Exit) (hx : UpwindAcc.Main l (0.1 : ℚ) T may (exec :: args) x) :
    ∃ (e : Exit) (f : List ℚ), x = .ok e ∧ e.status = 0 ∧
      e.out = resultText DoubleText.showDouble Upwind.HasSqrt.sqrt n steps (l.hasStd && flagValue args "-std".toList) f ∧
      f.foldl (· + ·) 0 = 1 ∧ ∀ x ∈ f, 0 ≤ x ∧ x ≤ 1 := by
  obtain ⟨f, t, hst, _, rfl⟩ :=
    (C56_acc_run_partial l (0.1 : ℚ) T hT may hmay exec args h n steps h1 h2 hh hn hn2 hone hw).2 x hx
  refine ⟨_, f, rfl, rfl, rfl, driverField_exact hn hn2 (steps := steps) ?_⟩
  rw [Int.cast_natCast] at hst
  have : ∀ dt : ℚ, upwindStep [n, n, n] (upDir [(1 : ℚ), 1, 1]) (fun _ => dt * (1 * ((upDir [(1 : ℚ)] 0 : Int) : ℚ) /
      (1 / (n : ℚ)))) = upwindStep [n, n, n] (upDir [(1 : ℚ), 1, 1]) (upCoeff dt [1, 1, 1] [1, 1, 1] [n, n, n]) := by
    intro dt
    have key : ∀ j, j < 3 → dt * (1 * ((upDir [(1 : ℚ)] 0 : Int) : ℚ) / (1 / (n : ℚ))) =
        upCoeff dt [1, 1, 1] [1, 1, 1] [n, n, n] j := by
      intro j hj
      have hj : j = 0 ∨ j = 1 ∨ j = 2 := by omega
      rcases hj with rfl | rfl | rfl <;> simp [upCoeff, cellWidth, upDir]
    funext u g
    unfold upwindStep
    simp only [List.length_cons, List.length_nil, show List.range 3 = [0, 1, 2] from rfl, List.foldl_cons, List.foldl_nil,
      zero_add, Nat.reduceAdd, ← key 0 (by omega), ← key 1 (by omega), ← key 2 (by omega)]
  unfold driverField at hst ⊢
  rw [this] at hst
  exact hst

end

/-! ### Concrete cases -/

local instance : DoubleText ℚ := ⟨fun _ => 0, fun q => showInt q.num ++ '/' :: showSz q.den⟩
local instance : Upwind.HasSqrt ℚ := ⟨id⟩

/-- A command line with an unknown option after a known one meets the hypothesis of C53. -/
def badArgs : List Str := ["-numCells".toList, "12".toList, "--help".toList, "-x".toList]

example : ¬ AllKnown (upwindNames true) badArgs := by
  intro h
  have := h "--help".toList (by simp [badArgs]) ⟨'-', "help".toList, by decide, by decide⟩
  revert this
  decide

example : Upwind.main (1 / 10 : ℚ) none ("upwind".toList :: badArgs) = .ok {
    out := "--help".toList ++ " is not a valid option.\n".toList ++ upwindHelp true "upwind".toList 128 10 false false false
    err := "ERROR when parsing command line arguments\n".toList, files := [], status := 0 } := by decide +kernel

/-- A command line that runs two steps on 2 x 2 x 2 cells. -/
def runArgs : List Str := ["-numSteps".toList, "2".toList, "-std".toList, "-numCells".toList, "2".toList]

example : AllKnown (upwindNames true) runArgs ∧ flagValue runArgs "-h".toList = false := by
  refine ⟨?_, by decide⟩
  intro a ha h
  simp only [runArgs, List.mem_cons, List.not_mem_nil, or_false] at ha
  rcases ha with rfl | rfl | rfl | rfl | rfl
  · decide
  · obtain ⟨_, _, h, _⟩ := h; simp at h
  · decide
  · decide
  · obtain ⟨_, _, h, _⟩ := h; simp at h

example : IntValue Reads runArgs "-numCells".toList 128 (2 : Nat) ∧ IntValue Reads runArgs "-numSteps".toList 10 2 := by
  have key : ∀ i, i < 5 ∨ runArgs[i]? = none := by
    intro i
    by_cases h : i < 5
    · exact .inl h
    · exact .inr (List.getElem?_eq_none (by show 5 ≤ i; omega))
  refine ⟨⟨?_, .inr ⟨"2".toList, ⟨3, by decide, by decide, ?_⟩, rfl⟩⟩,
    ⟨?_, .inr ⟨"2".toList, ⟨0, by decide, by decide, ?_⟩, rfl⟩⟩⟩
  · rintro v ⟨i, h1, h2⟩
    rcases key i with h | h
    · have h : i = 0 ∨ i = 1 ∨ i = 2 ∨ i = 3 ∨ i = 4 := by omega
      rcases h with rfl | rfl | rfl | rfl | rfl <;> first
        | exact absurd h1 (by decide)
        | exact ⟨2, by rw [← Option.some.inj h2]; rfl⟩
    · rw [h] at h1; cases h1
  · intro j hj h1
    rcases key j with h | h
    · have h : j = 4 := by omega
      subst h; decide
    · rw [h] at h1; cases h1
  · rintro v ⟨i, h1, h2⟩
    rcases key i with h | h
    · have h : i = 0 ∨ i = 1 ∨ i = 2 ∨ i = 3 ∨ i = 4 := by omega
      rcases h with rfl | rfl | rfl | rfl | rfl <;> first
        | exact absurd h1 (by decide)
        | exact ⟨2, by rw [← Option.some.inj h2]; rfl⟩
    · rw [h] at h1; cases h1
  · intro j hj h1
    rcases key j with h | h
    · have h : j = 1 ∨ j = 2 ∨ j = 3 ∨ j = 4 := by omega
      rcases h with rfl | rfl | rfl | rfl <;> exact absurd h1 (by decide)
    · rw [h] at h1; cases h1

/-- With `-h` alone the hypotheses of the theorems about help hold. -/
example : AllKnown (upwindNames false) ["-h".toList] ∧ AllKnown laplacianNames ["-h".toList] ∧
    flagValue ["-h".toList] "-h".toList = true ∧ IntValue Reads ["-h".toList] "-numCells".toList 8000 8000 ∧
    IntValue Reads ["-h".toList] "-numDims".toList 2 2 := by
  have key : ∀ (name : Str) (i : Nat), name ≠ "-h".toList → ["-h".toList][i]? = some name → False := by
    intro name i hn h
    match i with
    | 0 => exact hn (Option.some.inj h).symm
    | i + 1 => cases h
  refine ⟨by intro a ha _; rw [List.mem_singleton.1 ha]; decide, by intro a ha _; rw [List.mem_singleton.1 ha]; decide,
    by decide, ⟨?_, .inl ⟨?_, rfl⟩⟩, ⟨?_, .inl ⟨?_, rfl⟩⟩⟩
  · rintro v ⟨i, h, _⟩; exact (key _ i (by decide) h).elim
  · intro i h; exact (key _ i (by decide) h).elim
  · rintro v ⟨i, h, _⟩; exact (key _ i (by decide) h).elim
  · intro i h; exact (key _ i (by decide) h).elim

/-- Its output; the square root is left out. -/
example : Upwind.main (1 / 10 : ℚ) (some (4, 8)) ("upwind".toList :: runArgs) = .ok {
    out := "Running with OpenMP enabled\nnumber of threads: 4 max number of threads: 8\n".toList ++
      "number of cells:  2 2 2\nnumber of time steps: 2\ncheck sum: 1/1\nstd      : 1027/40000\n".toList
    err := [], files := [], status := 0 } := by decide +kernel

end Fidi
