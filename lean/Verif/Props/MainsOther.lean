import Verif.Lemmas.MainsOther
import Verif.Props.VtkOther
import Verif.Props.Mains

/-
Property C60: the command lines and the output of the Fortran, Python and Julia programs. `R` is any type with the
operations used and stands for the floating-point numbers; `readInt` is the conversion of a text to an integer by the
language and `sum` the sum of an array. `hcast`: converting a number of cells gives the same floating-point number as in C++.
-/
set_option linter.unusedSectionVars false

namespace Fidi
open Spec Upwind

section
variable {R : Type} [Zero R] [One R] [Add R] [Sub R] [Mul R] [Div R] [NatCast R] [IntCast R] [LT R] [DecidableLT R]
  [DoubleText R]

/-- The file of the Fortran programs. -/
theorem fortran_rectFile {n : Nat} (hn : 0 < n) (hn2 : n ≤ 1290) (hcast : ∀ n : Nat, ((n : Int) : R) = (n : R)) (dt : R)
    (k : Int) (hw : ∀ x : R, IsWord (DoubleText.showDouble x)) (hl : ∀ x : R, (DoubleText.showDouble x).length ≤ 20)
    {x : FUpwind R} (hx : FUpwind.Advances dt k.toNat
      (FUpwind.built [1, 1, 1] [1, 1, 1] [n, n, n] (listOf [n, n, n] cornerField)) x) :
    ∃ text, x.saveVTK = .ok text ∧ RectFile DoubleText.showDouble [n, n, n] (fun _ => 1 / (n : R))
      (programField n (changeDivLast dt [1, 1, 1] [1, 1, 1] [n, n, n]) k) text := by
  obtain ⟨hpos, hcells, haxis, h3⟩ := grid_of hn hn2
  have hg : GoodGrid [n, n, n] := ⟨hpos, hcells, haxis⟩
  have h3' : n * n * n + 1 < 2 ^ 31 := by
    have := Nat.mul_le_mul (Nat.mul_le_mul hn2 hn2) hn2
    omega
  obtain ⟨s0, e0, -, h⟩ := C59_fortran_program (R := R) n hn h3' hcast dt k.toNat hw hl
  have hnew := FUpwind.new_eq (R := R) (v := [1, 1, 1]) (L := [1, 1, 1]) (N := [n, n, n]) hcast (by simp) hg (by simp) rfl rfl
  rw [show FUpwind.new [1, 1, 1] [1, 1, (1 : R)] [(n : Int), n, n] = _ from hnew] at e0
  injection e0 with e0
  subst e0
  obtain ⟨text, grid, e, hr, hax, hname, hlen, hval⟩ := h x hx
  refine ⟨text, e, grid, hr, ?_, hname, by rw [hlen]; simp [Nat.mul_assoc], fun g hgr => ?_⟩
  · have hx := hax grid.x (by simp)
    have hy := hax grid.y (by simp)
    have hz := hax grid.z (by simp)
    rw [hx, hy, hz]
    rfl
  · match g, hgr with
    | [i, j, l], hgr => exact hval i j l hgr.1 hgr.2.1 hgr.2.2.1

/-- C60, Fortran: for every command line whose first argument is a number `n` from 1 to 1290, whose second argument, if there is
one, is a number of steps, and whose arguments fit in the 32 characters of the program, all executions of the program are
free of undefined behaviour; the program computes the asked number of steps (100 without a second argument) on `n` cells
along each axis, operation by operation, prints the sizes and the sum of the field it has computed, and ends with status
0; if the third argument is `vtk`, and only then, it leaves a file up.vtk, which is readable and holds the field.
Missing: arguments that are no numbers (`C60_fortran_bad_number_fails`), no arguments (`C60_fortran_status_fails`), more
cells (`C60_fortran_large_fails`). -/
theorem C60_fortran_run_partial (readInt : Str → Option Int) (courant big : R) (sum : List R → R) (threads rest prog : Str)
    (args : List Str) (n : Nat) (steps : Int) (vtk : Bool) (hprog : ∃ c ∈ prog.take 32, c ≠ ' ')
    (hargs : ∀ a ∈ args, FitsIn 32 a) (h : Asks (fun a z => readInt (filled 32 a) = some z) 100 args n steps vtk)
    (hn : 0 < n) (hn2 : n ≤ 1290) (hsteps : steps + 1 < 2 ^ 31) (hcast : ∀ n : Nat, ((n : Int) : R) = (n : R))
    (hw : ∀ x : R, IsWord (DoubleText.showDouble x)) (hl : ∀ x : R, (DoubleText.showDouble x).length ≤ 20) :
    ∃ f text, Stores [n, n, n] f (programField n (changeDivLast (programStep big courant (1 / (n : R))) [1, 1, 1] [1, 1, 1]
        [n, n, n]) steps) ∧
      RectFile DoubleText.showDouble [n, n, n] (fun _ => 1 / (n : R)) (programField n (changeDivLast
        (programStep big courant (1 / (n : R))) [1, 1, 1] [1, 1, 1] [n, n, n]) steps) text ∧
      (∃ x, FUpwind.Main readInt courant big sum threads rest (prog :: args) x) ∧
      ∀ x, FUpwind.Main readInt courant big sum threads rest (prog :: args) x → x = .ok {
        out := threads ++ fortranText rest n steps (DoubleText.showDouble (sum f))
        err := []
        files := if vtk then [("up.vtk".toList, text)] else []
        status := 0 } := by
  obtain ⟨hpos, hcells, haxis, _⟩ := grid_of hn hn2
  have hg : GoodGrid [n, n, n] := ⟨hpos, hcells, haxis⟩
  have hparse := FUpwind.parse_eq (readInt := readInt) hprog hargs h
  have hlen : args.length ≠ 0 := by
    obtain ⟨a, ha, -⟩ := h.first
    intro h0
    rw [List.length_eq_zero_iff.1 h0] at ha
    simp at ha
  have hst := Stores.listOf (R := R) hpos cornerField
  generalize hdt : programStep big courant (1 / (n : R)) = dt
  have hd : [n, n, n].length + 1 < 2 ^ 31 := by simp
  obtain ⟨y, hy⟩ := FUpwind.exists_advances (v := [1, 1, (1 : R)]) (L := [1, 1, 1]) hg hd rfl dt hst.1 steps.toNat
  have ey := FUpwind.advances_eq (R := R) hg hd rfl dt hst hy
  obtain ⟨text, e, hr⟩ := fortran_rectFile hn hn2 hcast dt steps hw hl hy
  have hfin : FUpwind.finish sum (threads ++ FUpwind.sizesText rest (List.replicate 3 (n : Int)) steps) y vtk = .ok {
        out := threads ++ fortranText rest n steps (DoubleText.showDouble (sum y.f))
        err := []
        files := if vtk then [("up.vtk".toList, text)] else []
        status := 0 } := by
    have ht : threads ++ FUpwind.sizesText rest (List.replicate 3 (n : Int)) steps ++ "check sum: ".toList ++
        Fortran.fmtF (sum y.f) ++ "\n".toList = threads ++ fortranText rest n steps (DoubleText.showDouble (sum y.f)) := by
      unfold FUpwind.sizesText fortranText Fortran.fmtF Fortran.fmtI
      have e1 : "\nnumber of time steps: ".toList = "\n".toList ++ "number of time steps: ".toList := by decide +kernel
      rw [e1, checksumText]
      simp only [Fortran.inField_eq, List.replicate_succ, List.replicate_zero, List.flatMap_cons, List.flatMap_nil,
        Fortran.showInt_nat, showSz_toString, List.append_assoc, List.append_nil, toString_int]
    unfold FUpwind.finish
    simp only [ht]
    cases vtk
    · rfl
    · rw [if_pos rfl, e]
      rfl
  have hmain : ∀ x, FUpwind.Main readInt courant big sum threads rest (prog :: args) x ↔
      x = FUpwind.finish sum (threads ++ FUpwind.sizesText rest (List.replicate 3 (n : Int)) steps) y vtk := by
    intro x
    unfold FUpwind.Main
    rw [hparse]
    simp only
    unfold FUpwind.Body
    rw [if_neg (show ¬ args.length + 1 < 2 by omega)]
    simp only
    rw [FUpwind.mainDt_eq hcast, M.ok_bind,
      show FUpwind.new (List.replicate 3 (1 : R)) (List.replicate 3 1) (List.replicate 3 (n : Int)) = _ from
        FUpwind.new_eq (N := [n, n, n]) hcast (by simp) hg hd rfl rfl, hdt]
    simp only [M.ok_bind, M.pure_eq]
    constructor
    · rintro (⟨h1, -⟩ | ⟨h1, -⟩ | ⟨z, hz, rfl⟩)
      · exact absurd h1 (FUpwind.not_advanceFaults (R := R) hg hd rfl dt hst _)
      · rw [Fortran.endsPast_of (by omega)] at h1
        simp at h1
      · rw [show z = y from (FUpwind.advances_eq (R := R) hg hd rfl dt hst hz).trans ey.symm]
    · intro hx
      exact Or.inr (Or.inr ⟨y, hy, hx⟩)
  refine ⟨y.f, text, ?_, hr, ⟨_, (hmain _).2 rfl⟩, fun x hx => ((hmain x).1 hx).trans hfin⟩
  rw [ey]
  exact Stores.listOf hpos _

/-- C60 is false for the Fortran programs if the first argument is not a number: the status of `read` is not looked at, and
the program goes on with an undefined number of cells. -/
theorem C60_fortran_bad_number_fails (readInt : Str → Option Int) (courant big : R) (sum : List R → R) (threads rest prog : Str)
    (a : Str) (args : List Str) (hprog : ∃ c ∈ prog.take 32, c ≠ ' ') (ha : FitsIn 32 a) (hbad : readInt (filled 32 a) = none)
    (x : M Exit) (hx : FUpwind.Main readInt courant big sum threads rest (prog :: a :: args) x) : x = .error .uninitialized := by
  unfold FUpwind.Main at hx
  have e : FUpwind.parse readInt (prog :: a :: args) = .error .uninitialized := by
    unfold FUpwind.parse FUpwind.parseLoop
    rw [Fortran.not_blank_of_mem hprog, if_neg (by simp)]
    have e0 : FUpwind.parseBody readInt (Fortran.charVar 32 prog)
        { argc := 0, numCells := -1, numTimeSteps := 100, doVtk := false } =
        .ok { argc := 1, numCells := -1, numTimeSteps := 100, doVtk := false } := by
      unfold FUpwind.parseBody
      rw [if_neg (by decide), if_neg (by decide), if_neg (by simp)]
      rfl
    rw [e0, M.ok_bind]
    unfold FUpwind.parseLoop
    rw [Fortran.not_blank_of_fits ha, if_neg (by simp)]
    unfold FUpwind.parseBody
    rw [Fortran.charVar_of_le ha.1, hbad, if_pos rfl]
    rfl
  rw [e] at hx
  exact hx

/-- C60 is false for the Fortran programs without arguments: they write a message and end with status 0, so a script cannot
tell that nothing has been computed. -/
theorem C60_fortran_status_fails (readInt : Str → Option Int) (courant big : R) (sum : List R → R) (threads rest prog : Str)
    (hprog : ∃ c ∈ prog.take 32, c ≠ ' ') (x : M Exit) :
    FUpwind.Main readInt courant big sum threads rest [prog] x ↔ x = .ok {
      out := threads, err := "must specify number of cells in each direction.\n".toList, files := [], status := 0 } := by
  have e : FUpwind.parse readInt [prog] = .ok { argc := 1, numCells := -1, numTimeSteps := 100, doVtk := false } := by
    unfold FUpwind.parse FUpwind.parseLoop
    rw [Fortran.not_blank_of_mem hprog, if_neg (by simp)]
    unfold FUpwind.parseBody
    rw [if_neg (by decide), if_neg (by decide), if_neg (by simp)]
    rfl
  unfold FUpwind.Main
  rw [e]
  simp only
  unfold FUpwind.Body
  rw [if_pos (by simp)]

theorem FUpwind.parseLoop_blank (readInt : Str → Option Int) {b : Str} (hb : ∀ c ∈ b.take 32, c = ' ') (after : List Str) :
    ∀ (before : List Str) (s : FUpwind.Settings),
      FUpwind.parseLoop readInt (before ++ b :: after) s = FUpwind.parseLoop readInt before s
  | [], s => by
    have h : Fortran.isBlank (Fortran.charVar 32 b) = true := by
      unfold Fortran.isBlank Fortran.charVar
      simp only [List.all_append, List.all_replicate, Bool.and_eq_true, List.all_eq_true]
      refine ⟨fun c hc => by simp [hb c hc], by simp⟩
    rw [List.nil_append]
    unfold FUpwind.parseLoop
    rw [if_pos h]
  | a :: before, s => by
    rw [List.cons_append]
    unfold FUpwind.parseLoop
    split
    · rfl
    · cases FUpwind.parseBody readInt (Fortran.charVar 32 a) s with
      | error e => rfl
      | ok s' => exact FUpwind.parseLoop_blank readInt hb after before s'

/-- C60 is false for the Fortran programs if an argument is blank: it ends the list of arguments, and what follows it is ignored
without a word. -/
theorem C60_fortran_blank_fails (readInt : Str → Option Int) (courant big : R) (sum : List R → R) (threads rest : Str)
    (before after : List Str) (b : Str) (hb : ∀ c ∈ b.take 32, c = ' ') (x : M Exit) :
    FUpwind.Main readInt courant big sum threads rest (before ++ b :: after) x ↔
      FUpwind.Main readInt courant big sum threads rest before x := by
  unfold FUpwind.Main FUpwind.parse
  rw [FUpwind.parseLoop_blank readInt hb]

/-- Non-vacuity of `C60_fortran_blank_fails`: an empty second argument, a number of steps that is ignored. -/
example : (∀ c ∈ ([] : Str).take 32, c = ' ') ∧
    ["upwind".toList, "8".toList, [], "20".toList] = ["upwind".toList, "8".toList] ++ [] :: ["20".toList] := by
  refine ⟨by simp, rfl⟩

theorem mkInt_cases (x : Int) : (mkInt x = .ok x ∧ x < 2147483648) ∨ mkInt x = .error .signedOverflow := by
  unfold mkInt
  by_cases h : inInt x
  · rw [if_pos h]
    refine Or.inl ⟨rfl, ?_⟩
    unfold inInt at h
    rw [intLim_eq] at h
    simp at h
    exact h.2
  · rw [if_neg h]
    exact Or.inr rfl

theorem newBody_three {v L : List R} (hv : v.length = 3) (hL : L.length = 3) (n : Int) {d : List R} {u : List Int}
    (hd : d.length = 3) (hu : u.length = 3) (t : Int) {j : Nat} (hj : 1 ≤ j) (hj3 : j ≤ 3) :
    ∃ (d' : List R) (u' : List Int), d'.length = 3 ∧ u'.length = 3 ∧
      FUpwind.newBody v L [n, n, n] j (d, u, t) = mkInt (t * n) >>= fun t' => .ok (d', u', t') := by
  obtain ⟨j, rfl⟩ : ∃ i, j = i + 1 := ⟨j - 1, by omega⟩
  have hn : Fortran.rd1 [n, n, n] (j + 1) = .ok n := by
    have : j = 0 ∨ j = 1 ∨ j = 2 := by omega
    rcases this with rfl | rfl | rfl <;> rfl
  unfold FUpwind.newBody
  simp only
  rw [Fortran.wr1_of_lt (by omega), M.ok_bind, Fortran.rd1_of_lt (by omega), M.ok_bind, hn]
  split
  · rw [Fortran.wr1_of_lt (by simp; omega)]
    simp only [M.ok_bind, Fortran.rd1_of_lt (show j < L.length by omega)]
    rw [Fortran.wr1_of_lt (by omega)]
    exact ⟨_, _, by simp [hd], by simp [hu], rfl⟩
  · simp only [M.pure_eq, M.ok_bind, Fortran.rd1_of_lt (show j < L.length by omega)]
    rw [Fortran.wr1_of_lt (by omega)]
    exact ⟨_, _, by simp [hd], by simp [hu], rfl⟩

theorem new_overflow {v L : List R} (hv : v.length = 3) (hL : L.length = 3) {n : Int} (hn : 1291 ≤ n) :
    FUpwind.new v L [n, n, n] = .error .signedOverflow := by
  unfold FUpwind.new
  rw [hv]
  simp only
  have key : Fortran.doUp 3 (List.replicate 3 (0 : R), List.replicate 3 (0 : Int), 1) (FUpwind.newBody v L [n, n, n]) =
      .error .signedOverflow := by
    obtain ⟨d1, u1, hd1, hu1, e1⟩ := newBody_three hv hL n (d := List.replicate 3 (0 : R)) (u := List.replicate 3 0) (by simp)
      (by simp) 1 (j := 1) (by omega) (by omega)
    show ((FUpwind.newBody v L [n, n, n] 1 _ >>= fun s => FUpwind.newBody v L [n, n, n] 2 s >>= fun s =>
      FUpwind.newBody v L [n, n, n] 3 s >>= fun s => pure s) >>= _) = _
    rw [e1]
    rcases mkInt_cases (1 * n) with ⟨m1, -⟩ | m1
    · rw [m1, M.ok_bind, M.ok_bind]
      obtain ⟨d2, u2, hd2, hu2, e2⟩ := newBody_three hv hL n hd1 hu1 (1 * n) (j := 2) (by omega) (by omega)
      rw [e2]
      rcases mkInt_cases (1 * n * n) with ⟨m2, -⟩ | m2
      · rw [m2, M.ok_bind, M.ok_bind]
        obtain ⟨d3, u3, hd3, hu3, e3⟩ := newBody_three hv hL n hd2 hu2 (1 * n * n) (j := 3) (by omega) (by omega)
        rw [e3]
        rcases mkInt_cases (1 * n * n * n) with ⟨-, h⟩ | m3
        · exfalso
          have h1 : 1291 * 1291 ≤ n * n := Int.mul_le_mul hn hn (by omega) (by omega)
          have h2 : 1291 * 1291 * 1291 ≤ n * n * n := Int.mul_le_mul h1 hn (by omega) (by omega)
          rw [one_mul] at h
          omega
        · rw [m3]; rfl
      · rw [m2]; rfl
    · rw [m1]; rfl
  rw [key]
  rfl

/-- C60 is false for the Fortran programs with 1291 cells or more along each axis: the number of cells is more than a default integer
can hold, and the program does not notice. -/
theorem C60_fortran_large_fails (readInt : Str → Option Int) (courant big : R) (sum : List R → R) (threads rest prog : Str)
    (args : List Str) (n : Nat) (steps : Int) (vtk : Bool) (hprog : ∃ c ∈ prog.take 32, c ≠ ' ')
    (hargs : ∀ a ∈ args, FitsIn 32 a) (h : Asks (fun a z => readInt (filled 32 a) = some z) 100 args n steps vtk)
    (hn : 1291 ≤ n) (hcast : ∀ n : Nat, ((n : Int) : R) = (n : R)) (x : M Exit) :
    FUpwind.Main readInt courant big sum threads rest (prog :: args) x ↔ x = .error .signedOverflow := by
  have hlen : args.length ≠ 0 := by
    obtain ⟨a, ha, -⟩ := h.first
    intro h0
    rw [List.length_eq_zero_iff.1 h0] at ha
    simp at ha
  unfold FUpwind.Main
  rw [FUpwind.parse_eq (readInt := readInt) hprog hargs h]
  simp only
  unfold FUpwind.Body
  rw [if_neg (show ¬ args.length + 1 < 2 by omega)]
  simp only
  rw [FUpwind.mainDt_eq hcast, M.ok_bind,
    show FUpwind.new (List.replicate 3 (1 : R)) (List.replicate 3 1) (List.replicate 3 (n : Int)) = _ from
      new_overflow rfl rfl (by omega)]
  exact Iff.rfl

/-! ### Python -/

/-- C60, Python: for every command line whose first argument is a number `n` from 1 to 1290 and whose second argument, if there
is one, is a number of steps, the program computes the asked number of steps (100 without a second argument) on `n` cells
along each axis, operation by operation, prints the sizes and the sum of the field it has computed, and ends with status
0; if the third argument is `vtk`, and only then, it leaves a file up.vtk with the declared sizes right and the values in
their order.
Missing: a file with two or more cells cannot be read (`C59_python_values_fails`); more cells. -/
theorem C60_python_run_partial (readInt : Str → Option Int) (courant inf : R) (sum : List R → R) (prog : Str)
    (args : List Str) (n : Nat) (steps : Int) (vtk : Bool) (h : Asks (fun a z => readInt a = some z) 100 args n steps vtk)
    (hn : 0 < n) (hn2 : n ≤ 1290) (hcast : ∀ n : Nat, ((n : Int) : R) = (n : R))
    (hw : ∀ x : R, IsWord (DoubleText.showDouble x)) :
    ∃ f text grid, Stores [n, n, n] f (programField n (changeTimeLast (programStep inf courant (1 / (n : R))) [1, 1, 1]
        [1, 1, 1] [n, n, n]) steps) ∧
      readRectHead text = some grid ∧ grid.name = "f".toList ∧ grid.values.flatten = f.flatMap DoubleText.showDouble ∧
      [grid.x, grid.y, grid.z] = List.replicate 3 ((List.range (n + 1)).map fun i : Nat =>
        DoubleText.showDouble (0 + 1 / (n : R) * (i : R))) ∧
      PyUpwind.main readInt courant inf sum (prog :: args) = .ok {
        out := scriptText "  " n steps (DoubleText.showDouble (sum f))
        err := []
        files := if vtk then [("up.vtk".toList, text)] else []
        status := 0 } := by
  obtain ⟨hpos, hcells, haxis, _⟩ := grid_of hn hn2
  have hg : GoodGrid [n, n, n] := ⟨hpos, hcells, haxis⟩
  generalize hdt : programStep inf courant (1 / (n : R)) = dt
  have hnew := PyUpwind.new_eq (R := R) (N := [n, n, n]) (v := [1, 1, 1]) (L := [1, 1, 1]) hcast hg rfl rfl
  have hsteps := PyUpwind.steps_eq (R := R) (N := [n, n, n]) (v := [1, 1, 1]) (L := [1, 1, 1]) hg steps dt cornerField
  obtain ⟨s0, s, text, grid, e0, e1, e2, hr, hax, hname, f, hst, hvals⟩ := C59_python_file_partial (R := R) [n, n, n] (by simp)
    (by simp) hpos hcells haxis [1, 1, 1] [1, 1, 1] rfl rfl hcast dt steps hw
  have e0' := hnew.symm.trans e0
  injection e0' with e0'
  subst e0'
  have e1' := hsteps.symm.trans e1
  injection e1' with e1'
  have hf : s.f = f := by
    rw [← e1', (stores_iff hpos).1 hst]
    rfl
  obtain ⟨⟨a, h1, h1'⟩, h2, h3⟩ := h
  refine ⟨f, text, grid, hst, hr, hname, hvals, by rw [hax]; rfl, ?_⟩
  have hk : PyUpwind.optInt readInt (prog :: args) 2 100 = .ok steps := by
    rcases h2 with ⟨h2, rfl⟩ | ⟨c, h2, h2'⟩
    · exact PyUpwind.optInt_none _ (by simpa using h2)
    · exact PyUpwind.optInt_some _ (by simpa using h2) h2'
  have hv : PyUpwind.optVtk (prog :: args) 3 = .ok vtk := PyUpwind.optVtk_eq (by rw [h3]; simp)
  have hlen : ¬ (prog :: args).length ≤ 1 := by
    have := (List.getElem?_eq_some_iff.1 h1).1
    simp only [List.length_cons]
    omega
  unfold PyUpwind.main
  rw [if_neg hlen, show rd (prog :: args) 1 = .ok a by unfold rd; rw [List.getElem?_cons_succ, h1]; rfl, M.ok_bind,
    PyUpwind.toInt_of h1', M.ok_bind, hk, M.ok_bind, hv, M.ok_bind]
  simp only
  rw [PyUpwind.mainDt_eq hcast, M.ok_bind, hdt,
    show PyUpwind.new (List.replicate 3 (1 : R)) (List.replicate 3 1) (List.replicate 3 (n : Int)) = _ from hnew, M.ok_bind,
    e1, M.ok_bind, hf]
  have ht : "number of cells:  ".toList ++ PyUpwind.listText (List.replicate 3 (n : Int)) ++ "\n".toList ++
      "number of time steps:  ".toList ++ showInt steps ++ "\n".toList ++ "check sum:  ".toList ++
      DoubleText.showDouble (sum f) ++ "\n".toList = scriptText "  " n steps (DoubleText.showDouble (sum f)) := by
    rw [show List.replicate 3 (n : Int) = [(n : Int), n, n] from rfl, listText_eq]
    unfold scriptText
    have e1 : "number of cells:  ".toList = "number of cells:".toList ++ "  ".toList := by decide +kernel
    have e2 : "number of time steps:  ".toList = "number of time steps:".toList ++ "  ".toList := by decide +kernel
    have e3 : "check sum:  ".toList = "check sum:".toList ++ "  ".toList := by decide +kernel
    have e4 : "]\nnumber of time steps:".toList = "]".toList ++ "\n".toList ++ "number of time steps:".toList := by
      decide +kernel
    have e5 : "\ncheck sum:".toList = "\n".toList ++ "check sum:".toList := by decide +kernel
    simp only [String.toList_append, e1, e2, e3, e4, e5, List.append_assoc, toString_int]
  rw [ht]
  cases vtk
  · rfl
  · rw [if_pos rfl, e2]
    rfl

/-- C60: without arguments the Python program writes a message and ends with status 1. -/
theorem C60_python_no_arguments (readInt : Str → Option Int) (courant inf : R) (sum : List R → R) (prog : Str) :
    PyUpwind.main readInt courant inf sum [prog] = .ok {
      out := "must specify number of cells in each direction.\n".toList, err := [], files := [], status := 1 } := rfl

/-! ### Julia -/

theorem julia_text (n : Nat) (steps : Int) (x : Str) :
    JlUpwind.sizesText [(n : Int), n, n] steps ++ "check sum: ".toList ++ x ++ "\n".toList = scriptText " " n steps x := by
  unfold JlUpwind.sizesText scriptText
  rw [listText_eq]
  have e1 : "number of cells: ".toList = "number of cells:".toList ++ " ".toList := by decide +kernel
  have e2 : "number of time steps: ".toList = "number of time steps:".toList ++ " ".toList := by decide +kernel
  have e3 : "check sum: ".toList = "check sum:".toList ++ " ".toList := by decide +kernel
  have e4 : "]\nnumber of time steps:".toList = "]".toList ++ "\n".toList ++ "number of time steps:".toList := by
    decide +kernel
  have e5 : "\ncheck sum:".toList = "\n".toList ++ "check sum:".toList := by decide +kernel
  simp only [String.toList_append, e1, e2, e3, e4, e5, List.append_assoc, toString_int]

/-- C60, Julia: for every command line of upwind.jl whose first argument is a number `n ≥ 1` with fewer than 2^63 - 1 cells in all and
whose second argument, if there is one, is a number of steps, without `vtk` as third argument, the program computes the
asked number of steps (100 without a second argument) on `n` cells along each axis, operation by operation, prints the
sizes and the sum of the field it has computed, and ends with status 0.
Missing: with `vtk` it ends with an exception (`C60_julia_vtk_fails`). -/
theorem C60_julia_run_partial (readInt : Str → Option Int) (courant inf : R) (sum : List R → R)
    (script : Str) (args : List Str) (n : Nat) (steps : Int) (h : Asks (fun a z => readInt a = some z) 100 args n steps false)
    (hn : 0 < n) (hn2 : n * n * n + 1 < 2 ^ 63) (hcast : ∀ n : Nat, ((n : Int) : R) = (n : R)) :
    ∃ f, StoresCol [n, n, n] f ((upwindStep [n, n, n] (upDir [(1 : R), 1, 1]) (upCoeff (programStep inf courant (1 / (n : R)))
        [1, 1, 1] [1, 1, 1] [n, n, n]))^[steps.toNat] cornerField) ∧
      JlUpwind.main readInt courant inf sum script args = .ok {
        out := scriptText " " n steps (DoubleText.showDouble (sum f)), err := [], files := [], status := 0 } := by
  have hprod : ([n, n, n] : List Nat).prod = n * n * n := by simp [Nat.mul_assoc]
  obtain ⟨s0, s, e0, e1, hst⟩ := C54_julia_field (R := R) [n, n, n] (by simpa using hn) (by rw [hprod]; exact hn2) [1, 1, 1]
    [1, 1, 1] rfl rfl hcast (programStep inf courant (1 / (n : R))) steps
  refine ⟨s.f, hst, ?_⟩
  obtain ⟨⟨a, h1, h1'⟩, h2, h3⟩ := h
  have hk : PyUpwind.optInt readInt args 1 100 = .ok steps := by
    rcases h2 with ⟨h2, rfl⟩ | ⟨c, h2, h2'⟩
    · exact PyUpwind.optInt_none _ h2
    · exact PyUpwind.optInt_some _ h2 h2'
  have hlen : 0 < args.length := (List.getElem?_eq_some_iff.1 h1).1
  unfold JlUpwind.main
  rw [if_neg (show ¬ args.length < 1 by omega), show rd args 0 = .ok a by unfold rd; rw [h1]; rfl, M.ok_bind,
    PyUpwind.toInt_of h1', M.ok_bind, hk, M.ok_bind]
  simp only
  rw [JlUpwind.mainDt_eq hcast, M.ok_bind,
    show JlUpwind.new 3 (List.replicate 3 (1 : R)) (List.replicate 3 1) [(n : Int), n, n] = _ from e0, M.ok_bind,
    e1, M.ok_bind, PyUpwind.optVtk_eq h3, M.ok_bind]
  unfold JlUpwind.finish
  rw [julia_text]
  rfl

/-- C60, upwind3.jl: the same, with 128 cells if there is no first argument and 2 steps if there is no second one, for grids of
at most 2^53 cells along an axis. -/
theorem C60_julia3_run_partial (readInt : Str → Option Int) (courant inf : R) (sum : List R → R)
    (args : List Str) (n : Nat) (steps : Int)
    (h : (args = [] ∧ n = 128 ∧ steps = 2) ∨ Asks (fun a z => readInt a = some z) 2 args n steps false)
    (hn : 0 < n) (hn2 : n * n * n + 1 < 2 ^ 63) (hcast : ∀ n : Nat, ((n : Int) : R) = (n : R)) :
    ∃ f, StoresCol [n, n, n] f ((upwindStep [n, n, n] (upDir [(1 : R), 1, 1]) (upCoeff (programStep inf courant (1 / (n : R)))
        [1, 1, 1] [1, 1, 1] [n, n, n]))^[steps.toNat] cornerField) ∧
      JlUpwind.main3 readInt courant inf sum args = .ok {
        out := scriptText " " n steps (DoubleText.showDouble (sum f)), err := [], files := [], status := 0 } := by
  have hprod : ([n, n, n] : List Nat).prod = n * n * n := by simp [Nat.mul_assoc]
  have hle : n ≤ 2 ^ 53 := by
    by_contra hlt
    have := Nat.mul_le_mul (Nat.mul_le_mul (le_of_not_ge hlt) (le_of_not_ge hlt)) (le_of_not_ge hlt)
    omega
  obtain ⟨s, e1, hst⟩ := C54_julia3_field (R := R) [n, n, n] (by simpa using hn) (by rw [hprod]; exact hn2) (by simpa using hle)
    [1, 1, 1] [1, 1, 1] rfl rfl hcast (programStep inf courant (1 / (n : R))) steps
  refine ⟨s.f, hst, ?_⟩
  have hargs : PyUpwind.optInt readInt args 0 128 = .ok (n : Int) ∧ PyUpwind.optInt readInt args 1 2 = .ok steps ∧
      PyUpwind.optVtk args 2 = .ok false := by
    rcases h with ⟨rfl, rfl, rfl⟩ | ⟨⟨a, h1, h1'⟩, h2, h3⟩
    · exact ⟨rfl, rfl, rfl⟩
    · refine ⟨PyUpwind.optInt_some _ h1 h1', ?_, PyUpwind.optVtk_eq h3⟩
      rcases h2 with ⟨h2, rfl⟩ | ⟨c, h2, h2'⟩
      · exact PyUpwind.optInt_none _ h2
      · exact PyUpwind.optInt_some _ h2 h2'
  unfold JlUpwind.main3
  rw [hargs.1, M.ok_bind, hargs.2.1, M.ok_bind, hargs.2.2, M.ok_bind]
  simp only
  rw [JlUpwind.mainDt_eq hcast, M.ok_bind,
    show JlUpwind.run3 3 (List.replicate 3 (1 : R)) (List.replicate 3 1) [(n : Int), n, n] _ _ = _ from e1, M.ok_bind]
  unfold JlUpwind.finish
  rw [julia_text]
  rfl

/-- C60 is false for the Julia programs with `vtk`: for every size and number of steps they end with an exception after the last
step, and there is no file. -/
theorem C60_julia_vtk_fails (readInt : Str → Option Int) (courant inf : R) (sum : List R → R) (script : Str) (args : List Str)
    (n : Nat) (steps : Int) (hn : 0 < n) (hn2 : n * n * n + 1 < 2 ^ 63) (hcast : ∀ n : Nat, ((n : Int) : R) = (n : R)) :
    (Asks (fun a z => readInt a = some z) 100 args n steps true →
      JlUpwind.main readInt courant inf sum script args = .error .badArgument) ∧
    (Asks (fun a z => readInt a = some z) 2 args n steps true →
      JlUpwind.main3 readInt courant inf sum args = .error .badArgument) := by
  have hprod : ([n, n, n] : List Nat).prod = n * n * n := by simp [Nat.mul_assoc]
  have hle : n ≤ 2 ^ 53 := by
    by_contra hlt
    have := Nat.mul_le_mul (Nat.mul_le_mul (le_of_not_ge hlt) (le_of_not_ge hlt)) (le_of_not_ge hlt)
    omega
  constructor
  · rintro ⟨⟨a, h1, h1'⟩, h2, h3⟩
    obtain ⟨s0, s, e0, e1, hst⟩ := C54_julia_field (R := R) [n, n, n] (by simpa using hn) (by rw [hprod]; exact hn2) [1, 1, 1]
      [1, 1, 1] rfl rfl hcast (programStep inf courant (1 / (n : R))) steps
    have hk : PyUpwind.optInt readInt args 1 100 = .ok steps := by
      rcases h2 with ⟨h2, rfl⟩ | ⟨c, h2, h2'⟩
      · exact PyUpwind.optInt_none _ h2
      · exact PyUpwind.optInt_some _ h2 h2'
    have hlen : 0 < args.length := (List.getElem?_eq_some_iff.1 h1).1
    unfold JlUpwind.main
    rw [if_neg (show ¬ args.length < 1 by omega), show rd args 0 = .ok a by unfold rd; rw [h1]; rfl, M.ok_bind,
      PyUpwind.toInt_of h1', M.ok_bind, hk, M.ok_bind]
    simp only
    rw [JlUpwind.mainDt_eq hcast, M.ok_bind,
      show JlUpwind.new 3 (List.replicate 3 (1 : R)) (List.replicate 3 1) [(n : Int), n, n] = _ from e0, M.ok_bind,
      e1, M.ok_bind, PyUpwind.optVtk_eq h3, M.ok_bind]
    rfl
  · rintro ⟨⟨a, h1, h1'⟩, h2, h3⟩
    obtain ⟨s, e1, hst⟩ := C54_julia3_field (R := R) [n, n, n] (by simpa using hn) (by rw [hprod]; exact hn2) (by simpa using hle)
      [1, 1, 1] [1, 1, 1] rfl rfl hcast (programStep inf courant (1 / (n : R))) steps
    have hk : PyUpwind.optInt readInt args 1 2 = .ok steps := by
      rcases h2 with ⟨h2, rfl⟩ | ⟨c, h2, h2'⟩
      · exact PyUpwind.optInt_none _ h2
      · exact PyUpwind.optInt_some _ h2 h2'
    unfold JlUpwind.main3
    rw [PyUpwind.optInt_some _ h1 h1', M.ok_bind, hk, M.ok_bind, PyUpwind.optVtk_eq h3, M.ok_bind]
    simp only
    rw [JlUpwind.mainDt_eq hcast, M.ok_bind,
      show JlUpwind.run3 3 (List.replicate 3 (1 : R)) (List.replicate 3 1) [(n : Int), n, n] _ _ = _ from e1, M.ok_bind]
    rfl

/-- C60: without arguments upwind.jl says how it is used and ends with status 1. -/
theorem C60_julia_no_arguments (readInt : Str → Option Int) (courant inf : R) (sum : List R → R)
    (script : Str) : JlUpwind.main readInt courant inf sum script [] = .ok {
      out := "Must specify number of cells in each direction.\n".toList ++ "Usage: ".toList ++ script ++
        " numCells [numTimeSteps]\n".toList, err := [], files := [], status := 1 } := rfl

end

/-! ### The check sums -/

section
open Finset
variable {K : Type} [Field K] [LinearOrder K] [IsStrictOrderedRing K]

theorem total_corner {N : List Nat} (hp : ∀ n ∈ N, 0 < n) : total N (cornerField : List Nat → K) = 1 := by
  rw [← sum_listC hp, ← JlUpwind.cornerC hp]
  obtain ⟨n, hn⟩ : ∃ n, N.prod = n + 1 := ⟨N.prod - 1, by have := List.prod_pos hp; omega⟩
  rw [hn]
  simp [List.replicate_succ]

theorem programStep_eq {top courant w : K} (h : courant * w ≤ top) : programStep top courant w = courant * w := by
  unfold programStep smallestLast
  simp only [List.replicate_succ, List.replicate_zero, List.foldl_cons, List.foldl_nil, div_one, not_lt_of_ge h, lt_irrefl,
    if_false]

/-- In exact arithmetic with Courant number at most 1/3 all values stay between 0 and 1. -/
theorem program_bounds {n : Nat} (hn : 0 < n) {top courant : K} (h0 : 0 ≤ courant) (h3 : 3 * courant ≤ 1)
    (htop : courant * (1 / (n : K)) ≤ top) (k : Nat) (g : List Nat) (hg : InGrid [n, n, n] g) :
    0 ≤ (upwindStep [n, n, n] (upDir [(1 : K), 1, 1]) (upCoeff (programStep top courant (1 / (n : K))) [1, 1, 1] [1, 1, 1]
      [n, n, n]))^[k] cornerField g ∧
    (upwindStep [n, n, n] (upDir [(1 : K), 1, 1]) (upCoeff (programStep top courant (1 / (n : K))) [1, 1, 1] [1, 1, 1]
      [n, n, n]))^[k] cornerField g ≤ 1 := by
  have hq : (0 : K) < n := by exact_mod_cast hn
  rw [programStep_eq htop]
  have hcoef : upCoeff (courant * (1 / (n : K))) [1, 1, 1] [1, 1, 1] [n, n, n] =
      fun j => -(courant * (1 / (n : K)) * |([1, 1, 1] : List K).getD j 0| / cellWidth [1, 1, 1] [n, n, n] j) := by
    funext j; exact upCoeff_eq _ _ _ _ j
  have hw := fun j (_ : j < [n, n, n].length) => weight_nonneg (v := [1, 1, (1 : K)]) (L := [1, 1, 1]) (N := [n, n, n])
    (dt := courant * (1 / (n : K))) (by positivity) (by simp) j
  have hs : ∑ j ∈ range [n, n, n].length, courant * (1 / (n : K)) * |([1, 1, 1] : List K).getD j 0| /
      cellWidth [1, 1, 1] [n, n, n] j ≤ 1 := by
    have e : ∀ j, j < 3 → courant * (1 / (n : K)) * |([1, 1, 1] : List K).getD j 0| / cellWidth [1, 1, 1] [n, n, n] j =
        courant := by
      intro j hj
      unfold cellWidth
      have h3 : j = 0 ∨ j = 1 ∨ j = 2 := by omega
      rcases h3 with rfl | rfl | rfl <;> simp <;> field_simp
    rw [sum_congr rfl fun j hj => e j (by simpa using hj)]
    simpa using h3
  rw [hcoef]
  induction k generalizing g with
  | zero =>
    simp only [Function.iterate_zero, id, cornerField]
    split <;> simp
  | succ k ih =>
    rw [Function.iterate_succ_apply']
    exact ⟨le_step _ hw hs (fun g hg => (ih g hg).1) hg, step_le _ hw hs (fun g hg => (ih g hg).2) hg⟩

/-- The sum of a stored field. -/
theorem stored_sum {N : List Nat} (hp : ∀ n ∈ N, 0 < n) {f : List K} {u : List Nat → K} (hst : Stores N f u) :
    f.sum = total N u := by
  rw [stores_iff hp] at hst
  rw [hst, sum_listOf]

theorem storesCol_eq {N : List Nat} (hp : ∀ n ∈ N, 0 < n) {f : List K} {u : List Nat → K} (hst : StoresCol N f u) :
    f = JlUpwind.listC N u := by
  apply ext_of_getElem? (by rw [hst.1]; simp [JlUpwind.listC])
  intro i hi
  have hi : i < N.prod := by simpa [JlUpwind.listC] using hi
  have h1 := hst.2 _ (JlUpwind.cellC_inGrid hp i)
  have h2 := (JlUpwind.listC_stores u).2 _ (JlUpwind.cellC_inGrid hp i)
  rw [← JlUpwind.flatC_eq (JlUpwind.cellC_inGrid hp i), JlUpwind.flatC_cellC hp hi] at h1 h2
  rw [h1, h2]

/-- C60, exact arithmetic: every execution of the Fortran programs prints 1 as the check sum. -/
theorem C60_fortran_check_sum_partial [DoubleText K] (readInt : Str → Option Int) (courant big : K) (threads rest prog : Str)
    (args : List Str) (n : Nat) (steps : Int) (vtk : Bool) (hprog : ∃ c ∈ prog.take 32, c ≠ ' ')
    (hargs : ∀ a ∈ args, FitsIn 32 a) (h : Asks (fun a z => readInt (filled 32 a) = some z) 100 args n steps vtk)
    (hn : 0 < n) (hn2 : n ≤ 1290) (hsteps : steps + 1 < 2 ^ 31)
    (hw : ∀ x : K, IsWord (DoubleText.showDouble x)) (hl : ∀ x : K, (DoubleText.showDouble x).length ≤ 20)
    (x : M Exit) (hx : FUpwind.Main readInt courant big List.sum threads rest (prog :: args) x) :
    ∃ e : Exit, x = .ok e ∧ e.out = threads ++ fortranText rest n steps (DoubleText.showDouble (1 : K)) ∧ e.status = 0 := by
  obtain ⟨f, text, hst, -, -, hall⟩ := C60_fortran_run_partial readInt courant big List.sum threads rest prog args n steps vtk
    hprog hargs h hn hn2 hsteps (fun n => Int.cast_natCast n) hw hl
  unfold programField at hst
  rw [schemeStep_eq_upwindStep _ _ _ _ (changeDivLast_eq _ _ _ _)] at hst
  have hp : ∀ m ∈ [n, n, n], 0 < m := by simpa using hn
  rw [stored_sum hp hst, total_iter hp, total_corner hp] at hall
  exact ⟨_, hall x hx, rfl, rfl⟩

/-- C60, exact arithmetic: so does the Python program. -/
theorem C60_python_check_sum_partial [DoubleText K] (readInt : Str → Option Int) (courant inf : K) (prog : Str)
    (args : List Str) (n : Nat) (steps : Int) (vtk : Bool) (h : Asks (fun a z => readInt a = some z) 100 args n steps vtk)
    (hn : 0 < n) (hn2 : n ≤ 1290) (hw : ∀ x : K, IsWord (DoubleText.showDouble x)) :
    ∃ e : Exit, PyUpwind.main readInt courant inf List.sum (prog :: args) = .ok e ∧
      e.out = scriptText "  " n steps (DoubleText.showDouble (1 : K)) ∧ e.status = 0 := by
  obtain ⟨f, text, grid, hst, -, -, -, -, hrun⟩ := C60_python_run_partial readInt courant inf List.sum prog args n steps vtk
    h hn hn2 (fun n => Int.cast_natCast n) hw
  unfold programField at hst
  rw [schemeStep_eq_upwindStep _ _ _ _ (changeTimeLast_eq _ _ _ _)] at hst
  have hp : ∀ m ∈ [n, n, n], 0 < m := by simpa using hn
  rw [stored_sum hp hst, total_iter hp, total_corner hp] at hrun
  exact ⟨_, hrun, rfl, rfl⟩

/-- C60, exact arithmetic: so do the Julia programs. -/
theorem C60_julia_check_sum_partial [DoubleText K] (readInt : Str → Option Int) (courant inf : K)
    (script : Str) (args : List Str) (n : Nat) (steps : Int)
    (hn : 0 < n) (hn2 : n * n * n + 1 < 2 ^ 63) :
    (Asks (fun a z => readInt a = some z) 100 args n steps false →
      ∃ e : Exit, JlUpwind.main readInt courant inf List.sum script args = .ok e ∧
        e.out = scriptText " " n steps (DoubleText.showDouble (1 : K)) ∧ e.status = 0) ∧
    ((args = [] ∧ n = 128 ∧ steps = 2) ∨ Asks (fun a z => readInt a = some z) 2 args n steps false →
      ∃ e : Exit, JlUpwind.main3 readInt courant inf List.sum args = .ok e ∧
        e.out = scriptText " " n steps (DoubleText.showDouble (1 : K)) ∧ e.status = 0) := by
  have hp : ∀ m ∈ [n, n, n], 0 < m := by simpa using hn
  constructor
  · intro h
    obtain ⟨f, hst, hrun⟩ := C60_julia_run_partial readInt courant inf List.sum script args n steps h hn hn2
      (fun n => Int.cast_natCast n)
    rw [storesCol_eq hp hst, sum_listC hp, total_iter hp, total_corner hp] at hrun
    exact ⟨_, hrun, rfl, rfl⟩
  · intro h
    obtain ⟨f, hst, hrun⟩ := C60_julia3_run_partial readInt courant inf List.sum args n steps h hn hn2
      (fun n => Int.cast_natCast n)
    rw [storesCol_eq hp hst, sum_listC hp, total_iter hp, total_corner hp] at hrun
    exact ⟨_, hrun, rfl, rfl⟩

/-- C60, exact arithmetic: with a Courant number of at most 1/3 (the programs take 1/10) all values of the fields that the
Fortran, Python and Julia programs compute are between 0 and 1, after any number of steps. -/
theorem C60_values_bounded (n : Nat) (hn : 0 < n) (top courant : K) (h0 : 0 ≤ courant) (h3 : 3 * courant ≤ 1)
    (htop : courant * (1 / (n : K)) ≤ top) (steps : Int) (f : List K)
    (hst : Stores [n, n, n] f (programField n (changeDivLast (programStep top courant (1 / (n : K))) [1, 1, 1] [1, 1, 1]
        [n, n, n]) steps) ∨
      Stores [n, n, n] f (programField n (changeTimeLast (programStep top courant (1 / (n : K))) [1, 1, 1] [1, 1, 1]
        [n, n, n]) steps) ∨
      StoresCol [n, n, n] f ((upwindStep [n, n, n] (upDir [(1 : K), 1, 1]) (upCoeff (programStep top courant (1 / (n : K)))
        [1, 1, 1] [1, 1, 1] [n, n, n]))^[steps.toNat] cornerField)) : ∀ x ∈ f, 0 ≤ x ∧ x ≤ 1 := by
  have hp : ∀ m ∈ [n, n, n], 0 < m := by simpa using hn
  unfold programField at hst
  rw [schemeStep_eq_upwindStep _ _ _ _ (changeDivLast_eq _ _ _ _), schemeStep_eq_upwindStep _ _ _ _ (changeTimeLast_eq _ _ _ _),
    ← or_assoc, or_self] at hst
  intro x hx
  rcases hst with hst | hst
  · rw [(stores_iff hp).1 hst] at hx
    simp only [listOf, List.mem_map, List.mem_range] at hx
    obtain ⟨i, _, rfl⟩ := hx
    exact program_bounds hn h0 h3 htop _ _ (cellAt_inGrid hp i)
  · rw [storesCol_eq hp hst] at hx
    simp only [JlUpwind.listC, List.mem_map, List.mem_range] at hx
    obtain ⟨i, _, rfl⟩ := hx
    exact program_bounds hn h0 h3 htop _ _ (JlUpwind.cellC_inGrid hp i)

end
/-! ### The hypotheses are met -/

attribute [local instance] shortRat

/-- A reader of decimal numbers, blanks at the end ignored. -/
def readExample (s : Str) : Option Int :=
  let t := s.takeWhile (· ≠ ' ')
  if t ≠ [] ∧ t.all Char.isDigit then some (t.foldl (fun a c => 10 * a + (c.toNat - 48)) 0) else none

/-- C60: the command line `12 7 vtk`, and one with the number of cells only. -/
example : FitsIn 32 "12".toList ∧
    Asks (fun a z => readExample (filled 32 a) = some z) 100 ["12".toList, "7".toList, "vtk".toList] (12 : Nat) 7 true ∧
    Asks (fun a z => readExample a = some z) 100 ["12".toList] (12 : Nat) 100 false ∧
    readExample (filled 32 "many".toList) = none := by
  refine ⟨⟨by decide +kernel, '2', by decide +kernel, by decide⟩,
    ⟨⟨_, rfl, by decide +kernel⟩, Or.inr ⟨_, rfl, by decide +kernel⟩, by decide +kernel⟩,
    ⟨⟨_, rfl, by decide +kernel⟩, Or.inl ⟨rfl, rfl⟩, by decide +kernel⟩, by decide +kernel⟩

/-- C60: two steps of the Python program on two cells along each axis. -/
example : (PyUpwind.main readExample (1 / 10 : ℚ) 1000 List.sum ["upwind.py".toList, "2".toList, "2".toList]).map
      (fun e => (e.out, e.files.length, e.status)) =
    .ok ("number of cells:  [2, 2, 2]\nnumber of time steps:  2\ncheck sum:  1/1\n".toList, 0, 0) := by decide +kernel

/-- C60: one step of upwind3.jl on three cells along each axis, and the same with `vtk`. -/
example : (JlUpwind.main3 readExample (1 / 10 : ℚ) 1000 List.sum ["3".toList, "1".toList]).map
      (fun e => (e.out, e.files, e.status)) =
    .ok ("number of cells: [3, 3, 3]\nnumber of time steps: 1\ncheck sum: 1/1\n".toList, [], 0) ∧
    Asks (fun a z => readExample a = some z) 2 ["3".toList, "1".toList, "vtk".toList] (3 : Nat) 1 true ∧
    JlUpwind.main3 readExample (1 / 10 : ℚ) 1000 List.sum ["3".toList, "1".toList, "vtk".toList] = .error .badArgument := by
  refine ⟨by decide +kernel, ⟨⟨_, rfl, by decide +kernel⟩, Or.inr ⟨_, rfl, by decide +kernel⟩, by decide +kernel⟩, ?_⟩
  decide +kernel

/-- C60: the Fortran programs on four cells along each axis. -/
example (x : M Exit) (hx : FUpwind.Main readExample (1 / 10 : ℚ) 1000 List.sum [] []
      ["upwind".toList, "4".toList, "3".toList] x) : ∃ e : Exit, x = .ok e ∧ e.status = 0 ∧
    e.out = "number of cells:          4          4          4 \nnumber of time steps:          3\ncheck sum:             1/1\n".toList := by
  obtain ⟨e, h1, h2, h3⟩ := C60_fortran_check_sum_partial readExample (1 / 10 : ℚ) 1000 [] [] "upwind".toList ["4".toList, "3".toList]
    4 3 false ⟨'u', by decide +kernel, by decide⟩ (by
      intro a ha
      simp only [List.mem_cons, List.not_mem_nil, or_false] at ha
      rcases ha with rfl | rfl
      · exact ⟨by decide +kernel, '4', by decide +kernel, by decide⟩
      · exact ⟨by decide +kernel, '3', by decide +kernel, by decide⟩)
    ⟨⟨_, rfl, by decide +kernel⟩, Or.inr ⟨_, rfl, by decide +kernel⟩, by decide +kernel⟩ (by omega) (by omega) (by omega)
    (fun q => (showExample_ok q).1) (fun q => (showExample_ok q).2) x hx
  exact ⟨e, h1, h3, h2.trans (by decide +kernel)⟩

/-- C60: the Courant number of the programs. -/
example : (0 : ℚ) ≤ 1 / 10 ∧ 3 * (1 / 10 : ℚ) ≤ 1 ∧ (1 / 10 : ℚ) * (1 / ((128 : Nat) : ℚ)) ≤ 1000 := by norm_num

end Fidi
