import Verif.Lemmas.UpwindPrint
import Verif.Props.Upwind
import Verif.Props.UpwindAcc
import Verif.Props.UpwindFortran
import Verif.Props.UpwindCython
import Verif.Props.Vtk

/-
Property C66: the print methods of the upwind solvers. Property C63, `saveVTK` of upwind5.pyx.

`hcast`: converting a number of cells to a floating-point number does not depend on the type of the integer.
-/
set_option linter.unusedSectionVars false

namespace Fidi
open Spec Upwind

/-- What the order of `numbered` is: all cells of the grid, each once, the cell with row-major position `i` being number `i`. -/
theorem rowCells_spec (N : List Nat) : (rowCells N).length = N.prod ∧ (rowCells N).Nodup ∧ (∀ g, g ∈ rowCells N ↔ InGrid N g) ∧
    ∀ g, InGrid N g → (rowCells N)[rankOf N g]? = some g := by
  refine ⟨length_rowCells N, ?_, ?_, (rowCells_stores N).2⟩
  · induction N with
    | nil => simp [rowCells]
    | cons n N ih =>
      rw [rowCells, List.nodup_flatMap]
      refine ⟨fun i _ => ih.map fun a b h => (List.cons.inj h).2, ?_⟩
      refine (List.nodup_range (n := n)).imp fun {i j} hij a ha hb => ?_
      obtain ⟨a1, _, rfl⟩ := List.mem_map.1 ha
      obtain ⟨a2, _, h2⟩ := List.mem_map.1 hb
      exact hij (List.cons.inj h2).1.symm
  · induction N with
    | nil => intro g; cases g <;> simp [rowCells, InGrid]
    | cons n N ih =>
      intro g
      cases g with
      | nil => simp [rowCells, InGrid]
      | cons x g => simp [rowCells, InGrid, ih]

section
variable {R : Type} [Zero R] [One R] [Add R] [Sub R] [Mul R] [Div R] [NatCast R] [IntCast R] [LT R] [DecidableLT R] [DoubleText R]

/-- C66, upwind.cxx and upwindOMPTasks.cxx: after any number of steps from any field, `print` writes for each cell, in row-major
order, a line with its number from 0 on and the value of the field there. -/
theorem C66_upwind (N : List Nat) (hN : N ≠ []) (hdim : N.length < 2 ^ 64) (hpos : ∀ n ∈ N, 0 < n)
    (hcells : N.prod < 2 ^ 31) (haxis : ∀ n ∈ N, n < 2 ^ 30) (v L : List R) (hv : v.length = N.length)
    (hL : L.length = N.length) (s0 : Upwind R) (hnew : Upwind.new N.length v L N = .ok s0)
    (f0 : List R) (u : List Nat → R) (hf : Stores N f0 u) (k : Int) (dt : R) :
    ∃ s', { s0 with f := f0 }.advect k dt = .ok s' ∧
      s'.print = .ok (numbered (fun i x => (toString i ++ " ").toList ++ DoubleText.showDouble x ++ "\n".toList) 0 N
        ((upwindStep N (upDir v) (upCoeff dt v L N))^[k.toNat] u)) := by
  obtain ⟨s', e, h⟩ := C32_advect_is_upwind_scheme N hN hdim hpos hcells haxis v L hv hL s0 hnew f0 u hf k dt
  exact ⟨s', e, Upwind.print_eq hpos h⟩

/-- C66, upwindAcc.cxx, upwindAcc2.cxx and upwindOMP5.cxx: the same for any number of threads, schedule and interleaving. -/
theorem C66_acc (a b c : Nat) (ha : 0 < a) (hb : 0 < b) (hc : 0 < c) (hcells : a * (b * c) < 2 ^ 31)
    (haxis : a < 2 ^ 30 ∧ b < 2 ^ 30 ∧ c < 2 ^ 30) (v L : List R) (hv : v.length = 3) (hL : L.length = 3)
    (s0 : UpwindAcc R) (hnew : UpwindAcc.new 3 v L [(a : Int), b, c] = .ok s0) (f0 old0 : List R) (u : List Nat → R)
    (hf : Stores [a, b, c] f0 u) (hold : old0.length = a * (b * c)) (k : Nat) (dt : R)
    (T : Nat) (hT : 0 < T) (may : Nat → Nat → Nat → Prop) :
    let text := numbered (fun i x => (toString i ++ " ").toList ++ DoubleText.showDouble x ++ "\n".toList) 0 [a, b, c]
      ((upwindStep [a, b, c] (upDir v) fun j => dt * (v.getD j 0 * (upDir v j : R) /
        (L.getD j 0 / (([a, b, c].getD j 0 : Int) : R))))^[k] u)
    (∀ f', s0.Advect1s T may dt k f0 f' → { s0 with f := f' }.print = .ok text) ∧
    (Covers (s0.region2 k dt) T may → ∀ s, PReach (s0.region2 k dt) T may (UpwindAcc.memory f0 old0) s → s.Final (s0.region2 k dt) T →
      { s0 with f := (List.range (a * (b * c))).map fun i => s.mem (.f, i) }.print = .ok text) := by
  have hpos : ∀ n ∈ [a, b, c], 0 < n := by simp [ha, hb, hc]
  refine ⟨fun f' hs => ?_, fun hmay s hs hfin => ?_⟩
  · exact UpwindAcc.print_eq (s := { s0 with f := f' }) hpos
      (C37_acc_result a b c ha hb hc hcells haxis v L hv hL s0 hnew f0 u hf dt T hT may k f' hs)
  · have := (C37_acc2_executions a b c ha hb hc hcells haxis v L hv hL s0 hnew f0 old0 u hf hold k dt T hT may hmay s hs).2.2 hfin
    exact UpwindAcc.print_eq (s := { s0 with f := (List.range (a * (b * c))).map fun i => s.mem (.f, i) }) hpos this

/-- C66, upwind.py: the number and the value are separated by three blanks. -/
theorem C66_python (N : List Nat) (hpos : ∀ n ∈ N, 0 < n)
    (hcells : N.prod < 2 ^ 31) (haxis : ∀ n ∈ N, n < 2 ^ 30) (v L : List R) (hv : v.length = N.length)
    (hL : L.length = N.length) (hcast : ∀ n : Nat, ((n : Int) : R) = (n : R)) (dt : R) (k : Int) :
    ∃ s0 s : PyUpwind R, PyUpwind.new v L (N.map fun n : Nat => (n : Int)) = .ok s0 ∧ s0.steps k dt = .ok s ∧
      s.printOut = .ok (numbered (fun i x => (toString i ++ "   ").toList ++ DoubleText.showDouble x ++ "\n".toList) 0 N
        ((schemeStep N (upDir v) (changeTimeLast dt v L N))^[k.toNat] cornerField)) := by
  obtain ⟨s0, s, h1, h2, h3⟩ := C54_python_field N hpos hcells haxis v L hv hL hcast dt k
  exact ⟨s0, s, h1, h2, PyUpwind.printOut_eq hpos h3⟩

/-- C66, upwind5.pyx: whatever the rules of Python and numpy, whenever the constructor and the steps succeed (see `C63_runs_iff`). -/
theorem C66_cython (py : NumpyRules) (N : List Nat) (hN : N ≠ []) (hpos : ∀ n ∈ N, 0 < n) (v L : List R)
    (hv : v.length = N.length) (hL : L.length = N.length) (hcast : ∀ n : Nat, ((n : Int) : R) = (n : R)) (dts : List R)
    (s0 s : CyUpwind R) (hnew : CyUpwind.new py v L (N.map fun n : Nat => (n : Int)) = .ok s0) (hs : s0.advects py dts = .ok s) :
    s.printOut = .ok (numbered (fun i x => (toString i ++ "   ").toList ++ DoubleText.showDouble x ++ "\n".toList) 0 N
      (dts.foldl (fun u dt => schemeStep N (upDir v) (changeTimeLast dt v L N) u) cornerField)) := by
  by_cases hcells : N.prod < 2 ^ 31
  · have hg : Grid31 N := ⟨hpos, hcells⟩
    cases hd : py.trueDivision with
    | true => exact nomatch (CyUpwind.new_trueDivision hd hcast hN hg hv hL).symm.trans hnew
    | false =>
      have e := (CyUpwind.new_eq hd hcast hg hv hL).symm.trans hnew
      injection e with e
      subst e
      cases hk : py.sameKind with
      | false =>
        obtain ⟨o, fl, e⟩ := CyUpwind.advects_eq (v := v) (L := L) hk hg dts cornerField (List.replicate N.prod 0) (by simp)
          (List.replicate N.prod 0)
        have e := e.symm.trans hs
        injection e with e
        subst e
        exact CyUpwind.printOut_eq hpos (Stores.listOf hpos _) rfl
      | true =>
        cases dts with
        | nil =>
          injection hs with hs
          subst hs
          exact CyUpwind.printOut_eq hpos (Stores.listOf hpos _) rfl
        | cons dt dts =>
          unfold CyUpwind.advects at hs
          rw [List.foldlM_cons, CyUpwind.advect_sameKind hk hN hg dt _ _ (by simp) _] at hs
          exact nomatch hs
  · exact nomatch (CyUpwind.new_big hcast (by omega) hv hL).symm.trans hnew

/-- C66, the Fortran versions: the cells are numbered from 1 on, the numbers are in a field of 10 and the values, whose digits must
not be more than 20 characters, in a field of 20 characters. For any number of threads, schedule and interleaving. -/
theorem C66_fortran (N : List Nat) (hN : N ≠ []) (hdim : N.length + 1 < 2 ^ 31) (hpos : ∀ n ∈ N, 0 < n)
    (hcells : N.prod + 1 < 2 ^ 31) (haxis : ∀ n ∈ N, n < 2 ^ 30) (v L : List R) (hv : v.length = N.length)
    (hL : L.length = N.length) (hcast : ∀ n : Nat, ((n : Int) : R) = (n : R)) (dt : R) (k : Nat)
    (hl : ∀ x : R, (DoubleText.showDouble x).length ≤ 20) :
    ∃ s0 : FUpwind R, FUpwind.new v L (N.map fun n : Nat => (n : Int)) = .ok s0 ∧
      (∃ x, FUpwind.Advances dt k s0 x) ∧
      ∀ x, FUpwind.Advances dt k s0 x →
        x.print = .ok (numbered (fun i y => "i = ".toList ++ padLeft 10 (toString i).toList ++ " f = ".toList
          ++ padLeft 20 (DoubleText.showDouble y) ++ "\n".toList) 1 N
          ((schemeStep N (upDir v) (changeDivLast dt v L N))^[k] cornerField)) := by
  have hg : GoodGrid N := ⟨hpos, by omega, haxis⟩
  have hst := Stores.listOf (R := R) hpos cornerField
  refine ⟨_, FUpwind.new_eq hcast hN hg hdim hv hL, FUpwind.exists_advances hg hdim hv dt hst.1 k, fun x hx => ?_⟩
  rw [FUpwind.advances_eq hg hdim hv dt hst hx]
  exact FUpwind.print_eq hpos hcells (Stores.listOf hpos _) rfl hl

/-! ### saveVTK of upwind5.pyx -/

/-- C63: the file that `saveVTK` of upwind5.pyx writes for an object on which any sequence of steps has been done is no VTK file,
because its first line is `# vtk Data Version 2.0` instead of `# vtk DataFile Version 2.0`. -/
theorem C63_file_fails (s : CyUpwind R) (text : Str) (h : s.saveVTK = .ok text) : readRect text = none := by
  obtain ⟨rest, rfl⟩ := CyUpwind.saveVTK_first h
  have e : "# vtk Data Version 2.0\n".toList = "# vtk Data Version 2.0".toList ++ ['\n'] := by decide +kernel
  unfold readRect header
  rw [e, List.append_assoc, List.singleton_append, firstLine_append (by decide +kernel)]
  dsimp only
  rw [if_neg (fun h => absurd h.1 (by decide +kernel))]
  rfl

/-- C63 (part): with the rules of Python 2 and numpy before 1.10 and on grids of one to three axes, after any sequence of steps:
if the first line is replaced by the right one, the file is that of a rectilinear grid with the nodes and the field.
Missing: the first line (`C63_file_fails`), grids of more than three axes. -/
theorem C63_file_partial (py : NumpyRules) (hdiv : py.trueDivision = false) (hkind : py.sameKind = false)
    (N : List Nat) (h1 : 1 ≤ N.length) (h3 : N.length ≤ 3) (hpos : ∀ n ∈ N, 0 < n) (hcells : N.prod < 2 ^ 31) (v L : List R)
    (hv : v.length = N.length) (hL : L.length = N.length) (hcast : ∀ n : Nat, ((n : Int) : R) = (n : R)) (dts : List R)
    (hw : ∀ x : R, IsWord (DoubleText.showDouble x)) :
    ∃ (s0 s : CyUpwind R) (rest : Str) (grid : RectGrid), CyUpwind.new py v L (N.map fun n : Nat => (n : Int)) = .ok s0 ∧
      s0.advects py dts = .ok s ∧ s.saveVTK = .ok ("# vtk Data Version 2.0\n".toList ++ rest) ∧
      readRect ("# vtk DataFile Version 2.0\n".toList ++ rest) = some grid ∧
      [grid.x, grid.y, grid.z] = [2, 1, 0].map (fun j =>
        if j < N.length then (List.range (N.getD j 0 + 1)).map fun i : Nat =>
          DoubleText.showDouble (0 + cellWidth L N j * (i : R))
        else ["0.0".toList]) ∧
      grid.name = "f".toList ∧ grid.values.length = N.prod ∧
      ∀ g, InGrid N g → grid.value (g.getD 2 0) (g.getD 1 0) (g.getD 0 0) = some (DoubleText.showDouble
        (dts.foldl (fun u dt => schemeStep N (upDir v) (changeTimeLast dt v L N) u) cornerField g)) := by
  have hg : Grid31 N := ⟨hpos, hcells⟩
  obtain ⟨o, fl, e⟩ := CyUpwind.advects_eq (v := v) (L := L) hkind hg dts cornerField (List.replicate N.prod 0) (by simp)
    (List.replicate N.prod 0)
  generalize dts.foldl (fun u dt => schemeStep N (upDir v) (changeTimeLast dt v L N) u) cornerField = u' at e ⊢
  have hst : Stores N (listOf N u') u' := Stores.listOf hpos u'
  obtain ⟨rest, hs, hh⟩ := CyUpwind.saveVTK_words (s := CyUpwind.built v L N (listOf N u') o fl) hcast h1 rfl
    (by simp [CyUpwind.built]) rfl (fun n hn => hg.mem_lt hn) rfl hst.1 hw
  have hr := readRect_words hh
  rw [if_pos ⟨length_coordTexts _ _ _, length_coordTexts _ _ _, length_coordTexts _ _ _, by
    rw [cellsOf_nodesOf hpos, cellsOf_nodesOf hpos, cellsOf_nodesOf hpos, prod_reversed h1 h3], by
    rw [List.length_map]; exact hst.1⟩] at hr
  have hdel : ∀ j, coordTexts N ((List.range N.length).map (cellWidth L N)) j =
      if j < N.length then (List.range (N.getD j 0 + 1)).map fun i : Nat =>
          DoubleText.showDouble (0 + cellWidth L N j * (i : R))
        else ["0.0".toList] := by
    intro j
    unfold coordTexts
    by_cases hj : j < N.length
    · rw [if_pos hj, if_pos hj, List.getD_eq_getElem _ _ (by simpa using hj), List.getElem_map, List.getElem_range]
    · rw [if_neg hj, if_neg hj]
  refine ⟨_, _, rest, _, CyUpwind.new_eq hdiv hcast hg hv hL, e, hs, hr, ?_, rfl, ?_, fun g hg => ?_⟩
  · simp only [List.map_cons, List.map_nil, ← hdel]
    rfl
  · show ((listOf N u').map _).length = _
    rw [List.length_map, hst.1]
  · unfold RectGrid.value
    dsimp only
    rw [length_coordTexts, length_coordTexts, cellsOf_nodesOf hpos, cellsOf_nodesOf hpos, rankOf_reversed h1 h3 hg]
    show ((listOf N u').map _)[rankOf N g]? = _
    rw [List.getElem?_map, hst.2 g hg]
    rfl

end

/-! ### The hypotheses are met -/

/-- Numbers are printed as truncated hundredths, so that the texts can be computed. -/
local instance hundredths : DoubleText ℚ := ⟨fun _ => 0, fun x => showInt (x * 100).floor⟩

/-- One step on a 3 x 2 grid, the lines of `print`. -/
example : (Upwind.new 2 [1, 1] [1, 1] [3, 2] >>= fun s : Upwind ℚ => s.advect 1 (1 / 10) >>= fun s => s.print) =
    .ok "0 50\n1 20\n2 30\n3 0\n4 0\n5 0\n".toList := by decide +kernel

example : numbered (fun i (x : ℚ) => (toString i ++ " ").toList ++ DoubleText.showDouble x ++ "\n".toList) 0 [3, 2]
    ((upwindStep [3, 2] (upDir [1, 1]) (upCoeff (1 / 10) [1, 1] [1, 1] [3, 2]))^[1] cornerField) =
    "0 50\n1 20\n2 30\n3 0\n4 0\n5 0\n".toList := by decide +kernel

example : (PyUpwind.new [1, 1] [1, 1] [3, 2] >>= fun s : PyUpwind ℚ => s.steps 1 (1 / 10) >>= fun s => s.printOut) =
    .ok "0   50\n1   20\n2   30\n3   0\n4   0\n5   0\n".toList := by decide +kernel

example : (CyUpwind.new oldNumpy [1, 1] [1, 1] [3, 2] >>= fun s : CyUpwind ℚ => s.advects oldNumpy [1 / 10] >>= fun s => s.printOut) =
    .ok "0   50\n1   20\n2   30\n3   0\n4   0\n5   0\n".toList := by decide +kernel

example : (UpwindAcc.new 3 [1, 1, 1] [1, 1, 1] [2, 1, 1] >>= fun s : UpwindAcc ℚ => s.print) = .ok "0 100\n1 0\n".toList := by
  decide +kernel

example : (FUpwind.new [1, 1] [1, 1] [2, 1] >>= fun s : FUpwind ℚ => s.print) =
    .ok ("i =          1 f =                  100\n" ++ "i =          2 f =                    0\n").toList := by decide +kernel

/-- The file of upwind5.pyx on a grid of two cells. -/
example : (CyUpwind.new oldNumpy [1] [1] [2] >>= fun s : CyUpwind ℚ => s.saveVTK) =
    .ok ("# vtk Data Version 2.0\nupwind.cxx\nASCII\nDATASET RECTILINEAR_GRID\nDIMENSIONS\n 1  1  3\n\n" ++
      "X_COORDINATES \n1 double\n0.0\nY_COORDINATES \n1 double\n0.0\nZ_COORDINATES \n3  double\n 0\n 50\n 100\n" ++
      "CELL_DATA 2\nSCALARS f double 1\nLOOKUP_TABLE default\n100\n0\n").toList := by decide +kernel

end Fidi
