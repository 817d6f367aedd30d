import Verif.Lemmas.VtkOther
import Verif.Props.Vtk
import Verif.Props.UpwindOther

/-
Property C59: the VTK files of the Fortran, Python and Julia versions. `R` is any type with the operations used and stands for
the floating-point numbers; the only assumptions about their formatting are that it produces words (not empty, no white
space) and, in the Fortran version, that they fit in the 20 characters of the format. `hcast`: converting a number of cells
gives the same floating-point number in both languages.
-/
set_option linter.unusedSectionVars false

namespace Fidi
open Spec Upwind

section
variable {R : Type} [Zero R] [One R] [Add R] [Sub R] [Mul R] [Div R] [NatCast R] [IntCast R] [LT R] [DecidableLT R]
  [DoubleText R]

theorem coordTexts_built (L : List R) (N : List Nat) (j : Nat) :
    coordTexts N ((List.range N.length).map (cellWidth L N)) j =
      if j < N.length then (List.range (N.getD j 0 + 1)).map fun i : Nat =>
          DoubleText.showDouble (0 + cellWidth L N j * (i : R))
        else ["0.0".toList] := by
  unfold coordTexts
  by_cases hj : j < N.length
  · rw [if_pos hj, if_pos hj, List.getD_eq_getElem _ _ (by simpa using hj), List.getElem_map, List.getElem_range]
  · rw [if_neg hj, if_neg hj]

/-- What the reader makes of the file of the Fortran versions. -/
theorem fortran_read (N : List Nat) (h1 : 1 ≤ N.length) (h3 : N.length ≤ 3) (hpos : ∀ n ∈ N, 0 < n)
    (hcells : N.prod + 1 < 2 ^ 31) (haxis : ∀ n ∈ N, n + 1 < 10 ^ 9) (v L : List R) (hv : v.length = N.length)
    (hL : L.length = N.length) (hcast : ∀ n : Nat, ((n : Int) : R) = (n : R)) (dt : R) (k : Nat)
    (hw : ∀ x : R, IsWord (DoubleText.showDouble x)) (hl : ∀ x : R, (DoubleText.showDouble x).length ≤ 20)
    (s0 x : FUpwind R) (hnew : FUpwind.new v L (N.map fun n : Nat => (n : Int)) = .ok s0) (hx : FUpwind.Advances dt k s0 x) :
    ∃ text, x.saveVTK = .ok text ∧ readRect text = if nodesOf N 0 = nodesOf N 2 then
      some { x := coordTexts N ((List.range N.length).map (cellWidth L N)) 0
             y := coordTexts N ((List.range N.length).map (cellWidth L N)) 1
             z := coordTexts N ((List.range N.length).map (cellWidth L N)) 2
             name := "f".toList
             values := (listOf N ((schemeStep N (upDir v) (changeDivLast dt v L N))^[k] cornerField)).map
               DoubleText.showDouble } else none := by
  have hN : N ≠ [] := by rintro rfl; simp at h1
  have hg : GoodGrid N := ⟨hpos, by omega, fun n hn => by have := haxis n hn; norm_num at this; omega⟩
  have hd : N.length + 1 < 2 ^ 31 := by omega
  have hst := Stores.listOf (R := R) hpos cornerField
  rw [FUpwind.new_eq hcast hN hg hd hv hL] at hnew
  injection hnew with hnew
  subst hnew
  rw [FUpwind.advances_eq hg hd hv dt hst hx]
  have hlen := (Stores.listOf (R := R) hpos ((schemeStep N (upDir v) (changeDivLast dt v L N))^[k] cornerField)).1
  obtain ⟨text, e, hh⟩ := FUpwind.saveVTK_words (s := FUpwind.built v L N (listOf N ((schemeStep N (upDir v)
    (changeDivLast dt v L N))^[k] cornerField))) hcast h1 rfl (by simp [FUpwind.built]) rfl
    (fun n hn => by have := haxis n hn; norm_num at this; omega) (by omega) rfl hlen hw hl
  refine ⟨text, e, ?_⟩
  rw [readRect_words hh]
  have hcount : N.prod = cellsOf (nodesOf N 2) * cellsOf (nodesOf N 1) * cellsOf (nodesOf N 0) := by
    rw [cellsOf_nodesOf hpos, cellsOf_nodesOf hpos, cellsOf_nodesOf hpos, prod_reversed h1 h3]
  rw [length_coordTexts, length_coordTexts, length_coordTexts, List.length_map]
  by_cases h : nodesOf N 0 = nodesOf N 2
  · rw [if_pos h, if_pos ⟨h, rfl, h.symm, hcount, hlen⟩]; rfl
  · rw [if_neg h, if_neg fun h' => h h'.1]

/-- C59: on a grid of three axes with as many cells along the first as along the last one and a domain as long along both, the
file written by `upwind_saveVTK` of the Fortran versions after any number of steps, whatever the threads did, is readable
as a rectilinear grid: the coordinates are the multiples of the cell widths, and each cell of the file holds the value of
the cell of the grid with the reversed indices.
Missing: all other grids, for which this is false (`C59_fortran_unreadable_fails`, `C59_fortran_coordinates_fails`); grids
of 2^31 - 1 cells or more or with 10^9 - 1 cells or more along an axis. -/
theorem C59_fortran_file_partial (N : List Nat) (h3 : N.length = 3) (hpos : ∀ n ∈ N, 0 < n) (hcube : N.getD 0 0 = N.getD 2 0)
    (hcells : N.prod + 1 < 2 ^ 31) (haxis : ∀ n ∈ N, n + 1 < 10 ^ 9) (v L : List R) (hv : v.length = 3)
    (hL : L.length = 3) (hlen : L.getD 0 0 = L.getD 2 0) (hcast : ∀ n : Nat, ((n : Int) : R) = (n : R)) (dt : R) (k : Nat)
    (hw : ∀ x : R, IsWord (DoubleText.showDouble x)) (hl : ∀ x : R, (DoubleText.showDouble x).length ≤ 20)
    (s0 x : FUpwind R) (hnew : FUpwind.new v L (N.map fun n : Nat => (n : Int)) = .ok s0) (hx : FUpwind.Advances dt k s0 x) :
    ∃ text grid, x.saveVTK = .ok text ∧ readRect text = some grid ∧
      [grid.x, grid.y, grid.z] = [2, 1, 0].map (fun j => (List.range (N.getD j 0 + 1)).map fun i : Nat =>
          DoubleText.showDouble (0 + cellWidth L N j * (i : R))) ∧
      grid.name = "f".toList ∧ grid.values.length = N.prod ∧
      ∀ g, InGrid N g → grid.value (g.getD 2 0) (g.getD 1 0) (g.getD 0 0) =
        some (DoubleText.showDouble ((schemeStep N (upDir v) (changeDivLast dt v L N))^[k] cornerField g)) := by
  obtain ⟨text, e, hr⟩ := fortran_read N (by omega) (by omega) hpos hcells haxis v L (by omega) (by omega) hcast dt k hw hl s0 x
    hnew hx
  have hnodes : nodesOf N 0 = nodesOf N 2 := by
    unfold nodesOf
    rw [if_pos (by omega), if_pos (by omega), hcube]
  rw [if_pos hnodes] at hr
  have hst := Stores.listOf (R := R) hpos ((schemeStep N (upDir v) (changeDivLast dt v L N))^[k] cornerField)
  have hwidth : cellWidth L N 0 = cellWidth L N 2 := by
    unfold cellWidth
    rw [hlen, hcube]
  refine ⟨text, _, e, hr, ?_, rfl, ?_, fun g hgr => ?_⟩
  · simp only [List.map_cons, List.map_nil]
    rw [coordTexts_built, coordTexts_built, coordTexts_built, if_pos (by omega), if_pos (by omega), if_pos (by omega),
      hwidth, hcube]
  · show (List.map _ _).length = _
    rw [List.length_map, hst.1]
  · unfold RectGrid.value
    dsimp only
    rw [length_coordTexts, length_coordTexts, hnodes, cellsOf_nodesOf hpos, cellsOf_nodesOf hpos,
      rankOf_reversed (by omega) (by omega) hgr, List.getElem?_map, hst.2 g hgr]
    rfl

/-- C59: so is the file of the Fortran programs, whose grid has the same number of cells along each of the three axes of the
unit cube. -/
theorem C59_fortran_program (n : Nat) (hn : 0 < n) (hcells : n * n * n + 1 < 2 ^ 31)
    (hcast : ∀ n : Nat, ((n : Int) : R) = (n : R)) (dt : R) (k : Nat)
    (hw : ∀ x : R, IsWord (DoubleText.showDouble x)) (hl : ∀ x : R, (DoubleText.showDouble x).length ≤ 20) :
    ∃ s0 : FUpwind R, FUpwind.new [1, 1, 1] [1, 1, 1] [(n : Int), n, n] = .ok s0 ∧ (∃ x, FUpwind.Advances dt k s0 x) ∧
    ∀ x, FUpwind.Advances dt k s0 x →
    ∃ text grid, x.saveVTK = .ok text ∧ readRect text = some grid ∧
      (∀ axis ∈ [grid.x, grid.y, grid.z], axis = (List.range (n + 1)).map fun i : Nat =>
          DoubleText.showDouble (0 + (1 : R) / (n : R) * (i : R))) ∧
      grid.name = "f".toList ∧ grid.values.length = n * n * n ∧
      ∀ i j l, i < n → j < n → l < n → grid.value l j i = some (DoubleText.showDouble
        ((schemeStep [n, n, n] (upDir [1, 1, (1 : R)]) (changeDivLast dt [1, 1, 1] [1, 1, 1] [n, n, n]))^[k] cornerField
          [i, j, l])) := by
  have hprod : ([n, n, n] : List Nat).prod = n * n * n := by simp [Nat.mul_assoc]
  have hpos : ∀ m ∈ [n, n, n], 0 < m := by simpa using hn
  have hle : n ≤ 2000 := by
    by_contra h
    have h : 2001 ≤ n := by omega
    have : 2001 * 2001 * 2001 ≤ n * n * n := Nat.mul_le_mul (Nat.mul_le_mul h h) h
    omega
  have hax : ∀ m ∈ [n, n, n], m + 1 < 10 ^ 9 := by
    intro m hm
    have : m = n := by simpa using hm
    subst this
    norm_num
    omega
  obtain ⟨s0, e0, hex, -⟩ := C54_fortran_field [n, n, n] (by simp) (by norm_num) hpos (by rw [hprod]; omega)
    (fun m hm => by have := hax m hm; norm_num at this; norm_num; omega) [1, 1, 1] [1, 1, (1 : R)] rfl rfl hcast dt k
  refine ⟨s0, e0, hex, fun x hx => ?_⟩
  obtain ⟨text, grid, e, hr, hc, hname, hlen, hval⟩ := C59_fortran_file_partial [n, n, n] rfl hpos rfl
    (by rw [hprod]; exact hcells) hax [1, 1, (1 : R)] [1, 1, 1] rfl rfl rfl hcast dt k hw hl s0 x e0 hx
  refine ⟨text, grid, e, hr, ?_, hname, by rw [hlen, hprod], fun i j l hi hj hl => ?_⟩
  · rw [hc]
    intro axis ha
    simpa [cellWidth] using ha
  · exact hval [i, j, l] ⟨hi, hj, hl, trivial⟩

/-- C59 is false for the Fortran versions on a grid of one or two axes and on a grid with different numbers of cells along the
first and the last of three axes: the dimensions are written in the reversed order but not the coordinates, so the counts do
not match and the file cannot be read. -/
theorem C59_fortran_unreadable_fails (N : List Nat) (h1 : 1 ≤ N.length) (h3 : N.length ≤ 3) (hpos : ∀ n ∈ N, 0 < n)
    (hshape : N.length = 3 → N.getD 0 0 ≠ N.getD 2 0)
    (hcells : N.prod + 1 < 2 ^ 31) (haxis : ∀ n ∈ N, n + 1 < 10 ^ 9) (v L : List R) (hv : v.length = N.length)
    (hL : L.length = N.length) (hcast : ∀ n : Nat, ((n : Int) : R) = (n : R)) (dt : R) (k : Nat)
    (hw : ∀ x : R, IsWord (DoubleText.showDouble x)) (hl : ∀ x : R, (DoubleText.showDouble x).length ≤ 20)
    (s0 x : FUpwind R) (hnew : FUpwind.new v L (N.map fun n : Nat => (n : Int)) = .ok s0) (hx : FUpwind.Advances dt k s0 x) :
    ∃ text, x.saveVTK = .ok text ∧ readRect text = none := by
  obtain ⟨text, e, hr⟩ := fortran_read N h1 h3 hpos hcells haxis v L hv hL hcast dt k hw hl s0 x hnew hx
  refine ⟨text, e, ?_⟩
  rw [hr, if_neg]
  unfold nodesOf
  rw [if_pos (by omega)]
  intro h
  by_cases h2 : 2 < N.length
  · rw [if_pos h2] at h
    exact hshape (by omega) (by omega)
  · rw [if_neg h2, List.getD_eq_getElem _ _ (by omega)] at h
    have := hpos _ (List.getElem_mem (show 0 < N.length by omega))
    omega

/-- C59 is false for the Python version: the values are written one after the other without anything between them, so a file
with two or more cells cannot be read. -/
theorem C59_python_values_fails (N : List Nat) (h1 : 1 ≤ N.length) (hpos : ∀ n ∈ N, 0 < n)
    (hcells : N.prod < 2 ^ 31) (haxis : ∀ n ∈ N, n < 2 ^ 30) (h2 : 2 ≤ N.prod) (v L : List R) (hv : v.length = N.length)
    (hL : L.length = N.length) (hcast : ∀ n : Nat, ((n : Int) : R) = (n : R)) (dt : R) (k : Int)
    (hw : ∀ x : R, IsWord (DoubleText.showDouble x)) :
    ∃ (s0 s : PyUpwind R) (text : Str), PyUpwind.new v L (N.map fun n : Nat => (n : Int)) = .ok s0 ∧ s0.steps k dt = .ok s ∧
      s.saveVTK = .ok text ∧ readRect text = none := by
  have hg : GoodGrid N := ⟨hpos, hcells, haxis⟩
  have hlen := (Stores.listOf (R := R) hpos ((schemeStep N (upDir v) (changeTimeLast dt v L N))^[k.toNat] cornerField)).1
  obtain ⟨text, vals, e, hh, -, hv2⟩ := PyUpwind.saveVTK_words (s := PyUpwind.built v L N (listOf N ((schemeStep N (upDir v)
    (changeTimeLast dt v L N))^[k.toNat] cornerField))) hcast h1 rfl (by simp [PyUpwind.built]) rfl hlen hw
  refine ⟨_, _, text, PyUpwind.new_eq hcast hg hv hL, PyUpwind.steps_eq hg k dt cornerField, e, ?_⟩
  rw [readRect_words hh, if_neg]
  intro h
  have := h.2.2.2.2
  omega

/-- C59 (part): everything else in the file of the Python version is right: the counts it declares, the coordinates (the
multiples of the cell widths, the last axis of the file being the first of the grid), and the characters of the values,
which are those of the values of all cells in their order with the last axis of the grid fastest.
Missing: the values cannot be told apart (`C59_python_values_fails`). -/
theorem C59_python_file_partial (N : List Nat) (h1 : 1 ≤ N.length) (h3 : N.length ≤ 3) (hpos : ∀ n ∈ N, 0 < n)
    (hcells : N.prod < 2 ^ 31) (haxis : ∀ n ∈ N, n < 2 ^ 30) (v L : List R) (hv : v.length = N.length)
    (hL : L.length = N.length) (hcast : ∀ n : Nat, ((n : Int) : R) = (n : R)) (dt : R) (k : Int)
    (hw : ∀ x : R, IsWord (DoubleText.showDouble x)) :
    ∃ (s0 s : PyUpwind R) (text : Str) (grid : RectGrid),
      PyUpwind.new v L (N.map fun n : Nat => (n : Int)) = .ok s0 ∧ s0.steps k dt = .ok s ∧
      s.saveVTK = .ok text ∧ readRectHead text = some grid ∧
      [grid.x, grid.y, grid.z] = [2, 1, 0].map (fun j =>
        if j < N.length then (List.range (N.getD j 0 + 1)).map fun i : Nat =>
          DoubleText.showDouble (0 + cellWidth L N j * (i : R))
        else ["0.0".toList]) ∧
      grid.name = "f".toList ∧
      ∃ f, Stores N f ((schemeStep N (upDir v) (changeTimeLast dt v L N))^[k.toNat] cornerField) ∧
        grid.values.flatten = f.flatMap DoubleText.showDouble := by
  have hg : GoodGrid N := ⟨hpos, hcells, haxis⟩
  have hst := Stores.listOf (R := R) hpos ((schemeStep N (upDir v) (changeTimeLast dt v L N))^[k.toNat] cornerField)
  obtain ⟨text, vals, e, hh, hv1, -⟩ := PyUpwind.saveVTK_words (s := PyUpwind.built v L N (listOf N ((schemeStep N (upDir v)
    (changeTimeLast dt v L N))^[k.toNat] cornerField))) hcast h1 rfl (by simp [PyUpwind.built]) rfl hst.1 hw
  have hcount : N.prod = cellsOf (nodesOf N 2) * cellsOf (nodesOf N 1) * cellsOf (nodesOf N 0) := by
    rw [cellsOf_nodesOf hpos, cellsOf_nodesOf hpos, cellsOf_nodesOf hpos, prod_reversed h1 h3]
  rw [← length_coordTexts N (PyUpwind.built v L N (listOf N ((schemeStep N (upDir v)
      (changeTimeLast dt v L N))^[k.toNat] cornerField))).deltas 2,
    ← length_coordTexts N (PyUpwind.built v L N (listOf N ((schemeStep N (upDir v)
      (changeTimeLast dt v L N))^[k.toNat] cornerField))).deltas 1,
    ← length_coordTexts N (PyUpwind.built v L N (listOf N ((schemeStep N (upDir v)
      (changeTimeLast dt v L N))^[k.toNat] cornerField))).deltas 0] at hh hcount
  have hr := readRectHead_words hh hcount
  refine ⟨_, _, text, _, PyUpwind.new_eq hcast hg hv hL, PyUpwind.steps_eq hg k dt cornerField, e, hr, ?_, rfl, _, hst, hv1⟩
  simp only [List.map_cons, List.map_nil, ← coordTexts_built]
  rfl

/-- C59: for all nodes of three axes and values of their cells, the file written by `rectilinear` of saveVTK.jl is readable as a
rectilinear grid with these nodes, and its cells hold the values, the first axis fastest. -/
theorem C59_julia_rectilinear (xAxis yAxis zAxis data : List R)
    (hdata : data.length = cellsOf xAxis.length * cellsOf yAxis.length * cellsOf zAxis.length)
    (hw : ∀ x : R, IsWord (DoubleText.showDouble x)) :
    ∃ text grid, JlVtk.rectilinear xAxis yAxis zAxis data = .ok text ∧ readRect text = some grid ∧
      grid.x = xAxis.map DoubleText.showDouble ∧ grid.y = yAxis.map DoubleText.showDouble ∧
      grid.z = zAxis.map DoubleText.showDouble ∧ grid.name = "f".toList ∧ grid.values = data.map DoubleText.showDouble := by
  obtain ⟨text, e, hh⟩ := JlVtk.rectilinear_words hw xAxis yAxis zAxis data
  have hr := readRect_words hh
  rw [if_pos ⟨by simp, by simp, by simp, hdata, by simp⟩] at hr
  exact ⟨text, _, e, hr, rfl, rfl, rfl, rfl, rfl⟩

/-- C59 (part): so for a grid of three axes, whatever its nodes, the file that `rectilinear` writes for the field of the Julia
versions after any number of steps holds in each cell the value of the cell of the grid with the same indices.
Missing: the files of the programs, whose `save2VTK` ends with an exception before it calls it
(`C60_julia_vtk_fails`). -/
theorem C59_julia_file_partial (a b c : Nat) (ha : 0 < a) (hb : 0 < b) (hc : 0 < c) (hcells : a * b * c + 1 < 2 ^ 63)
    (v L : List R) (hv : v.length = 3) (hL : L.length = 3) (hcast : ∀ n : Nat, ((n : Int) : R) = (n : R)) (dt : R) (k : Int)
    (xAxis yAxis zAxis : List R) (hx : xAxis.length = a + 1) (hy : yAxis.length = b + 1) (hz : zAxis.length = c + 1)
    (hw : ∀ x : R, IsWord (DoubleText.showDouble x)) :
    ∃ (s0 s : JlUpwind R) (text : Str) (grid : RectGrid), JlUpwind.new 3 v L [(a : Int), b, c] = .ok s0 ∧
      s0.steps k dt = .ok s ∧ JlVtk.rectilinear xAxis yAxis zAxis s.f = .ok text ∧ readRect text = some grid ∧
      [grid.x, grid.y, grid.z] = [xAxis, yAxis, zAxis].map (fun l => l.map DoubleText.showDouble) ∧
      ∀ i j l, i < a → j < b → l < c → grid.value i j l = some (DoubleText.showDouble
        ((upwindStep [a, b, c] (upDir v) (upCoeff dt v L [a, b, c]))^[k.toNat] cornerField [i, j, l])) := by
  have hprod : ([a, b, c] : List Nat).prod = a * b * c := by simp [Nat.mul_assoc]
  obtain ⟨s0, s, e0, e1, hst⟩ := C54_julia_field [a, b, c] (by simp [ha, hb, hc]) (by rw [hprod]; exact hcells) v L hv hL hcast dt k
  have hlen : s.f.length = a * b * c := by rw [hst.1, hprod]
  obtain ⟨text, grid, e, hr, h1, h2, h3, -, h5⟩ := C59_julia_rectilinear xAxis yAxis zAxis s.f
    (by rw [hlen, hx, hy, hz, cellsOf_succ ha, cellsOf_succ hb, cellsOf_succ hc]) hw
  refine ⟨s0, s, text, grid, e0, e1, e, hr, by simp [h1, h2, h3], fun i j l hi hj hl => ?_⟩
  have := hst.2 [i, j, l] ⟨hi, hj, hl, trivial⟩
  unfold RectGrid.value
  rw [h1, h2, h5, List.length_map, List.length_map, hx, hy, cellsOf_succ ha, cellsOf_succ hb, List.getElem?_map]
  rw [show rankOf [a, b, c].reverse [i, j, l].reverse = i + a * (j + b * l) by simp [rankOf]; ring] at this
  rw [this]
  rfl

end

/-! ### Examples -/

/-- Fractions as words of at most 20 characters. -/
local instance shortRat : DoubleText ℚ := ⟨fun _ => 0, fun q =>
  if (showInt q.num ++ '/' :: showSz q.den).length ≤ 20 then showInt q.num ++ '/' :: showSz q.den else ['?']⟩

/-- The hypotheses about the formatting of numbers can be met. -/
theorem showExample_ok (q : ℚ) : IsWord (DoubleText.showDouble q) ∧ (DoubleText.showDouble q).length ≤ 20 := by
  simp only [DoubleText.showDouble]
  split
  · next h =>
    refine ⟨⟨by simp, fun c hc => ?_⟩, h⟩
    simp only [showInt, showSz, List.mem_append, List.mem_cons] at hc
    rcases hc with hc | rfl | hc
    · split at hc
      · rcases List.mem_cons.1 hc with rfl | hc
        · decide
        · exact digit_not_blank (toDigits_ok _ c hc)
      · exact digit_not_blank (toDigits_ok _ c hc)
    · decide
    · exact digit_not_blank (toDigits_ok _ c hc)
  · exact ⟨⟨by simp, by decide⟩, by simp⟩

/-- C59: the Fortran file of a grid of 2 x 3 x 2 cells. -/
example : (FUpwind.new [1, 1, 1] [1, 3, 1] [2, 3, 2] >>= fun s : FUpwind ℚ => s.saveVTK >>= fun t =>
      pure ((readRect t).map fun g => (g.x, [g.value 0 0 0, g.value 1 2 1]))) =
    .ok (some (["0/1".toList, "1/2".toList, "1/1".toList], [some "1/1".toList, some "0/1".toList])) := by
  decide +kernel

/-- C59 is false for the Fortran versions if the domain is not as long along the first axis as along the last one: the
coordinates of the two axes are exchanged. The file of a grid of 2 x 1 x 2 cells of widths 1, 1 and 5. -/
theorem C59_fortran_coordinates_fails :
    (FUpwind.new [1, 1, 1] [2, 1, 10] [2, 1, 2] >>= fun s : FUpwind ℚ => s.saveVTK >>= fun t =>
      pure ((readRect t).map fun g => (g.x, g.z))) =
    .ok (some (["0/1".toList, "1/1".toList, "2/1".toList], ["0/1".toList, "5/1".toList, "10/1".toList])) := by
  decide +kernel

/-- C59: the Fortran file of a grid of 2 x 3 cells is not readable. -/
example : (FUpwind.new [1, 1] [1, 1] [2, 3] >>= fun s : FUpwind ℚ => s.saveVTK >>= fun t => pure (readRect t)) = .ok none := by
  decide +kernel

/-- C59: the Python file of a grid of two cells is not readable; the values are 1 and 0. -/
example : (PyUpwind.new [1] [1] [2] >>= fun s : PyUpwind ℚ => s.saveVTK >>= fun t =>
      pure (readRect t, (readRectHead t).map fun g => (g.z, g.values))) =
    .ok (none, some (["0/1".toList, "1/2".toList, "1/1".toList], ["1/10/1".toList])) := by
  decide +kernel

/-- C59: a Julia file of 2 x 1 x 1 cells. -/
example : (JlVtk.rectilinear [0, 1, (2 : ℚ)] [0, 1] [0, 1] [5, 7] >>= fun t =>
      pure ((readRect t).map fun g => (g.value 0 0 0, g.value 1 0 0))) =
    .ok (some (some "5/1".toList, some "7/1".toList)) := by decide +kernel

end Fidi
