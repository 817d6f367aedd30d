import Verif.Lemmas.Vtk
import Verif.Props.FilterSave
import Verif.Model.Exact

/-
Properties C43 and C44: the VTK files. `R` is any type with the operations used and stands for `double`; the only
assumption about the formatting of doubles is that it produces words (not empty, no white space).
-/
namespace Fidi
open Spec

/-! ### C43 -/

section
variable {R : Type} [Zero R] [One R] [Add R] [Sub R] [Mul R] [Div R] [NatCast R] [IntCast R] [LT R] [DecidableLT R]
  [DoubleText R]

theorem cellsOf_nodesOf {N : List Nat} (hpos : ∀ n ∈ N, 0 < n) (j : Nat) : cellsOf (nodesOf N j) = N.getD j 1 := by
  unfold nodesOf
  by_cases h : j < N.length
  · rw [if_pos h, List.getD_eq_getElem _ _ h, List.getD_eq_getElem _ _ h, cellsOf_succ (hpos _ (List.getElem_mem h))]
  · rw [if_neg h, List.getD_eq_default _ _ (by omega)]; rfl

/-- Position of a cell of the file with the reversed indices. -/
theorem rankOf_reversed {N g : List Nat} (h1 : 1 ≤ N.length) (h3 : N.length ≤ 3) (hg : InGrid N g) :
    g.getD 2 0 + N.getD 2 1 * (g.getD 1 0 + N.getD 1 1 * g.getD 0 0) = rankOf N g := by
  have hl := hg.length_eq
  match N, g, h1, h3, hl, hg with
  | [a], [x], _, _, _, hg => simp [rankOf]
  | [a, b], [x, y], _, _, _, hg => simp [rankOf]; ring
  | [a, b, c], [x, y, z], _, _, _, hg => simp [rankOf]; ring

theorem prod_reversed {N : List Nat} (h1 : 1 ≤ N.length) (h3 : N.length ≤ 3) :
    N.getD 2 1 * N.getD 1 1 * N.getD 0 1 = N.prod := by
  match N, h1, h3 with
  | [a], _, _ => simp
  | [a, b], _, _ => simp; ring
  | [a, b, c], _, _ => simp; ring

/-- C43: for every grid of 1 to 3 axes, velocity, time step, number of steps and initial field, the file written by `saveVTK`
is readable as a rectilinear grid: the counts it declares match what follows, the last axis of the file is the first of
the grid, the coordinates are the multiples of the cell widths, and each cell of the file holds the value of the cell of
the grid with the reversed indices.
Missing: more than 3 axes, where the file cannot be read (`C43_more_axes_fails`); grids of 2^31 cells or more. -/
theorem C43_file_partial (N : List Nat) (h1 : 1 ≤ N.length) (h3 : N.length ≤ 3) (hpos : ∀ n ∈ N, 0 < n)
    (hcells : N.prod < 2 ^ 31) (haxis : ∀ n ∈ N, n < 2 ^ 30) (v L : List R) (hv : v.length = N.length)
    (hL : L.length = N.length) (s0 : Upwind R) (hnew : Upwind.new N.length v L N = .ok s0)
    (f0 : List R) (u : List Nat → R) (hf : Stores N f0 u) (k : Int) (dt : R)
    (hw : ∀ x : R, IsWord (DoubleText.showDouble x)) :
    ∃ s' text grid, { s0 with f := f0 }.advect k dt = .ok s' ∧ s'.saveVTK = .ok text ∧ readRect text = some grid ∧
      [grid.x, grid.y, grid.z] = [2, 1, 0].map (fun j =>
        if j < N.length then (List.range (N.getD j 0 + 1)).map fun i : Nat =>
          DoubleText.showDouble (0 + cellWidth L N j * (i : R))
        else ["0.0".toList]) ∧
      grid.name = "f".toList ∧ grid.values.length = N.prod ∧
      ∀ g, InGrid N g → grid.value (g.getD 2 0) (g.getD 1 0) (g.getD 0 0) =
        some (DoubleText.showDouble ((upwindStep N (upDir v) (upCoeff dt v L N))^[k.toNat] u g)) := by
  have hne : N ≠ [] := by rintro rfl; simp at h1
  obtain ⟨o, _, h⟩ := Upwind.advect_spec hne (by omega) ⟨hpos, hcells, haxis⟩ hv hL hnew hf k dt
  generalize (upwindStep N (upDir v) (upCoeff dt v L N))^[k.toNat] u = u' at h ⊢
  have hst : Stores N (listOf N u') u' := Stores.listOf hpos u'
  have hntot : N.prod % W = N.prod := Nat.mod_eq_of_lt (by unfold W; omega)
  have hW : ∀ n ∈ N, n + 1 < W := fun n hn => by have := haxis n hn; unfold W; omega
  obtain ⟨text, e, hr⟩ := readRect_saveVTK (s := Upwind.withF v L N (listOf N u') o) h1 rfl (by simp [Upwind.built]) rfl hW
    (by show N.prod % W ≤ _; rw [hntot, hst.1]) hw
  rw [if_pos (by
    show N.prod % W = _
    rw [hntot, cellsOf_nodesOf hpos, cellsOf_nodesOf hpos, cellsOf_nodesOf hpos, prod_reversed h1 h3])] at hr
  have hdel : ∀ j, coordTexts N ((List.range N.length).map (cellWidth L N)) j =
      if j < N.length then (List.range (N.getD j 0 + 1)).map fun i : Nat =>
          DoubleText.showDouble (0 + cellWidth L N j * (i : R))
        else ["0.0".toList] := by
    intro j
    unfold coordTexts
    by_cases hj : j < N.length
    · rw [if_pos hj, if_pos hj, List.getD_eq_getElem _ _ (by simpa using hj), List.getElem_map, List.getElem_range]
    · rw [if_neg hj, if_neg hj]
  refine ⟨_, text, _, h, e, hr, ?_, rfl, ?_, fun g hg => ?_⟩
  · simp only [List.map_cons, List.map_nil, ← hdel]
    rfl
  · show ((List.take (N.prod % W) (listOf N u')).map _).length = _
    rw [hntot, List.length_map, List.length_take, hst.1, Nat.min_self]
  · unfold RectGrid.value
    dsimp only
    rw [length_coordTexts, length_coordTexts, cellsOf_nodesOf hpos, cellsOf_nodesOf hpos, rankOf_reversed h1 h3 hg]
    show ((List.take (N.prod % W) (listOf N u')).map _)[rankOf N g]? = _
    rw [hntot, List.take_of_length_le (by rw [hst.1]), List.getElem?_map, hst.2 g hg]
    rfl

omit [Sub R] [IntCast R] in
/-- C43 is false for more than three axes: the file declares the nodes of the first three axes but the cells of all, so
unless the others have one cell only the counts do not match and the file cannot be read. -/
theorem C43_more_axes_fails (N : List Nat) (h4 : 4 ≤ N.length) (hdim : N.length < 2 ^ 64) (hpos : ∀ n ∈ N, 0 < n)
    (hcells : N.prod < 2 ^ 31) (haxis : ∀ n ∈ N, n < 2 ^ 30) (hother : (N.drop 3).prod ≠ 1) (v L : List R)
    (hv : v.length = N.length) (hL : L.length = N.length) (s0 : Upwind R) (hnew : Upwind.new N.length v L N = .ok s0)
    (hw : ∀ x : R, IsWord (DoubleText.showDouble x)) :
    ∃ text, s0.saveVTK = .ok text ∧ readRect text = none := by
  have hne : N ≠ [] := by rintro rfl; simp at h4
  have hntot : N.prod % W = N.prod := Nat.mod_eq_of_lt (by unfold W; omega)
  rw [Upwind.new_built hne hdim ⟨hpos, hcells, haxis⟩ hv hL] at hnew
  injection hnew with hnew
  subst hnew
  have hW : ∀ n ∈ N, n + 1 < W := fun n hn => by have := haxis n hn; unfold W; omega
  obtain ⟨text, e, hr⟩ := readRect_saveVTK (s := Upwind.built v L N) (N := N) (by omega) rfl (by simp [Upwind.built]) rfl hW
    (by show N.prod % W ≤ _; simp [Upwind.built]) hw
  refine ⟨text, e, ?_⟩
  rw [hr, if_neg]
  show ¬N.prod % W = _
  rw [hntot, cellsOf_nodesOf hpos, cellsOf_nodesOf hpos, cellsOf_nodesOf hpos]
  match N, h4 with
  | a :: b :: c :: N, _ =>
    simp only [List.drop_succ_cons, List.drop_zero] at hother
    simp only [List.getD_cons_zero, List.getD_cons_succ, List.prod_cons]
    have ha : 0 < a := hpos a (by simp)
    have hb : 0 < b := hpos b (by simp)
    have hc : 0 < c := hpos c (by simp)
    intro h
    apply hother
    have : a * b * c * N.prod = a * b * c * 1 := by linarith
    exact Nat.eq_of_mul_eq_mul_left (by positivity) this

/-- As `rankOf_reversed` if all axes after the third have one cell. -/
theorem rankOf_reversed_any {N g : List Nat} (h1 : 1 ≤ N.length) (hT : (N.drop 3).prod = 1) (hg : InGrid N g) :
    g.getD 2 0 + N.getD 2 1 * (g.getD 1 0 + N.getD 1 1 * g.getD 0 0) = rankOf N g := by
  have hl := hg.length_eq
  by_cases h3 : N.length ≤ 3
  · exact rankOf_reversed h1 h3 hg
  match N, g, hl, hg, hT, h3 with
  | a :: b :: c :: T, x :: y :: z :: t, hl, hg, hT, _ =>
    simp only [List.drop_succ_cons, List.drop_zero] at hT
    have key : ∀ (T t : List Nat) (acc : Nat), T.prod = 1 → InGrid T t →
        (T.zip t).foldl (fun acc p => acc * p.1 + p.2) acc = acc := by
      intro T
      induction T with
      | nil => intro t acc _ _; simp
      | cons n T ih =>
        intro t acc h hg
        match t, hg with
        | i :: t, hg =>
          rw [List.prod_cons] at h
          have hn : n = 1 := Nat.eq_one_of_mul_eq_one_right h
          have hi : i < n := hg.1
          obtain rfl : i = 0 := by omega
          rw [List.zip_cons_cons, List.foldl_cons, ih t _ (Nat.eq_one_of_mul_eq_one_left h) hg.2, hn]
          simp
    unfold rankOf
    simp only [List.zip_cons_cons, List.foldl_cons]
    rw [key T t _ hT hg.2.2.2]
    simp
    ring
  | [_], _, _, _, _, h3 => simp at h3
  | [_, _], _, _, _, _, h3 => simp at h3

theorem prod_reversed_any {N : List Nat} (h1 : 1 ≤ N.length) (hpos : ∀ n ∈ N, 0 < n) :
    N.prod = N.getD 2 1 * N.getD 1 1 * N.getD 0 1 ↔ (N.drop 3).prod = 1 := by
  by_cases h3 : N.length ≤ 3
  · rw [prod_reversed h1 h3, List.drop_eq_nil_of_le h3]
    simp
  match N, h3 with
  | a :: b :: c :: N, _ =>
    simp only [List.drop_succ_cons, List.drop_zero, List.getD_cons_zero, List.getD_cons_succ, List.prod_cons]
    have ha : 0 < a := hpos a (by simp)
    have hb : 0 < b := hpos b (by simp)
    have hc : 0 < c := hpos c (by simp)
    constructor
    · intro h
      have : a * b * c * N.prod = a * b * c * 1 := by linarith
      exact Nat.eq_of_mul_eq_mul_left (by positivity) this
    · intro h; rw [h]; ring
  | [_], h3 => simp at h3
  | [_, _], h3 => simp at h3

/-- C43: for every grid of any number of axes, velocity, time step, number of steps and initial field, the file written by `saveVTK` can
be read as a rectilinear grid if and only if all axes after the third have one cell; and then it has the nodes of the first three axes
in reverse order and holds the value of every cell of the grid in the cell with the reversed first three indices. -/
theorem C43_file_iff (N : List Nat) (hne : N ≠ []) (hdim : N.length < 2 ^ 64) (hpos : ∀ n ∈ N, 0 < n)
    (hcells : N.prod < 2 ^ 31) (haxis : ∀ n ∈ N, n < 2 ^ 30) (v L : List R) (hv : v.length = N.length)
    (hL : L.length = N.length) (s0 : Upwind R) (hnew : Upwind.new N.length v L N = .ok s0)
    (f0 : List R) (u : List Nat → R) (hf : Stores N f0 u) (k : Int) (dt : R)
    (hw : ∀ x : R, IsWord (DoubleText.showDouble x)) :
    ∃ s' text, { s0 with f := f0 }.advect k dt = .ok s' ∧ s'.saveVTK = .ok text ∧
      ((∃ grid, readRect text = some grid) ↔ (N.drop 3).prod = 1) ∧ ∀ grid, readRect text = some grid →
      [grid.x, grid.y, grid.z] = [2, 1, 0].map (fun j =>
        if j < N.length then (List.range (N.getD j 0 + 1)).map fun i : Nat =>
          DoubleText.showDouble (0 + cellWidth L N j * (i : R))
        else ["0.0".toList]) ∧
      grid.name = "f".toList ∧ grid.values.length = N.prod ∧
      ∀ g, InGrid N g → grid.value (g.getD 2 0) (g.getD 1 0) (g.getD 0 0) =
        some (DoubleText.showDouble ((upwindStep N (upDir v) (upCoeff dt v L N))^[k.toNat] u g)) := by
  have h1 : 1 ≤ N.length := List.length_pos_iff.2 hne
  obtain ⟨o, _, h⟩ := Upwind.advect_spec hne hdim ⟨hpos, hcells, haxis⟩ hv hL hnew hf k dt
  generalize (upwindStep N (upDir v) (upCoeff dt v L N))^[k.toNat] u = u' at h ⊢
  have hst : Stores N (listOf N u') u' := Stores.listOf hpos u'
  have hntot : N.prod % W = N.prod := Nat.mod_eq_of_lt (by unfold W; omega)
  have hW : ∀ n ∈ N, n + 1 < W := fun n hn => by have := haxis n hn; unfold W; omega
  obtain ⟨text, e, hr⟩ := readRect_saveVTK (s := Upwind.withF v L N (listOf N u') o) h1 rfl (by simp [Upwind.built]) rfl hW
    (by show N.prod % W ≤ _; rw [hntot, hst.1]) hw
  have hiff : (Upwind.withF v L N (listOf N u') o).ntot = cellsOf (nodesOf N 2) * cellsOf (nodesOf N 1) * cellsOf (nodesOf N 0) ↔
      (N.drop 3).prod = 1 := by
    show N.prod % W = _ ↔ _
    rw [hntot, cellsOf_nodesOf hpos, cellsOf_nodesOf hpos, cellsOf_nodesOf hpos, prod_reversed_any h1 hpos]
  refine ⟨_, text, h, e, ?_, ?_⟩
  · rw [hr]
    by_cases hc : (N.drop 3).prod = 1
    · rw [if_pos (hiff.2 hc)]
      exact ⟨fun _ => hc, fun _ => ⟨_, rfl⟩⟩
    · rw [if_neg (fun c => hc (hiff.1 c))]
      exact ⟨fun ⟨_, c⟩ => by simp at c, fun c => absurd c hc⟩
  · intro grid hgrid
    rw [hr] at hgrid
    split at hgrid
    · next hc =>
      have hT := hiff.1 hc
      obtain rfl := Option.some.inj hgrid
      have hdel : ∀ j, coordTexts N ((List.range N.length).map (cellWidth L N)) j =
          if j < N.length then (List.range (N.getD j 0 + 1)).map fun i : Nat =>
              DoubleText.showDouble (0 + cellWidth L N j * (i : R))
            else ["0.0".toList] := by
        intro j
        unfold coordTexts
        by_cases hj : j < N.length
        · rw [if_pos hj, if_pos hj, List.getD_eq_getElem _ _ (by simpa using hj), List.getElem_map, List.getElem_range]
        · rw [if_neg hj, if_neg hj]
      refine ⟨?_, rfl, ?_, fun g hg => ?_⟩
      · simp only [List.map_cons, List.map_nil, ← hdel]
        rfl
      · show ((List.take (N.prod % W) (listOf N u')).map _).length = _
        rw [hntot, List.length_map, List.length_take, hst.1, Nat.min_self]
      · unfold RectGrid.value
        dsimp only
        rw [length_coordTexts, length_coordTexts, cellsOf_nodesOf hpos, cellsOf_nodesOf hpos, rankOf_reversed_any h1 hT hg]
        show ((List.take (N.prod % W) (listOf N u')).map _)[rankOf N g]? = _
        rw [hntot, List.take_of_length_le (by rw [hst.1]), List.getElem?_map, hst.2 g hg]
        rfl
    · simp at hgrid

/-- C43: both cases occur with four axes. -/
example : (([2, 3, 4, 1] : List Nat).drop 3).prod = 1 ∧ (([2, 3, 4, 5] : List Nat).drop 3).prod ≠ 1 := by decide

end

/-! ### C44 -/

section
variable {R : Type} [Zero R] [One R] [Add R] [Sub R] [Mul R] [Div R] [NatCast R] [DoubleText R]

theorem tuple3 {a b c i j k : Nat} (hi : i < a) (hj : j < b) (hk : k < c) :
    i + a * (j + b * k) < a * b * c ∧ tupleAt false (List.replicate 3 0) [a, b, c] (i + a * (j + b * k)) = [i, j, k] := by
  have hin : InBox (List.replicate 3 0) [a, b, c] [i, j, k] :=
    ⟨Nat.zero_le _, hi, Nat.zero_le _, hj, Nat.zero_le _, hk, trivial⟩
  have e : flatOf false (List.replicate 3 0) [a, b, c] [i, j, k] = i + a * (j + b * k) := by
    rw [flatOf_eq_cellPos _ _ _ (by simp) (by simp)]
    simp [cellPos, colMajor, extents]
  have h1 := flatOf_lt false hin
  have h2 := tupleAt_flatOf false hin
  rw [e] at h1 h2
  rw [volume3] at h1
  exact ⟨h1, h2⟩

omit [Add R] [Sub R] [Mul R] [Div R] [NatCast R] [DoubleText R] in
theorem axisOf_eq {dims : List Nat} {xmins xmaxs : List R} (h1 : xmins.length = dims.length)
    (h2 : xmaxs.length = dims.length) (j : Nat) :
    axisOf dims xmins xmaxs j = (dims.getD j 1, xmins.getD j 0, xmaxs.getD j 1) := by
  unfold axisOf
  by_cases h : j < dims.length
  · rw [if_pos h]
    simp [h, h1, h2]
  · rw [if_neg h, List.getD_eq_default _ _ (by omega), List.getD_eq_default _ _ (by omega), List.getD_eq_default _ _ (by omega)]

/-- C44: for every grid of at most 3 axes, domain and field with a value for each cell, `writeVTK` writes a file that is
readable as a structured grid: the counts it declares match what follows; along each axis the nodes are those that
divide the domain in equal cells, both ends included; the first axis varies fastest; the value of each cell is that at the
column-major position in the field. An axis that the grid lacks has one cell from 0 to 1. -/
theorem C44_file (dims : List Nat) (h3 : dims.length ≤ 3) (hpos : ∀ n ∈ dims, 0 < n) (hcells : dims.prod < 2 ^ 61)
    (xmins xmaxs field : List R) (h1 : xmins.length = dims.length) (h2 : xmaxs.length = dims.length)
    (hf : dims.prod ≤ field.length) (name : Str) (hname : IsWord name) (hw : ∀ x : R, IsWord (DoubleText.showDouble x)) :
    ∃ text grid, writeVTK dims xmins xmaxs field name = .ok (some text) ∧ readStruct text = some grid ∧
      [grid.nx, grid.ny, grid.nz] = [0, 1, 2].map (fun j => dims.getD j 1 + 1) ∧
      (∀ i j k, i ≤ dims.getD 0 1 → j ≤ dims.getD 1 1 → k ≤ dims.getD 2 1 → grid.point i j k =
        [DoubleText.showDouble (gridNode (xmins.getD 0 0) (xmaxs.getD 0 1) (dims.getD 0 1) i),
         DoubleText.showDouble (gridNode (xmins.getD 1 0) (xmaxs.getD 1 1) (dims.getD 1 1) j),
         DoubleText.showDouble (gridNode (xmins.getD 2 0) (xmaxs.getD 2 1) (dims.getD 2 1) k)]) ∧
      grid.coords.length = 3 * (grid.nx * grid.ny * grid.nz) ∧ grid.name = name ∧ grid.values.length = dims.prod ∧
      ∀ g, InGrid dims g → grid.value (g.getD 0 0) (g.getD 1 0) (g.getD 2 0) =
        (field[colMajor dims g]?).map DoubleText.showDouble := by
  have hp : ∀ j, 0 < dims.getD j 1 := by
    intro j
    by_cases h : j < dims.length
    · rw [List.getD_eq_getElem _ _ h]; exact hpos _ (List.getElem_mem h)
    · rw [List.getD_eq_default _ _ (by omega)]; exact Nat.one_pos
  have hprod : dims.getD 0 1 * dims.getD 1 1 * dims.getD 2 1 = dims.prod := by
    match dims, h3 with
    | [], _ => simp
    | [a], _ => simp
    | [a, b], _ => simp
    | [a, b, c], _ => simp [Nat.mul_assoc]
  have hcol : ∀ g, InGrid dims g → g.getD 0 0 + dims.getD 0 1 * (g.getD 1 0 + dims.getD 1 1 * g.getD 2 0) = colMajor dims g ∧
      colMajor dims g < dims.prod := by
    intro g hg
    have e : g.getD 0 0 + dims.getD 0 1 * (g.getD 1 0 + dims.getD 1 1 * g.getD 2 0) = colMajor dims g := by
      have hl := hg.length_eq
      match dims, g, h3, hl with
      | [], [], _, _ => simp [colMajor]
      | [a], [x], _, _ => simp [colMajor]
      | [a, b], [x, y], _, _ => simp [colMajor]
      | [a, b, c], [x, y, z], _, _ => simp [colMajor]
    refine ⟨e, ?_⟩
    rw [← e, ← hprod]
    have hlt : ∀ j, g.getD j 0 < dims.getD j 1 := by
      intro j
      by_cases h : j < dims.length
      · rw [List.getD_eq_getElem _ _ h, List.getD_eq_getElem _ _ (by rw [hg.length_eq]; exact h)]
        exact (inGrid_iff_getElem.1 hg).2 j h (by rw [hg.length_eq]; exact h)
      · have hl := hg.length_eq
        rw [List.getD_eq_default _ _ (by omega), List.getD_eq_default _ _ (by omega)]; exact Nat.one_pos
    exact (tuple3 (hlt 0) (hlt 1) (hlt 2)).1
  have hV : (dims.getD 0 1 + 1) * (dims.getD 1 1 + 1) * (dims.getD 2 1 + 1) < W := by
    have h0 := hp 0
    have h1' := hp 1
    have h2' := hp 2
    calc (dims.getD 0 1 + 1) * (dims.getD 1 1 + 1) * (dims.getD 2 1 + 1)
        ≤ (2 * dims.getD 0 1) * (2 * dims.getD 1 1) * (2 * dims.getD 2 1) := by gcongr <;> omega
      _ = 8 * (dims.getD 0 1 * dims.getD 1 1 * dims.getD 2 1) := by ring
      _ = 8 * dims.prod := by rw [hprod]
      _ < W := by unfold W; omega
  obtain ⟨text, e, hr⟩ := readStruct_writeGrid (axisOf dims xmins xmaxs 0) (axisOf dims xmins xmaxs 1)
    (axisOf dims xmins xmaxs 2) (a := dims.getD 0 1) (b := dims.getD 1 1) (c := dims.getD 2 1) (field := field) (name := name)
    (by rw [axisOf_eq h1 h2]) (by rw [axisOf_eq h1 h2]) (by rw [axisOf_eq h1 h2]) (hp 0) (hp 1) (hp 2) hV
    (by rw [hprod]; exact hf) hname hw
  refine ⟨text, _, ?_, hr, rfl, ?_, ?_, rfl, ?_, ?_⟩
  · unfold writeVTK
    rw [if_neg (by omega), vtkAxis_eq (by omega) (by omega), vtkAxis_eq (by omega) (by omega),
      vtkAxis_eq (by omega) (by omega), M.ok_bind, M.ok_bind, M.ok_bind, e]
    rfl
  · intro i j k hi hj hk
    obtain ⟨hlt, ht⟩ := tuple3 (Nat.lt_succ_of_le hi) (Nat.lt_succ_of_le hj) (Nat.lt_succ_of_le hk)
    unfold StructGrid.point
    dsimp only
    rw [take_drop_flatMap 3 _ (fun i => rfl) _ _ hlt]
    rw [ht, axisOf_eq h1 h2, axisOf_eq h1 h2, axisOf_eq h1 h2]
    rfl
  · exact length_flatMap_const 3 _ (fun i => rfl) _
  · rw [← hprod]; simp
  · intro g hg
    obtain ⟨e1, e2⟩ := hcol g hg
    unfold StructGrid.value
    dsimp only
    rw [cellsOf_succ (hp 0), cellsOf_succ (hp 1), e1, List.getElem?_map, List.getElem?_range (by rw [hprod]; exact e2),
      List.getElem?_eq_getElem (by omega)]
    simp only [Option.map_some]
    rw [List.getD_eq_getElem _ _ (by omega)]

/-- C44: with more than three axes nothing is written. -/
theorem C44_more_axes (dims : List Nat) (h : 3 < dims.length) (xmins xmaxs field : List R) (name : Str) :
    writeVTK dims xmins xmaxs field name = .ok none := by
  unfold writeVTK
  rw [if_pos h]; rfl

/-- C44 (part): the file written by `Filter::saveVTK` on a grid of at most 3 axes and 2^31 cells, after any history of calls,
holds the output data `v` of all ranks, each value in the cell it belongs to.
Missing: what is missing of C21 (with more than one process the behaviour is undefined unless taking the address of the
first element of an empty buffer is harmless; larger grids). -/
theorem C44_filter_file_partial [LT R] [DecidableLT R] [HasMax R] (nprocs : Nat) (dims : List Nat) (xmins xmaxs : List R)
    (st : StdMap (List Int) R) (hr : InRange nprocs dims) (hex : ∃ d, ValidDecomp nprocs dims d)
    (hf : ∀ d, ValidDecomp nprocs dims d → ∀ kv ∈ st, OffsetFits dims d kv.1) (hsize : dims.prod ≤ 2 ^ 31)
    (h3 : dims.length ≤ 3) (h1 : xmins.length = dims.length) (h2 : xmaxs.length = dims.length)
    (calls : List (Call R)) (w w1 : World R) (hw : World.new nprocs dims xmins xmaxs st = .ok w)
    (hc : runCalls w calls = .ok w1) (v : List Nat → R) (hv : OutputIs w1 v)
    (hword : ∀ x : R, IsWord (DoubleText.showDouble x)) :
    ∃ text grid w2, w1.saveFile = .ok (some text, w2) ∧ readStruct text = some grid ∧
      [grid.nx, grid.ny, grid.nz] = [0, 1, 2].map (fun j => dims.getD j 1 + 1) ∧
      (∀ i j k, i ≤ dims.getD 0 1 → j ≤ dims.getD 1 1 → k ≤ dims.getD 2 1 → grid.point i j k =
        [DoubleText.showDouble (gridNode (xmins.getD 0 0) (xmaxs.getD 0 1) (dims.getD 0 1) i),
         DoubleText.showDouble (gridNode (xmins.getD 1 0) (xmaxs.getD 1 1) (dims.getD 1 1) j),
         DoubleText.showDouble (gridNode (xmins.getD 2 0) (xmaxs.getD 2 1) (dims.getD 2 1) k)]) ∧
      grid.values.length = dims.prod ∧
      ∀ g, InGrid dims g → grid.value (g.getD 0 0) (g.getD 1 0) (g.getD 2 0) = some (DoubleText.showDouble (v g)) := by
  obtain ⟨field, w2, e, -, hlen, hval, -⟩ := C21_field_partial nprocs dims xmins xmaxs st hr hex hf hsize calls w w1 hw hc v hv
  obtain ⟨text, grid, e2, hread, hn, hp, -, -, hl, hg⟩ := C44_file dims h3 hr.pos (by have := hr.cells; omega) xmins xmaxs field
    h1 h2 (by omega) "outData".toList ⟨by decide +kernel, by decide +kernel⟩ hword
  obtain ⟨d, hgood, hb⟩ := setup_good nprocs dims xmins xmaxs st hr hex hf
  obtain ⟨w0, e0, h0⟩ := world_new hgood hb
  have e' : World.new nprocs dims xmins xmaxs st = .ok w0 := e0
  rw [hw] at e'
  obtain rfl := Except.ok.inj e'
  have e3 : runCalls w (calls ++ [.saveVTK]) = .ok w2 := by
    unfold runCalls at hc ⊢
    rw [List.foldlM_append, hc, M.ok_bind, List.foldlM_cons]
    show ((w1.saveField >>= fun p => pure p.2) >>= fun w => pure w) = _
    rw [e]; rfl
  have hsh := calls_shape hgood ⟨h0.1, fun x f hx hf => (h0.2 x f hx hf).1⟩ e3
  cases w2 with
  | nil =>
    have := hsh.1
    have := hr.procs1
    simp at *
    omega
  | cons root others =>
    obtain ⟨x, hx, _, hs⟩ := hsh.mem hgood (List.mem_cons_self)
    refine ⟨text, grid, root :: others, ?_, hread, hn, hp, hl, fun g hg' => ?_⟩
    · unfold World.saveFile
      rw [e, M.ok_bind]
      dsimp only
      rw [hs.gdims, hs.xmins, hs.xmaxs, e2]
      rfl
    · rw [hg g hg', hval g hg']; rfl

end

/-- C44: in exact arithmetic the first node along an axis is the low end, the last one the high end, and they are equally
spaced. -/
theorem C44_nodes {K : Type} [Field K] [CharZero K] (lo hi : K) (n : Nat) (hn : 0 < n) :
    gridNode lo hi n 0 = lo ∧ gridNode lo hi n n = hi ∧
      ∀ i, gridNode lo hi n (i + 1) - gridNode lo hi n i = (hi - lo) / n := by
  have : (n : K) ≠ 0 := by exact_mod_cast hn.ne'
  refine ⟨by simp [gridNode], by unfold gridNode; field_simp; ring, fun i => ?_⟩
  unfold gridNode
  push_cast
  field_simp
  ring

/-! ### Examples -/

/-- Fractions as words. -/
local instance : DoubleText ℚ := ⟨fun _ => 0, fun q => showInt q.num ++ '/' :: showSz q.den⟩

/-- The hypothesis about the formatting of numbers can be met. -/
example (q : ℚ) : IsWord (DoubleText.showDouble q) := by
  refine ⟨by simp [DoubleText.showDouble], fun c hc => ?_⟩
  simp only [DoubleText.showDouble, showInt, showSz, List.mem_append, List.mem_cons] at hc
  rcases hc with hc | rfl | hc
  · split at hc
    · rcases List.mem_cons.1 hc with rfl | hc
      · decide
      · exact digit_not_blank (toDigits_ok _ c hc)
    · exact digit_not_blank (toDigits_ok _ c hc)
  · decide
  · exact digit_not_blank (toDigits_ok _ c hc)

/-- C43: the file of a 2 x 3 grid after one step. -/
example : (Upwind.new 2 [1, -2] [1, 3] [2, 3] >>= fun s : Upwind ℚ => s.advect 1 (1 / 8) >>= fun s => s.saveVTK >>= fun t =>
      pure ((readRect t).map fun g => (g.x, g.y.length, g.z.length, g.values))) =
    .ok (some (["0.0".toList], 4, 3, ["1/2".toList, "0/1".toList, "1/4".toList, "1/4".toList, "0/1".toList, "0/1".toList])) := by decide +kernel

/-- C43: on a grid of four axes of two cells the counts do not match. -/
example : ([2, 2, 2, 2] : List Nat).prod < 2 ^ 31 ∧ (([2, 2, 2, 2] : List Nat).drop 3).prod ≠ 1 ∧
    (Upwind.new 4 [1, 1, 1, 1] [1, 1, 1, 1] [2, 2, 2, 2] >>= fun s : Upwind ℚ => s.saveVTK >>= fun t => pure (readRect t)) =
      .ok none := by decide +kernel

/-- C44: the file of a 2 x 1 grid. -/
example : (writeVTK [2, 1] [0, 0] [1, (3 : ℚ)] [5, 7] "u".toList >>= fun t => pure ((t.bind readStruct).map fun g =>
      (g.point 1 1 0, g.value 1 0 0))) =
    .ok (some (["1/2".toList, "3/1".toList, "0/1".toList], some "7/1".toList)) := by decide +kernel

end Fidi
