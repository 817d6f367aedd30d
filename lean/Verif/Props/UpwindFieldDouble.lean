import Verif.Lemmas.UpwindFieldDouble
import Verif.Props.UpwindClosed
import Verif.Props.FormatG

/-
C88: the field of upwind.cxx with IEEE numbers: against the exact program, its closed form and its symmetry, and in the file.
-/
set_option linter.unusedSectionVars false

namespace Fidi
open Spec CTest

/-- C88: upwind.cxx with IEEE numbers, for every number of cells it supports and every `int` number of steps: every value of the
field is finite and within `23 steps / 2^52` of the value of the same program in exact arithmetic, Courant number 0.1 included. -/
theorem C88_field (n : Nat) (hn : 0 < n) (hn2 : n ≤ 1290) (k : Int) (hk : k < 2 ^ 31) :
    ∃ (t : Upwind F64) (s : Upwind ℚ), Upwind.mainRun (F64.fin ⟨rnd (1 / 10)⟩) n k = .ok t ∧
      Upwind.mainRun (0.1 : ℚ) n k = .ok s ∧ t.f.length = n ^ 3 ∧ s.f.length = n ^ 3 ∧
      ∀ i < n ^ 3, ∃ (x : Dbl) (y : ℚ), t.f[i]? = some (.fin x) ∧ s.f[i]? = some y ∧ |x.val - y| ≤ 23 * k.toNat / 2 ^ 52 := by
  obtain ⟨s', s, u, e1, e2, hst, hnear⟩ := driver_field_near n hn hn2 k hk
  obtain ⟨s2, t, e3, e4, hf, -⟩ := C69_driver n hn hn2 k hk
  rw [e1] at e3
  obtain rfl := Except.ok.inj e3
  have hp : ([n, n, n] : List Nat).prod = n ^ 3 := by simp; ring
  have hpos : ∀ m ∈ [n, n, n], 0 < m := by intro m hm; simp at hm; omega
  refine ⟨t, s, e4, e2, by rw [hf, List.length_map, hnear.1, hp], by rw [hst.1, hp], fun i hi => ?_⟩
  rw [← hp] at hi
  have hg := cellAt_inGrid hpos i
  obtain ⟨x, hx, hxe⟩ := hnear.2 _ hg
  have hy := hst.2 _ hg
  rw [rankOf_cellAt hpos hi] at hx hy
  exact ⟨x, _, by rw [hf, List.getElem?_map, hx]; rfl, hy, hxe⟩

/-- C88: with fewer steps than cells along an axis, the value of a cell is, up to `23 steps / 2^52`, the probability of drawing each
axis as often as the cell is away from the corner along it. -/
theorem C88_closed_form (n : Nat) (hn2 : n ≤ 1290) (k : Nat) (hk : k < n) :
    ∃ t : Upwind F64, Upwind.mainRun (F64.fin ⟨rnd (1 / 10)⟩) n k = .ok t ∧
      ∀ g, InGrid [n, n, n] g → ∃ x : Dbl, t.f[rankOf [n, n, n] g]? = some (.fin x) ∧
        |x.val - drawn k g| ≤ 23 * k / 2 ^ 52 := by
  obtain ⟨s', s, u, e1, e2, hst, hnear⟩ := driver_field_near n (by omega) hn2 k (by omega)
  obtain ⟨s2, t, e3, e4, hf, -⟩ := C69_driver n (by omega) hn2 k (by omega)
  rw [e1] at e3
  obtain rfl := Except.ok.inj e3
  obtain ⟨s3, e5, hd⟩ := C81_driver_field n hn2 k hk
  rw [e2] at e5
  obtain rfl := Except.ok.inj e5
  refine ⟨t, e4, fun g hg => ?_⟩
  obtain ⟨x, hx, hxe⟩ := hnear.2 g hg
  have : u g = drawn k g := Option.some.inj ((hst.2 g hg).symm.trans (hd.2 g hg))
  rw [this, Int.toNat_natCast] at hxe
  exact ⟨x, by rw [hf, List.getElem?_map, hx]; rfl, hxe⟩

/-- C88: the field is symmetric in its axes up to `46 steps / 2^52`. -/
theorem C88_symmetric (n : Nat) (hn : 0 < n) (hn2 : n ≤ 1290) (k : Int) (hk : k < 2 ^ 31) (σ : Equiv.Perm (Fin 3)) :
    ∃ t : Upwind F64, Upwind.mainRun (F64.fin ⟨rnd (1 / 10)⟩) n k = .ok t ∧
      ∀ g, InGrid [n, n, n] g → ∃ x y : Dbl, t.f[rankOf [n, n, n] g]? = some (.fin x) ∧
        t.f[rankOf [n, n, n] (reorder 0 σ g)]? = some (.fin y) ∧ |x.val - y.val| ≤ 46 * k.toNat / 2 ^ 52 := by
  obtain ⟨s', s, u, e1, e2, hst, hnear⟩ := driver_field_near n hn hn2 k hk
  obtain ⟨s2, t, e3, e4, hf, -⟩ := C69_driver n hn hn2 k hk
  rw [e1] at e3
  obtain rfl := Except.ok.inj e3
  obtain ⟨s3, w, e5, hw, hsym⟩ := C82_driver n hn hn2 k σ
  rw [e2] at e5
  obtain rfl := Except.ok.inj e5
  have huw : ∀ g, InGrid [n, n, n] g → u g = w g := fun g hg => Option.some.inj ((hst.2 g hg).symm.trans (hw.2 g hg))
  refine ⟨t, e4, fun g hg => ?_⟩
  have hl : g.length = 3 := hg.length_eq
  have hg' : InGrid [n, n, n] (reorder 0 σ g) := by
    have h := reorder_inGrid (N := [n, n, n]) (σ := σ) rfl hg
    rwa [show reorder 0 σ [n, n, n] = [n, n, n] from
      List.eq_replicate_iff.2 ⟨reorder_length _, fun x hx => by
        have := mem_reorder (σ := σ) (l := [n, n, n]) rfl hx
        simpa using this⟩] at h
  obtain ⟨x, hx, hxe⟩ := hnear.2 g hg
  obtain ⟨y, hy, hye⟩ := hnear.2 _ hg'
  refine ⟨x, y, by rw [hf, List.getElem?_map, hx]; rfl, by rw [hf, List.getElem?_map, hy]; rfl, ?_⟩
  rw [huw _ hg', hsym g hg, ← huw g hg, abs_sub_comm] at hye
  refine (abs_sub_le _ _ _).trans ((add_le_add hxe hye).trans (le_of_eq ?_))
  ring

/-- C88: it is not symmetric exactly: with 2 cells along each axis and 3 steps the values next to the corner along the first and the
last axis differ, because the axes are subtracted one after the other. -/
theorem C88_symmetric_bits_fails : ¬ ∀ (n : Nat), 0 < n → n ≤ 1290 → ∀ k : Int, k < 2 ^ 31 → ∀ t : Upwind F64,
    Upwind.mainRun (F64.fin ⟨rnd (1 / 10)⟩) n k = .ok t →
      t.f[rankOf [n, n, n] [1, 0, 0]]? = t.f[rankOf [n, n, n] [0, 0, 1]]? := by
  intro h
  have e : (Upwind.mainRun (F64.fin ⟨rnd (1 / 10)⟩) (2 : Nat) 3 >>= fun t => pure (t.f[4]?, t.f[1]?)) ≠
      (Upwind.mainRun (F64.fin ⟨rnd (1 / 10)⟩) (2 : Nat) 3 >>= fun t => pure (t.f[1]?, t.f[1]?)) := by decide +kernel
  obtain ⟨t, _, e1, _⟩ := C88_field 2 (by decide) (by decide) 3 (by decide)
  rw [e1] at e
  have h' : t.f[4]? = t.f[1]? := h 2 (by decide) (by decide) 3 (by decide) t e1
  rw [M.ok_bind, M.ok_bind, h'] at e
  exact e rfl

section
variable [DoubleText F64] [Upwind.HasSqrt F64]

/-- C88: the file up1.vtk of upwind.cxx and upwindOMPTasks.cxx with `-vtk` and IEEE numbers, with fewer steps than cells along an
axis: the decimal number that stands for a cell is the probability of C81, up to half a unit of the sixth digit and
`24 steps / 2^52`. -/
theorem C88_file (htext : ∀ x : F64, DoubleText.showDouble x = x.text) (omp : Option (Int × Int)) (exec : Str)
    (args : List Str) (h : AllKnown (upwindNames true) args) (n steps : Nat)
    (h1 : IntValue Reads args "-numCells".toList 128 n) (h2 : IntValue Reads args "-numSteps".toList 10 steps)
    (hh : flagValue args "-h".toList = false) (hv : flagValue args "-vtk".toList = true) (hn2 : n ≤ 1290) (hk : steps < n) :
    ∃ (e : Exit) (text0 text1 : Str) (grid1 : RectGrid), Upwind.main (F64.fin ⟨rnd (1 / 10)⟩) omp (exec :: args) = .ok e ∧
      e.status = 0 ∧ e.files = [("up0.vtk".toList, text0), ("up1.vtk".toList, text1)] ∧ readRect text1 = some grid1 ∧
      ∀ g, InGrid [n, n, n] g → ∃ q : ℚ, (grid1.value (g.getD 2 0) (g.getD 1 0) (g.getD 0 0)).bind readDecimal = some q ∧
        |q - drawn steps g| ≤ drawn steps g / 200000 + 24 * steps / 2 ^ 52 := by
  have hn : 0 < n := by omega
  obtain ⟨e, text0, text1, grid0, grid1, he, hfiles, -, hr1, -, hall⟩ :=
    C80_upwind_files htext omp exec args h n steps h1 h2 hh hv hn hn2 (by omega)
  obtain ⟨f, _, _, hst, -, -, he'⟩ := C56_upwind_run (F64.fin ⟨rnd (1 / 10)⟩) omp exec args h n steps h1 h2 hh hn hn2
    (words_of htext).1
  have hs : e.status = 0 := by
    rw [he] at he'
    rw [Except.ok.inj he']
  obtain ⟨t, ht, hc⟩ := C88_closed_form n hn2 steps hk
  have hft := driver_field hn hn2 ht hst
  refine ⟨e, text0, text1, grid1, he, hs, hfiles, hr1, fun g hg => ?_⟩
  obtain ⟨-, x, q, hx, hq, -, -, hqx⟩ := hall g hg
  obtain ⟨x', hx', hd⟩ := hc g hg
  rw [hft, hst.2 g hg, hx] at hx'
  have hxx : x = x' := by injection hx' with h; injection h
  subst hxx
  refine ⟨q, hq, ?_⟩
  have hd0 : 0 ≤ drawn steps g := by
    unfold drawn
    split
    · split
      · positivity
      · exact le_refl _
    · exact le_refl _
  have h3 := abs_sub_le q x.val (drawn steps g)
  have h4 : |x.val| ≤ drawn steps g + 23 * steps / 2 ^ 52 := by
    have := abs_sub_abs_le_abs_sub x.val (drawn steps g)
    rw [abs_of_nonneg hd0] at this
    linarith
  have h5 : (0 : ℚ) ≤ steps := Nat.cast_nonneg _
  norm_num at hd h4 ⊢
  linarith

/-- The default command line with `-vtk`: after 10 steps 0.0282475 of the initial value, 7/10 to the power of 10, is left in the
corner; the file says so up to 10^-6. -/
example (htext : ∀ x : F64, DoubleText.showDouble x = x.text) :
    ∃ (e : Exit) (text0 text1 : Str) (grid : RectGrid) (q : ℚ),
      Upwind.main (F64.fin ⟨rnd (1 / 10)⟩) none ["upwind".toList, "-vtk".toList] = .ok e ∧
      e.files = [("up0.vtk".toList, text0), ("up1.vtk".toList, text1)] ∧ readRect text1 = some grid ∧
      (grid.value 0 0 0).bind readDecimal = some q ∧ |q - 282475249 / 10 ^ 10| ≤ 1 / 10 ^ 6 := by
  have key : ∀ (name : Str) (i : Nat), name ≠ "-vtk".toList → ["-vtk".toList][i]? = some name → False := by
    intro name i hn h
    match i with
    | 0 => exact hn (Option.some.inj h).symm
    | i + 1 => cases h
  have hk : AllKnown (upwindNames true) ["-vtk".toList] := by intro a ha _; rw [List.mem_singleton.1 ha]; decide
  have h1 : IntValue Reads ["-vtk".toList] "-numCells".toList 128 (128 : Nat) :=
    ⟨fun v ⟨i, h, _⟩ => (key _ i (by decide) h).elim, .inl ⟨fun i h => (key _ i (by decide) h).elim, rfl⟩⟩
  have h2 : IntValue Reads ["-vtk".toList] "-numSteps".toList 10 (10 : Nat) :=
    ⟨fun v ⟨i, h, _⟩ => (key _ i (by decide) h).elim, .inl ⟨fun i h => (key _ i (by decide) h).elim, rfl⟩⟩
  obtain ⟨e, text0, text1, grid, he, -, hf, hr, hall⟩ := C88_file htext none "upwind".toList ["-vtk".toList] hk 128 10 h1 h2
    (by decide) (by decide) (by decide) (by decide)
  obtain ⟨q, hq, hb⟩ := hall [0, 0, 0] (by simp [InGrid])
  refine ⟨e, text0, text1, grid, q, he, hf, hr, hq, ?_⟩
  have hd : drawn 10 [0, 0, 0] = 282475249 / 10 ^ 10 := by norm_num [drawn, Nat.factorial]
  rw [hd] at hb
  exact hb.trans (by norm_num)

end

/-- A thousand million steps with 64 cells along each axis: the field is exact to 10^-5 and symmetric to 2 * 10^-5. -/
example : (∃ (t : Upwind F64) (s : Upwind ℚ), Upwind.mainRun (F64.fin ⟨rnd (1 / 10)⟩) (64 : Nat) 1000000000 = .ok t ∧
      Upwind.mainRun (0.1 : ℚ) (64 : Nat) 1000000000 = .ok s ∧
      ∀ i < 64 ^ 3, ∃ (x : Dbl) (y : ℚ), t.f[i]? = some (.fin x) ∧ s.f[i]? = some y ∧ |x.val - y| ≤ 1 / 10 ^ 5) := by
  obtain ⟨t, s, e1, e2, -, -, h⟩ := C88_field 64 (by decide) (by decide) 1000000000 (by decide)
  refine ⟨t, s, e1, e2, fun i hi => ?_⟩
  obtain ⟨x, y, a, b, c⟩ := h i hi
  exact ⟨x, y, a, b, c.trans (by rw [show Int.toNat 1000000000 = 1000000000 from rfl]; norm_num)⟩

/-- Exchanging the first and the last axis of 100 cells: after 50 steps the difference is at most 10^-12. -/
example : ∃ t : Upwind F64, Upwind.mainRun (F64.fin ⟨rnd (1 / 10)⟩) (100 : Nat) 50 = .ok t ∧
    ∃ x y : Dbl, t.f[rankOf [100, 100, 100] [1, 2, 3]]? = some (.fin x) ∧
      t.f[rankOf [100, 100, 100] [3, 2, 1]]? = some (.fin y) ∧ |x.val - y.val| ≤ 1 / 10 ^ 12 := by
  obtain ⟨t, e, h⟩ := C88_symmetric 100 (by decide) (by decide) 50 (by decide) (Equiv.swap 0 2)
  obtain ⟨x, y, a, b, c⟩ := h [1, 2, 3] (by simp [InGrid])
  refine ⟨t, e, x, y, a, ?_, c.trans (by rw [show Int.toNat 50 = 50 from rfl]; norm_num)⟩
  rw [show reorder 0 (Equiv.swap (0 : Fin 3) 2) [1, 2, 3] = [3, 2, 1] by decide] at b
  exact b

end Fidi
