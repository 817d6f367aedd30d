import Verif.Lemmas.UpwindMpiPy
import Verif.Props.MainsOther
import Verif.Model.Dbl

/-
Property C62: upwindMPI.py computes the upwind scheme on any number of processes. `dc` is a decomposition found by mpinum of the
cells `N` over `size` processes in boxes of shape `n` (`MpiNum.Good` says what is assumed of it). `R` is any type with the operations
used and stands for the floating-point numbers, `sum` is `numpy.sum`. `hcast`: converting a number of cells gives the same
floating-point number as in C++.
-/
set_option linter.unusedSectionVars false

namespace Fidi
open Spec

/-- A decomposition with the ranks in the order of the positions, last axis fastest. -/
def rowMajor (p q r : Nat) : MpiNum where
  procs := (p, q, r)
  coords := fun rk => (rk / r / q, rk / r % q, rk % r)
  rankAt := fun x => (x.1 * q + x.2.1) * r + x.2.2

/-- There is such a decomposition for all numbers of processes along the axes and all shapes of the boxes. -/
theorem rowMajor_good (p q r : Nat) (n : Nat × Nat × Nat) (h1 : 0 < n.1) (h2 : 0 < n.2.1) (h3 : 0 < n.2.2) :
    (rowMajor p q r).Good (p * q * r) n (p * n.1, q * n.2.1, r * n.2.2) where
  pos := ⟨h1, h2, h3⟩
  cells := rfl
  inside := by
    intro rk h
    have hr : 0 < r := Nat.pos_of_ne_zero (by rintro rfl; simp at h)
    have hq : 0 < q := Nat.pos_of_ne_zero (by rintro rfl; simp at h)
    exact ⟨(Nat.div_lt_iff_lt_mul hq).2 ((Nat.div_lt_iff_lt_mul hr).2 h), Nat.mod_lt _ hq, Nat.mod_lt _ hr⟩
  rankOf := by
    intro rk h
    simp only [rowMajor]
    rw [Nat.div_add_mod', Nat.div_add_mod']
  posOf := by
    intro a b c ha hb hc
    simp only [rowMajor] at ha hb hc ⊢
    refine ⟨MpiNum.lt_of_box (MpiNum.lt_of_box ha hb) hc, ?_⟩
    have e1 : ((a * q + b) * r + c) / r = a * q + b := by
      rw [Nat.mul_comm, Nat.mul_add_div (by omega), Nat.div_eq_of_lt hc, add_zero]
    have e2 : (a * q + b) / q = a := by
      rw [Nat.mul_comm, Nat.mul_add_div (by omega), Nat.div_eq_of_lt hb, add_zero]
    rw [e1, e2, box_mod hb, box_mod hc]
  root := by simp [rowMajor]

section
variable {R : Type} [Zero R] [One R] [Add R] [Sub R] [Mul R] [Div R] [NatCast R] [IntCast R] [LT R] [DecidableLT R]

/-- C62 (part): for every decomposition, any number of steps, time step, domain size and velocities that are not negative, the
array gathered on process 0 holds in each cell the value of the scheme `boxStep`, operation by operation, and the array of each
process holds the values of its box.
Missing: negative velocities, false (`C62_negative_velocity_fails`; what is computed then is in `C62_any_velocity`). -/
theorem C62_field_partial (dc : MpiNum) (size : Nat) (n N : Nat × Nat × Nat) (h : dc.Good size n N)
    (hcast : ∀ n : Nat, ((n : Int) : R) = (n : R)) (sum : List R → R) (dt v1 v2 v3 L1 L2 L3 : R)
    (h1 : ¬ v1 < 0) (h2 : ¬ v2 < 0) (h3 : ¬ v3 < 0) (k : Int) :
    let up := PyMpi.new dc n (v1, v2, v3) (L1, L2, L3) N
    let f := up.steps sum k dt PyMpi.field
    let u := (boxStep sum dt [v1, v2, v3] [L1, L2, L3] [N.1, N.2.1, N.2.2] [n.1, n.2.1, n.2.2])^[k.toNat] cornerField
    (∀ x y z, x < N.1 → y < N.2.1 → z < N.2.2 → up.gatherRoot size f x y z = u [x, y, z]) ∧
    ∀ rk, rk < size → ∀ x y z, x < n.1 → y < n.2.1 → z < n.2.2 →
      f rk x y z = u [(dc.coords rk).1 * n.1 + x, (dc.coords rk).2.1 * n.2.1 + y, (dc.coords rk).2.2 * n.2.2 + z] := by
  have hf := PyMpi.steps_holds hcast h sum dt v1 v2 v3 L1 L2 L3 h1 h2 h3 k (PyMpi.holds_field h)
  exact ⟨fun x y z hx hy hz => PyMpi.gather_holds h _ rfl rfl hf x y z hx hy hz, hf⟩

example : ∃ (dc : MpiNum) (size : Nat), size = 24 ∧ dc.Good size (5, 1, 2) (10, 3, 8) :=
  ⟨rowMajor 2 3 4, 24, rfl, rowMajor_good 2 3 4 (5, 1, 2) (by decide) (by decide) (by decide)⟩

variable [DoubleText R]

/-- The text of the constructor. -/
theorem localText_eq (box : Nat × Nat × Nat) (rk : Nat) : "[".toList ++ showInt rk ++ "] local number of cells: ".toList ++
    PyMpi.arrayText [(box.1 : Int), box.2.1, box.2.2] ++ "\n".toList = localText rk box := by
  unfold PyMpi.arrayText localText atRight
  have e1 : "] local number of cells: [".toList = "] local number of cells: ".toList ++ "[".toList := by decide +kernel
  have e2 : "]\n".toList = "]".toList ++ "\n".toList := by decide +kernel
  simp only [List.map_cons, List.map_nil, Fortran.showInt_nat, showSz_toString, String.toList_append, e1, e2, List.append_assoc,
    List.foldl_cons, List.foldl_nil, Nat.zero_max, String.length_toList]
  simp only [List.intercalate, List.intersperse, List.flatten_cons, List.flatten_nil, List.append_nil, List.append_assoc]

/-- The elements of an array of the whole grid in their order. -/
theorem PyMpi.flat_map {n : Nat × Nat × Nat} {a : Arr3 R} {u : List Nat → R}
    (h : ∀ x y z, x < n.1 → y < n.2.1 → z < n.2.2 → a x y z = u [x, y, z]) :
    (PyMpi.flat n a).length = n.1 * n.2.1 * n.2.2 ∧ (PyMpi.flat n a).flatMap DoubleText.showDouble =
      (List.range n.1).flatMap fun x => (List.range n.2.1).flatMap fun y => (List.range n.2.2).flatMap fun z =>
        DoubleText.showDouble (u [x, y, z]) := by
  unfold PyMpi.flat
  constructor
  · simp [List.length_flatMap, Nat.mul_assoc]
  · simp only [List.flatMap_assoc, List.flatMap_map]
    have key : ∀ (m : Nat) (f g : Nat → Str), (∀ x, x < m → f x = g x) → (List.range m).flatMap f = (List.range m).flatMap g := by
      intro m f g hfg
      rw [List.flatMap_def, List.flatMap_def]
      congr 1
      exact List.map_congr_left fun x hx => hfg x (List.mem_range.1 hx)
    exact key _ _ _ fun x hx => key _ _ _ fun y hy => key _ _ _ fun z hz => by rw [h x y z hx hy hz]

/-- C62 (part): for every command line whose first argument is a number `n ≥ 1` and whose second argument, if there is one, is a
number of steps, and every decomposition, upwindMPI.py computes the asked number of steps (100 without a second argument) on `n`
cells along each axis, operation by operation; every process prints the size of its box, process 0 also the numbers of cells, the
time measured and the sum that `reduce` returns; all end with status 0; if the third argument is `vtk`, and only then, it leaves a
file upMPI.vtk with the declared sizes right, the nodes at the multiples of the cell width, and the characters of the computed values of all cells in their order.
Missing: a file with two or more cells cannot be read (`C62_file_fails`). -/
theorem C62_run_partial (decomp : Nat → Nat → Option (MpiNum × (Nat × Nat × Nat))) (readInt : Str → Option Int)
    (time : Str) (courant inf : R) (sum : List R → R) (size : Nat) (prog : Str) (args : List Str) (n : Nat) (steps : Int) (vtk : Bool)
    (h : Asks (fun a z => readInt a = some z) 100 args n steps vtk) (hn : 0 < n) (dc : MpiNum) (box : Nat × Nat × Nat)
    (hd : decomp size n = some (dc, box)) (hdc : dc.Good size box (n, n, n)) (hcast : ∀ n : Nat, ((n : Int) : R) = (n : R))
    (h01 : ¬ (1 : R) < 0) (hw : ∀ x : R, IsWord (DoubleText.showDouble x)) :
    ∃ (f : Nat → Arr3 R) (s : R) (text : Str) (grid : RectGrid),
      (∀ rk, rk < size → ∀ x y z, x < box.1 → y < box.2.1 → z < box.2.2 →
        f rk x y z = (boxStep sum (programStep inf courant (1 / (n : R))) [1, 1, 1] [1, 1, 1] [n, n, n]
            [box.1, box.2.1, box.2.2])^[steps.toNat] cornerField
          [(dc.coords rk).1 * box.1 + x, (dc.coords rk).2.1 * box.2.1 + y, (dc.coords rk).2.2 * box.2.2 + z]) ∧
      s = ((List.range size).flatMap fun rk => (List.range box.1).flatMap fun x => (List.range box.2.1).flatMap fun y =>
        (List.range box.2.2).map fun z => f rk x y z).foldl (· + ·) 0 ∧
      readRectHead text = some grid ∧ grid.name = "f".toList ∧
      [grid.x, grid.y, grid.z] = List.replicate 3 ((List.range (n + 1)).map fun i : Nat =>
        DoubleText.showDouble (0 + (i : R) * (1 / (n : R)))) ∧
      grid.values.flatten = ((List.range n).flatMap fun x => (List.range n).flatMap fun y => (List.range n).flatMap fun z =>
        DoubleText.showDouble ((boxStep sum (programStep inf courant (1 / (n : R))) [1, 1, 1] [1, 1, 1] [n, n, n]
          [box.1, box.2.1, box.2.2])^[steps.toNat] cornerField [x, y, z])) ∧
      (2 ≤ n → readRect text = none) ∧
      PyMpi.main decomp readInt time courant inf sum size (prog :: args) = .ok ⟨(List.range size).map fun rk =>
        if rk = 0 then {
          out := localText 0 box ++ mpiText n time ++ sumLine (DoubleText.showDouble s), err := []
          files := if vtk then [("upMPI.vtk".toList, text)] else [], status := 0 }
        else { out := localText rk box, err := [], files := [], status := 0 }⟩ := by
  have hdt : PyMpi.mainDt courant inf (1, 1, 1) (1, 1, 1) (n, n, n) = programStep inf courant (1 / (n : R)) := by
    unfold programStep
    rw [← hcast n]
    rfl
  obtain ⟨hg, hf⟩ := C62_field_partial dc size box (n, n, n) hdc hcast sum (programStep inf courant (1 / (n : R))) 1 1 1 1 1 1
    h01 h01 h01 steps
  obtain ⟨hlen, hflat⟩ := PyMpi.flat_map (n := (n, n, n)) hg
  obtain ⟨text, vals, htext, hh, hv1, hv2⟩ := PyVtk.rectilinear_words hw n n n
    ((List.range (n + 1)).map fun i : Nat => 0 + (i : R) * (1 / (n : R)))
    ((List.range (n + 1)).map fun i : Nat => 0 + (i : R) * (1 / (n : R)))
    ((List.range (n + 1)).map fun i : Nat => 0 + (i : R) * (1 / (n : R)))
    (PyMpi.flat (n, n, n) (PyMpi.gatherRoot (PyMpi.new dc box (1, 1, 1) (1, 1, 1) (n, n, n)) size
      (PyMpi.steps sum (PyMpi.new dc box (1, 1, 1) (1, 1, 1) (n, n, n)) steps (programStep inf courant (1 / (n : R)))
        PyMpi.field))) (by simp) (by simp) (by simp)
  rw [hflat] at hv1
  rw [hlen] at hh hv2
  have hA : ((List.range (n + 1)).map fun i : Nat => 0 + (i : R) * (1 / (n : R))).map DoubleText.showDouble =
      (List.range (n + 1)).map fun i : Nat => DoubleText.showDouble (0 + (i : R) * (1 / (n : R))) := by
    rw [List.map_map]; rfl
  have hl : ((List.range (n + 1)).map fun i : Nat => 0 + (i : R) * (1 / (n : R))).length =
      ((List.range (n + 1)).map fun i : Nat => DoubleText.showDouble (0 + (i : R) * (1 / (n : R)))).length := by simp
  rw [hA, hl] at hh
  have hread := readRectHead_words hh (by
    simp only [List.length_map, List.length_range, cellsOf_succ hn])
  have hsave : (PyMpi.new dc box (1, 1, 1) (1, 1, 1) (n, n, n)).saveVTK
      (PyMpi.gatherRoot (PyMpi.new dc box (1, 1, 1) (1, 1, 1) (n, n, n)) size
      (PyMpi.steps sum (PyMpi.new dc box (1, 1, 1) (1, 1, 1) (n, n, n)) steps (programStep inf courant (1 / (n : R)))
        PyMpi.field)) = .ok text := by
    rw [← htext]
    unfold PyMpi.saveVTK PyMpi.axes PyMpi.new
    simp only [hcast]
    rfl
  refine ⟨_, _, text, _, hf, rfl, hread, rfl, rfl, hv1, ?_, ?_⟩
  · intro h2
    rw [readRect_words hh, if_neg]
    intro h
    have h5 : vals.length = n * n * n := h.2.2.2.2
    have h6 : vals.length ≤ n * n * n / 10 + 1 := hv2
    have h3 : 2 * 2 ≤ n * n := Nat.mul_le_mul h2 h2
    have h4 : 2 * 2 * 2 ≤ n * n * n := Nat.mul_le_mul h3 h2
    omega
  obtain ⟨⟨a, h1, h1'⟩, h2, h3⟩ := h
  have hk : PyUpwind.optInt readInt (prog :: args) 2 100 = .ok steps := by
    rcases h2 with ⟨h2, rfl⟩ | ⟨c, h2, h2'⟩
    · exact PyUpwind.optInt_none _ (by simpa using h2)
    · exact PyUpwind.optInt_some _ (by simpa using h2) h2'
  have hv : PyUpwind.optVtk (prog :: args) 3 = .ok vtk := PyUpwind.optVtk_eq (by rw [h3]; simp)
  have hlen : ¬ (prog :: args).length ≤ 1 := by
    have := (List.getElem?_eq_some_iff.1 h1).1
    simp only [List.length_cons]
    omega
  unfold PyMpi.main
  rw [if_neg hlen, show rd (prog :: args) 1 = .ok a by unfold rd; rw [List.getElem?_cons_succ, h1]; rfl, M.ok_bind,
    PyUpwind.toInt_of h1', M.ok_bind, hk, M.ok_bind, hv, M.ok_bind, if_neg (by omega)]
  simp only [Int.toNat_natCast]
  rw [hd, hdt]
  have ht : ∀ s : Str, "number of cells: ".toList ++ PyUpwind.listText [(n : Int), n, n] ++ "\n".toList ++
      "Wall clock time spent in advection loop: ".toList ++ time ++ " [sec]\n".toList ++ "check sum: ".toList ++ s ++
      "\n".toList = mpiText n time ++ sumLine s := by
    intro s
    rw [listText_eq]
    unfold mpiText sumLine
    have e1 : "number of cells: [".toList = "number of cells: ".toList ++ "[".toList := by decide +kernel
    have e2 : "]\nWall clock time spent in advection loop: ".toList = "]".toList ++ "\n".toList ++
      "Wall clock time spent in advection loop: ".toList := by decide +kernel
    simp only [String.toList_append, e1, e2, List.append_assoc]
  have hl : ∀ rk : Nat, "[".toList ++ showInt rk ++ "] local number of cells: ".toList ++
      PyMpi.arrayText [(box.1 : Int), box.2.1, box.2.2] ++ "\n".toList = localText rk box := localText_eq box
  have hall : ∀ (files : List (Str × Str)) (s : Str), ((List.range size).map fun rk : Nat =>
      if rk = 0 then ({
        out := "[".toList ++ showInt rk ++ "] local number of cells: ".toList ++
          PyMpi.arrayText [(box.1 : Int), box.2.1, box.2.2] ++ "\n".toList ++ "number of cells: ".toList ++
          PyUpwind.listText [(n : Int), n, n] ++ "\n".toList ++ "Wall clock time spent in advection loop: ".toList ++ time ++
          " [sec]\n".toList ++ "check sum: ".toList ++ s ++ "\n".toList, err := [], files, status := 0 } : Exit)
      else { out := "[".toList ++ showInt rk ++ "] local number of cells: ".toList ++
          PyMpi.arrayText [(box.1 : Int), box.2.1, box.2.2] ++ "\n".toList, err := [], files := [], status := 0 }) =
      (List.range size).map fun rk => if rk = 0 then {
          out := localText 0 box ++ mpiText n time ++ sumLine s, err := [], files, status := 0 }
        else { out := localText rk box, err := [], files := [], status := 0 } := by
    intro files s
    apply List.map_congr_left
    intro rk _
    rw [hl]
    split
    · next h =>
      subst h
      have := ht s
      simp only [List.append_assoc] at this ⊢
      rw [this]
    · rfl
  cases vtk
  · exact congrArg (fun l => Except.ok (MpiExit.mk l)) (hall _ _)
  · dsimp only
    rw [if_pos rfl, hsave]
    exact congrArg (fun l => Except.ok (MpiExit.mk l)) (hall _ _)

/-- C62 is false for the file: with two or more cells along each axis it cannot be read, whatever was computed, because the values
are written without anything between them. -/
theorem C62_file_fails (decomp : Nat → Nat → Option (MpiNum × (Nat × Nat × Nat))) (readInt : Str → Option Int)
    (time : Str) (courant inf : R) (sum : List R → R) (size : Nat) (prog : Str) (args : List Str) (n : Nat) (steps : Int)
    (hsize : 0 < size) (h : Asks (fun a z => readInt a = some z) 100 args n steps true) (hn : 2 ≤ n) (dc : MpiNum) (box : Nat × Nat × Nat)
    (hd : decomp size n = some (dc, box)) (hdc : dc.Good size box (n, n, n)) (hcast : ∀ n : Nat, ((n : Int) : R) = (n : R))
    (h01 : ¬ (1 : R) < 0) (hw : ∀ x : R, IsWord (DoubleText.showDouble x)) :
    ∃ e root text, PyMpi.main decomp readInt time courant inf sum size (prog :: args) = .ok e ∧ e.ranks[0]? = some root ∧
      root.files = [("upMPI.vtk".toList, text)] ∧ readRect text = none := by
  obtain ⟨f, s, text, grid, -, -, -, -, -, -, h2, hm⟩ := C62_run_partial decomp readInt time courant inf sum size prog args n steps true
    h (by omega) dc box hd hdc hcast h01 hw
  exact ⟨_, _, text, hm, by rw [List.getElem?_map, List.getElem?_range hsize]; rfl, rfl, h2 hn⟩

/-- C62: without arguments all processes of upwindMPI.py write a message and end with status 1; if there is no uniform
decomposition they say so and end with status 1. -/
theorem C62_refuses (decomp : Nat → Nat → Option (MpiNum × (Nat × Nat × Nat))) (readInt : Str → Option Int)
    (time : Str) (courant inf : R) (sum : List R → R) (size : Nat) (prog : Str) :
    PyMpi.main decomp readInt time courant inf sum size [prog] = .ok
      ⟨List.replicate size
        { out := "must specify number of cells in each direction.\n".toList, err := [], files := [], status := 1 }⟩ ∧
    ∀ (args : List Str) (n : Nat) (steps : Int) (vtk : Bool), Asks (fun a z => readInt a = some z) 100 args n steps vtk → 0 < n →
      decomp size n = none →
      PyMpi.main decomp readInt time courant inf sum size (prog :: args) = .ok ⟨List.replicate size
        { out := ("*** No uniform decomposition could be found for " ++ toString size ++
            " processes\n*** Please adjust the number of cells [" ++ toString n ++ ", " ++ toString n ++ ", " ++ toString n ++
            "]\n").toList
          err := [], files := [], status := 1 }⟩ := by
  refine ⟨rfl, fun args n steps vtk h hn hd => ?_⟩
  obtain ⟨⟨a, h1, h1'⟩, h2, h3⟩ := h
  have hk : PyUpwind.optInt readInt (prog :: args) 2 100 = .ok steps := by
    rcases h2 with ⟨h2, rfl⟩ | ⟨c, h2, h2'⟩
    · exact PyUpwind.optInt_none _ (by simpa using h2)
    · exact PyUpwind.optInt_some _ (by simpa using h2) h2'
  have hv : PyUpwind.optVtk (prog :: args) 3 = .ok vtk := PyUpwind.optVtk_eq (by rw [h3]; simp)
  have hlen : ¬ (prog :: args).length ≤ 1 := by
    have := (List.getElem?_eq_some_iff.1 h1).1
    simp only [List.length_cons]
    omega
  unfold PyMpi.main
  rw [if_neg hlen, show rd (prog :: args) 1 = .ok a by unfold rd; rw [List.getElem?_cons_succ, h1]; rfl, M.ok_bind,
    PyUpwind.toInt_of h1', M.ok_bind, hk, M.ok_bind, hv, M.ok_bind, if_neg (by omega)]
  simp only [Int.toNat_natCast]
  rw [hd]
  have e1 : " processes\n*** Please adjust the number of cells [".toList =
    " processes\n".toList ++ "*** Please adjust the number of cells ".toList ++ "[".toList := by decide +kernel
  have e2 : "]\n".toList = "]".toList ++ "\n".toList := by decide +kernel
  simp only [listText_eq, String.toList_append, e1, e2, List.append_assoc, Fortran.showInt_nat, showSz_toString]
  rfl

end

section
variable {K : Type} [Field K] [LinearOrder K] [IsStrictOrderedRing K]

/-- C62 (part), exact arithmetic: the gathered field is that of the upwind scheme, so the same as that of all other versions, whatever
the number of processes. Missing: negative velocities, for which it is false unless the boxes are one cell wide (`C62_right_iff`). -/
theorem C62_same_as_upwind_partial (dc : MpiNum) (size : Nat) (n N : Nat × Nat × Nat) (h : dc.Good size n N)
    (dt v1 v2 v3 L1 L2 L3 : K) (h1 : 0 ≤ v1) (h2 : 0 ≤ v2) (h3 : 0 ≤ v3) (k : Int) (x y z : Nat) (hx : x < N.1) (hy : y < N.2.1)
    (hz : z < N.2.2) :
    let up := PyMpi.new dc n (v1, v2, v3) (L1, L2, L3) N
    up.gatherRoot size (up.steps List.sum k dt PyMpi.field) x y z =
      (upwindStep [N.1, N.2.1, N.2.2] (upDir [v1, v2, v3]) (upCoeff dt [v1, v2, v3] [L1, L2, L3] [N.1, N.2.1, N.2.2]))^[k.toNat]
        cornerField [x, y, z] := by
  rw [← boxStep_eq dt [v1, v2, v3] [L1, L2, L3] _ [n.1, n.2.1, n.2.2] (by simp [h1, h2, h3])]
  exact (C62_field_partial dc size n N h (fun n => Int.cast_natCast n) List.sum dt v1 v2 v3 L1 L2 L3 h1.not_gt h2.not_gt
    h3.not_gt k).1 x y z hx hy hz

/-- C62 (part), exact arithmetic: the check sum is 1 after any number of steps on any number of processes.
Missing: negative velocities, for which it is false unless the boxes are one cell wide (`C62_right_iff`). -/
theorem C62_check_sum_partial (dc : MpiNum) (size : Nat) (hsize : 0 < size) (n N : Nat × Nat × Nat) (h : dc.Good size n N)
    (dt v1 v2 v3 L1 L2 L3 : K) (h1 : 0 ≤ v1) (h2 : 0 ≤ v2) (h3 : 0 ≤ v3) (k : Int) :
    let up := PyMpi.new dc n (v1, v2, v3) (L1, L2, L3) N
    up.checksum size (up.steps List.sum k dt PyMpi.field) = 1 := by
  have hf := PyMpi.steps_holds (fun n => Int.cast_natCast n) h List.sum dt v1 v2 v3 L1 L2 L3 h1.not_gt h2.not_gt h3.not_gt k
    (PyMpi.holds_field h)
  have hp : ∀ x ∈ [N.1, N.2.1, N.2.2], 0 < x := by
    obtain ⟨p1, p2, p3⟩ := h.pos
    obtain ⟨q1, q2, q3⟩ := h.inside 0 hsize
    rw [h.cells]
    simp only [List.mem_cons, List.not_mem_nil, or_false, forall_eq_or_imp, forall_eq]
    exact ⟨Nat.mul_pos (by omega) p1, Nat.mul_pos (by omega) p2, Nat.mul_pos (by omega) p3⟩
  intro up
  rw [PyMpi.checksum_eq h up rfl hf, boxStep_eq _ _ _ _ _ (by simp [h1, h2, h3]), total_iter hp, total_corner hp]

/-- C62, exact arithmetic: with the time step of the program, a Courant number of at most a third (the program has 0.1), all values
are between 0 and 1. -/
theorem C62_values_bounded (dc : MpiNum) (size n : Nat) (hn : 0 < n) (box : Nat × Nat × Nat) (h : dc.Good size box (n, n, n))
    (courant inf : K) (h0 : 0 ≤ courant) (h3 : 3 * courant ≤ 1) (hinf : courant * (1 / (n : K)) ≤ inf) (k : Int) (x y z : Nat)
    (hx : x < n) (hy : y < n) (hz : z < n) :
    let up := PyMpi.new (R := K) dc box (1, 1, 1) (1, 1, 1) (n, n, n)
    let dt := PyMpi.mainDt courant inf (1, 1, 1) (1, 1, 1) (n, n, n)
    0 ≤ up.gatherRoot size (up.steps List.sum k dt PyMpi.field) x y z ∧
      up.gatherRoot size (up.steps List.sum k dt PyMpi.field) x y z ≤ 1 := by
  intro up dt
  have hdt : dt = programStep inf courant (1 / (n : K)) := by
    unfold programStep
    rw [← Int.cast_natCast n]
    rfl
  have e := C62_same_as_upwind_partial dc size box (n, n, n) h dt 1 1 1 1 1 1 zero_le_one zero_le_one zero_le_one k x y z hx hy hz
  simp only at e
  rw [show up.gatherRoot size _ x y z = _ from e, hdt]
  exact program_bounds hn h0 h3 hinf k.toNat [x, y, z] ⟨hx, hy, hz, trivial⟩

example : 0 ≤ (0.1 : ℚ) ∧ 3 * (0.1 : ℚ) ≤ 1 ∧ (0.1 : ℚ) * (1 / ((6 : Nat) : ℚ)) ≤ 1000 := by norm_num

/-- C62, exact arithmetic: on any number of processes process 0 prints 1 as the check sum. -/
theorem C62_prints_one [DoubleText K] (decomp : Nat → Nat → Option (MpiNum × (Nat × Nat × Nat))) (readInt : Str → Option Int)
    (time : Str) (courant inf : K) (size : Nat) (prog : Str) (args : List Str) (n : Nat) (steps : Int) (vtk : Bool)
    (h : Asks (fun a z => readInt a = some z) 100 args n steps vtk) (hn : 0 < n) (dc : MpiNum) (box : Nat × Nat × Nat)
    (hd : decomp size n = some (dc, box)) (hdc : dc.Good size box (n, n, n)) (hw : ∀ x : K, IsWord (DoubleText.showDouble x)) :
    ∃ files, PyMpi.main decomp readInt time courant inf List.sum size (prog :: args) =
      .ok ⟨(List.range size).map fun rk =>
        if rk = 0 then { out := localText 0 box ++ mpiText n time ++ sumLine (DoubleText.showDouble (1 : K)), err := [], files, status := 0 }
        else { out := localText rk box, err := [], files := [], status := 0 }⟩ := by
  obtain ⟨f, s, text, grid, hf, hs, -, -, -, -, -, hm⟩ := C62_run_partial decomp readInt time courant inf List.sum size prog args n steps
    vtk h hn dc box hd hdc (fun n => Int.cast_natCast n) zero_lt_one.not_gt hw
  have hsum := PyMpi.checksum_eq hdc (PyMpi.new (R := K) dc box (1, 1, 1) (1, 1, 1) (n, n, n)) rfl hf
  have hp : ∀ m ∈ [n, n, n], 0 < m := by simpa using hn
  rw [boxStep_eq _ _ _ _ _ (by simp), total_iter hp, total_corner hp] at hsum
  have : s = 1 := by rw [hs]; exact hsum
  rw [this] at hm
  exact ⟨_, hm⟩

attribute [local instance] shortRat in
example : ∃ files, PyMpi.main (R := ℚ) (fun _ _ => some (rowMajor 2 3 1, (3, 2, 6))) (fun a => if a = "6".toList then some 6 else some 4)
      "0.125".toList 0.1 1000 List.sum 6 ["upwindMPI.py".toList, "6".toList, "4".toList, "vtk".toList] =
    .ok ⟨(List.range 6).map fun rk =>
      if rk = 0 then {
        out := "[0] local number of cells: [3 2 6]\n".toList ++ "number of cells: [6, 6, 6]\nWall clock time spent in advection loop: 0.125 [sec]\n".toList ++
          ("check sum: ".toList ++ DoubleText.showDouble (1 : ℚ) ++ "\n".toList), err := [], files, status := 0 }
      else { out := localText rk (3, 2, 6), err := [], files := [], status := 0 }⟩ :=
  C62_prints_one _ _ _ _ _ 6 _ _ 6 4 true
    ⟨⟨"6".toList, rfl, by decide +kernel⟩, .inr ⟨"4".toList, rfl, by decide +kernel⟩, by simp⟩ (by decide)
    (rowMajor 2 3 1) (3, 2, 6) rfl (rowMajor_good 2 3 1 (3, 2, 6) (by decide) (by decide) (by decide))
    fun q => (showExample_ok q).1

end

/-- C62 is false for negative velocities, even on one process and in exact arithmetic: on a 3 x 1 x 1 grid with velocity -1 along the
first axis, after one step of a tenth, the value in the second cell and the check sum are wrong. (`main` has velocity 1.) -/
theorem C62_negative_velocity_fails :
    let up : PyMpi ℚ := PyMpi.new (rowMajor 1 1 1) (3, 1, 1) (-1, 1, 1) (1, 1, 1) (3, 1, 1)
    let f := up.steps List.sum 1 (1 / 10) PyMpi.field
    (rowMajor 1 1 1).Good 1 (3, 1, 1) (3, 1, 1) ∧
    up.gatherRoot 1 f 1 0 0 = 3 / 10 ∧
    upwindStep [3, 1, 1] (upDir [(-1 : ℚ), 1, 1]) (upCoeff (1 / 10) [-1, 1, 1] [1, 1, 1] [3, 1, 1]) cornerField [1, 0, 0] = 0 ∧
    up.checksum 1 f ≠ 1 := by
  refine ⟨rowMajor_good 1 1 1 (3, 1, 1) (by decide) (by decide) (by decide), ?_, ?_, ?_⟩ <;> decide +kernel

/-- Sum of a list from the left. -/
def dblSum (l : List Dbl) : Dbl := l.foldl (· + ·) 0

/-- C62: the bits depend on the number of processes: with 2 cells along each axis, after 5 steps with the time step of the program,
one process and two processes have different values in a cell. -/
theorem C62_bits_fails :
    let dt : Dbl := programStep 1 (1 / ((10 : Nat) : Dbl)) (1 / ((2 : Nat) : Dbl))
    let one : PyMpi Dbl := PyMpi.new (rowMajor 1 1 1) (2, 2, 2) (1, 1, 1) (1, 1, 1) (2, 2, 2)
    let two : PyMpi Dbl := PyMpi.new (rowMajor 1 2 1) (2, 1, 2) (1, 1, 1) (1, 1, 1) (2, 2, 2)
    (rowMajor 1 1 1).Good 1 (2, 2, 2) (2, 2, 2) ∧ (rowMajor 1 2 1).Good 2 (2, 1, 2) (2, 2, 2) ∧
    one.gatherRoot 1 (one.steps dblSum 5 dt PyMpi.field) 0 1 0 ≠ two.gatherRoot 2 (two.steps dblSum 5 dt PyMpi.field) 0 1 0 := by
  have g1 := rowMajor_good 1 1 1 (2, 2, 2) (by decide) (by decide) (by decide)
  have g2 := rowMajor_good 1 2 1 (2, 1, 2) (by decide) (by decide) (by decide)
  intro dt one two
  refine ⟨g1, g2, ?_⟩
  have h01 : ¬ (1 : Dbl) < 0 := by decide +kernel
  rw [(C62_field_partial _ 1 (2, 2, 2) (2, 2, 2) g1 (fun _ => rfl) dblSum dt 1 1 1 1 1 1 h01 h01 h01 5).1 0 1 0 (by decide)
      (by decide) (by decide),
    (C62_field_partial _ 2 (2, 1, 2) (2, 2, 2) g2 (fun _ => rfl) dblSum dt 1 1 1 1 1 1 h01 h01 h01 5).1 0 1 0 (by decide)
      (by decide) (by decide)]
  decide +kernel

end Fidi
