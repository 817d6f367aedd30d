import Verif.Lemmas.Mains
import Verif.Lemmas.MainsMpi

/-
Property C56 for the drivers with MPI. `K` is a field (exact arithmetic).
-/
set_option linter.unusedSectionVars false

namespace Fidi
open Spec CmdLineArgParser

section
variable {K : Type} [Field K] [LinearOrder K] [IsStrictOrderedRing K] [HasMax K] [DoubleText K]

omit [LinearOrder K] [IsStrictOrderedRing K] [HasMax K] [DoubleText K] in
theorem total_zero (dims : List Nat) : total dims (fun _ => (0 : K)) = 0 := by
  simp [total]

/-- The branch for a valid decomposition. -/
theorem ifValid_iff {R : Type} {sz : Nat} {w : World R} (h : ∀ f ∈ w, f.validDecomp = true) (body : World R → M Exit → Prop)
    (x : M MpiExit) : IfDecompValid sz w body x ↔ ∃ e, body w e ∧ x = e.map (fromRoot sz) := by
  unfold IfDecompValid
  rw [if_pos (by rw [List.all_eq_true]; exact h)]

/-- The branch for an invalid decomposition. -/
theorem ifInvalid_iff {R : Type} {sz : Nat} {w : World R} (hne : w ≠ []) (h : ∀ f ∈ w, f.validDecomp = false)
    (body : World R → M Exit → Prop) (x : M MpiExit) : IfDecompValid sz w body x ↔
      x = .ok (fromRoot sz { out := [], err := "Decomposition is invalid\n".toList, files := [], status := 0 }) := by
  unfold IfDecompValid
  rw [if_neg, if_pos]
  · rw [List.all_eq_true]; intro f hf; rw [h f hf]; rfl
  · rw [List.all_eq_true]
    intro hall
    obtain ⟨f, w', rfl⟩ := List.exists_cons_of_ne_nil hne
    have := hall f List.mem_cons_self
    rw [h f List.mem_cons_self] at this
    cases this

/-- C56 (part), upwindMpi: for every command line with known options only and without help, every number of processes for
which the grid can be decomposed, a power of two as number of cells along each axis, and any number of steps, there is an
outcome, and every outcome (whatever the order of summation of `MPI_Reduce`) is: all ranks end with status 0; rank 0 prints for
each step the check sums before and after it, both 1, and at the end the check sum of the result; with `-vtk` the file is
readable and holds the field of the serial driver after the same number of steps. Without any step the check sum and the file
are those of the output data, which are 0. `times` is the text of the timings.
Missing: other numbers of cells, for which the sums are wrong (`C30_conserves_fails`); rounding; what is missing of C44. -/
theorem C56_upwindMpi_run_partial (courant : K) (times : Str) (sz : Nat) (exec : Str) (args : List Str)
    (h : AllKnown (upwindNames false) args) (N steps : Nat) (h1 : IntValue Reads args "-numCells".toList 128 N)
    (h2 : IntValue Reads args "-numSteps".toList 10 steps) (hh : flagValue args "-h".toList = false)
    (hr : InRange sz [N, N, N]) (hN : N ∣ 2 ^ 64) (hex : ∃ d, ValidDecomp sz [N, N, N] d) (hsteps : steps < 2 ^ 31)
    (hvtk : flagValue args "-vtk".toList = true → N * N * N ≤ 2 ^ 31) (hw : ∀ x : K, IsWord (DoubleText.showDouble x)) :
    (∃ x, UpwindMpi.Main courant times sz (exec :: args) x) ∧
    ∀ x, UpwindMpi.Main courant times sz (exec :: args) x → ∃ files,
      (flagValue args "-vtk".toList = false → files = []) ∧
      (flagValue args "-vtk".toList = true → ∃ text, files = [("upMpi.vtk".toList, text)] ∧
        StructFile DoubleText.showDouble [N, N, N] [0, 0, 0] [1, 1, 1] (if steps = 0 then fun _ => 0 else driverField N
          (upCoeff (driverStep HasMax.dblMax courant (1 / (N : K))) [1, 1, 1] [1, 1, 1] [N, N, N]) steps) text) ∧
      x = .ok ⟨(List.range sz).map fun rk => if rk = 0 then {
        out := stepsText (DoubleText.showDouble (1 : K)) steps ++ fileNote "upMpi.vtk".toList (flagValue args "-vtk".toList) ++
          " times min/max/avg: ".toList ++ times ++ " [seconds]\n".toList ++ "Check sum: ".toList ++
          DoubleText.showDouble (if steps = 0 then 0 else 1 : K) ++ "\n".toList
        err := [], files := files, status := 0 } else { out := [], err := [], files := [], status := 0 }⟩ := by
  obtain ⟨c, hf, hcn, hcd, hlo, hhi, hfield, w, w0, es, hvalid, e0, h0, _⟩ := mpi_states courant sz N hr hN hex
  have hg := hf.toGood
  have hpos := hr.pos
  have hN31 : N < 2 ^ 31 := hr.ext N (by simp)
  have hsum : ∀ k, total c.dims (stencilIter c.dims c.st UpwindMpi.initialCondition k) = (1 : K) := by
    intro k
    rw [hcd, total_congr hpos (u' := mpiField courant N k) (fun g hg => by rw [← hcd]; exact hfield g hg k)]
    exact mpiField_total courant hpos k
  have hfin : ∀ g, InGrid [N, N, N] g → stencilIter c.dims c.st UpwindMpi.initialCondition steps g =
      driverField N (upCoeff (driverStep HasMax.dblMax courant (1 / (N : K))) [1, 1, 1] [1, 1, 1] [N, N, N]) steps g := by
    intro g hg
    rw [hfield g hg steps]
    unfold mpiField
    rw [← mpi_upwindStep]
    rfl
  obtain ⟨hex1, hall⟩ := steps_spec hf (by rw [hcn]; exact hr.procs1) (by rw [hcd]; exact hpos) hsum steps 0 0 w0 _ h0
  rw [Nat.zero_add] at hall
  -- the end of the program
  have hend : ∀ w1, Ranks c (fun x f => Holds c x (stencilIter c.dims c.st UpwindMpi.initialCondition steps) f ∧
      f.outData = boxData (c.lo x) (c.hi x)
        (if steps = 0 then fun _ => 0 else stencilIter c.dims c.st UpwindMpi.initialCondition steps)) w1 →
      ∃ files w2, mpiVtk "upMpi.vtk".toList (flagValue args "-vtk".toList) w1 =
          .ok (fileNote "upMpi.vtk".toList (flagValue args "-vtk".toList), files, w2) ∧
        (flagValue args "-vtk".toList = false → files = []) ∧
        (flagValue args "-vtk".toList = true → ∃ text, files = [("upMpi.vtk".toList, text)] ∧
          StructFile DoubleText.showDouble [N, N, N] [0, 0, 0] [1, 1, 1] (if steps = 0 then fun _ => 0 else driverField N
            (upCoeff (driverStep HasMax.dblMax courant (1 / (N : K))) [1, 1, 1] [1, 1, 1] [N, N, N]) steps) text) ∧
        (∃ sums w3, w2.CheckSum false sums w3) ∧ ∀ sums w3, w2.CheckSum false sums w3 →
          sums[0]? = some (if steps = 0 then 0 else 1) := by
    intro w1 hw1
    have hsums : ∀ w2, Ranks c (fun x f => Holds c x (stencilIter c.dims c.st UpwindMpi.initialCondition steps) f ∧
        f.outData = boxData (c.lo x) (c.hi x)
          (if steps = 0 then fun _ => 0 else stencilIter c.dims c.st UpwindMpi.initialCondition steps)) w2 →
        (∃ sums w3, w2.CheckSum false sums w3) ∧ ∀ sums w3, w2.CheckSum false sums w3 →
          sums[0]? = some (if steps = 0 then 0 else 1) := by
      intro w2 hw2
      obtain ⟨a1, a2⟩ := world_sums hg (by rw [hcn]; exact hr.procs1) (by rw [hcd]; exact hpos) hw2 false
      refine ⟨a1, fun sums w3 hc => ?_⟩
      rw [(a2 sums w3 hc).1, if_neg (by decide)]
      by_cases h0 : steps = 0
      · rw [if_pos h0, if_pos h0, total_zero]
      · rw [if_neg h0, if_neg h0, hsum]
    cases hv : flagValue args "-vtk".toList with
    | false => exact ⟨[], w1, rfl, fun _ => rfl, fun h => absurd h (by decide), hsums w1 hw1⟩
    | true =>
      obtain ⟨t, w2, e, hthree, -, hw2⟩ := world_saveFile hg (by rw [hcd]; simpa [Nat.mul_assoc] using hvtk hv)
        (by rw [hlo, hcd]; rfl) (by rw [hhi, hcd]; rfl) hw1 hw
      obtain ⟨text, rfl, hfile⟩ := hthree (by rw [hcd]; simp)
      refine ⟨[("upMpi.vtk".toList, text)], w2, ?_, fun h => absurd h (by decide), fun _ => ⟨text, rfl, ?_⟩, hsums w2 hw2⟩
      · unfold mpiVtk
        rw [if_pos rfl, e, M.ok_bind]
        rfl
      · rw [hcd, hlo, hhi] at hfile
        refine structFile_congr hfile fun g hgrid => ?_
        by_cases h0 : steps = 0
        · rw [if_pos h0, if_pos h0]
        · have := hfin g hgrid
          rw [hcd] at this
          rw [if_neg h0, if_neg h0]
          exact this
  have hmain : ∀ x, UpwindMpi.Main courant times sz (exec :: args) x ↔ ∃ e,
      UpwindMpi.Body times steps (flagValue args "-vtk".toList) w e ∧ x = e.map (fromRoot sz) := by
    intro x
    unfold UpwindMpi.Main
    rw [show upwindOptions (R := K) = if false then withStd upwindOptions else upwindOptions from rfl,
      upwind_known false exec h h1 h2]
    dsimp only
    obtain ⟨g1, g2, g3, g4, g5⟩ := upwindParser_get (R := K) false exec N steps (flagValue args "-h".toList)
      (flagValue args "-std".toList) (flagValue args "-vtk".toList)
    rw [g1, g2, g3, g4, hh, if_pos (show (true && !false) = true from rfl), es, szOfInt_ofNat (by unfold W; omega)]
    exact ifValid_iff hvalid _ x
  constructor
  · obtain ⟨y, hy⟩ := hex1
    obtain ⟨w1, rfl, hw1⟩ := hall y hy
    obtain ⟨files, w2, ev, _, _, ⟨sums, w3, hc⟩, _⟩ := hend w1 hw1
    have hbody : ∃ e, UpwindMpi.Body times steps (flagValue args "-vtk".toList) w e := by
      unfold UpwindMpi.Body
      rw [e0]
      refine exists_comm.1 ⟨.ok (stepLines (DoubleText.showDouble (1 : K)) 0 steps, w1), ?_⟩
      dsimp only
      rw [ev]
      exact ⟨_, hy, sums, w3, hc, rfl⟩
    obtain ⟨e, he⟩ := hbody
    exact ⟨_, (hmain _).2 ⟨e, he, rfl⟩⟩
  · intro x hx
    obtain ⟨e, he, rfl⟩ := (hmain x).1 hx
    unfold UpwindMpi.Body at he
    rw [e0] at he
    obtain ⟨y, hy, he⟩ := he
    obtain ⟨w1, rfl, hw1⟩ := hall y hy
    obtain ⟨files, w2, ev, hno, hyes, _, hs⟩ := hend w1 hw1
    dsimp only at he
    rw [ev] at he
    obtain ⟨sums, w3, hc, rfl⟩ := he
    refine ⟨files, hno, hyes, ?_⟩
    unfold rd
    rw [hs sums w3 hc]
    unfold stepsText
    rw [List.range_eq_range']
    rfl

/-- C56 (part), laplacian: for every command line with known options only and without help, every number of axes and of
processes for which the grid can be decomposed, and a power of two as number of cells along each axis, there is an outcome, and
every outcome is: all ranks end with status 0; rank 0 prints the check sums of the input and output data, both 0; with `-vtk`
and at most three axes the file is readable and holds the 10-fold Laplacian of the product of `sin(2 pi x)` over the coordinates
of the cell centres; with more axes no file is written, although it is announced.
Missing: other numbers of cells, for which the sums are wrong (`C29_zero_sum_fails`); rounding; what is missing of C44. -/
theorem C56_laplacian_run_partial [HasSin K] (times : Str) (sz : Nat) (exec : Str) (args : List Str)
    (h : AllKnown laplacianNames args) (N n : Nat) (h1 : IntValue Reads args "-numCells".toList 8000 N)
    (h2 : IntValue Reads args "-numDims".toList 2 n) (hh : flagValue args "-h".toList = false)
    (hr : InRange sz (List.replicate n N)) (hN : N ∣ 2 ^ 64) (hex : ∃ d, ValidDecomp sz (List.replicate n N) d)
    (hvtk : flagValue args "-vtk".toList = true → N ^ n ≤ 2 ^ 31) (hw : ∀ x : K, IsWord (DoubleText.showDouble x)) :
    (∃ x, Laplacian.Main (R := K) times sz (exec :: args) x) ∧
    ∀ x, Laplacian.Main (R := K) times sz (exec :: args) x → ∃ files,
      (flagValue args "-vtk".toList = false → files = []) ∧
      (flagValue args "-vtk".toList = true → 3 < n → files = []) ∧
      (flagValue args "-vtk".toList = true → n ≤ 3 → ∃ text, files = [("laplacian.vtk".toList, text)] ∧
        StructFile DoubleText.showDouble (List.replicate n N) (List.replicate n 0) (List.replicate n 1)
          ((laplace (List.replicate n N))^[10] fun g =>
            (g.map fun i : Nat => HasSin.sin (2 * HasSin.pi * (((i : K) + 1 / 2) / (N : K)))).prod) text) ∧
      x = .ok ⟨(List.range sz).map fun rk => if rk = 0 then {
        out := fileNote "laplacian.vtk".toList (flagValue args "-vtk".toList) ++
          "Laplace times min/max/avg: ".toList ++ times ++ " [seconds]\n".toList ++ "Check sums: input = ".toList ++
          DoubleText.showDouble (0 : K) ++ " output = ".toList ++ DoubleText.showDouble (0 : K) ++ "\n".toList
        err := [], files := files, status := 0 } else { out := [], err := [], files := [], status := 0 }⟩ := by
  obtain ⟨d, st, w, hf, hlen, hst, hsum, hstart, h0⟩ := lap_states (K := K) sz N n hr hN hex
  have hg := hf.toGood
  have hpos := hr.pos
  obtain ⟨init, w1, e1, hw1, hfin⟩ : ∃ (init : List Nat → K) (w1 : World K), w.setInData Laplacian.func = .ok w1 ∧
      Ranks (lapCfg sz N n d st) (fun x f => Holds (lapCfg sz N n d st) x init f) w1 ∧
      ∀ g, InGrid (List.replicate n N) g → stencilIter (List.replicate n N) st init 10 g =
        ((laplace (List.replicate n N))^[10] fun g =>
          (g.map fun i : Nat => HasSin.sin (2 * HasSin.pi * (((i : K) + 1 / 2) / (N : K)))).prod) g := by
    obtain ⟨w1, e1, hw1⟩ := world_setInData hg (by simp) (by simp) h0 Laplacian.func
    exact ⟨_, w1, e1, hw1, fun g hgrid => lap_field hlen hst 10 hgrid⟩
  obtain ⟨w2, e2, hw2⟩ := world_iterate_out hf 9 hw1
  generalize hc : lapCfg sz N n d st = c at *
  have hcd : c.dims = List.replicate n N := by rw [← hc]
  have hlo : c.xmins = List.replicate n 0 := by rw [← hc]
  have hhi : c.xmaxs = List.replicate n 1 := by rw [← hc]
  have hcs : c.st = st := by rw [← hc]
  have hcn : c.nprocs = sz := by rw [← hc]
  have htotal : total c.dims (stencilIter c.dims c.st init (9 + 1)) = 0 := by
    obtain ⟨a1, a2⟩ := all_cells hg (w := w2) ⟨hw2.1, fun x f hx hf => (hw2.2 x f hx hf).1.shape⟩
    rw [← sum_cells (by rw [hcd]; exact hpos) a1 a2]
    rw [hcd] at a2 ⊢
    rw [hcs]
    exact hsum _ a1 a2 _
  have hend : ∃ files w3, mpiVtk "laplacian.vtk".toList (flagValue args "-vtk".toList) w2 =
        .ok (fileNote "laplacian.vtk".toList (flagValue args "-vtk".toList), files, w3) ∧
      (flagValue args "-vtk".toList = false → files = []) ∧
      (flagValue args "-vtk".toList = true → 3 < n → files = []) ∧
      (flagValue args "-vtk".toList = true → n ≤ 3 → ∃ text, files = [("laplacian.vtk".toList, text)] ∧
        StructFile DoubleText.showDouble (List.replicate n N) (List.replicate n 0) (List.replicate n 1)
          ((laplace (List.replicate n N))^[10] fun g =>
            (g.map fun i : Nat => HasSin.sin (2 * HasSin.pi * (((i : K) + 1 / 2) / (N : K)))).prod) text) ∧
      Ranks c (fun x f => Holds c x (stencilIter c.dims c.st init (9 + 1)) f ∧
        f.outData = boxData (c.lo x) (c.hi x) (stencilIter c.dims c.st init (9 + 1))) w3 := by
    cases hv : flagValue args "-vtk".toList with
    | false => exact ⟨[], w2, rfl, fun _ => rfl, fun h => absurd h (by decide), fun h => absurd h (by decide), hw2⟩
    | true =>
      obtain ⟨t, w3, e, hthree, hmore, hw3⟩ := world_saveFile hg (by rw [hcd, List.prod_replicate]; exact hvtk hv)
        (by rw [hlo, hcd]; simp) (by rw [hhi, hcd]; simp) hw2 hw
      rw [hcd, List.length_replicate] at hthree hmore
      by_cases h3 : n ≤ 3
      · obtain ⟨text, rfl, hfile⟩ := hthree h3
        refine ⟨[("laplacian.vtk".toList, text)], w3, ?_, fun h => absurd h (by decide), fun _ h => absurd h3 (by omega),
          fun _ _ => ⟨text, rfl, ?_⟩, hw3⟩
        · unfold mpiVtk
          rw [if_pos rfl, e, M.ok_bind]
          rfl
        · rw [hlo, hhi, hcs] at hfile
          exact structFile_congr hfile hfin
      · obtain rfl := hmore (by omega)
        refine ⟨[], w3, ?_, fun h => absurd h (by decide), fun _ _ => rfl, fun _ h => absurd h h3, hw3⟩
        unfold mpiVtk
        rw [if_pos rfl, e, M.ok_bind]
        rfl
  obtain ⟨files, w3, ev, f1, f2, f3, hw3⟩ := hend
  obtain ⟨⟨s1, w4, c1⟩, hin⟩ := world_sums hg (by rw [hcn]; exact hr.procs1) (by rw [hcd]; exact hpos) hw3 true
  rw [if_pos rfl, htotal] at hin
  have hax := hr.axes
  rw [List.length_replicate] at hax
  have hmain : ∀ x, Laplacian.Main (R := K) times sz (exec :: args) x ↔ ∃ e,
      Laplacian.Body times (flagValue args "-vtk".toList) w e ∧ x = e.map (fromRoot sz) := by
    intro x
    unfold Laplacian.Main
    rw [laplacian_known exec h h1 h2]
    dsimp only
    obtain ⟨g1, g2, g3, g4⟩ := laplacianParser_get (R := K) exec N n (flagValue args "-h".toList) (flagValue args "-vtk".toList)
    rw [g1, g2, g3, g4, hh, if_pos (show (true && !false) = true from rfl), hstart]
    refine ifValid_iff (fun f hf' => ?_) _ x
    obtain ⟨x, _, _, hs⟩ := h0.mem hg hf'
    exact hs.1.valid
  have hpre : (do
      let w ← w.setInData Laplacian.func
      let w ← w.iterate 10
      mpiVtk "laplacian.vtk".toList (flagValue args "-vtk".toList) w : M (Str × List (Str × Str) × World K)) =
      .ok (fileNote "laplacian.vtk".toList (flagValue args "-vtk".toList), files, w3) := by
    rw [e1, M.ok_bind, e2, M.ok_bind, ev]
  constructor
  · obtain ⟨a1, hw4⟩ := hin s1 w4 c1
    obtain ⟨⟨s2, w5, c2⟩, _⟩ := world_sums hg (by rw [hcn]; exact hr.procs1) (by rw [hcd]; exact hpos) hw4 false
    have hbody : ∃ e, Laplacian.Body times (flagValue args "-vtk".toList) w e := by
      unfold Laplacian.Body
      rw [hpre]
      exact ⟨_, s1, w4, s2, w5, c1, c2, rfl⟩
    obtain ⟨e, he⟩ := hbody
    exact ⟨_, (hmain _).2 ⟨e, he, rfl⟩⟩
  · intro x hx
    obtain ⟨e, he, rfl⟩ := (hmain x).1 hx
    unfold Laplacian.Body at he
    rw [hpre] at he
    obtain ⟨s1, w4, s2, w5, c1, c2, rfl⟩ := he
    obtain ⟨a1, hw4⟩ := hin s1 w4 c1
    obtain ⟨_, hout⟩ := world_sums hg (by rw [hcn]; exact hr.procs1) (by rw [hcd]; exact hpos) hw4 false
    obtain ⟨a2, _⟩ := hout s2 w5 c2
    rw [if_neg (by decide), htotal] at a2
    refine ⟨files, f1, f2, f3, ?_⟩
    unfold rd
    rw [a1, a2]
    rfl

/-- C56, upwindMpi and laplacian: if the grid cannot be decomposed for the number of processes, the only outcome is a message
on rank 0; nothing is computed or written, and all ranks end with status 0. -/
theorem C56_mpi_no_decomposition {R : Type} [Zero R] [One R] [Add R] [Sub R] [Mul R] [Div R] [Neg R] [NatCast R] [IntCast R]
    [LT R] [DecidableLT R] [HasMax R] [HasSin R] [DoubleText R] (h01 : (0 : R) < 1)
    (courant : R) (times : Str) (sz : Nat) (exec : Str) (args : List Str) (N n : Nat)
    (hh : flagValue args "-h".toList = false) :
    (∀ steps : Int, AllKnown (upwindNames false) args → IntValue Reads args "-numCells".toList 128 N →
      IntValue Reads args "-numSteps".toList 10 steps → InRange sz [N, N, N] → (¬ ∃ d, ValidDecomp sz [N, N, N] d) →
      ∀ x, UpwindMpi.Main courant times sz (exec :: args) x ↔ x = .ok ⟨(List.range sz).map fun rk => {
        out := [], err := if rk = 0 then "Decomposition is invalid\n".toList else [], files := [], status := 0 }⟩) ∧
    (AllKnown laplacianNames args → IntValue Reads args "-numCells".toList 8000 N →
      IntValue Reads args "-numDims".toList 2 n → InRange sz (List.replicate n N) →
      (¬ ∃ d, ValidDecomp sz (List.replicate n N) d) →
      ∀ x, Laplacian.Main (R := R) times sz (exec :: args) x ↔ x = .ok ⟨(List.range sz).map fun rk => {
        out := [], err := if rk = 0 then "Decomposition is invalid\n".toList else [], files := [], status := 0 }⟩) := by
  have hroot : fromRoot sz { out := [], err := "Decomposition is invalid\n".toList, files := [], status := 0 } =
      ⟨(List.range sz).map fun rk => {
        out := [], err := if rk = 0 then "Decomposition is invalid\n".toList else [], files := [], status := 0 }⟩ := by
    unfold fromRoot
    congr 1
    apply List.map_congr_left
    intro rk _
    by_cases h0 : rk = 0
    · rw [if_pos h0, if_pos h0]
    · rw [if_neg h0, if_neg h0]
  constructor
  · intro steps h h1 h2 hr hno x
    obtain ⟨w, es, _, hl, hw⟩ := (C24_drivers_end_partial h01 sz N n courant 0).2 hr hno
    have hp1 := hr.procs1
    unfold UpwindMpi.Main
    rw [show upwindOptions (R := R) = if false then withStd upwindOptions else upwindOptions from rfl,
      upwind_known false exec h h1 h2]
    dsimp only
    obtain ⟨g1, g2, g3, g4, g5⟩ := upwindParser_get (R := R) false exec N steps (flagValue args "-h".toList)
      (flagValue args "-std".toList) (flagValue args "-vtk".toList)
    rw [g1, g2, hh, if_pos (show (true && !false) = true from rfl), es]
    dsimp only
    rw [ifInvalid_iff (by rintro rfl; simp at hl; omega) (fun f hf => (hw f hf).1), hroot]
  · intro h h1 h2 hr hno x
    obtain ⟨w, es, _, hl, hw⟩ := (C24_drivers_end_partial h01 sz N n courant 0).1 hr hno
    have hp1 := hr.procs1
    unfold Laplacian.Main
    rw [laplacian_known exec h h1 h2]
    dsimp only
    obtain ⟨g1, g2, g3, g4⟩ := laplacianParser_get (R := R) exec N n (flagValue args "-h".toList) (flagValue args "-vtk".toList)
    rw [g1, g2, g3, hh, if_pos (show (true && !false) = true from rfl), es]
    dsimp only
    rw [ifInvalid_iff (by rintro rfl; simp at hl; omega) (fun f hf => (hw f hf).1), hroot]

end

/-! ### Concrete cases -/

theorem intValue_only {args : List Str} {name v : Str} {d z : Int} (i : Nat) (h1 : args[i]? = some name)
    (h2 : args[i + 1]? = some v) (hz : Reads v z) (hu : ∀ j < args.length, args[j]? = some name → j = i) :
    IntValue Reads args name d z := by
  have key : ∀ j, args[j]? = some name → j = i := fun j hj => by
    by_cases h : j < args.length
    · exact hu j h hj
    · rw [List.getElem?_eq_none (by omega)] at hj; cases hj
  refine ⟨?_, .inr ⟨v, ⟨i, h1, h2, fun j hj h => absurd (key j h) (by omega)⟩, hz⟩⟩
  rintro v' ⟨j, h3, h4⟩
  obtain rfl := key j h3
  rw [h2, Option.some_inj] at h4
  exact ⟨z, h4 ▸ hz⟩

local instance mpiDoubleText : DoubleText ℚ := ⟨fun _ => 0, fun q => if q = 0 then ['0'] else if q = 1 then ['1'] else ['q']⟩
local instance mpiSin : HasSin ℚ := ⟨id, 0⟩

/-- A command line that runs two steps on 2 x 2 x 2 cells. -/
def mpiArgs : List Str := ["-numSteps".toList, "2".toList, "-vtk".toList, "-numCells".toList, "2".toList]

/-- What upwindMpi does with it on two processes. -/
example (x : M MpiExit) (hx : UpwindMpi.Main (0.1 : ℚ) "t".toList 2 ("upwindMpi".toList :: mpiArgs) x) :
    ∃ text, x = .ok ⟨[{ out := ("iter 0 check sum  in/out = 1 / 1\niter 1 check sum  in/out = 1 / 1\n" ++
        "Data will be written to file upMpi.vtk\n times min/max/avg: t [seconds]\nCheck sum: 1\n").toList
                        err := [], files := [("upMpi.vtk".toList, text)], status := 0 },
                      { out := [], err := [], files := [], status := 0 }]⟩ := by
  obtain ⟨files, -, h1, rfl⟩ := (C56_upwindMpi_run_partial (0.1 : ℚ) "t".toList 2 "upwindMpi".toList mpiArgs (by
      intro a ha h
      simp only [mpiArgs, List.mem_cons, List.not_mem_nil, or_false] at ha
      rcases ha with rfl | rfl | rfl | rfl | rfl
      · decide
      · obtain ⟨_, _, h, _⟩ := h; simp at h
      · decide
      · decide
      · obtain ⟨_, _, h, _⟩ := h; simp at h) 2 2
    (intValue_only 3 (v := "2".toList) (by decide) (by decide) rfl (by decide))
    (intValue_only 0 (v := "2".toList) (by decide) (by decide) rfl (by decide)) (by decide)
    ⟨by decide, by decide, by decide, by decide, by decide, by decide, by decide, by decide⟩ (by decide)
    ⟨[2, 1, 1], .cons (by decide) (.cons (by decide) (.cons (by decide) .nil)), rfl⟩ (by decide) (by decide) (by
      intro x
      show IsWord (if x = 0 then ['0'] else if x = 1 then ['1'] else ['q'])
      split
      · exact ⟨by decide, by decide⟩
      · split <;> exact ⟨by decide, by decide⟩)).2 x hx
  obtain ⟨text, rfl, -⟩ := h1 (by decide)
  have hout : stepsText (DoubleText.showDouble (1 : ℚ)) 2 ++ fileNote "upMpi.vtk".toList (flagValue mpiArgs "-vtk".toList) ++
      " times min/max/avg: ".toList ++ "t".toList ++ " [seconds]\n".toList ++ "Check sum: ".toList ++
      DoubleText.showDouble (if 2 = 0 then 0 else 1 : ℚ) ++ "\n".toList =
      ("iter 0 check sum  in/out = 1 / 1\niter 1 check sum  in/out = 1 / 1\n" ++
        "Data will be written to file upMpi.vtk\n times min/max/avg: t [seconds]\nCheck sum: 1\n").toList := by
    decide +kernel
  rw [hout]
  exact ⟨text, rfl⟩

/-- Command lines for one axis. -/
def lapArgs (n : Str) : List Str := ["-numDims".toList, "1".toList, "-numCells".toList, n]

theorem lapArgs_known (n : Str) (hn : n = ['4'] ∨ n = ['7']) : AllKnown laplacianNames (lapArgs n) := by
  intro a ha h
  simp only [lapArgs, List.mem_cons, List.not_mem_nil, or_false] at ha
  rcases ha with rfl | rfl | rfl | rfl
  · decide
  · obtain ⟨_, _, h, _⟩ := h; simp at h
  · decide
  · obtain ⟨_, _, h, _⟩ := h
    rcases hn with rfl | rfl <;> simp at h

/-- What laplacian does with 4 cells on two processes. -/
example (x : M MpiExit) (hx : Laplacian.Main (R := ℚ) "t".toList 2 ("laplacian".toList :: lapArgs ['4']) x) :
    x = .ok ⟨[{ out := "Laplace times min/max/avg: t [seconds]\nCheck sums: input = 0 output = 0\n".toList
                err := [], files := [], status := 0 },
              { out := [], err := [], files := [], status := 0 }]⟩ := by
  obtain ⟨files, h1, -, -, rfl⟩ := (C56_laplacian_run_partial (K := ℚ) "t".toList 2 "laplacian".toList (lapArgs ['4'])
    (lapArgs_known _ (.inl rfl)) 4 1
    (intValue_only 2 (v := ['4']) (by decide) (by decide) rfl (by decide))
    (intValue_only 0 (v := "1".toList) (by decide) (by decide) rfl (by decide)) (by decide)
    ⟨by decide, by decide, by decide, by decide, by decide, by decide, by decide, by decide⟩ (by decide)
    ⟨[2], .cons (by decide) .nil, rfl⟩ (by decide) (by
      intro x
      show IsWord (if x = 0 then ['0'] else if x = 1 then ['1'] else ['q'])
      split
      · exact ⟨by decide, by decide⟩
      · split <;> exact ⟨by decide, by decide⟩)).2 x hx
  obtain rfl := h1 (by decide)
  have hout : fileNote "laplacian.vtk".toList (flagValue (lapArgs ['4']) "-vtk".toList) ++
      "Laplace times min/max/avg: ".toList ++ "t".toList ++ " [seconds]\n".toList ++ "Check sums: input = ".toList ++
      DoubleText.showDouble (0 : ℚ) ++ " output = ".toList ++ DoubleText.showDouble (0 : ℚ) ++ "\n".toList =
      "Laplace times min/max/avg: t [seconds]\nCheck sums: input = 0 output = 0\n".toList := by
    decide +kernel
  rw [hout]
  rfl

/-- What laplacian does with 7 cells on two processes. -/
example (x : M MpiExit) : Laplacian.Main (R := ℚ) "t".toList 2 ("laplacian".toList :: lapArgs ['7']) x ↔
    x = .ok ⟨[{ out := [], err := "Decomposition is invalid\n".toList, files := [], status := 0 },
              { out := [], err := [], files := [], status := 0 }]⟩ :=
  (C56_mpi_no_decomposition (by decide) (0.1 : ℚ) "t".toList 2 "laplacian".toList (lapArgs ['7']) 7 1 (by decide)).2
    (lapArgs_known _ (.inr rfl))
    (intValue_only 2 (v := ['7']) (by decide) (by decide) rfl (by decide))
    (intValue_only 0 (v := "1".toList) (by decide) (by decide) rfl (by decide))
    ⟨by decide, by decide, by decide, by decide, by decide, by decide, by decide, by decide⟩ (by
      rintro ⟨d, hd⟩
      obtain ⟨k, rfl⟩ : ∃ k, d = [k] := by
        match d, hd.1 with
        | [k], _ => exact ⟨k, rfl⟩
      have hk : k = 2 := by simpa using hd.2
      subst hk
      have := hd.1
      simp only [List.replicate_one, List.forall₂_cons, List.Forall₂.nil, and_true] at this
      omega) x

end Fidi
