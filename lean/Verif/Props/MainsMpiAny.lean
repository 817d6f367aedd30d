import Verif.Lemmas.GridSum
import Verif.Lemmas.DriversProcs
import Verif.Props.MainsMpi

/-
Property C56 for the drivers with MPI in any arithmetic, and for every number of cells: all outcomes, and nothing but these.
-/
set_option linter.unusedSectionVars false

namespace Fidi
open Spec CmdLineArgParser

/-- The cells of the pieces are the cells of the grid. -/
theorem pieces_perm {dims d : List Nat} (hd : List.Forall₂ (fun n k => k ∣ n) dims d) (hp : ∀ n ∈ dims, 0 < n) :
    ((cellList (List.replicate d.length 0) d).flatMap fun x =>
      cellList (subLo (localExtents dims d) x) (subHi (localExtents dims d) x)).Perm
      (cellList (List.replicate dims.length 0) dims) := by
  have hL := localExtents_pos hd hp
  have hl := length_localExtents hd
  have hbox : ∀ x, InGrid d x → ∀ t, t ∈ cellList (subLo (localExtents dims d) x) (subHi (localExtents dims d) x) ↔
      t.length = (localExtents dims d).length ∧ List.zipWith (· / ·) t (localExtents dims d) = x := by
    intro x hx t
    rw [mem_cellList (by simp [subLo, subHi]), inBox_sub_iff hL (by rw [hx.length_eq, hl])]
  rw [List.perm_ext_iff_of_nodup _ (nodup_cellList _ _)]
  · intro t
    rw [mem_cellList (by simp), inBox_zero, List.mem_flatMap]
    constructor
    · rintro ⟨x, hx, ht⟩
      rw [mem_cellList (by simp), inBox_zero] at hx
      rw [mem_cellList (by simp [subLo, subHi])] at ht
      exact sub_inGrid hd hx ht
    · intro ht
      have hx := quot_inGrid hd ht
      exact ⟨_, (mem_cellList (by simp) _).2 (inBox_zero.2 hx), (hbox _ hx t).2 ⟨by rw [ht.length_eq, hl, hd.length_eq], rfl⟩⟩
  · rw [List.nodup_flatMap]
    refine ⟨fun x _ => nodup_cellList _ _, ?_⟩
    refine List.Pairwise.imp_of_mem ?_ (nodup_cellList (List.replicate d.length 0) d)
    intro x y hx hy hne
    rw [mem_cellList (by simp), inBox_zero] at hx hy
    rw [Function.onFun, List.disjoint_left]
    intro t h1 h2
    exact hne (((hbox x hx t).1 h1).2.symm.trans ((hbox y hy t).1 h2).2)

/-- C56: in exact arithmetic the order does not matter. For every grid, every way of cutting it and every field there is
exactly one check sum, the sum of the field over the grid. -/
theorem C56_grid_sum {R : Type} [AddCommMonoid R] (dims d : List Nat) (hd : List.Forall₂ (fun n k => k ∣ n) dims d)
    (hp : ∀ n ∈ dims, 0 < n) (u : List Nat → R) (s : R) :
    GridSum dims d u s ↔ s = ((cellList (List.replicate dims.length 0) dims).map u).sum := by
  have hperm := pieces_perm hd hp
  have hsum : ((cellList (List.replicate d.length 0) d).map fun x =>
      boxSum (subLo (localExtents dims d) x) (subHi (localExtents dims d) x) u).sum =
      ((cellList (List.replicate dims.length 0) dims).map u).sum := by
    rw [← (hperm.map u).sum_eq, List.map_flatMap, List.flatMap_def, List.sum_flatten, List.map_map]
    congr 1
    apply List.map_congr_left
    intro x _
    exact List.sum_eq_foldl.symm
  constructor
  · intro h
    rw [anySum_sum h, hsum]
  · rintro rfl
    have hne : cellList (List.replicate d.length 0) d ≠ [] := by
      have hd0 : ∀ k ∈ d, 0 < k := by
        intro k hk
        obtain ⟨i, hi, rfl⟩ := List.mem_iff_getElem.1 hk
        have h1 := List.forall₂_iff_get.1 hd
        have h2 := h1.2 i (by rw [h1.1]; exact hi) hi
        exact Nat.pos_of_dvd_of_pos h2 (hp _ (List.get_mem _ _))
      intro h0
      have := cellAt_inGrid hd0 0
      rw [← inBox_zero, ← mem_cellList (by simp), h0] at this
      cases this
    obtain ⟨s, hs⟩ := anySum_exists (xs := (cellList (List.replicate d.length 0) d).map fun x =>
      boxSum (subLo (localExtents dims d) x) (subHi (localExtents dims d) x) u) (by simpa using hne)
    have := anySum_sum hs
    rw [hsum] at this
    rw [← this]
    exact hs

section
variable {R : Type} [Zero R] [One R] [Add R] [Sub R] [Mul R] [Div R] [NatCast R] [IntCast R] [LT R] [DecidableLT R] [HasMax R]
  [DoubleText R]

/-- The outcomes of upwindMpi, with the decomposition it finds. -/
theorem upwindMpi_outcomes (h01 : (0 : R) < 1) (courant : R) (times : Str) (sz : Nat) (exec : Str) (args : List Str)
    (h : AllKnown (upwindNames false) args) (N : Nat) (steps : Int) (h1 : IntValue Reads args "-numCells".toList 128 N)
    (h2 : IntValue Reads args "-numSteps".toList 10 steps) (hh : flagValue args "-h".toList = false)
    (hr : InRange sz [N, N, N]) (hcells : N * N * N ≤ 2 ^ 31) (hex : ∃ d, ValidDecomp sz [N, N, N] d)
    (hw : ∀ x : R, IsWord (DoubleText.showDouble x)) :
    let n := (steps % 2 ^ 64).toNat
    let F := stencilIter64 [N, N, N] (mpiStencil HasMax.dblMax courant N) cornerField
    let out : List Nat → R := if n = 0 then fun _ => 0 else F n
    ∃ d, CubeDecomp.build R CubeDecomp.empty sz [N, N, N] = .ok (true, movedDecomp sz [N, N, N] d 0) ∧
      ValidDecomp sz [N, N, N] d ∧
      ((n = 0 ∨ N ∣ 2 ^ 64 ∨ ∀ m ∈ localExtents [N, N, N] d, (2 ^ 64 - 1) % N < m) → ∃ files,
        (flagValue args "-vtk".toList = false → files = []) ∧
        (flagValue args "-vtk".toList = true → ∃ text, files = [("upMpi.vtk".toList, text)] ∧
          StructFile DoubleText.showDouble [N, N, N] [0, 0, 0] [1, 1, 1] out text) ∧
        ∀ x, UpwindMpi.Main courant times sz (exec :: args) x ↔ ∃ (sums : List (R × R)) (last : R), sums.length = n ∧
          (∀ j p, sums[j]? = some p → GridSum [N, N, N] d (F j) p.1 ∧ GridSum [N, N, N] d (F (j + 1)) p.2) ∧
          GridSum [N, N, N] d out last ∧
          x = .ok ⟨(List.range sz).map fun rk => if rk = 0 then {
            out := sumsText DoubleText.showDouble sums ++ fileNote "upMpi.vtk".toList (flagValue args "-vtk".toList) ++
              " times min/max/avg: ".toList ++ times ++ " [seconds]\n".toList ++ "Check sum: ".toList ++
              DoubleText.showDouble last ++ "\n".toList
            err := [], files := files, status := 0 } else { out := [], err := [], files := [], status := 0 }⟩) ∧
      (¬ (n = 0 ∨ N ∣ 2 ^ 64 ∨ ∀ m ∈ localExtents [N, N, N] d, (2 ^ 64 - 1) % N < m) →
        ∀ x, UpwindMpi.Main courant times sz (exec :: args) x ↔ x = .error .outOfBounds) := by
  intro n F out
  have hst := upwindMpi_stencil h01 courant N
  change _ = Except.ok (mpiStencil HasMax.dblMax courant N) at hst
  have haxis : ∀ kv ∈ mpiStencil (R := R) HasMax.dblMax courant N, AxisOffset [N, N, N].length kv.1 := by
    intro kv hkv
    simp only [mpiStencil, List.mem_cons, List.not_mem_nil, or_false] at hkv
    rcases hkv with rfl | rfl | rfl | rfl
    · exact axisOff_axis (n := 3) (j := 0) (.inl rfl)
    · exact axisOff_axis (n := 3) (j := 1) (.inl rfl)
    · exact axisOff_axis (n := 3) (j := 2) (.inl rfl)
    · exact zeroOff_axis 3
  obtain ⟨d, hf, hv, hb⟩ := axis_of_range hr hex (List.replicate 3 (0 : R)) (List.replicate 3 1)
    (mpiStencil HasMax.dblMax courant N) haxis
  have hiff : (∀ kv ∈ mpiStencil (R := R) HasMax.dblMax courant N, WrapLocal [N, N, N] d kv.1) ↔
      N ∣ 2 ^ 64 ∨ ∀ m ∈ localExtents [N, N, N] d, (2 ^ 64 - 1) % N < m := by
    refine uniform_wrapLocal (n := 3) (by simpa using hv.1.length_eq.symm) haxis fun j hj => ?_
    match j, hj with
    | 0, _ => exact ⟨_, List.mem_cons_self, by simp⟩
    | 1, _ => exact ⟨_, List.mem_cons_of_mem _ List.mem_cons_self, by simp⟩
    | 2, _ => exact ⟨_, List.mem_cons_of_mem _ (List.mem_cons_of_mem _ List.mem_cons_self), by simp⟩
  have hg := hf.toGood
  obtain ⟨w, ew, h0⟩ := world_new hg hb
  obtain ⟨w0, e0, h0'⟩ := world_set_out hg (v := fun _ => (0 : R))
    ⟨h0.1, fun x f hx hf => ⟨(h0.2 x f hx hf).1, by rw [boxData_zero hg hx]; exact (h0.2 x f hx hf).2.2⟩⟩
    UpwindMpi.initialCondition
  have hN31 : N < 2 ^ 31 := hr.ext N (by simp)
  have hN11 : N ≤ 2 ^ 11 := by
    by_contra hlt
    have h1 : 2 ^ 11 ≤ N := by omega
    have h2 : (2 ^ 11) * (2 ^ 11) * 2 ^ 11 ≤ N * N * N := Nat.mul_le_mul (Nat.mul_le_mul h1 h1) h1
    omega
  have hinit : ∀ g, InGrid [N, N, N] g → UpwindMpi.initialCondition (R := R) g = cornerField g := by
    intro g hg
    obtain ⟨a, b, c, rfl, ha, hb, hc⟩ := cell3 hg
    apply initialCondition_eq
    simp only [List.sum_cons, List.sum_nil]
    omega
  have hlen : ∀ p ∈ mpiStencil (R := R) HasMax.dblMax courant N, p.1.length = [N, N, N].length :=
    fun p hp => (haxis p hp).1
  have hF := stencilIter64_congr hlen hinit
  have es : UpwindMpi.start courant sz N = .ok w := by
    unfold UpwindMpi.start
    dsimp only
    rw [szOfInt_ofNat (by unfold W; omega), hst, M.ok_bind]
    exact ew
  have hvalid : ∀ f ∈ w, f.validDecomp = true := by
    intro f hf'
    obtain ⟨x, _, _, hs⟩ := h0.mem hg hf'
    exact hs.1.valid
  have hmain : ∀ x, UpwindMpi.Main courant times sz (exec :: args) x ↔ ∃ e,
      UpwindMpi.Body times n (flagValue args "-vtk".toList) w e ∧ x = e.map (fromRoot sz) := by
    intro x
    unfold UpwindMpi.Main
    rw [show upwindOptions (R := R) = if false then withStd upwindOptions else upwindOptions from rfl,
      upwind_known false exec h h1 h2]
    dsimp only
    obtain ⟨g1, g2, g3, g4, g5⟩ := upwindParser_get (R := R) false exec N steps (flagValue args "-h".toList)
      (flagValue args "-std".toList) (flagValue args "-vtk".toList)
    rw [g1, g2, g3, g4, hh, if_pos (show (true && !false) = true from rfl), es]
    exact ifValid_iff hvalid _ x
  generalize hcc : (⟨sz, [N, N, N], d, List.replicate 3 (0 : R), List.replicate 3 1,
    mpiStencil HasMax.dblMax courant N⟩ : Cfg R) = c at hf hg h0 h0'
  have h1p : c.nprocs = sz := by rw [← hcc]
  have hcd : c.dims = [N, N, N] := by rw [← hcc]
  have hcdd : c.d = d := by rw [← hcc]
  have hcs : c.st = mpiStencil HasMax.dblMax courant N := by rw [← hcc]
  have hlo : c.xmins = [0, 0, 0] := by rw [← hcc]; rfl
  have hhi : c.xmaxs = [1, 1, 1] := by rw [← hcc]; rfl
  have hp1 : 1 ≤ c.nprocs := by rw [h1p]; exact hr.procs1
  refine ⟨d, hb, hv, fun hl => ?_, fun hl x => ?_⟩
  · -- the time loop
    obtain ⟨w1, hw1, hsteps⟩ : ∃ w1, Ranks c (fun x f => Holds c x (stencilIter64 c.dims c.st UpwindMpi.initialCondition n) f ∧
          f.outData = boxData (c.lo x) (c.hi x)
            (if n = 0 then fun _ => 0 else stencilIter64 c.dims c.st UpwindMpi.initialCondition n)) w1 ∧
        ∀ y, UpwindMpi.Steps 0 n w0 y ↔ ∃ sums : List (R × R), sums.length = n ∧
          (∀ j p, sums[j]? = some p → GridSum c.dims c.d (stencilIter64 c.dims c.st UpwindMpi.initialCondition j) p.1 ∧
            GridSum c.dims c.d (stencilIter64 c.dims c.st UpwindMpi.initialCondition (j + 1)) p.2) ∧
          y = .ok (linesFrom 0 sums, w1) := by
      by_cases hn : n = 0
      · rw [hn]
        refine ⟨w0, h0', fun y => ⟨fun hy => ?_, ?_⟩⟩
        · cases hy
          exact ⟨[], rfl, by simp, rfl⟩
        · rintro ⟨sums, hs, _, rfl⟩
          obtain rfl := List.length_eq_zero_iff.1 hs
          exact .done 0 w0
      · have hl' := hiff.2 (hl.resolve_left hn)
        rw [← hcs, ← hcd, ← hcdd] at hl'
        have hcell : ∀ x, InGrid c.d x → c.Cells x := fun x hx kv hkv =>
          cell_local hf hkv (by rw [hcd]; exact haxis kv (hcs ▸ hkv)) (hl' kv hkv) hx
        have := steps_any hf hcell hp1 (init := UpwindMpi.initialCondition) n 0 0 w0 (fun _ => 0) h0'
        simpa only [Nat.zero_add] using this
    have hsum : ∀ k s, GridSum c.dims c.d (stencilIter64 c.dims c.st UpwindMpi.initialCondition k) s ↔
        GridSum [N, N, N] d (F k) s := by
      intro k s
      rw [hcd, hcdd, hcs]
      exact gridSum_congr hv.1 (hF k)
    have hout : ∀ g, InGrid [N, N, N] g →
        (if n = 0 then fun _ => 0 else stencilIter64 c.dims c.st UpwindMpi.initialCondition n) g = out g := by
      intro g hgrid
      show _ = (if n = 0 then fun _ => 0 else F n) g
      by_cases hn : n = 0
      · rw [if_pos hn, if_pos hn]
      · rw [if_neg hn, if_neg hn, hcd, hcs]
        exact hF n g hgrid
    obtain ⟨files, w2, ev, hno, hyes, hw2⟩ : ∃ files w2, mpiVtk "upMpi.vtk".toList (flagValue args "-vtk".toList) w1 =
          .ok (fileNote "upMpi.vtk".toList (flagValue args "-vtk".toList), files, w2) ∧
        (flagValue args "-vtk".toList = false → files = []) ∧
        (flagValue args "-vtk".toList = true → ∃ text, files = [("upMpi.vtk".toList, text)] ∧
          StructFile DoubleText.showDouble [N, N, N] [0, 0, 0] [1, 1, 1] out text) ∧
        Ranks c (fun x f => Holds c x (stencilIter64 c.dims c.st UpwindMpi.initialCondition n) f ∧
          f.outData = boxData (c.lo x) (c.hi x)
            (if n = 0 then fun _ => 0 else stencilIter64 c.dims c.st UpwindMpi.initialCondition n)) w2 := by
      cases hvk : flagValue args "-vtk".toList with
      | false => exact ⟨[], w1, rfl, fun _ => rfl, fun h => absurd h (by decide), hw1⟩
      | true =>
        obtain ⟨t, w2, e, hthree, -, hw2⟩ := world_saveFile hg (by rw [hcd]; simpa [Nat.mul_assoc] using hcells)
          (by rw [hlo, hcd]; rfl) (by rw [hhi, hcd]; rfl) hw1 hw
        obtain ⟨text, rfl, hfile⟩ := hthree (by rw [hcd]; simp)
        refine ⟨[("upMpi.vtk".toList, text)], w2, ?_, fun h => absurd h (by decide), fun _ => ⟨text, rfl, ?_⟩, hw2⟩
        · unfold mpiVtk
          rw [if_pos rfl, e, M.ok_bind]
          rfl
        · rw [hlo, hhi] at hfile
          rw [hcd] at hfile hout
          exact structFile_congr hfile hout
    obtain ⟨w3, hw3, a1, a2⟩ := world_sums_any hg hp1 hw2 false
    rw [if_neg (by decide), hcd, hcdd] at a1 a2
    have hlast : ∀ s, GridSum [N, N, N] d
        (if n = 0 then fun _ => 0 else stencilIter64 [N, N, N] c.st UpwindMpi.initialCondition n) s ↔
        GridSum [N, N, N] d out s := by
      intro s
      rw [hcd] at hout
      exact gridSum_congr hv.1 hout
    refine ⟨files, hno, hyes, fun x => ?_⟩
    rw [hmain x]
    constructor
    · rintro ⟨e, he, rfl⟩
      unfold UpwindMpi.Body at he
      rw [e0] at he
      obtain ⟨y, hy, he⟩ := he
      obtain ⟨sums, l1, l2, rfl⟩ := (hsteps y).1 hy
      dsimp only at he
      rw [ev] at he
      obtain ⟨rs, w4, hc, rfl⟩ := he
      obtain ⟨-, s, hs, hgs⟩ := a1 rs w4 hc
      refine ⟨sums, s, l1, fun j p hj => ⟨(hsum _ _).1 (l2 j p hj).1, (hsum _ _).1 (l2 j p hj).2⟩, (hlast s).1 hgs, ?_⟩
      unfold rd
      rw [hs]
      rfl
    · rintro ⟨sums, last, l1, l2, l3, rfl⟩
      obtain ⟨rs, hc, hs⟩ := a2 last ((hlast last).2 l3)
      have hy := (hsteps (.ok (linesFrom 0 sums, w1))).2 ⟨sums, l1, fun j p hj =>
        ⟨(hsum _ _).2 (l2 j p hj).1, (hsum _ _).2 (l2 j p hj).2⟩, rfl⟩
      have hbody : UpwindMpi.Body times n (flagValue args "-vtk".toList) w (.ok {
            out := linesFrom 0 sums ++ fileNote "upMpi.vtk".toList (flagValue args "-vtk".toList) ++
              " times min/max/avg: ".toList ++ times ++ " [seconds]\n".toList ++ "Check sum: ".toList ++
              DoubleText.showDouble last ++ "\n".toList
            err := [], files := files, status := 0 }) := by
        unfold UpwindMpi.Body
        rw [e0]
        refine ⟨_, hy, ?_⟩
        dsimp only
        rw [ev]
        refine ⟨rs, w3, hc, ?_⟩
        unfold rd
        rw [hs]
        rfl
      exact ⟨_, hbody, rfl⟩
  · have hn : n ≠ 0 := fun e => hl (.inl e)
    have hl' : ¬ ∀ kv ∈ c.st, WrapLocal c.dims c.d kv.1 := by
      rw [hcs, hcd, hcdd, hiff]
      exact fun e => hl (.inr e)
    have he := world_error hf (fun kv hkv => by rw [hcd]; exact haxis kv (hcs ▸ hkv))
      (by rw [hcd]; simpa [Nat.mul_assoc] using hcells)
      (by simpa only [not_forall, exists_prop] using hl') ⟨h0'.1, fun x f hx hf => (h0'.2 x f hx hf).1⟩
    obtain ⟨k, hk⟩ : ∃ j, n = j + 1 := ⟨n - 1, by omega⟩
    rw [hmain x]
    unfold UpwindMpi.Body
    rw [e0, hk]
    dsimp only
    constructor
    · rintro ⟨e, ⟨y, hy, he'⟩, rfl⟩
      cases hy with
      | fault _ _ _ e2 h2 =>
        rw [he] at h2
        obtain rfl := Except.error.inj h2
        dsimp only at he'
        rw [he']
        rfl
      | step _ _ _ w1' w2' w3' w4' s1 s2 a b y h2 k1 k2 k3 k4 ke hy =>
        rw [he] at h2
        cases h2
    · rintro rfl
      exact ⟨.error .outOfBounds, ⟨.error .outOfBounds, .fault 0 k w0 _ he, rfl⟩, rfl⟩

/-- C56, upwindMpi: in any arithmetic in which 0 < 1, for every command line with known options only and without help, every
number of cells up to 2^31 in all, every number of processes for which the grid can be decomposed and every number of steps
(read as an unsigned 64-bit number), with `F k` the field after `k` applications of the stencil of the code:
if there is no step, or the number of cells along an axis divides 2^64, or all sub-domains contain the cell that the
code takes for the left neighbour of cell 0, then the outcomes are exactly these: all ranks end with status 0; rank 0
prints for each step any check sum of the field before and any of that after it, and at the end any check sum of the output
data; with `-vtk` the file, always the same, is readable and holds the output data. Otherwise the only outcome is an access
out of bounds. The output data are 0 without any step. `times` is the text of the timings. -/
theorem C56_upwindMpi_every_size (h01 : (0 : R) < 1) (courant : R) (times : Str) (sz : Nat) (exec : Str) (args : List Str)
    (h : AllKnown (upwindNames false) args) (N : Nat) (steps : Int) (h1 : IntValue Reads args "-numCells".toList 128 N)
    (h2 : IntValue Reads args "-numSteps".toList 10 steps) (hh : flagValue args "-h".toList = false)
    (hr : InRange sz [N, N, N]) (hcells : N * N * N ≤ 2 ^ 31) (hex : ∃ d, ValidDecomp sz [N, N, N] d)
    (hw : ∀ x : R, IsWord (DoubleText.showDouble x)) :
    let n := (steps % 2 ^ 64).toNat
    let F := stencilIter64 [N, N, N] (mpiStencil HasMax.dblMax courant N) cornerField
    let out : List Nat → R := if n = 0 then fun _ => 0 else F n
    ∃ d, ValidDecomp sz [N, N, N] d ∧
      ((n = 0 ∨ N ∣ 2 ^ 64 ∨ ∀ m ∈ localExtents [N, N, N] d, (2 ^ 64 - 1) % N < m) → ∃ files,
        (flagValue args "-vtk".toList = false → files = []) ∧
        (flagValue args "-vtk".toList = true → ∃ text, files = [("upMpi.vtk".toList, text)] ∧
          StructFile DoubleText.showDouble [N, N, N] [0, 0, 0] [1, 1, 1] out text) ∧
        ∀ x, UpwindMpi.Main courant times sz (exec :: args) x ↔ ∃ (sums : List (R × R)) (last : R), sums.length = n ∧
          (∀ j p, sums[j]? = some p → GridSum [N, N, N] d (F j) p.1 ∧ GridSum [N, N, N] d (F (j + 1)) p.2) ∧
          GridSum [N, N, N] d out last ∧
          x = .ok ⟨(List.range sz).map fun rk => if rk = 0 then {
            out := sumsText DoubleText.showDouble sums ++ fileNote "upMpi.vtk".toList (flagValue args "-vtk".toList) ++
              " times min/max/avg: ".toList ++ times ++ " [seconds]\n".toList ++ "Check sum: ".toList ++
              DoubleText.showDouble last ++ "\n".toList
            err := [], files := files, status := 0 } else { out := [], err := [], files := [], status := 0 }⟩) ∧
      (¬ (n = 0 ∨ N ∣ 2 ^ 64 ∨ ∀ m ∈ localExtents [N, N, N] d, (2 ^ 64 - 1) % N < m) →
        ∀ x, UpwindMpi.Main courant times sz (exec :: args) x ↔ x = .error .outOfBounds) := by
  obtain ⟨d, -, h⟩ := upwindMpi_outcomes h01 courant times sz exec args h N steps h1 h2 hh hr hcells hex hw
  exact ⟨d, h⟩

end

section
variable {R : Type} [Zero R] [One R] [Add R] [Sub R] [Mul R] [Div R] [Neg R] [NatCast R] [LT R] [DecidableLT R] [HasMax R]
  [HasSin R] [DoubleText R]

/-- C56, laplacian: in any arithmetic, for every command line with known options only and without help, every number of axes,
of cells up to 2^31 in all, and of processes for which the grid can be decomposed, with `F` the field after 10
applications of the stencil of the code:
if the number of cells along an axis divides 2^64, or all sub-domains contain the cell that the code takes for the left
neighbour of cell 0, then the outcomes are exactly these: all ranks end with status 0; rank 0 prints any two check sums of `F`;
with `-vtk` and at most three axes the file, always the same, is readable and holds `F`; with more axes no file is written,
although it is announced. Otherwise the only outcome is an access out of bounds. -/
theorem C56_laplacian_every_size (times : Str) (sz : Nat) (exec : Str) (args : List Str)
    (h : AllKnown laplacianNames args) (N n : Nat) (h1 : IntValue Reads args "-numCells".toList 8000 N)
    (h2 : IntValue Reads args "-numDims".toList 2 n) (hh : flagValue args "-h".toList = false)
    (hr : InRange sz (List.replicate n N)) (hcells : N ^ n ≤ 2 ^ 31) (hex : ∃ d, ValidDecomp sz (List.replicate n N) d)
    (hw : ∀ x : R, IsWord (DoubleText.showDouble x)) :
    let F : List Nat → R := stencilIter64 (List.replicate n N) (lapStencil n) (lapInit HasSin.sin HasSin.pi N) 10
    ∃ d, ValidDecomp sz (List.replicate n N) d ∧
      ((N ∣ 2 ^ 64 ∨ ∀ m ∈ localExtents (List.replicate n N) d, (2 ^ 64 - 1) % N < m) → ∃ files,
        (flagValue args "-vtk".toList = false → files = []) ∧
        (flagValue args "-vtk".toList = true → 3 < n → files = []) ∧
        (flagValue args "-vtk".toList = true → n ≤ 3 → ∃ text, files = [("laplacian.vtk".toList, text)] ∧
          StructFile DoubleText.showDouble (List.replicate n N) (List.replicate n 0) (List.replicate n 1) F text) ∧
        ∀ x, Laplacian.Main (R := R) times sz (exec :: args) x ↔ ∃ a b : R,
          GridSum (List.replicate n N) d F a ∧ GridSum (List.replicate n N) d F b ∧
          x = .ok ⟨(List.range sz).map fun rk => if rk = 0 then {
            out := fileNote "laplacian.vtk".toList (flagValue args "-vtk".toList) ++
              "Laplace times min/max/avg: ".toList ++ times ++ " [seconds]\n".toList ++ "Check sums: input = ".toList ++
              DoubleText.showDouble a ++ " output = ".toList ++ DoubleText.showDouble b ++ "\n".toList
            err := [], files := files, status := 0 } else { out := [], err := [], files := [], status := 0 }⟩) ∧
      (¬ (N ∣ 2 ^ 64 ∨ ∀ m ∈ localExtents (List.replicate n N) d, (2 ^ 64 - 1) % N < m) →
        ∀ x, Laplacian.Main (R := R) times sz (exec :: args) x ↔ x = .error .outOfBounds) := by
  intro F
  have haxis : ∀ kv ∈ lapStencil (R := R) n, AxisOffset (List.replicate n N).length kv.1 := by
    intro kv hkv
    rw [List.length_replicate]
    rcases mem_lapEntries ((lapStencil_perm n).mem_iff.1 hkv) with h | ⟨i, _, h | h⟩
    · rw [h]; exact zeroOff_axis n
    · rw [h]; exact axisOff_axis (.inr (.inr rfl))
    · rw [h]; exact axisOff_axis (.inl rfl)
  obtain ⟨d, hf, hv, hb⟩ := axis_of_range hr hex (List.replicate n (0 : R)) (List.replicate n 1) (lapStencil n) haxis
  have hiff : (∀ kv ∈ lapStencil (R := R) n, WrapLocal (List.replicate n N) d kv.1) ↔
      N ∣ 2 ^ 64 ∨ ∀ m ∈ localExtents (List.replicate n N) d, (2 ^ 64 - 1) % N < m := by
    refine uniform_wrapLocal (by simpa using hv.1.length_eq.symm) (by simpa using haxis) fun j hj => ?_
    refine ⟨((List.replicate n 0).set j (-1), 1), ?_, by simp [hj]⟩
    unfold lapStencil
    rw [List.append_assoc, List.mem_append]
    exact .inl (List.mem_map.2 ⟨j, List.mem_range.2 hj, rfl⟩)
  have hg := hf.toGood
  obtain ⟨w, ew, h0⟩ := world_new hg hb
  have hax := hr.axes
  rw [List.length_replicate] at hax
  have hN31 : N < 2 ^ 31 := hr.ext N (List.mem_replicate.2 ⟨fun e => hr.ne (by rw [e]; rfl), rfl⟩)
  have es : Laplacian.start sz N n = .ok w := by
    unfold Laplacian.start
    dsimp only
    rw [if_neg (by omega), szOfInt_ofNat (by unfold W; omega), laplacian_stencil_eq, M.ok_bind,
      szOfInt_ofNat (by unfold W; omega)]
    exact ew
  have hvalid : ∀ f ∈ w, f.validDecomp = true := by
    intro f hf'
    obtain ⟨x, _, _, hs⟩ := h0.mem hg hf'
    exact hs.1.valid
  obtain ⟨w0, e0, h0'⟩ := world_setInData hg (by simp) (by simp) h0 Laplacian.func
  have hinit : ∀ g, InGrid (List.replicate n N) g →
      Laplacian.func ((List.range (List.replicate n N).length).map fun i =>
        (List.replicate n (0 : R)).getD i 0 + (((g.getD i 0 : Nat) : R) + 1 / ((2 : Nat) : R)) *
          (((List.replicate n (1 : R)).getD i 0 - (List.replicate n (0 : R)).getD i 0) /
            (((List.replicate n N).getD i 0 : Nat) : R))) = lapInit HasSin.sin HasSin.pi N g := by
    intro g hgrid
    have hgl := hgrid.length_eq
    rw [List.length_replicate] at hgl
    have hmap : ((List.range (List.replicate n N).length).map fun i =>
        (List.replicate n (0 : R)).getD i 0 + (((g.getD i 0 : Nat) : R) + 1 / ((2 : Nat) : R)) *
          (((List.replicate n (1 : R)).getD i 0 - (List.replicate n (0 : R)).getD i 0) /
            (((List.replicate n N).getD i 0 : Nat) : R))) =
        g.map fun i : Nat => 0 + ((i : R) + 1 / ((2 : Nat) : R)) * ((1 - 0) / (N : R)) := by
      apply List.ext_getElem (by simp [hgl])
      intro i i1 i2
      have hi : i < n := by simpa using i1
      simp [hi, hgl]
    rw [hmap]
    unfold Laplacian.func lapInit
    rw [List.foldl_map]
  have hlen : ∀ p ∈ lapStencil (R := R) n, p.1.length = (List.replicate n N).length := fun p hp => (haxis p hp).1
  have hF := stencilIter64_congr hlen hinit 10
  have hmain : ∀ x, Laplacian.Main (R := R) times sz (exec :: args) x ↔ ∃ e,
      Laplacian.Body times (flagValue args "-vtk".toList) w e ∧ x = e.map (fromRoot sz) := by
    intro x
    unfold Laplacian.Main
    rw [laplacian_known exec h h1 h2]
    dsimp only
    obtain ⟨g1, g2, g3, g4⟩ := laplacianParser_get (R := R) exec N n (flagValue args "-h".toList) (flagValue args "-vtk".toList)
    rw [g1, g2, g3, g4, hh, if_pos (show (true && !false) = true from rfl), es]
    exact ifValid_iff hvalid _ x
  dsimp only at h0'
  generalize (fun g : List Nat => Laplacian.func ((List.range (List.replicate n N).length).map fun i =>
        (List.replicate n (0 : R)).getD i 0 + (((g.getD i 0 : Nat) : R) + 1 / ((2 : Nat) : R)) *
          (((List.replicate n (1 : R)).getD i 0 - (List.replicate n (0 : R)).getD i 0) /
            (((List.replicate n N).getD i 0 : Nat) : R)))) = init at h0' hF
  generalize hcc : (⟨sz, List.replicate n N, d, List.replicate n (0 : R), List.replicate n 1, lapStencil n⟩ : Cfg R) = c
    at hf hg h0 h0'
  have h1p : c.nprocs = sz := by rw [← hcc]
  have hcd : c.dims = List.replicate n N := by rw [← hcc]
  have hcdd : c.d = d := by rw [← hcc]
  have hcs : c.st = lapStencil n := by rw [← hcc]
  have hlo : c.xmins = List.replicate n 0 := by rw [← hcc]
  have hhi : c.xmaxs = List.replicate n 1 := by rw [← hcc]
  have hp1 : 1 ≤ c.nprocs := by rw [h1p]; exact hr.procs1
  have hprod : c.dims.prod ≤ 2 ^ 31 := by rw [hcd, List.prod_replicate]; exact hcells
  refine ⟨d, hv, fun hl => ?_, fun hl x => ?_⟩
  · have hl' := hiff.2 hl
    rw [← hcs, ← hcd, ← hcdd] at hl'
    have hcell : ∀ x, InGrid c.d x → c.Cells x := fun x hx kv hkv =>
      cell_local hf hkv (by rw [hcd]; exact haxis kv (hcs ▸ hkv)) (hl' kv hkv) hx
    obtain ⟨w1, e1, hw1⟩ : ∃ w1, w0.iterate 10 = .ok w1 ∧ Ranks c (fun x f => Holds c x (stencilIter64 c.dims c.st init 10) f ∧
        f.outData = boxData (c.lo x) (c.hi x) (stencilIter64 c.dims c.st init 10)) w1 := by
      obtain ⟨wa, ea, ha⟩ := world_apply64 hf hcell h0'
      obtain ⟨wb, eb, hb'⟩ := world_copy hg ha
      obtain ⟨wc, ec, hc⟩ := world_iterate64_out hf hcell 9 hb'
      refine ⟨wc, ?_, ?_⟩
      · show World.iterate w0 (9 + 1) = _
        unfold World.iterate
        rw [ea, M.ok_bind, eb, M.ok_bind, ec]
      · rw [stencilIter64_succ, if_neg (by decide)] at hc
        exact hc
    rw [hcs] at hw1
    rw [hcd] at hw1
    obtain ⟨files, w2, ev, f1, f2, f3, hw2⟩ : ∃ files w2, mpiVtk "laplacian.vtk".toList (flagValue args "-vtk".toList) w1 =
          .ok (fileNote "laplacian.vtk".toList (flagValue args "-vtk".toList), files, w2) ∧
        (flagValue args "-vtk".toList = false → files = []) ∧
        (flagValue args "-vtk".toList = true → 3 < n → files = []) ∧
        (flagValue args "-vtk".toList = true → n ≤ 3 → ∃ text, files = [("laplacian.vtk".toList, text)] ∧
          StructFile DoubleText.showDouble (List.replicate n N) (List.replicate n 0) (List.replicate n 1) F text) ∧
        Ranks c (fun x f => Holds c x (stencilIter64 (List.replicate n N) (lapStencil n) init 10) f ∧
          f.outData = boxData (c.lo x) (c.hi x) (stencilIter64 (List.replicate n N) (lapStencil n) init 10)) w2 := by
      cases hvk : flagValue args "-vtk".toList with
      | false => exact ⟨[], w1, rfl, fun _ => rfl, fun h => absurd h (by decide), fun h => absurd h (by decide), hw1⟩
      | true =>
        obtain ⟨t, w2, e, hthree, hmore, hw2⟩ := world_saveFile hg hprod (by rw [hlo, hcd]; simp) (by rw [hhi, hcd]; simp) hw1 hw
        rw [hcd, List.length_replicate] at hthree hmore
        by_cases h3 : n ≤ 3
        · obtain ⟨text, rfl, hfile⟩ := hthree h3
          refine ⟨[("laplacian.vtk".toList, text)], w2, ?_, fun h => absurd h (by decide), fun _ h => absurd h3 (by omega),
            fun _ _ => ⟨text, rfl, ?_⟩, hw2⟩
          · unfold mpiVtk
            rw [if_pos rfl, e, M.ok_bind]
            rfl
          · rw [hlo, hhi] at hfile
            exact structFile_congr hfile hF
        · obtain rfl := hmore (by omega)
          refine ⟨[], w2, ?_, fun h => absurd h (by decide), fun _ _ => rfl, fun _ h => absurd h h3, hw2⟩
          unfold mpiVtk
          rw [if_pos rfl, e, M.ok_bind]
          rfl
    have hpre : (do
        let w ← w.setInData Laplacian.func
        let w ← w.iterate 10
        mpiVtk "laplacian.vtk".toList (flagValue args "-vtk".toList) w : M (Str × List (Str × Str) × World R)) =
        .ok (fileNote "laplacian.vtk".toList (flagValue args "-vtk".toList), files, w2) := by
      rw [e0, M.ok_bind, e1, M.ok_bind, ev]
    obtain ⟨w3, hw3, a1, a2⟩ := world_sums_any hg hp1 hw2 true
    obtain ⟨w4, hw4, b1, b2⟩ := world_sums_any hg hp1 hw3 false
    rw [if_pos rfl, hcd, hcdd] at a1 a2
    rw [if_neg (by decide), hcd, hcdd] at b1 b2
    have hsum : ∀ s, GridSum (List.replicate n N) d (stencilIter64 (List.replicate n N) (lapStencil n) init 10) s ↔
        GridSum (List.replicate n N) d F s := fun s => gridSum_congr hv.1 hF
    refine ⟨files, f1, f2, f3, fun x => ?_⟩
    rw [hmain x]
    unfold Laplacian.Body
    rw [hpre]
    dsimp only
    constructor
    · rintro ⟨e, ⟨s1, w5, s2, w6, k1, k2, rfl⟩, rfl⟩
      obtain ⟨rfl, a, q1, q2⟩ := a1 s1 w5 k1
      obtain ⟨-, b, q3, q4⟩ := b1 s2 w6 k2
      refine ⟨a, b, (hsum a).1 q2, (hsum b).1 q4, ?_⟩
      unfold rd
      rw [q1, q3]
      rfl
    · rintro ⟨a, b, q2, q4, rfl⟩
      obtain ⟨s1, k1, q1⟩ := a2 a ((hsum a).2 q2)
      obtain ⟨s2, k2, q3⟩ := b2 b ((hsum b).2 q4)
      refine ⟨_, ⟨s1, w3, s2, w4, k1, k2, rfl⟩, ?_⟩
      unfold rd
      rw [q1, q3]
      rfl
  · have hl' : ¬ ∀ kv ∈ c.st, WrapLocal c.dims c.d kv.1 := by
      rw [hcs, hcd, hcdd, hiff]
      exact hl
    have he := world_error hf (fun kv hkv => by rw [hcd]; exact haxis kv (hcs ▸ hkv)) hprod
      (by simpa only [not_forall, exists_prop] using hl') h0'
    have hpre : (do
        let w ← w.setInData Laplacian.func
        let w ← w.iterate 10
        mpiVtk "laplacian.vtk".toList (flagValue args "-vtk".toList) w : M (Str × List (Str × Str) × World R)) =
        .error .outOfBounds := by
      rw [e0, M.ok_bind]
      have : World.iterate w0 10 = .error .outOfBounds := by
        show World.iterate w0 (9 + 1) = _
        unfold World.iterate
        rw [he]
        rfl
      rw [this]
      rfl
    rw [hmain x]
    unfold Laplacian.Body
    rw [hpre]
    dsimp only
    constructor
    · rintro ⟨e, rfl, rfl⟩
      rfl
    · rintro rfl
      exact ⟨_, rfl, rfl⟩

end

/-! ### Concrete cases -/

/-- A field on 4 cells on two processes. -/
example (s : ℚ) : GridSum [4] [2] (fun g => (g.getD 0 0 : ℚ)) s ↔ s = 6 := by
  rw [C56_grid_sum [4] [2] (.cons (by decide) .nil) (by decide)]
  have : ((cellList (List.replicate [4].length 0) [4]).map fun g => (g.getD 0 0 : ℚ)).sum = 6 := by decide +kernel
  rw [this]

local instance anyDoubleText : DoubleText ℚ := ⟨fun _ => 0, fun q => if q = 0 then ['0'] else if q = 1 then ['1'] else
  if q = 13 / 10 then ['1', '.', '3'] else ['q']⟩
local instance anySin : HasSin ℚ := ⟨id, 1⟩

theorem anyWord (x : ℚ) : IsWord (DoubleText.showDouble x) := by
  show IsWord (if x = 0 then ['0'] else if x = 1 then ['1'] else if x = 13 / 10 then ['1', '.', '3'] else ['q'])
  split
  · exact ⟨by decide, by decide⟩
  · split
    · exact ⟨by decide, by decide⟩
    · split <;> exact ⟨by decide, by decide⟩

/-- Command lines that run one step. -/
def anyArgs (n : Str) : List Str := ["-numSteps".toList, "1".toList, "-numCells".toList, n]

theorem anyArgs_known (n : Str) (hn : n = ['3'] ∨ n = ['6']) : AllKnown (upwindNames false) (anyArgs n) := by
  intro a ha h
  simp only [anyArgs, List.mem_cons, List.not_mem_nil, or_false] at ha
  rcases ha with rfl | rfl | rfl | rfl
  · decide
  · obtain ⟨_, _, h, _⟩ := h; simp at h
  · decide
  · obtain ⟨_, _, h, _⟩ := h
    rcases hn with rfl | rfl <;> simp at h

/-- What upwindMpi does with 3 cells on one process: the check sum is not conserved. -/
example (x : M MpiExit) : UpwindMpi.Main (0.1 : ℚ) "t".toList 1 ("upwindMpi".toList :: anyArgs ['3']) x ↔
    x = .ok ⟨[{ out := "iter 0 check sum  in/out = 1 / 1.3\n times min/max/avg: t [seconds]\nCheck sum: 1.3\n".toList
                err := [], files := [], status := 0 }]⟩ := by
  obtain ⟨d, hd, hall, -⟩ := C56_upwindMpi_every_size (R := ℚ) (by decide) (0.1 : ℚ) "t".toList 1 "upwindMpi".toList
    (anyArgs ['3']) (anyArgs_known _ (.inl rfl)) 3 1
    (intValue_only 2 (v := ['3']) (by decide) (by decide) rfl (by decide))
    (intValue_only 0 (v := "1".toList) (by decide) (by decide) rfl (by decide)) (by decide)
    ⟨by decide, by decide, by decide, by decide, by decide, by decide, by decide, by decide⟩ (by decide) (valid_one _) anyWord
  have hext : ∀ m ∈ localExtents [3, 3, 3] d, (2 ^ 64 - 1) % 3 < m := by
    intro m hm
    have := localExtents_pos hd.1 (by decide) m hm
    omega
  obtain ⟨files, h1, -, hall⟩ := hall (.inr (.inr hext))
  obtain rfl := h1 (by decide)
  have e0 : ∀ s, GridSum [3, 3, 3] d (stencilIter64 [3, 3, 3] (mpiStencil HasMax.dblMax (0.1 : ℚ) 3) cornerField 0) s ↔ s = 1 := by
    intro s
    rw [C56_grid_sum _ _ hd.1 (by decide)]
    have : ((cellList (List.replicate [3, 3, 3].length 0) [3, 3, 3]).map
        (stencilIter64 [3, 3, 3] (mpiStencil HasMax.dblMax (0.1 : ℚ) 3) cornerField 0)).sum = 1 := by decide +kernel
    rw [this]
  have e1 : ∀ s, GridSum [3, 3, 3] d (stencilIter64 [3, 3, 3] (mpiStencil HasMax.dblMax (0.1 : ℚ) 3) cornerField 1) s ↔
      s = 13 / 10 := by
    intro s
    rw [C56_grid_sum _ _ hd.1 (by decide)]
    have : ((cellList (List.replicate [3, 3, 3].length 0) [3, 3, 3]).map
        (stencilIter64 [3, 3, 3] (mpiStencil HasMax.dblMax (0.1 : ℚ) 3) cornerField 1)).sum = 13 / 10 := by decide +kernel
    rw [this]
  have htext : sumsText DoubleText.showDouble [((1 : ℚ), (13 / 10 : ℚ))] ++
      fileNote "upMpi.vtk".toList (flagValue (anyArgs ['3']) "-vtk".toList) ++
      " times min/max/avg: ".toList ++ "t".toList ++ " [seconds]\n".toList ++ "Check sum: ".toList ++
      DoubleText.showDouble (13 / 10 : ℚ) ++ "\n".toList =
      "iter 0 check sum  in/out = 1 / 1.3\n times min/max/avg: t [seconds]\nCheck sum: 1.3\n".toList := by decide +kernel
  refine (hall x).trans ⟨?_, ?_⟩
  · rintro ⟨sums, last, l1, l2, l3, rfl⟩
    match sums, l1 with
    | [p], _ =>
      obtain ⟨a, b⟩ := p
      obtain ⟨ha, hb⟩ := l2 0 _ rfl
      obtain rfl := (e0 _).1 ha
      obtain rfl := (e1 _).1 hb
      obtain rfl := (e1 _).1 l3
      rw [htext]
      rfl
  · rintro rfl
    refine ⟨[(1, 13 / 10)], 13 / 10, rfl, fun j p hj => ?_, (e1 _).2 rfl, ?_⟩
    · match j, hj with
      | 0, hj =>
        obtain rfl : ((1 : ℚ), (13 / 10 : ℚ)) = p := by simpa using hj
        exact ⟨(e0 _).2 rfl, (e1 _).2 rfl⟩
    · rw [htext]
      rfl

/-- What upwindMpi does with 6 cells on two processes. -/
example (x : M MpiExit) : UpwindMpi.Main (0.1 : ℚ) "t".toList 2 ("upwindMpi".toList :: anyArgs ['6']) x ↔
    x = .error .outOfBounds := by
  obtain ⟨d, hd, -, hall⟩ := C56_upwindMpi_every_size (R := ℚ) (by decide) (0.1 : ℚ) "t".toList 2 "upwindMpi".toList
    (anyArgs ['6']) (anyArgs_known _ (.inr rfl)) 6 1
    (intValue_only 2 (v := ['6']) (by decide) (by decide) rfl (by decide))
    (intValue_only 0 (v := "1".toList) (by decide) (by decide) rfl (by decide)) (by decide)
    ⟨by decide, by decide, by decide, by decide, by decide, by decide, by decide, by decide⟩ (by decide)
    ⟨[2, 1, 1], .cons (by decide) (.cons (by decide) (.cons (by decide) .nil)), rfl⟩ anyWord
  refine hall ?_ x
  rintro (h | h | h)
  · exact absurd h (by decide)
  · exact absurd h (by decide)
  · -- one of the axes is cut into two parts of 3 cells
    match d, hd with
    | [a, b, c], hd =>
      have hp : a * (b * c) = 2 := by simpa using hd.2
      simp only [localExtents, List.zipWith_cons_cons, List.zipWith_nil_left, List.mem_cons, List.not_mem_nil, or_false,
        forall_eq_or_imp, forall_eq] at h
      have key : ∀ k : Nat, (2 ^ 64 - 1) % 6 < 6 / k → k < 2 := by
        intro k hk
        by_contra hc
        have : 6 / k ≤ 6 / 2 := Nat.div_le_div_left (by omega) (by decide)
        omega
      have h1 := key a h.1
      have h2 := key b h.2.1
      have h3 := key c h.2.2
      have : a ≤ 1 := by omega
      have : b * c ≤ 1 * 1 := Nat.mul_le_mul (by omega) (by omega)
      have : a * (b * c) ≤ 1 * 1 := Nat.mul_le_mul (by omega) (by omega)
      omega

/-- A command line for 6 cells on one axis. -/
def lapSix : List Str := ["-numDims".toList, "1".toList, "-numCells".toList, "6".toList]

/-- What laplacian does with 6 cells: on one process two sums of the field are printed, on two processes it reads out of
bounds. -/
example : (∃ a b : ℚ, Laplacian.Main (R := ℚ) "t".toList 1 ("laplacian".toList :: lapSix)
      (.ok ⟨[{ out := "Laplace times min/max/avg: t [seconds]\nCheck sums: input = ".toList ++ DoubleText.showDouble a ++
                  " output = ".toList ++ DoubleText.showDouble b ++ "\n".toList
               err := [], files := [], status := 0 }]⟩)) ∧
    ∀ x, Laplacian.Main (R := ℚ) "t".toList 2 ("laplacian".toList :: lapSix) x ↔ x = .error .outOfBounds := by
  have hk : AllKnown laplacianNames lapSix := by
    intro a ha h
    simp only [lapSix, List.mem_cons, List.not_mem_nil, or_false] at ha
    rcases ha with rfl | rfl | rfl | rfl
    · decide
    · obtain ⟨_, _, h, _⟩ := h; simp at h
    · decide
    · obtain ⟨_, _, h, _⟩ := h; simp at h
  have h1 : IntValue Reads lapSix "-numCells".toList 8000 (6 : Nat) :=
    intValue_only 2 (v := "6".toList) (by decide) (by decide) rfl (by decide)
  have h2 : IntValue Reads lapSix "-numDims".toList 2 (1 : Nat) :=
    intValue_only 0 (v := "1".toList) (by decide) (by decide) rfl (by decide)
  constructor
  · obtain ⟨d, hd, hall, -⟩ := C56_laplacian_every_size (R := ℚ) "t".toList 1 "laplacian".toList lapSix hk 6 1 h1 h2 (by decide)
      ⟨by decide, by decide, by decide, by decide, by decide, by decide, by decide, by decide⟩ (by decide) (valid_one _) anyWord
    have hext : ∀ m ∈ localExtents (List.replicate 1 6) d, (2 ^ 64 - 1) % 6 < m := by
      match d, hd with
      | [k], hd =>
        have hk : k = 1 := by simpa using hd.2
        subst hk
        decide
    obtain ⟨files, f1, -, -, hall⟩ := hall (.inr hext)
    obtain rfl := f1 (by decide)
    generalize hu : stencilIter64 (R := ℚ) _ _ _ _ = u at hall
    have hs := (C56_grid_sum _ _ hd.1 (by decide) u _).2 rfl
    refine ⟨_, _, (hall _).2 ⟨_, _, hs, hs, rfl⟩⟩
  · obtain ⟨d, hd, -, hall⟩ := C56_laplacian_every_size (R := ℚ) "t".toList 2 "laplacian".toList lapSix hk 6 1 h1 h2 (by decide)
      ⟨by decide, by decide, by decide, by decide, by decide, by decide, by decide, by decide⟩ (by decide)
      ⟨[2], .cons (by decide) .nil, rfl⟩ anyWord
    refine hall ?_
    rintro (h | h)
    · exact absurd h (by decide)
    · match d, hd with
      | [k], hd =>
        have hk : k = 2 := by simpa using hd.2
        subst hk
        exact absurd (h 3 (by decide)) (by decide)

end Fidi
