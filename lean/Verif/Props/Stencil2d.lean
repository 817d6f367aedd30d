import Verif.Lemmas.Stencil2d
import Verif.Props.FilterCalls
import Verif.Props.FilterProcs
import Verif.Props.Mains
import Verif.Props.MainsMpi

/-
Property C65: the driver `testStencil2d`.
-/
namespace Fidi
open Spec CmdLineArgParser

section
variable {R : Type} [Zero R] [One R] [Add R] [Sub R] [Mul R] [Div R] [Neg R] [NatCast R] [LT R] [DecidableLT R] [HasMax R]
  [DoubleText R]

omit [Zero R] [One R] [Add R] [Sub R] [Mul R] [Div R] [Neg R] [NatCast R] [LT R] [DecidableLT R] [HasMax R] in
/-- The MPI drivers after a failure of the parser. -/
theorem Stencil2d.mpiUsage_false {sz : Nat} {args : CmdLineArgParser R} {msg text : Str} (h : args.help = .ok text) :
    mpiUsage sz false args msg = .ok ⟨(List.range sz).map fun rk =>
      { out := msg ++ text, err := if rk = 0 then "ERROR when parsing command line arguments\n".toList else [],
        files := [], status := 0 }⟩ := by
  unfold mpiUsage
  rw [h, M.ok_bind]
  simp only [Bool.not_false, Bool.true_and, beq_iff_eq]
  rfl

omit [Zero R] [One R] [Add R] [Sub R] [Mul R] [Div R] [Neg R] [NatCast R] [LT R] [DecidableLT R] [HasMax R] in
/-- The MPI drivers with `-h`. -/
theorem Stencil2d.mpiUsage_true {sz : Nat} {args : CmdLineArgParser R} {text : Str} (h : args.help = .ok text) :
    mpiUsage sz true args [] = .ok ⟨List.replicate sz { out := text, err := [], files := [], status := 0 }⟩ := by
  unfold mpiUsage
  rw [h, M.ok_bind]
  have : ∀ e : Exit, (List.range sz).map (fun _ => e) = List.replicate sz e := by
    intro e; rw [List.map_const', List.length_range]
  rw [← this]
  rfl

/-- C65: with an unknown option the outcome is the message about it and the help with the defaults on every rank, and an
error on rank 0; nothing is computed, and the status is 0 on all ranks. -/
theorem C65_unknown_option (sz : Nat) (exec : Str) (args : List Str) (h : ¬ AllKnown stencil2dNames args) :
    ∃ a, FirstUnknown stencil2dNames args a ∧ Stencil2d.main (R := R) sz (exec :: args) =
      .ok ⟨(List.range sz).map fun rk =>
        { out := a ++ " is not a valid option.\n".toList ++ stencil2dHelp exec 8 false false
          err := if rk = 0 then "ERROR when parsing command line arguments\n".toList else [], files := [], status := 0 }⟩ := by
  obtain ⟨a, ha, e⟩ := Stencil2d.unknown (R := R) exec h
  refine ⟨a, ha, ?_⟩
  unfold Stencil2d.main
  rw [e, M.ok_bind]
  dsimp only
  rw [if_neg (by rw [Bool.false_and]; exact Bool.false_ne_true), Stencil2d.mpiUsage_false (Stencil2d.parser_help ..)]

/-- C65: with `-h` (an odd number of times) and otherwise valid arguments the outcome is the help with the values given and
status 0 on every rank; nothing is computed. -/
theorem C65_help (sz : Nat) (exec : Str) (args : List Str) (h : AllKnown stencil2dNames args) (cells : Int)
    (h1 : IntValue Reads args "-numCells".toList 8 cells) (hh : flagValue args "-h".toList = true) :
    Stencil2d.main (R := R) sz (exec :: args) = .ok ⟨List.replicate sz {
      out := stencil2dHelp exec cells true (flagValue args "-vtk".toList), err := [], files := [], status := 0 }⟩ := by
  unfold Stencil2d.main
  rw [Stencil2d.known exec h h1, M.ok_bind]
  dsimp only
  rw [if_neg (by rw [(Stencil2d.parser_get _ _ _ _).1, hh]; simp), Stencil2d.mpiUsage_true (Stencil2d.parser_help ..), hh]

omit [Zero R] [One R] [Add R] [Sub R] [Mul R] [Div R] [Neg R] [NatCast R] [LT R] [DecidableLT R] [HasMax R] [DoubleText R] in
/-- The outcomes of the ranks, from what each rank lists. -/
theorem Stencil2d.ranks_eq {ps : List (Str × Filter R)} {boxes : List (List Nat × List Nat)} {note : Str}
    {files : List (Str × Str)} {t : Nat → List Nat × List Nat → Str} (hl : ps.length = boxes.length)
    (h : ∀ i p b, ps[i]? = some p → boxes[i]? = some b → p.1 = t i b) :
    (ps.zipIdx.map fun (p, rk) => (⟨if rk = 0 then note else [], (if rk = 0 then [] else []) ++ p.1,
        if rk = 0 then files else [], 0⟩ : Exit)) =
      boxes.zipIdx.map fun (b, rk) => ⟨if rk = 0 then note else [], t rk b, if rk = 0 then files else [], 0⟩ := by
  apply List.ext_getElem (by simp [hl])
  intro i i1 i2
  have hi1 : i < ps.length := by simpa using i1
  have hi2 : i < boxes.length := by rw [← hl]; exact hi1
  simp only [List.getElem_map, List.getElem_zipIdx, Nat.zero_add,
    h i _ _ (List.getElem?_eq_getElem hi1) (List.getElem?_eq_getElem hi2)]
  simp

/-- C65: for every command line with known options only and without help, every number of cells and every number of
processes for which the grid can be decomposed, let `d` be the decomposition. If the negative index is reduced (modulo 2^64,
then modulo the extent) to the neighbour or to a cell of the first sub-domain, all ranks end with status 0; the ranks
together list on the error stream each cell of the grid once, with the value of the stencil applied to `edgeField` (1 on the
cells with an index 0) with this displacement; with `-vtk` rank 0 announces and writes a readable file with these values.
Otherwise an array is read outside of its bounds. Bit for bit, for every arithmetic. -/
theorem C65_every_size (sz : Nat) (exec : Str) (args : List Str) (h : AllKnown stencil2dNames args) (N : Nat)
    (h1 : IntValue Reads args "-numCells".toList 8 N) (hh : flagValue args "-h".toList = false)
    (hr : InRange sz [N, N]) (hex : ∃ d, ValidDecomp sz [N, N] d) (hcells : N * N ≤ 2 ^ 31)
    (hw : ∀ x : R, IsWord (DoubleText.showDouble x)) :
    ∃ d, ValidDecomp sz [N, N] d ∧
      (WrapLocal [N, N] d [0, -1] → ∃ (boxes : List (List Nat × List Nat)) (files : List (Str × Str)), boxes.length = sz ∧
        (boxes.flatMap fun b => cellList b.1 b.2).Nodup ∧
        (∀ g, g ∈ (boxes.flatMap fun b => cellList b.1 b.2) ↔ InGrid [N, N] g) ∧
        (∀ b ∈ boxes, extents b.1 b.2 = localExtents [N, N] d) ∧
        (flagValue args "-vtk".toList = false → files = []) ∧
        (flagValue args "-vtk".toList = true → ∃ text, files = [("stencil2d.vtk".toList, text)] ∧
          StructFile DoubleText.showDouble [N, N] [(0 : R), 0] [1, 1] (stencilStep64 [N, N] stencil2d edgeField) text) ∧
        Stencil2d.main (R := R) sz (exec :: args) = .ok ⟨boxes.zipIdx.map fun (b, rk) => {
          out := if rk = 0 then fileNote "stencil2d.vtk".toList (flagValue args "-vtk".toList) else []
          err := ("[" ++ toString rk ++ "] outData: \n").toList ++ listing DoubleText.showDouble rk "outData" b.1 b.2
            (stencilStep64 [N, N] (stencil2d : List (List Int × R)) edgeField)
          files := if rk = 0 then files else [], status := 0 }⟩) ∧
      (¬ WrapLocal [N, N] d [0, -1] → Stencil2d.main (R := R) sz (exec :: args) = .error .outOfBounds) := by
  have hN : 0 < N := hr.pos N (by simp)
  have hN31 : N < 2 ^ 31 := hr.ext N (by simp)
  obtain ⟨d, hf, hv, hb⟩ := axis_of_range hr hex [(0 : R), 0] [1, 1] (stencil2d : StdMap (List Int) R) Stencil2d.stencil_axis
  have hg := hf.toGood
  obtain ⟨w, e, h0⟩ := world_new hg hb
  obtain ⟨w1, e1, hw1⟩ := world_set hg h0 (Stencil2d.func (R := R))
  have hvalid : ∀ f ∈ w, f.validDecomp = true := by
    intro f hm
    obtain ⟨x, _, _, hs⟩ := h0.mem hg hm
    exact hs.1.valid
  have e' : World.new sz [N, N] [(0 : R), 0] [1, 1] stencil2d = .ok w := e
  have hmain : Stencil2d.main (R := R) sz (exec :: args) = (do
      let w2 ← w1.applyFilter
      let ps ← w2.mapM fun f => f.printDataText false
      let (note, files, _) ← mpiVtk "stencil2d.vtk".toList (flagValue args "-vtk".toList) (ps.map Prod.snd)
      pure ⟨ps.zipIdx.map fun (p, rk) =>
        { out := if rk = 0 then note else [], err := (if rk = 0 then [] else []) ++ p.1,
          files := if rk = 0 then files else [], status := 0 }⟩) := by
    unfold Stencil2d.main
    rw [Stencil2d.known exec h h1, M.ok_bind]
    dsimp only
    obtain ⟨g1, g2, g3⟩ := Stencil2d.parser_get (R := R) exec N (flagValue args "-h".toList) (flagValue args "-vtk".toList)
    rw [g1, g2, g3, hh, if_pos (show (true && !false) = true from rfl)]
    unfold Stencil2d.start
    rw [Stencil2d.stencil_eq, M.ok_bind, szOfInt_ofNat (by unfold W; omega)]
    rw [show (World.new sz (List.replicate 2 N) (List.replicate 2 (0 : R)) (List.replicate 2 1) stencil2d) = .ok w from e',
      M.ok_bind]
    unfold Stencil2d.body Stencil2d.compute
    rw [if_pos (by rw [List.all_eq_true]; exact hvalid), e1, M.ok_bind]
    simp only [bind_assoc, pure_bind]
  refine ⟨d, hv, ?_, ?_⟩
  · intro hl
    have hall : ∀ kv ∈ (stencil2d : List (List Int × R)), WrapLocal [N, N] d kv.1 := by
      intro kv hkv
      simp only [stencil2d, List.mem_cons, List.not_mem_nil, or_false] at hkv
      rcases hkv with rfl | rfl | rfl
      · exact hl
      · intro i hi
        match i, hi with
        | 0, hi => simp at hi
        | 1, hi => simp at hi
        | i + 2, hi => simp at hi
      · intro i hi
        match i, hi with
        | 0, hi => simp at hi
        | 1, hi => simp at hi
        | i + 2, hi => simp at hi
    obtain ⟨w2, e2, hw2⟩ := world_apply64 hf
      (fun x hx kv hkv => cell_local hf hkv (Stencil2d.stencil_axis kv hkv) (hall kv hkv) hx) hw1
    obtain ⟨ps, e3, hl3, htext, hw3⟩ := world_print hg hw2
    have hsh : Ranks ⟨sz, [N, N], d, [(0 : R), 0], [1, 1], stencil2d⟩ (fun x f =>
        Shape ⟨sz, [N, N], d, [(0 : R), 0], [1, 1], stencil2d⟩ x (Cfg.tab ⟨sz, [N, N], d, [(0 : R), 0], [1, 1], stencil2d⟩) f)
        w2 := ⟨hw2.1, fun x f hx hf => (hw2.2 x f hx hf).1.shape⟩
    have hbox : ∀ f ∈ w2, BoxLt f.lo f.hi ∧ extents f.lo f.hi = localExtents [N, N] d ∧
        ∀ t, InBox f.lo f.hi t → InGrid [N, N] t := by
      intro f hm
      obtain ⟨x, hx, _, hs⟩ := hsh.mem hg hm
      rw [hs.lo, hs.hi]
      exact ⟨hg.box hx, hg.ext hx, fun t ht => hg.grid hx ht⟩
    have hcl : ((w2.map fun f => (f.lo, f.hi)).flatMap fun b => cellList b.1 b.2) =
        w2.flatMap fun f => boxCells f.lo f.hi := by
      rw [List.flatMap_map, List.flatMap_def, List.flatMap_def]
      congr 1
      apply List.map_congr_left
      intro f hm
      exact cellList_eq (hbox f hm).1
    obtain ⟨a1, a2⟩ := all_cells hg hsh
    have hvtk : ∃ files w4, mpiVtk "stencil2d.vtk".toList (flagValue args "-vtk".toList) (ps.map Prod.snd) =
          .ok (fileNote "stencil2d.vtk".toList (flagValue args "-vtk".toList), files, w4) ∧
        (flagValue args "-vtk".toList = false → files = []) ∧
        (flagValue args "-vtk".toList = true → ∃ text, files = [("stencil2d.vtk".toList, text)] ∧
          StructFile DoubleText.showDouble [N, N] [(0 : R), 0] [1, 1] (stencilStep64 [N, N] stencil2d edgeField) text) := by
      cases hvt : flagValue args "-vtk".toList with
      | false => exact ⟨[], _, rfl, fun _ => rfl, fun h => absurd h (by decide)⟩
      | true =>
        obtain ⟨t, w4, e4, hthree, -, -⟩ := world_saveFile hg (by simpa using hcells) rfl rfl hw3 hw
        obtain ⟨text, rfl, hfile⟩ := hthree (by simp)
        refine ⟨[("stencil2d.vtk".toList, text)], w4, ?_, fun h => absurd h (by decide), fun _ => ⟨text, rfl, ?_⟩⟩
        · unfold mpiVtk
          rw [if_pos rfl, e4, M.ok_bind]
          rfl
        · exact structFile_congr hfile fun g hgrid => Stencil2d.step_congr hN hN31 hgrid
    obtain ⟨files, w4, e4, hno, hyes⟩ := hvtk
    refine ⟨w2.map fun f => (f.lo, f.hi), files, by rw [List.length_map, hsh.1], by rw [hcl]; exact a1, by rw [hcl]; exact a2,
      ?_, hno, hyes, ?_⟩
    · intro b hb'
      obtain ⟨f, hm, rfl⟩ := List.mem_map.1 hb'
      exact (hbox f hm).2.1
    rw [hmain, e2, M.ok_bind, e3, M.ok_bind, e4, M.ok_bind]
    dsimp only
    rw [M.pure_eq]
    refine congrArg (fun l => Except.ok (MpiExit.mk l)) (Stencil2d.ranks_eq (ps := ps)
      (boxes := w2.map fun f => (f.lo, f.hi)) (note := fileNote "stencil2d.vtk".toList (flagValue args "-vtk".toList))
      (files := files) (t := fun rk b => ("[" ++ toString rk ++ "] outData: \n").toList ++
        listing DoubleText.showDouble rk "outData" b.1 b.2
          (stencilStep64 [N, N] (stencil2d : List (List Int × R)) edgeField))
      (by rw [List.length_map, hl3]) ?_)
    intro i p b hp hb'
    obtain ⟨f, hff, ht⟩ := htext i p hp
    rw [List.getElem?_map, hff, Option.map_some, Option.some_inj] at hb'
    subst hb'
    have hm := List.mem_of_getElem? hff
    rw [ht]
    exact congrArg _ (listing_congr (hbox _ hm).1.length_eq fun t ht => Stencil2d.step_congr hN hN31 ((hbox _ hm).2.2 t ht))
  · intro hl
    rw [hmain, world_error hf Stencil2d.stencil_axis (by simpa using hcells)
      ⟨([0, -1], -1), by simp [stencil2d], hl⟩ hw1]
    rfl

/-- C65: on a grid that cannot be decomposed for the number of processes the program announces this on rank 0, and then
reads an iterator that is not initialized, on every rank. -/
theorem C65_no_decomposition (sz : Nat) (exec : Str) (args : List Str) (h : AllKnown stencil2dNames args) (N : Nat)
    (h1 : IntValue Reads args "-numCells".toList 8 N) (hh : flagValue args "-h".toList = false)
    (hr : InRange sz [N, N]) (hno : ¬ ∃ d, ValidDecomp sz [N, N] d) :
    Stencil2d.main (R := R) sz (exec :: args) = .error .uninitialized := by
  have hN31 : N < 2 ^ 31 := hr.ext N (by simp)
  have hp := hr.procs
  obtain ⟨b, cd, e, hb, _⟩ := C08_found_iff_exists_partial (R := R) CubeDecomp.empty sz [N, N] hr.procs1 (by omega) hr.ne
    hr.pos hr.axes hr.cells
  have hb' : b = false := by
    cases b with
    | false => rfl
    | true => exact absurd (hb.1 rfl) hno
  subst hb'
  obtain ⟨w, ew, hl, hP⟩ := mapM_ok (List.range sz)
    (fun (r : Nat) => Filter.new (r : Int) sz [N, N] [(0 : R), 0] [1, 1] stencil2d)
    (fun _ f => f.validDecomp = false ∧ f.printDataText false = .error .uninitialized) (by
      intro i r _
      refine ⟨{ Filter.initial r sz [N, N] [0, 0] [1, 1] with dcmp := cd }, ?_, rfl, rfl⟩
      unfold Filter.new
      dsimp only [Filter.initial]
      rw [e]
      rfl)
  have hall : ∀ f ∈ w, f.validDecomp = false ∧ f.printDataText false = .error .uninitialized := by
    intro f hm
    obtain ⟨i, hi, rfl⟩ := List.getElem_of_mem hm
    exact hP i _ (List.getElem?_eq_getElem hi)
  unfold Stencil2d.main
  rw [Stencil2d.known exec h h1, M.ok_bind]
  dsimp only
  obtain ⟨g1, g2, g3⟩ := Stencil2d.parser_get (R := R) exec N (flagValue args "-h".toList) (flagValue args "-vtk".toList)
  rw [g1, g2, g3, hh, if_pos (show (true && !false) = true from rfl)]
  unfold Stencil2d.start
  rw [Stencil2d.stencil_eq, M.ok_bind, szOfInt_ofNat (by unfold W; omega)]
  rw [show (World.new sz (List.replicate 2 N) (List.replicate 2 (0 : R)) (List.replicate 2 1) stencil2d) = .ok w from ew,
    M.ok_bind]
  have h1p := hr.procs1
  cases w with
  | nil => simp at hl; omega
  | cons f w =>
    unfold Stencil2d.body Stencil2d.compute
    rw [if_neg, if_pos, M.pure_eq, M.ok_bind]
    · dsimp only
      rw [List.mapM_cons, (hall f List.mem_cons_self).2]
      rfl
    · rw [List.all_eq_true]
      intro f hf
      rw [(hall f hf).1]
      rfl
    · rw [List.all_cons, (hall f List.mem_cons_self).1]
      simp

end

/-! ### Exact arithmetic -/

section
variable {K : Type} [Field K]

theorem step64_value {N a b : Nat} (h31 : N < 2 ^ 31) (ha : a < N) (hb : b < N) (u : List Nat → K) :
    stencilStep64 [N, N] stencil2d u [a, b] = u [(a + 1) % N, b] - u [a, (if b = 0 then 2 ^ 64 - 1 else b - 1) % N] := by
  have e1 : shift64 [N, N] [a, b] [1, 0] = [(a + 1) % N, b] := by
    simp only [shift64]
    rw [Int.emod_eq_of_lt (by omega) (by omega), Int.emod_eq_of_lt (by omega) (by omega)]
    have h1 : ((a : Int) + 1).toNat = a + 1 := by omega
    have h2 : ((b : Int) + 0).toNat = b := by omega
    rw [h1, h2, Nat.mod_eq_of_lt hb]
  have e2 : shift64 [N, N] [a, b] [0, -1] = [a, (if b = 0 then 2 ^ 64 - 1 else b - 1) % N] := by
    simp only [shift64]
    rw [Int.emod_eq_of_lt (by omega : (0 : Int) ≤ (a : Int) + 0) (by omega)]
    have h1 : ((a : Int) + 0).toNat = a := by omega
    have h2 : (((b : Int) + -1) % 2 ^ 64).toNat = if b = 0 then 2 ^ 64 - 1 else b - 1 := by
      by_cases h0 : b = 0
      · subst h0; decide
      · rw [if_neg h0, Int.emod_eq_of_lt (by omega) (by omega)]; omega
    rw [h1, h2, Nat.mod_eq_of_lt ha]
  simp only [stencilStep64, stencil2d, List.foldl_cons, List.foldl_nil, e1, e2]
  ring

/-- C65: the values listed are those of the difference of neighbours on the periodic grid exactly if 2^64 - 1 is not a
multiple of the number of cells along an axis, or there is one cell only. So they are wrong for 3, 5, 15, 17 or 51 cells. -/
theorem C65_values_iff (N : Nat) (hN : 0 < N) (h31 : N < 2 ^ 31) :
    (∀ g, InGrid [N, N] g → stencilStep64 [N, N] (stencil2d : List (List Int × K)) edgeField g =
      crossDifference N edgeField g) ↔ N = 1 ∨ ¬ N ∣ 2 ^ 64 - 1 := by
  have key : ∀ a b, a < N → b < N → (stencilStep64 [N, N] (stencil2d : List (List Int × K)) edgeField [a, b] =
      crossDifference N edgeField [a, b] ↔
        (edgeField [a, (if b = 0 then 2 ^ 64 - 1 else b - 1) % N] : K) = edgeField [a, (b + (N - 1)) % N]) := by
    intro a b ha hb
    rw [step64_value h31 ha hb]
    unfold crossDifference
    exact sub_right_inj
  constructor
  · intro h
    by_contra hc
    rw [not_or, not_not] at hc
    obtain ⟨h1, hd⟩ := hc
    have h2 : 1 < N := by omega
    have := (key 1 0 h2 hN).1 (h _ ⟨h2, hN, trivial⟩)
    rw [if_pos rfl, Nat.mod_eq_zero_of_dvd hd, Nat.zero_add, Nat.mod_eq_of_lt (by omega)] at this
    unfold edgeField at this
    rw [if_pos (by simp), if_neg (by simp; omega)] at this
    exact one_ne_zero this
  · intro h g hg
    obtain ⟨a, b, rfl, ha, hb⟩ := Stencil2d.inGrid_two hg
    rw [key a b ha hb]
    by_cases h0 : b = 0
    · subst h0
      rw [if_pos rfl, Nat.zero_add, Nat.mod_eq_of_lt (by omega : N - 1 < N)]
      unfold edgeField
      by_cases ha0 : a = 0
      · subst ha0; simp
      · rcases h with rfl | h
        · omega
        · have hm : (2 ^ 64 - 1) % N ≠ 0 := fun hm => h (Nat.dvd_of_mod_eq_zero hm)
          rw [if_neg, if_neg]
          · have : N ≠ 1 := by rintro rfl; exact h (one_dvd _)
            simp; omega
          · simp only [List.mem_cons, List.not_mem_nil, or_false]; omega
    · rw [if_neg h0, Nat.mod_eq_of_lt (by omega : b - 1 < N)]
      have : b + (N - 1) = (b - 1) + N := by omega
      rw [this, Nat.add_mod_right, Nat.mod_eq_of_lt (by omega : b - 1 < N)]

/-- C65 (part): for every command line with known options only and without help, a power of two as number of cells, and every
number of processes for which the grid can be decomposed, all ranks end with status 0; they list each cell of the grid once,
with the difference of its neighbours; with `-vtk` the file holds these values. Exact arithmetic.
Missing: other numbers of cells (`C65_values_fails`); grids that cannot be decomposed (`C65_no_decomposition`). -/
theorem C65_run_partial [LinearOrder K] [HasMax K] [DoubleText K] (sz : Nat) (exec : Str) (args : List Str)
    (h : AllKnown stencil2dNames args) (N : Nat) (h1 : IntValue Reads args "-numCells".toList 8 N)
    (hh : flagValue args "-h".toList = false) (hr : InRange sz [N, N]) (hex : ∃ d, ValidDecomp sz [N, N] d)
    (hcells : N * N ≤ 2 ^ 31) (hN : N ∣ 2 ^ 64) (hw : ∀ x : K, IsWord (DoubleText.showDouble x)) :
    ∃ (boxes : List (List Nat × List Nat)) (files : List (Str × Str)), boxes.length = sz ∧
      (boxes.flatMap fun b => cellList b.1 b.2).Nodup ∧
      (∀ g, g ∈ (boxes.flatMap fun b => cellList b.1 b.2) ↔ InGrid [N, N] g) ∧
      (flagValue args "-vtk".toList = false → files = []) ∧
      (flagValue args "-vtk".toList = true → ∃ text, files = [("stencil2d.vtk".toList, text)] ∧
        StructFile DoubleText.showDouble [N, N] [(0 : K), 0] [1, 1] (crossDifference N (edgeField (R := K))) text) ∧
      Stencil2d.main (R := K) sz (exec :: args) = .ok ⟨boxes.zipIdx.map fun (b, rk) => {
        out := if rk = 0 then fileNote "stencil2d.vtk".toList (flagValue args "-vtk".toList) else []
        err := ("[" ++ toString rk ++ "] outData: \n").toList ++ listing DoubleText.showDouble rk "outData" b.1 b.2
          (crossDifference N (edgeField (R := K)))
        files := if rk = 0 then files else [], status := 0 }⟩ := by
  have hpos : 0 < N := hr.pos N (by simp)
  have h31 : N < 2 ^ 31 := hr.ext N (by simp)
  obtain ⟨d, hv, hok, -⟩ := C65_every_size (R := K) sz exec args h N h1 hh hr hex hcells hw
  obtain ⟨boxes, files, hl, hnd, hmem, hext, hno, hyes, e⟩ := hok (by
    intro i hi
    left
    match i, hi with
    | 0, hi => simp at hi
    | 1, _ => exact hN
    | i + 2, hi => simp at hi)
  have hval := (C65_values_iff (K := K) N hpos h31).2 (by
    by_cases h1 : N = 1
    · exact .inl h1
    · right
      intro hd
      have := (Nat.dvd_sub hN hd : N ∣ 2 ^ 64 - (2 ^ 64 - 1))
      exact h1 (Nat.dvd_one.1 this))
  refine ⟨boxes, files, hl, hnd, hmem, hno, ?_, ?_⟩
  · intro hvt
    obtain ⟨text, e1, e2⟩ := hyes hvt
    exact ⟨text, e1, structFile_congr e2 hval⟩
  · rw [e]
    congr 2
    apply List.map_congr_left
    rintro ⟨b, rk⟩ hb
    have hb' : b ∈ boxes := by
      obtain ⟨_, h2⟩ := List.mem_zipIdx' hb
      rw [h2]; exact List.getElem_mem _
    have hlt : listing DoubleText.showDouble rk "outData" b.1 b.2 (stencilStep64 [N, N] (stencil2d : List (List Int × K)) edgeField) =
        listing DoubleText.showDouble rk "outData" b.1 b.2 (crossDifference N (edgeField (R := K))) := by
      unfold listing
      rw [List.flatMap_def, List.flatMap_def]
      congr 1
      apply List.map_congr_left
      intro t ht
      rw [hval t ((hmem t).1 (List.mem_flatMap.2 ⟨b, hb', ht⟩))]
    dsimp only
    rw [hlt]

/-- C65 is false: the values are not always those of the difference of neighbours. -/
theorem C65_values_fails : ¬ ∀ N, 0 < N → N < 2 ^ 31 → ∀ g, InGrid [N, N] g →
    stencilStep64 [N, N] (stencil2d : List (List Int × K)) edgeField g = crossDifference N edgeField g := by
  intro h
  have := (C65_values_iff (K := K) 3 (by decide) (by decide)).1 (h 3 (by decide) (by decide))
  rcases this with h | h
  · omega
  · exact h (by decide)

/-- C65 is false: the function is not "zero everywhere except in first cell", as its comment says. -/
theorem C65_first_cell_fails : ¬ ∀ g : List Nat, InGrid [2, 2] g → g ≠ [0, 0] → (Stencil2d.func g : K) = 0 := by
  intro h
  have := h [0, 1] (by decide) (by decide)
  exact one_ne_zero (α := K) this

end

/-! ### Concrete cases -/

local instance stencil2dText : DoubleText ℚ := ⟨fun _ => 0, fun q => if q = 0 then ['0'] else if q = 1 then ['1'] else ['q']⟩
local instance stencil2dMax : HasMax ℚ := ⟨1000⟩

/-- A command line for `n` cells along each axis. -/
def s2Args (n : Char) : List Str := ["-numCells".toList, [n], "-vtk".toList]

theorem s2Args_known (n : Char) (hn : n ≠ '-') : AllKnown stencil2dNames (s2Args n) := by
  intro a ha h
  simp only [s2Args, List.mem_cons, List.not_mem_nil, or_false] at ha
  rcases ha with rfl | rfl | rfl
  · decide
  · obtain ⟨_, _, h, _⟩ := h
    simp at h
  · decide

/-- The outcome without the text of the file. -/
def outcome (x : M MpiExit) : M (List (String × String × List String × Int)) :=
  x.map fun r => r.ranks.map fun e => (String.ofList e.out, String.ofList e.err, e.files.map (String.ofList ·.1), e.status)

/-- Non-vacuity of `C65_every_size` and `C65_run_partial`: 2 x 2 cells on 2 processes. -/
example : AllKnown stencil2dNames (s2Args '2') ∧ IntValue Reads (s2Args '2') "-numCells".toList 8 (2 : Nat) ∧
    flagValue (s2Args '2') "-h".toList = false ∧ flagValue (s2Args '2') "-vtk".toList = true ∧ InRange 2 [2, 2] ∧
    (∃ d, ValidDecomp 2 [2, 2] d) ∧ (∀ d, WrapLocal [2, 2] d [0, -1]) ∧ 2 ∣ 2 ^ 64 ∧
    (∀ x : ℚ, IsWord (DoubleText.showDouble x)) ∧
    outcome (Stencil2d.main (R := ℚ) 2 ("stencil2d".toList :: s2Args '2')) = .ok
      [("Data will be written to file stencil2d.vtk\n",
          "[0] outData: \n\t[0] inds = 0 0  outData = 0\n\t[0] inds = 1 0  outData = 1\n", ["stencil2d.vtk"], 0),
        ("", "[1] outData: \n\t[1] inds = 0 1  outData = q\n\t[1] inds = 1 1  outData = 0\n", [], 0)] := by
  refine ⟨s2Args_known _ (by decide), intValue_only 0 (v := ['2']) (by decide) (by decide) rfl (by decide), by decide,
    by decide, ⟨by decide, by decide, by decide, by decide, by decide, by decide, by decide, by decide⟩,
    ⟨[2, 1], .cons (by decide) (.cons (by decide) .nil), rfl⟩, ?_, by decide, ?_, by decide +kernel⟩
  · intro d i hi
    left
    match i, hi with
    | 0, hi => simp at hi
    | 1, _ => decide
    | i + 2, hi => simp at hi
  · intro x
    show IsWord (if x = 0 then ['0'] else if x = 1 then ['1'] else ['q'])
    split
    · exact ⟨by decide, by decide⟩
    · split <;> exact ⟨by decide, by decide⟩

/-- Both cases of `C65_every_size` and that of `C65_no_decomposition` occur: 6 x 6 cells end with a read out of bounds on 2
processes, not on 1; 7 x 7 cells cannot be decomposed for 2 processes. -/
example : IntValue Reads (s2Args '6') "-numCells".toList 8 (6 : Nat) ∧ InRange 2 [6, 6] ∧ (∃ d, ValidDecomp 2 [6, 6] d) ∧
    outcome (Stencil2d.main (R := ℚ) 2 ("stencil2d".toList :: s2Args '6')) = .error .outOfBounds ∧
    (outcome (Stencil2d.main (R := ℚ) 1 ("stencil2d".toList :: s2Args '6'))).isOk = true ∧
    IntValue Reads (s2Args '7') "-numCells".toList 8 (7 : Nat) ∧ InRange 2 [7, 7] ∧
    outcome (Stencil2d.main (R := ℚ) 2 ("stencil2d".toList :: s2Args '7')) = .error .uninitialized ∧
    ¬ ∃ d, ValidDecomp 2 [7, 7] d := by
  refine ⟨intValue_only 0 (v := ['6']) (by decide) (by decide) rfl (by decide),
    ⟨by decide, by decide, by decide, by decide, by decide, by decide, by decide, by decide⟩,
    ⟨[2, 1], .cons (by decide) (.cons (by decide) .nil), rfl⟩, by decide +kernel, by decide +kernel,
    intValue_only 0 (v := ['7']) (by decide) (by decide) rfl (by decide),
    ⟨by decide, by decide, by decide, by decide, by decide, by decide, by decide, by decide⟩, by decide +kernel, ?_⟩
  rintro ⟨d, h1, h2⟩
  match d, h1, h2 with
  | [a, b], .cons ha (.cons hb .nil), h2 =>
    have h2 : a * b = 2 := by simpa using h2
    have hab : a ∣ 2 := ⟨b, h2.symm⟩
    have : a = 1 ∨ a = 2 := (Nat.dvd_prime Nat.prime_two).1 hab
    rcases this with rfl | rfl
    · have : b = 2 := by omega
      subst this
      revert hb; decide
    · revert ha; decide

/-- Non-vacuity of `C65_values_iff`: 3 cells are wrong, 6 and 8 are right. -/
example : ¬ (3 = 1 ∨ ¬ 3 ∣ 2 ^ 64 - 1) ∧ (6 = 1 ∨ ¬ 6 ∣ 2 ^ 64 - 1) ∧ (8 = 1 ∨ ¬ 8 ∣ 2 ^ 64 - 1) := by decide

/-- Non-vacuity of `C65_unknown_option`. -/
example : ¬ AllKnown stencil2dNames ["-numDims".toList, "3".toList] ∧
    outcome (Stencil2d.main (R := ℚ) 2 ["stencil2d".toList, "-numDims".toList, "3".toList]) = .ok
      [("-numDims is not a valid option.\n" ++ String.ofList (stencil2dHelp "stencil2d".toList 8 false false),
          "ERROR when parsing command line arguments\n", [], 0),
        ("-numDims is not a valid option.\n" ++ String.ofList (stencil2dHelp "stencil2d".toList 8 false false), "", [], 0)] := by
  refine ⟨?_, by decide +kernel⟩
  intro h
  have := h "-numDims".toList (by simp) ⟨'n', "umDims".toList, by decide, by decide⟩
  revert this
  decide

/-- Non-vacuity of `C65_help`. -/
example : AllKnown stencil2dNames ["-numCells".toList, "5".toList, "-h".toList] ∧
    IntValue Reads ["-numCells".toList, "5".toList, "-h".toList] "-numCells".toList 8 5 ∧
    flagValue ["-numCells".toList, "5".toList, "-h".toList] "-h".toList = true ∧
    outcome (Stencil2d.main (R := ℚ) 1 ["stencil2d".toList, "-numCells".toList, "5".toList, "-h".toList]) = .ok
      [(String.ofList (stencil2dHelp "stencil2d".toList 5 true false), "", [], 0)] := by
  refine ⟨?_, intValue_only 0 (v := ['5']) (by decide) (by decide) rfl (by decide), by decide, by decide +kernel⟩
  intro a ha h
  simp only [List.mem_cons, List.not_mem_nil, or_false] at ha
  rcases ha with rfl | rfl | rfl
  · decide
  · obtain ⟨_, _, h, _⟩ := h
    simp at h
  · decide

end Fidi
