import Verif.Props.MainsMpiAny
import Verif.Props.IeeeFilter
import Verif.Props.FormatG

/-
C80 for upwindMpi: the complete text it writes with IEEE numbers, whatever the order in which MPI adds.
-/
set_option linter.unusedSectionVars false

namespace Fidi
open Spec CmdLineArgParser

theorem shift64_pow : ∀ {dims : List Nat}, (∀ n ∈ dims, n ∣ 2 ^ 64) → ∀ g s, shift64 dims g s = shiftMod dims g s
  | [], _, _, _ => rfl
  | _ :: _, _, [], _ => rfl
  | _ :: _, _, _ :: _, [] => rfl
  | n :: ns, h, x :: xs, s :: ss => by
    have hn : (n : Int) ∣ 2 ^ 64 := by exact_mod_cast h n List.mem_cons_self
    show _ :: _ = _ :: _
    rw [shift64_pow (fun m hm => h m (List.mem_cons_of_mem _ hm)) xs ss]
    congr 1
    rw [← Int.emod_emod_of_dvd _ hn]
    have h0 : 0 ≤ ((x : Int) + s) % 2 ^ 64 := Int.emod_nonneg _ (by norm_num)
    obtain ⟨m, hm⟩ := Int.eq_ofNat_of_zero_le h0
    rw [hm]
    rfl

theorem stencilIter64_pow {R : Type} [Zero R] [Add R] [Mul R] {dims : List Nat} (h : ∀ n ∈ dims, n ∣ 2 ^ 64)
    (st : List (List Int × R)) (u : List Nat → R) (k : Nat) : stencilIter64 dims st u k = stencilIter dims st u k := by
  induction k with
  | zero => rfl
  | succ k ih =>
    funext g
    show stencilStep64 dims st (stencilIter64 dims st u k) g = stencilStep dims st (stencilIter dims st u k) g
    rw [ih]
    unfold stencilStep64 stencilStep
    simp only [shift64_pow h]

/-- The check sums of the fields of upwindMpi are finite and near 1. -/
theorem mpi_gridSum_double {sz N : Nat} (hr : InRange sz [N, N, N]) (hN : N ∣ 2 ^ 64)
    (hex : ∃ d, ValidDecomp sz [N, N, N] d) {d : List Nat}
    (hbd : CubeDecomp.build F64 CubeDecomp.empty sz [N, N, N] = .ok (true, movedDecomp sz [N, N, N] d 0))
    (k : Nat) (hk : k < 2 ^ 31) (hc : N ≤ 2 ^ 11) {s : F64}
    (hs : GridSum [N, N, N] d (stencilIter64 [N, N, N] (mpiStencil HasMax.dblMax (F64.fin ⟨rnd (1 / 10)⟩) N) cornerField k) s) :
    ∃ x : Dbl, s = .fin x ∧ |x.val - 1| ≤ (((N ^ 3 / sz : Nat) : ℚ) + sz + 19 * k + 1) / 2 ^ 52 := by
  obtain ⟨c, hb, hf, hcn, hcd, _, _, hst, haxis, w, w0, es, _, e0, _, hall⟩ :=
    mpi_runs_build (R := F64) (by decide +kernel) (F64.fin ⟨rnd (1 / 10)⟩) sz N hr hN hex
  have hdd : c.d = d := by
    rw [hb] at hbd
    exact congrArg (fun p : Bool × CubeDecomp => p.2.decomp) (Except.ok.inj hbd)
  obtain ⟨wk, ek, hval, hwk⟩ := hall k
  have hrun : UpwindMpi.run (F64.fin ⟨rnd (1 / 10)⟩) sz N k = .ok wk := by
    unfold UpwindMpi.run
    rw [es, M.ok_bind, hval, e0, M.ok_bind, szOfInt_ofNat (by unfold W; omega), ek]
  obtain ⟨w1, a1, h1⟩ := world_apply hf hwk
  have hg := hf.toGood
  obtain ⟨v, v', u, r1, r2, _, _, _, v1, v1', b1, b2, hsum, _⟩ := C69_upwindMpi sz N hr hN hex k hk
  obtain ⟨y, _, r3, _, _, _, y1, b3, _, hy⟩ := C68_upwindMpi_double sz N hr hN hex k hk
  obtain rfl := Except.ok.inj (r3.symm.trans r1)
  obtain rfl := Except.ok.inj (b3.symm.trans b1)
  obtain rfl := Except.ok.inj (hrun.symm.trans r2)
  obtain rfl := Except.ok.inj (a1.symm.trans b2)
  obtain ⟨w2, _, _, hback⟩ := world_sums_any hg (by rw [hcn]; exact hr.procs1) h1 true
  have hcorner : ∀ g, InGrid [N, N, N] g → UpwindMpi.initialCondition (R := F64) g = cornerField g := by
    intro g hg
    obtain ⟨a, b, c, rfl, ha, hb, hc⟩ := cell3 hg
    apply initialCondition_eq
    simp only [List.sum_cons, List.sum_nil]
    omega
  have hs' : GridSum c.dims c.d (if true then stencilIter c.dims c.st UpwindMpi.initialCondition k else
      stencilStep c.dims c.st (stencilIter c.dims c.st UpwindMpi.initialCondition k)) s := by
    rw [if_pos rfl, hdd, hcd, ← stencilIter64_pow (by simpa using hN)]
    refine (gridSum_congr (hcd ▸ hdd ▸ hg.good.valid.1) fun g hgrid => ?_).1 hs
    rw [hst] at haxis ⊢
    exact (stencilIter64_congr (fun p hp => (haxis p hp).1) hcorner k g hgrid).symm
  obtain ⟨rs', hcs, hr0⟩ := hback s hs'
  obtain ⟨rs, z, hrs, rfl⟩ := (hsum rs').1 ⟨_, hcs⟩
  obtain ⟨⟨x, hx, hb⟩, _⟩ := hy rs z hrs
  refine ⟨x, ?_, hb⟩
  rw [List.getElem?_map, hx] at hr0
  exact (Option.some.inj hr0).symm

theorem gridSum_zero {dims d : List Nat} {s : F64} (h : GridSum dims d (fun _ => (0 : F64)) s) : s = 0 := by
  have h00 : (0 : F64) + 0 = 0 := by decide +kernel
  have hfold : ∀ l : List F64, (∀ x ∈ l, x = 0) → l.foldl (· + ·) 0 = 0 := by
    intro l
    induction l with
    | nil => intro _; rfl
    | cons a l ih =>
      intro hl
      rw [List.foldl_cons, hl a List.mem_cons_self, h00]
      exact ih fun x hx => hl x (List.mem_cons_of_mem _ hx)
  have key : ∀ (l : List F64) (s : F64), AnySum l s → (∀ x ∈ l, x = 0) → s = 0 := by
    intro l s h
    induction h with
    | one x => intro h; exact h x List.mem_cons_self
    | add _ _ h1 h2 =>
      intro h
      rw [h1 fun x hx => h x (List.mem_append_left _ hx), h2 fun x hx => h x (List.mem_append_right _ hx), h00]
    | perm hp _ ih => intro h; exact ih fun x hx => h x (hp.mem_iff.1 hx)
  refine key _ s h fun x hx => ?_
  obtain ⟨t, _, rfl⟩ := List.mem_map.1 hx
  refine hfold _ fun x hx => ?_
  obtain ⟨_, _, rfl⟩ := List.mem_map.1 hx
  rfl

/-- The lines of the time loop when every check sum is written as 1. -/
theorem sumsText_one {R : Type} (shw : R → List Char) : ∀ (sums : List (R × R)) (i : Nat),
    (∀ p ∈ sums, shw p.1 = "1".toList ∧ shw p.2 = "1".toList) →
    ((sums.zipIdx i).flatMap fun p =>
      ("iter " ++ toString p.2 ++ " check sum  in/out = ").toList ++ shw p.1.1 ++ " / ".toList ++ shw p.1.2 ++ "\n".toList) =
    (List.range' i sums.length).flatMap fun j => ("iter " ++ toString j ++ " check sum  in/out = 1 / 1\n").toList
  | [], _, _ => rfl
  | p :: sums, i, h => by
    rw [List.zipIdx_cons, List.flatMap_cons, List.length_cons, List.range'_succ, List.flatMap_cons,
      sumsText_one shw sums (i + 1) fun q hq => h q (List.mem_cons_of_mem _ hq), (h p List.mem_cons_self).1,
      (h p List.mem_cons_self).2]
    congr 1
    simp only [String.toList_append, List.append_assoc]
    rfl

variable [DoubleText F64]

/-- C80: upwindMpi with IEEE numbers writes one text only, whatever the order in which MPI adds: for every command line with
known options and without help, every power of two of cells per axis, every number of processes for which the grid can be
decomposed and every number `n` of steps with `N^3 / processes + processes + 19 n < 2251799813`, all check sums of the time
loop are written `1`, and so is the last one, except that it is written `0` if there is no step. -/
theorem C80_upwindMpi_check_sum (htext : ∀ x : F64, DoubleText.showDouble x = x.text) (times : Str) (sz : Nat) (exec : Str)
    (args : List Str) (h : AllKnown (upwindNames false) args) (N : Nat) (steps : Int)
    (h1 : IntValue Reads args "-numCells".toList 128 N) (h2 : IntValue Reads args "-numSteps".toList 10 steps)
    (hh : flagValue args "-h".toList = false) (hr : InRange sz [N, N, N]) (hcells : N * N * N ≤ 2 ^ 31)
    (hex : ∃ d, ValidDecomp sz [N, N, N] d) (hN : N ∣ 2 ^ 64) (hsteps : 0 ≤ steps)
    (hsmall : N ^ 3 / sz + sz + 19 * steps.toNat < 2251799813) :
    ∃ files, (flagValue args "-vtk".toList = false → files = []) ∧
      ∀ x, UpwindMpi.Main (F64.fin ⟨rnd (1 / 10)⟩) times sz (exec :: args) x ↔
        x = .ok ⟨(List.range sz).map fun rk => if rk = 0 then {
            out := ((List.range steps.toNat).flatMap fun j =>
                ("iter " ++ toString j ++ " check sum  in/out = 1 / 1\n").toList) ++
              fileNote "upMpi.vtk".toList (flagValue args "-vtk".toList) ++
              " times min/max/avg: ".toList ++ times ++ " [seconds]\n".toList ++
              (if steps = 0 then "Check sum: 0\n".toList else "Check sum: 1\n".toList)
            err := [], files := files, status := 0 } else { out := [], err := [], files := [], status := 0 }⟩ := by
  have hN0 : 0 < N := hr.pos N (by simp)
  have hN11 : N ≤ 2 ^ 11 := by
    by_contra hlt
    have h1 : 2 ^ 11 ≤ N := by omega
    have h2 : (2 ^ 11) * (2 ^ 11) * 2 ^ 11 ≤ N * N * N := Nat.mul_le_mul (Nat.mul_le_mul h1 h1) h1
    omega
  have hm : steps.toNat < 2 ^ 31 := by
    generalize N ^ 3 / sz = q at hsmall
    omega
  have hn : (steps % 2 ^ 64).toNat = steps.toNat := by
    rw [Int.emod_eq_of_lt hsteps (by omega)]
  obtain ⟨d, hb, hv, hall, -⟩ := upwindMpi_outcomes (R := F64) (by decide +kernel) (F64.fin ⟨rnd (1 / 10)⟩) times sz exec args h N
    steps h1 h2 hh hr hcells hex (words_of htext).1
  rw [hn] at hall
  obtain ⟨files, f1, -, hall⟩ := hall (.inr (.inl hN))
  have hone : ∀ k ≤ steps.toNat, ∀ s : F64, GridSum [N, N, N] d
      (stencilIter64 [N, N, N] (mpiStencil HasMax.dblMax (F64.fin ⟨rnd (1 / 10)⟩) N) cornerField k) s →
      DoubleText.showDouble s = "1".toList := by
    intro k hk s hs
    obtain ⟨x, rfl, hx⟩ := mpi_gridSum_double hr hN hex hb k (by omega) hN11 hs
    rw [htext, C80_one_iff]
    have hb : (((N ^ 3 / sz : Nat) : ℚ) + sz + 19 * k + 1) ≤ 2251799813 := by
      have : N ^ 3 / sz + sz + 19 * k + 1 ≤ 2251799813 := by
        generalize N ^ 3 / sz = q at hsmall
        omega
      exact_mod_cast this
    have hb2 : (((N ^ 3 / sz : Nat) : ℚ) + sz + 19 * k + 1) / 2 ^ 52 ≤ 5 / 10 ^ 7 := by
      rw [div_le_iff₀ (by positivity)]
      refine hb.trans (by norm_num)
    have := abs_le.1 (hx.trans hb2)
    constructor
    · linarith
    · have : (5 : ℚ) / 10 ^ 7 ≤ 5 / 10 ^ 6 := by norm_num
      linarith
  have hlast : ∀ s : F64, GridSum [N, N, N] d (if steps.toNat = 0 then fun _ => 0 else
      stencilIter64 [N, N, N] (mpiStencil HasMax.dblMax (F64.fin ⟨rnd (1 / 10)⟩) N) cornerField steps.toNat) s →
      "Check sum: ".toList ++ DoubleText.showDouble s ++ "\n".toList =
        if steps = 0 then "Check sum: 0\n".toList else "Check sum: 1\n".toList := by
    intro s hs
    by_cases h0 : steps = 0
    · subst h0
      rw [if_pos (show Int.toNat 0 = 0 from rfl)] at hs
      rw [if_pos rfl, gridSum_zero hs, htext]
      decide +kernel
    · rw [if_neg (by omega)] at hs
      rw [if_neg h0, hone _ le_rfl s hs]
      rfl
  have htxt : ∀ (sums : List (F64 × F64)), sums.length = steps.toNat →
      (∀ j p, sums[j]? = some p →
        GridSum [N, N, N] d (stencilIter64 [N, N, N] (mpiStencil HasMax.dblMax (F64.fin ⟨rnd (1 / 10)⟩) N) cornerField j) p.1 ∧
        GridSum [N, N, N] d
          (stencilIter64 [N, N, N] (mpiStencil HasMax.dblMax (F64.fin ⟨rnd (1 / 10)⟩) N) cornerField (j + 1)) p.2) →
      sumsText DoubleText.showDouble sums = (List.range steps.toNat).flatMap fun j =>
        ("iter " ++ toString j ++ " check sum  in/out = 1 / 1\n").toList := by
    intro sums hl hs
    unfold sumsText
    rw [sumsText_one DoubleText.showDouble sums 0, hl, List.range_eq_range']
    intro p hp
    obtain ⟨j, hj, e⟩ := List.getElem_of_mem hp
    obtain ⟨a, b⟩ := hs j p (by rw [← e]; exact List.getElem?_eq_getElem hj)
    exact ⟨hone j (by omega) _ a, hone (j + 1) (by omega) _ b⟩
  refine ⟨files, f1, fun x => (hall x).trans ⟨?_, ?_⟩⟩
  · rintro ⟨sums, last, l1, l2, l3, rfl⟩
    rw [htxt sums l1 l2, ← hlast last l3]
    simp only [List.append_assoc]
  · rintro rfl
    have hd0 : ∀ k ∈ d, 0 < k := by
      have := hr.pos
      intro k hk
      obtain ⟨i, hi, rfl⟩ := List.getElem_of_mem hk
      have hi' : i < [N, N, N].length := by rw [hv.1.length_eq]; exact hi
      have hdvd := List.forall₂_iff_get.1 hv.1 |>.2 i hi' hi
      exact Nat.pos_of_dvd_of_pos hdvd (hr.pos _ (List.getElem_mem hi'))
    have hne : cellList (List.replicate d.length 0) d ≠ [] := by
      have hin := cellAt_inGrid hd0 0
      have := (mem_cellList (by simp) _).2 (inBox_zero.2 hin)
      exact List.ne_nil_of_mem this
    have hsome : ∀ u : List Nat → F64, ∃ s, GridSum [N, N, N] d u s := fun u => anySum_exists (by simpa using hne)
    choose S hS using hsome
    refine ⟨(List.range steps.toNat).map fun j =>
      (S (stencilIter64 [N, N, N] (mpiStencil HasMax.dblMax (F64.fin ⟨rnd (1 / 10)⟩) N) cornerField j),
        S (stencilIter64 [N, N, N] (mpiStencil HasMax.dblMax (F64.fin ⟨rnd (1 / 10)⟩) N) cornerField (j + 1))),
      S _, by simp, fun j p hj => ?_, hS _, ?_⟩
    · rw [List.getElem?_map] at hj
      obtain ⟨i, hi, rfl⟩ := Option.map_eq_some_iff.1 hj
      obtain ⟨hi1, rfl⟩ := List.getElem?_eq_some_iff.1 hi
      rw [List.getElem_range]
      exact ⟨hS _, hS _⟩
    · rw [htxt _ (by simp) ?_, ← hlast _ (hS _)]
      · simp only [List.append_assoc]
      · intro j p hj
        rw [List.getElem?_map] at hj
        obtain ⟨i, hi, rfl⟩ := Option.map_eq_some_iff.1 hj
        obtain ⟨hi1, rfl⟩ := List.getElem?_eq_some_iff.1 hi
        rw [List.getElem_range]
        exact ⟨hS _, hS _⟩

/-! ### A concrete case -/

private def doubleArgs : List Str := ["-numSteps".toList, "2".toList, "-numCells".toList, "8".toList]

/-- 8 cells per axis on 16 processes and two steps: what every process writes. -/
example (htext : ∀ x : F64, DoubleText.showDouble x = x.text) (x : M MpiExit) :
    UpwindMpi.Main (F64.fin ⟨rnd (1 / 10)⟩) "t".toList 16 ("upwindMpi".toList :: doubleArgs) x ↔
    x = .ok ⟨(List.range 16).map fun rk => if rk = 0 then {
      out := ("iter 0 check sum  in/out = 1 / 1\niter 1 check sum  in/out = 1 / 1\n times min/max/avg: t [seconds]\n" ++
        "Check sum: 1\n").toList
      err := [], files := [], status := 0 } else { out := [], err := [], files := [], status := 0 }⟩ := by
  have hk : AllKnown (upwindNames false) doubleArgs := by
    intro a ha h
    simp only [doubleArgs, List.mem_cons, List.not_mem_nil, or_false] at ha
    rcases ha with rfl | rfl | rfl | rfl
    · decide
    · obtain ⟨_, _, h, _⟩ := h; simp at h
    · decide
    · obtain ⟨_, _, h, _⟩ := h; simp at h
  obtain ⟨files, f1, hall⟩ := C80_upwindMpi_check_sum htext "t".toList 16 "upwindMpi".toList doubleArgs hk 8 2
    (intValue_only 2 (v := "8".toList) (by decide) (by decide) rfl (by decide))
    (intValue_only 0 (v := "2".toList) (by decide) (by decide) rfl (by decide)) (by decide)
    ⟨by decide, by decide, by decide, by decide, by decide, by decide, by decide, by decide⟩ (by decide)
    ⟨[4, 4, 1], .cons (by decide) (.cons (by decide) (.cons (by decide) .nil)), rfl⟩ (by decide) (by decide) (by decide)
  obtain rfl := f1 (by decide)
  refine (hall x).trans ?_
  rw [if_neg (by decide)]
  rfl

end Fidi
