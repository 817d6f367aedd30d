import Verif.Lemmas.TestDrivers
import Verif.Props.UpwindPrint
import Verif.Props.FilterPrint
import Verif.Model.Exact
import Mathlib.Tactic.IntervalCases

/-
Property C67: what the test drivers testCubeDecomp and testMultiArrayIter write.
-/
set_option linter.unusedSectionVars false

namespace Fidi
open Spec MultiArrayIter TestDrivers

/-- What the order of `rowList` is: all cells of the box, each once, the cell with row-major position `i` at place `i`. -/
theorem rowList_spec {lo hi : List Nat} (hb : BoxLt lo hi) : (rowList lo hi).length = volume lo hi ∧ (rowList lo hi).Nodup ∧
    (∀ t, t ∈ rowList lo hi ↔ InBox lo hi t) ∧
    ∀ x, InGrid (extents lo hi) x → (rowList lo hi)[rankOf (extents lo hi) x]? = some (List.zipWith (· + ·) lo x) := by
  have hl : rowList lo hi = (List.range (volume lo hi)).map (tupleAt true lo hi) := by simpa using boxList_eq true hb
  have hlen : (rowList lo hi).length = volume lo hi := by rw [hl]; simp
  refine ⟨hlen, ?_, ?_, ?_⟩
  · rw [hl]
    refine List.Nodup.map_on ?_ List.nodup_range
    intro i hi' j hj e
    rw [List.mem_range] at hi' hj
    have := congrArg (flatOf true lo hi) e
    rwa [flatOf_tupleAt true hb, flatOf_tupleAt true hb, Nat.mod_eq_of_lt hi', Nat.mod_eq_of_lt hj] at this
  · intro t
    rw [hl, List.mem_map]
    constructor
    · rintro ⟨i, -, rfl⟩
      exact tupleAt_inBox true hb i
    · intro ht
      exact ⟨_, List.mem_range.2 (flatOf_lt true ht), tupleAt_flatOf true ht⟩
  · intro x hx
    rw [rowList, List.getElem?_map, (rowCells_spec _).2.2.2 x hx]
    rfl

section
variable {R : Type} [Div R] [NatCast R] [LT R] [DecidableLT R] [HasMax R]

/-- C67: testCubeDecomp. If the grid can be decomposed, the driver reports on the decomposition found: every process in the
order of the ranks, with its sub-domain and its neighbours in the periodic process grid. If it cannot, the driver reads an
iterator that was never built. -/
theorem C67_decomp (nprocs : Nat) (dims : List Nat) (hp1 : 1 ≤ nprocs) (hp2 : nprocs ≤ 2 ^ 30) (hne : dims ≠ [])
    (hpos : ∀ n ∈ dims, 0 < n) (hax : dims.length < 32) (hsize : dims.prod ≤ 2 ^ 32) :
    ((∃ d, ValidDecomp nprocs dims d) → ∃ c, CubeDecomp.empty.build R nprocs dims = .ok (true, c) ∧
      ValidDecomp nprocs dims c.getDecomp ∧ testCubeDecomp R nprocs dims = .ok (decompText nprocs dims c.getDecomp)) ∧
    ((¬ ∃ d, ValidDecomp nprocs dims d) → testCubeDecomp R nprocs dims = .error .uninitialized) := by
  have hlt : ∀ n ∈ dims, n < 2 ^ 64 := fun n hn => by
    have h0 : dims.prod ≠ 0 := fun h0 => absurd (hpos 0 (List.prod_eq_zero_iff.1 h0)) (by omega)
    have := Nat.le_of_dvd (Nat.pos_of_ne_zero h0) (List.dvd_prod hn)
    omega
  obtain ⟨b, c, h, hb, -⟩ := C08_found_iff_exists_partial (R := R) CubeDecomp.empty nprocs dims hp1 (by omega) hne hpos hax hsize
  constructor
  · intro hd
    rw [hb.2 hd] at h
    have hv := C07_found_is_valid_partial (R := R) CubeDecomp.empty c nprocs dims hp1 (by omega) hne hpos hax hsize h
    obtain ⟨g, hc⟩ := good_of_build (by omega) hpos hlt (by omega) h hv
    refine ⟨c, h, hv, testCubeDecomp_eq g hp2 (b := true) ?_⟩
    rw [← hc]
    exact h
  · intro hd
    have hE := EnumOK.of_prod hne hpos hax hsize
    by_cases hv : validList nprocs dims = []
    · exact testCubeDecomp_none hp1 (build_none (R := R) CubeDecomp.empty nprocs dims hE hv) rfl
    · have := build_some (R := R) CubeDecomp.empty nprocs dims hE hv
      rw [h] at this
      injection this with this
      injection this with this
      exact absurd (hb.1 this) hd

/-- C67: the output of testCubeDecomp, if the quotient 8/4 is less than the largest floating-point number. -/
theorem C67_decomp_main (h : ((8 : Nat) : R) / ((4 : Nat) : R) < HasMax.dblMax) :
    mainCubeDecomp R =
      .ok (decompText 2 [10] [2] ++ decompText 6 [3, 2] [3, 2] ++ decompText 6 [2, 3, 4] [1, 3, 2]) := by
  have key : ∀ (nprocs : Nat) (dims d : List Nat), 1 ≤ nprocs → nprocs ≤ 2 ^ 30 → dims ≠ [] → (∀ n ∈ dims, 0 < n) →
      dims.length < 32 → dims.prod ≤ 2 ^ 32 → ValidDecomp nprocs dims d → validList nprocs dims ≠ [] →
      bestOf (costW R dims) (validList nprocs dims) = d → testCubeDecomp R nprocs dims = .ok (decompText nprocs dims d) := by
    intro nprocs dims d hp1 hp2 hne hpos hax hsize hd hv hb
    obtain ⟨c, h1, h2, h3⟩ := (C67_decomp (R := R) nprocs dims hp1 hp2 hne hpos hax hsize).1 ⟨d, hd⟩
    have h4 := build_some (R := R) CubeDecomp.empty nprocs dims (EnumOK.of_prod hne hpos hax hsize) hv
    rw [h1] at h4
    injection h4 with h4
    injection h4 with _ h4
    rw [h3, h4, hb]
    rfl
  have v1 : validList (2 : Nat) [10] = [[2]] := by decide +kernel
  have v2 : validList (6 : Nat) [3, 2] = [[3, 2]] := by decide +kernel
  have v3 : validList (6 : Nat) [2, 3, 4] = [[2, 3, 1], [1, 3, 2]] := by decide +kernel
  have e1 := key 2 [10] [2] (by decide) (by decide) (by decide) (by decide) (by decide) (by decide)
    ⟨by decide, by decide⟩ (by rw [v1]; decide) (by rw [v1]; rfl)
  have e2 := key 6 [3, 2] [3, 2] (by decide) (by decide) (by decide) (by decide) (by decide) (by decide)
    ⟨by decide, by decide⟩ (by rw [v2]; decide) (by rw [v2]; rfl)
  have e3 := key 6 [2, 3, 4] [1, 3, 2] (by decide) (by decide) (by decide) (by decide) (by decide) (by decide)
    ⟨by decide, by decide⟩ (by rw [v3]; decide) (by
      rw [v3]
      have hc : costW R [2, 3, 4] [1, 3, 2] = ((8 : Nat) : R) / ((4 : Nat) : R) := by
        unfold costW
        rw [show surfW (localExtents [2, 3, 4] [1, 3, 2]) = 8 by decide +kernel,
          show (localExtents [2, 3, 4] [1, 3, 2]).prod % W = 4 by decide +kernel]
      simp only [bestOf, List.foldl_cons, List.foldl_nil, bestStep, hc, if_pos h])
  unfold mainCubeDecomp
  rw [show (2 : Int) = ((2 : Nat) : Int) from rfl, show (6 : Int) = ((6 : Nat) : Int) from rfl, e1, M.ok_bind, e2, M.ok_bind,
    e3, M.ok_bind]
  rfl

end

/-- The hypothesis of the last theorem holds of exact arithmetic. -/
example : ((8 : Nat) : ℚ) / ((4 : Nat) : ℚ) < HasMax.dblMax := by decide +kernel

/-- Both cases of `C67_decomp` occur: a 3 x 2 grid on 6 processes, and on 5. -/
example : ValidDecomp 6 [3, 2] [3, 2] ∧ ¬ ∃ d, ValidDecomp 5 [3, 2] d := by
  refine ⟨⟨by decide, by decide⟩, ?_⟩
  rintro ⟨d, h1, h2⟩
  match d, h1 with
  | [a, b], h1 =>
    have ha : a ∣ 3 := by cases h1; assumption
    have hb : b ∣ 2 := by cases h1 with | cons _ h => cases h; assumption
    have ha' := Nat.le_of_dvd (by decide) ha
    have hb' := Nat.le_of_dvd (by decide) hb
    simp only [List.prod_cons, List.prod_nil, Nat.mul_one] at h2
    interval_cases a <;> interval_cases b <;> simp_all

/-- The beginning of the report of the second test: the process at coordinates (0, 1) has rank 1. -/
example : processText [3, 2] [3, 2] [0, 1] =
    ("\trank: 1\n\tlo = 0 1 \n\thi = 1 2 \n\t\tneighbor in direction -1 0  is 5\n\t\tneighbor in direction 1 0  is 3\n" ++
      "\t\tneighbor in direction 0 -1  is 0\n\t\tneighbor in direction 0 1  is 0\n").toList := by decide +kernel

/-- C67: testMultiArrayIter, for every proper box: one numbered line for each cell of the box. In row-major order the last
index varies fastest, in column-major order the first. -/
theorem C67_iter (lo hi : List Nat) (rowMajor : Bool) (hax : lo ≠ []) (hn : lo.length < 2 ^ 31) (hb : BoxLt lo hi)
    (hs : ∀ h ∈ hi, h < 2 ^ 64) (hv : volume lo hi < 2 ^ 64) :
    testMultiArrayIter lo hi rowMajor = .ok (boxText rowMajor lo hi) :=
  testMultiArrayIter_eq rowMajor hax (by unfold W; omega) hb hs hv

/-- C67: the output of testMultiArrayIter. -/
theorem C67_iter_main : mainMultiArrayIter =
    .ok ("row major test:\n".toList ++ boxText true [1, 2, 3] [4, 7, 8] ++
      "column major test:\n".toList ++ boxText false [1, 2, 3] [4, 7, 8]) := by
  have h : ∀ rm, testMultiArrayIter [1, 2, 3] [4, 7, 8] rm = .ok (boxText rm [1, 2, 3] [4, 7, 8]) := fun rm =>
    C67_iter _ _ rm (by decide) (by decide) (by decide) (by decide) (by decide)
  unfold mainMultiArrayIter
  rw [h, M.ok_bind, h, M.ok_bind]
  rfl

/-- A small box, in both orders. -/
example : boxText true [1, 2] [3, 4] = "0: 1, 2, \n1: 1, 3, \n2: 2, 2, \n3: 2, 3, \n".toList ∧
    boxText false [1, 2] [3, 4] = "0: 1, 2, \n1: 2, 2, \n2: 1, 3, \n3: 2, 3, \n".toList := by decide +kernel

end Fidi
