import Verif.Model.TestDrivers
import Verif.Spec.TestDrivers
import Verif.Lemmas.FilterPrint
import Verif.Lemmas.UpwindPrint
import Verif.Props.CubeDecomp

/-
The texts of the test drivers.
-/
set_option linter.unusedSectionVars false

namespace Fidi
open Spec MultiArrayIter TestDrivers

/-! ### testCubeDecomp -/

theorem axisStep_set (n j : Nat) (s : Int) : (List.replicate n (0 : Int)).set j s = axisStep n j s := by
  unfold axisStep
  apply List.ext_getElem
  · simp
  · intro i h1 h2
    simp only [List.getElem_set, List.getElem_replicate, List.getElem_map, List.getElem_range]
    by_cases h : j = i
    · simp [h]
    · simp [h, Ne.symm h]

theorem axisStep_unset (n j : Nat) (s : Int) : (axisStep n j s).set j 0 = List.replicate n 0 := by
  rw [← axisStep_set, List.set_set]
  apply List.ext_getElem
  · simp
  · intro i h1 h2
    simp

theorem axisStep_short {d : List Nat} (hp : ∀ k ∈ d, 0 < k) (j : Nat) {s : Int} (hs : -1 ≤ s ∧ s ≤ 1) :
    ShortDir d (axisStep d.length j s) := by
  refine List.forall₂_iff_get.2 ⟨by simp [axisStep], ?_⟩
  intro i h1 h2
  have hk := hp _ (List.getElem_mem h1)
  simp only [List.get_eq_getElem, axisStep, List.getElem_map, List.getElem_range]
  split <;> omega

theorem newline_toList : "\n".toList = ['\n'] := by decide +kernel
theorem lo_toList : "\n\tlo = ".toList = ['\n'] ++ "\tlo = ".toList := by decide +kernel
theorem hi_toList : "\n\thi = ".toList = ['\n'] ++ "\thi = ".toList := by decide +kernel

/-- The line for one neighbour. -/
def nbLine (d x : List Nat) (j : Nat) (s : Int) : Str :=
  "\t\tneighbor in direction ".toList ++ blanks (axisStep d.length j s) ++
    (" is " ++ toString (rankOf d (shiftMod d x (axisStep d.length j s))) ++ "\n").toList

section
variable {nprocs : Nat} {dims d : List Nat}

theorem neighborLine_eq (g : GoodDecomp nprocs dims d) (hsum : ∀ k ∈ d, 2 * k ≤ 2 ^ 31) {x : List Nat} (hx : InGrid d x)
    {j : Nat} (hj : j < d.length) {s : Int} (hs : -1 ≤ s ∧ s ≤ 1) (t : Str) (np : Int) (k : Nat) :
    neighborLine (rankOf d x : Nat) j s (List.replicate d.length 0, t, movedDecomp np dims d k) =
      .ok (List.replicate d.length 0, t ++ nbLine d x j s, movedDecomp np dims d (rankOf d x)) := by
  have e1 : wr (List.replicate d.length (0 : Int)) j s = .ok (axisStep d.length j s) := by
    rw [wr_of_lt (by simpa using hj), axisStep_set]
  have e2 : Filter.listText showInt (axisStep d.length j s).length (axisStep d.length j s) = .ok (blanks (axisStep d.length j s)) :=
    blanks_eq (fun a => (toString_int a).symm) _
  have e3 := getNeighborRank_eq g x hx _ (axisStep_short g.d_pos j hs) hsum np k
  have e4 : wr (axisStep d.length j s) j 0 = .ok (List.replicate d.length 0) := by
    rw [wr_of_lt (by simpa [axisStep] using hj), axisStep_unset]
  generalize movedDecomp np dims d k = c at e3 ⊢
  generalize movedDecomp np dims d (rankOf d x) = c' at e3 ⊢
  unfold neighborLine
  dsimp only
  rw [e1, M.ok_bind, e2, M.ok_bind, e3, M.ok_bind]
  dsimp only
  rw [e4, M.ok_bind, M.pure_eq, showInt_eq_nat]
  unfold nbLine
  generalize "\t\tneighbor in direction ".toList = q
  generalize " is " = q2
  rw [String.toList_append, String.toList_append, newline_toList]
  simp only [List.append_assoc]

theorem neighborLines_eq (g : GoodDecomp nprocs dims d) (hsum : ∀ k ∈ d, 2 * k ≤ 2 ^ 31) {x : List Nat} (hx : InGrid d x)
    (np : Int) :
    neighborLines d.length (rankOf d x : Nat) (movedDecomp np dims d (rankOf d x)) =
      .ok ((List.range d.length).flatMap (fun j => [-1, 1].flatMap fun s => nbLine d x j s),
        movedDecomp np dims d (rankOf d x)) := by
  unfold neighborLines
  obtain ⟨st, e, rfl⟩ := forUp_inv (Nat.zero_le d.length)
    (fun i st => st = (List.replicate d.length (0 : Int),
      (List.range i).flatMap (fun j => [-1, 1].flatMap fun s => nbLine d x j s), movedDecomp np dims d (rankOf d x)))
    (fun dim st => do
      let st ← neighborLine (rankOf d x : Nat) dim (-1) st
      neighborLine (rankOf d x : Nat) dim 1 st)
    (List.replicate d.length (0 : Int), ([] : Str), movedDecomp np dims d (rankOf d x)) (by simp) (by
      rintro i st - hi rfl
      refine ⟨_, ?_, rfl⟩
      rw [neighborLine_eq g hsum hx hi (by omega), M.ok_bind, neighborLine_eq g hsum hx hi (by omega)]
      rw [List.range_succ, List.flatMap_append]
      simp)
  rw [e, M.ok_bind]
  rfl

theorem rankText_eq (g : GoodDecomp nprocs dims d) (hsum : ∀ k ∈ d, 2 * k ≤ 2 ^ 31) {x : List Nat} (hx : InGrid d x)
    (np : Int) (k : Nat) :
    rankText d.length (rankOf d x : Nat) (movedDecomp np dims d k) =
      .ok (processText dims d x, movedDecomp np dims d (rankOf d x)) := by
  unfold rankText
  rw [getBegIndices_eq g x hx, M.ok_bind]
  dsimp only
  rw [getEndIndices_eq g x hx, M.ok_bind]
  dsimp only
  rw [blanks_eq showSz_eq, M.ok_bind, blanks_eq showSz_eq, M.ok_bind, neighborLines_eq g hsum hx, M.ok_bind]
  dsimp only
  rw [M.pure_eq, showInt_eq_nat]
  show _ = Except.ok (_ ++ _ ++ _ ++ _ ++ _ ++ (List.range d.length).flatMap (fun j => [-1, 1].flatMap fun s => nbLine d x j s), _)
  generalize (List.range d.length).flatMap (fun j => [-1, 1].flatMap fun s => nbLine d x j s) = nb
  rw [String.toList_append, String.toList_append, lo_toList, hi_toList, newline_toList]
  generalize "\trank: ".toList = q1
  generalize "\tlo = ".toList = q2
  generalize "\thi = ".toList = q3
  simp only [List.append_assoc]

variable {R : Type} [Div R] [NatCast R] [LT R] [DecidableLT R] [HasMax R]

theorem testCubeDecomp_eq (g : GoodDecomp nprocs dims d) (hp : nprocs ≤ 2 ^ 30) {b : Bool}
    (h : CubeDecomp.empty.build R nprocs dims = .ok (b, movedDecomp nprocs dims d 0)) :
    testCubeDecomp R nprocs dims = .ok (decompText nprocs dims d) := by
  have hsum : ∀ k ∈ d, 2 * k ≤ 2 ^ 31 := fun k hk => by have := g.d_le k hk; omega
  have hd : (movedDecomp (nprocs : Int) dims d 0).getDecomp = d := rfl
  unfold testCubeDecomp
  rw [h, M.ok_bind]
  dsimp only
  rw [hd, blanks_eq showSz_eq, M.ok_bind, showInt_eq_nat, Int.toNat_natCast, ← g.length_eq]
  generalize hs0 : " [".toList ++ (toString nprocs).toList ++ "] decomp: ".toList ++ blanks d ++ ['\n'] = s0
  obtain ⟨st, e, h2, _⟩ := forUp_inv (Nat.zero_le nprocs)
    (fun i st => st.1 = s0 ++ (List.range i).flatMap (fun r => processText dims d (cellAt d r)) ∧
      ∃ k, st.2 = movedDecomp nprocs dims d k)
    (fun rk st => do
      let (t, dc) ← rankText d.length (rk : Int) st.2
      pure (st.1 ++ t, dc))
    (s0, movedDecomp nprocs dims d 0) ⟨by simp, 0, rfl⟩ (by
      rintro i ⟨s, dc⟩ - hi ⟨rfl, k, rfl⟩
      have hi' : i < d.prod := by rw [g.valid.2]; exact hi
      have er := rankText_eq g hsum (cellAt_inGrid g.d_pos i) nprocs k
      rw [rankOf_cellAt g.d_pos hi'] at er
      refine ⟨_, by rw [er, M.ok_bind]; rfl, ?_, i, rfl⟩
      dsimp only
      rw [List.range_succ, List.flatMap_append]
      simp)
  refine (congrArg (fun m : M (Str × CubeDecomp) => m >>= fun x => pure x.1) e).trans ?_
  rw [M.ok_bind]
  obtain ⟨s, dc⟩ := st
  dsimp only at h2 ⊢
  rw [M.pure_eq, h2, ← hs0, decompText, rowCells_eq g.d_pos, g.valid.2, List.flatMap_map]
  simp

theorem testCubeDecomp_none {c : CubeDecomp} {b : Bool} (hp : 1 ≤ nprocs)
    (h : CubeDecomp.empty.build R nprocs dims = .ok (b, c)) (hc : c.mit = none) :
    testCubeDecomp R nprocs dims = .error .uninitialized := by
  unfold testCubeDecomp
  rw [h, M.ok_bind]
  dsimp only
  rw [blanks_eq showSz_eq, M.ok_bind, Int.toNat_natCast]
  obtain ⟨n, rfl⟩ : ∃ n, nprocs = n + 1 := ⟨nprocs - 1, by omega⟩
  unfold forUp
  rw [Nat.sub_zero, List.range'_succ, List.foldlM_cons]
  have e : ∀ n rk, rankText n rk c = .error .uninitialized := by
    intro n rk
    unfold rankText CubeDecomp.getBegIndices CubeDecomp.moveMit
    rw [hc]
    rfl
  dsimp only
  rw [e]
  rfl

end

/-! ### testMultiArrayIter -/

theorem boxList_eq (rm : Bool) {lo hi : List Nat} (hb : BoxLt lo hi) :
    (if rm then rowList lo hi else cellList lo hi) = (List.range (volume lo hi)).map (tupleAt rm lo hi) := by
  cases rm with
  | false => simpa using cellList_eq hb
  | true =>
    rw [if_pos rfl, rowList, rowCells_eq hb.extents_pos, List.map_map]
    rfl

theorem zipIdx_map_range {α β : Type} (F : Nat → α) (n : Nat) (p : α × Nat → List β) :
    ((List.range n).map F).zipIdx.flatMap p = (List.range n).flatMap fun i => p (F i, i) := by
  rw [List.flatMap_def, List.flatMap_def]
  congr 1
  apply List.ext_getElem
  · simp
  · intro i h1 h2
    simp at h1 h2
    simp

theorem commas_eq (v : List Nat) (s : Str) :
    (forUp 0 v.length s fun j s => do pure (s ++ showSz (← rd v j) ++ ", ".toList)) =
      .ok (s ++ v.flatMap fun x => (toString x ++ ", ").toList) := by
  rw [forUp_text v.length s (fun j => (toString (v.getD j 0) ++ ", ").toList)]
  · congr 2
    have e : v = (List.range v.length).map fun j => v.getD j 0 := by
      apply List.ext_getElem
      · simp
      · intro i h1 h2
        simp [List.getElem?_eq_getElem h1]
    conv_rhs => rw [e, List.flatMap_map]
  · intro i t hi
    rw [rd_of_lt hi, M.ok_bind, M.pure_eq, showSz_eq, List.getD_eq_getElem _ _ hi]
    simp

theorem testMultiArrayIter_eq {lo hi : List Nat} (rm : Bool) (hax : lo ≠ []) (hn : lo.length < W) (hb : BoxLt lo hi)
    (hs : ∀ h ∈ hi, h < W) (hv : volume lo hi < W) :
    testMultiArrayIter lo hi rm = .ok (boxText rm lo hi) := by
  unfold testMultiArrayIter MultiArrayIter.new
  rw [build_eq none lo hi rm hax (le_of_eq hb.length_eq) hn, M.ok_bind]
  have h1 : (builtIter lo hi rm).getNumberOfTerms = volume lo hi := by rw [builtIter_eq _ hb hv]; rfl
  rw [h1]
  obtain ⟨st, e, rfl⟩ := forUp_inv (Nat.zero_le (volume lo hi))
    (fun i st => st = ((List.range i).flatMap (fun i => (toString i ++ ": ").toList ++
        ((tupleAt rm lo hi i).flatMap fun x => (toString x ++ ", ").toList) ++ "\n".toList),
      ({ builtIter lo hi rm with bigIndex := i } : MultiArrayIter)))
    (fun i st => do
      let inds ← st.2.getIndices
      let t ← forUp 0 inds.length (st.1 ++ showSz i ++ ": ".toList) fun j s => do
        pure (s ++ showSz (← rd inds j) ++ ", ".toList)
      pure (t ++ ['\n'], st.2.next))
    (([] : Str), builtIter lo hi rm) (by rw [builtIter_eq _ hb hv]; rfl) (by
      rintro i st - hi' rfl
      refine ⟨_, ?_, rfl⟩
      dsimp only
      rw [getIndices_built rm hb hv hs, M.ok_bind, commas_eq, M.ok_bind, M.pure_eq]
      have en : ({ builtIter lo hi rm with bigIndex := i } : MultiArrayIter).next =
          { builtIter lo hi rm with bigIndex := i + 1 } := by
        unfold MultiArrayIter.next
        rw [szAdd_of_lt (by simp only []; omega)]
      rw [en, List.range_succ, List.flatMap_append, showSz_eq]
      simp)
  refine (congrArg (fun m : M (Str × MultiArrayIter) => m >>= fun x => pure x.1) e).trans ?_
  rw [M.ok_bind]
  dsimp only
  rw [M.pure_eq, boxText, boxList_eq rm hb, zipIdx_map_range]

end Fidi
