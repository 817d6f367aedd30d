import Verif.Lemmas.CubeDecompGeom

/-
Which decomposition the selection leaves out: without an axis of extent 1 the valid decompositions are enumerated in strictly
increasing order (the last axis having the highest weight), each once, and the first one is never costed.
-/
namespace Fidi
open Fidi.Spec

theorem enum_sorted {pn : List (List Nat)} (hne : ∀ l ∈ pn, l ≠ []) (hs : ∀ l ∈ pn, l.Pairwise (· < ·)) :
    (enumTuples pn).Pairwise fun a b => a.reverse < b.reverse := by
  unfold enumTuples
  rw [List.pairwise_map]
  refine List.Pairwise.imp_of_mem ?_ List.pairwise_lt_range
  intro i j hi hj hij
  rw [List.mem_range] at hi hj
  have hposl : ∀ n ∈ pn.map List.length, 0 < n := by
    intro n hn
    obtain ⟨l, hl, rfl⟩ := List.mem_map.1 hn
    exact List.length_pos_iff.2 (hne l hl)
  have h2 := digitsC_strictMono (pn.map List.length) hposl i j hij hj
  have e1 := tupleAt_zero false (pn.map List.length) i
  have e2 := tupleAt_zero false (pn.map List.length) j
  rw [List.length_map] at e1 e2
  have grid : ∀ k, InGrid (pn.map List.length) (tupleAt false (List.replicate pn.length 0) (pn.map List.length) k) := by
    intro k
    have hb := replicate_boxLt hposl
    have := tupleAt_inBox false hb k
    rw [← List.length_map (f := List.length)]
    exact inBox_zero.1 this
  have a := grid i
  have a' := grid j
  simp only [strides, Bool.false_eq_true, if_false] at e1 e2
  rw [← e1, ← e2] at h2
  have ar : ∀ {t}, InGrid (pn.map List.length) t → InGrid (pn.reverse.map List.length) t.reverse := by
    intro t h
    rw [List.map_reverse]; exact inGrid_reverse.2 h
  have h3 := pick_strict (pn := pn.reverse) (fun l hl => hs l (List.mem_reverse.1 hl)) (ar a) (ar a') h2
  have la := a.length_eq
  have la' := a'.length_eq
  rw [List.length_map] at la la'
  rwa [← pick_reverse la.symm, ← pick_reverse la'.symm] at h3

theorem validList_sorted {nprocs : Int} {dims : List Nat} (hp : ∀ n ∈ dims, 0 < n) (h1 : 1 ∉ dims) :
    (validList nprocs dims).Pairwise fun a b => a.reverse < b.reverse := by
  apply List.Pairwise.filter
  apply enum_sorted
  · intro l hl
    obtain ⟨n, hn, rfl⟩ := List.mem_map.1 hl
    exact List.length_pos_iff.1 (length_divs_pos n)
  · intro l hl
    obtain ⟨n, hn, rfl⟩ := List.mem_map.1 hl
    apply divs_strict
    have := hp n hn
    have : n ≠ 1 := fun h => h1 (h ▸ hn)
    omega

/-- With two candidates or more the first one is not chosen. -/
theorem bestOf_mem_tail (cost : List Nat → ℚ) (v a : List Nat) (vs : List (List Nat)) (hlt : cost a < HasMax.dblMax) :
    bestOf cost (v :: a :: vs) ∈ a :: vs := by
  have : bestStep cost (HasMax.dblMax, v) a = (cost a, a) := if_pos hlt
  show (vs.foldl (bestStep cost) (bestStep cost (HasMax.dblMax, v) a)).2 ∈ _
  rw [this]
  have key : ∀ (l : List (List Nat)) (s : ℚ × List Nat), (l.foldl (bestStep cost) s).2 = s.2 ∨
      (l.foldl (bestStep cost) s).2 ∈ l := by
    intro l
    induction l with
    | nil => intro s; left; rfl
    | cons b l ih =>
      intro s
      rw [List.foldl_cons]
      rcases ih (bestStep cost s b) with h | h
      · rw [h]
        unfold bestStep
        split
        · right; simp
        · left; rfl
      · right; simp [h]
  rcases key vs (cost a, a) with h | h
  · rw [h]; simp
  · simp [h]

end Fidi
