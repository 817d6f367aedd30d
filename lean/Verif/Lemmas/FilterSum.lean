import Verif.Lemmas.FilterCalls
import Mathlib.Algebra.BigOperators.Group.List.Basic

/-
Lemmas about the check sum.
-/
namespace Fidi
open Spec
variable {R : Type}

theorem sumTree_sum [AddCommMonoid R] {xs : List R} {r : R} (h : SumTree xs r) : r = xs.sum := by
  induction h with
  | leaf x => simp
  | node _ _ h1 h2 => rw [h1, h2, List.sum_append]

theorem mpiSum_sum [AddCommMonoid R] {xs : List R} {r : R} (h : MpiSum xs r) : r = xs.sum := by
  obtain ⟨ys, hp, ht⟩ := h
  rw [sumTree_sum ht, hp.sum_eq]

theorem sumTree_exists [Add R] {xs : List R} (h : xs ≠ []) : ∃ r, SumTree xs r := by
  induction xs with
  | nil => exact absurd rfl h
  | cons x xs ih =>
    cases xs with
    | nil => exact ⟨x, .leaf x⟩
    | cons y ys =>
      obtain ⟨r, hr⟩ := ih (by simp)
      exact ⟨x + r, .node (.leaf x) hr⟩

/-- The cells of a box. -/
def boxCells (lo hi : List Nat) : List (List Nat) := (List.range (volume lo hi)).map (tupleAt false lo hi)

theorem mem_boxCells {lo hi t : List Nat} (hb : BoxLt lo hi) : t ∈ boxCells lo hi ↔ InBox lo hi t := by
  unfold boxCells
  simp only [List.mem_map, List.mem_range]
  constructor
  · rintro ⟨k, _, rfl⟩; exact tupleAt_inBox false hb k
  · intro h; exact ⟨_, flatOf_lt false h, tupleAt_flatOf false h⟩

theorem nodup_boxCells {lo hi : List Nat} (hb : BoxLt lo hi) : (boxCells lo hi).Nodup := by
  unfold boxCells
  apply List.Nodup.map_on _ List.nodup_range
  intro a ha b hb' h
  have e1 := flatOf_tupleAt false hb a
  have e2 := flatOf_tupleAt false hb b
  rw [h, e2] at e1
  rw [Nat.mod_eq_of_lt (by simpa using hb'), Nat.mod_eq_of_lt (by simpa using ha)] at e1
  exact e1.symm

theorem boxData_eq_map (lo hi : List Nat) (u : List Nat → R) : boxData lo hi u = (boxCells lo hi).map u := by
  simp [boxData, boxCells]

variable {c : Cfg R} {x : List Nat} {f : Filter R}

/-- The local part of the check sum: the data are added to 0 in turn. -/
theorem localSum_fold [Zero R] [Add R] (h : c.Good) (hx : InGrid c.d x) (hs : Shape c x c.tab f) (input : Bool) :
    ∃ f', f.localSum input = .ok ((if input then f.inData else f.outData).foldl (· + ·) 0, f') := by
  obtain ⟨k, hk⟩ := getMit_shape hs
  unfold Filter.localSum
  rw [hk, M.ok_bind, itAt_terms (h.box hx) (h.volW hx), itAt_begin]
  generalize hd : (if input then f.inData else f.outData) = data
  have hl : data.length = volume (c.lo x) (c.hi x) := by
    rw [h.vol hx, ← hd]; cases input
    · exact hs.outLen
    · exact hs.inLen
  rw [iter_loop (h.volW hx) _ (fun i s => rd data i >>= fun y => pure (s + y)) 0
    (by
      intro i s hi
      dsimp only
      cases input
      · simp only [Bool.false_eq_true, if_false] at hd ⊢
        rw [← hd]
        simp only [bind_assoc, M.pure_eq, M.ok_bind]
      · simp only [if_true] at hd ⊢
        rw [← hd]
        simp only [bind_assoc, M.pure_eq, M.ok_bind])]
  obtain ⟨s, e, hsum⟩ := forUp_inv (Nat.zero_le (volume (c.lo x) (c.hi x)))
    (fun i s => s = (data.take i).foldl (· + ·) 0) (fun i s => rd data i >>= fun y => pure (s + y)) 0 (by simp)
    (by
      rintro i s _ hi rfl
      rw [rd_of_lt (by omega)]
      refine ⟨_, rfl, ?_⟩
      rw [List.take_succ_eq_append_getElem (by omega), List.foldl_append]
      rfl)
  rw [e, M.ok_bind, M.pure_eq, M.ok_bind]
  dsimp only
  rw [← hl, List.take_length] at hsum
  subst hsum
  exact ⟨_, rfl⟩

/-- The local part of the check sum. -/
theorem localSum_eq [AddCommMonoid R] (h : c.Good) (hx : InGrid c.d x) (hs : Shape c x c.tab f) (input : Bool) :
    ∃ f', f.localSum input = .ok ((if input then f.inData else f.outData).sum, f') := by
  obtain ⟨f', e⟩ := localSum_fold h hx hs input
  exact ⟨f', by rw [e, List.sum_eq_foldl]⟩

/-- The cells of all sub-domains are the cells of the grid, each once. -/
theorem all_cells (h : c.Good) {w : World R} (hw : Ranks c (fun x f => Shape c x c.tab f) w) :
    (w.flatMap fun f => boxCells f.lo f.hi).Nodup ∧
      ∀ g, g ∈ (w.flatMap fun f => boxCells f.lo f.hi) ↔ InGrid c.dims g := by
  have hb : ∀ f ∈ w, BoxLt f.lo f.hi := by
    intro f hf
    obtain ⟨x, hx, _, hs⟩ := hw.mem h hf
    rw [hs.lo, hs.hi]; exact h.box hx
  have hsub : ∀ f ∈ w, ∀ g, InBox f.lo f.hi g → InGrid c.dims g := by
    intro f hf g hg
    obtain ⟨x, hx, _, hs⟩ := hw.mem h hf
    rw [hs.lo, hs.hi] at hg
    exact sub_inGrid h.good.valid.1 hx hg
  have own := fun g (hg : InGrid c.dims g) => owner h hw (fun x f hs => ⟨hs.lo, hs.hi⟩) hg
  constructor
  · rw [List.nodup_flatMap]
    refine ⟨fun f hf => nodup_boxCells (hb f hf), ?_⟩
    rw [List.pairwise_iff_getElem]
    intro i j hi hj hij g h1 h2
    rw [mem_boxCells (hb _ (List.getElem_mem _))] at h1 h2
    have := (own g (hsub _ (List.getElem_mem _) g h1)).unique
      ⟨_, List.getElem?_eq_getElem hi, h1⟩ ⟨_, List.getElem?_eq_getElem hj, h2⟩
    omega
  · intro g
    simp only [List.mem_flatMap]
    constructor
    · rintro ⟨f, hf, hg⟩
      exact hsub f hf g ((mem_boxCells (hb f hf)).1 hg)
    · intro hg
      obtain ⟨r, ⟨f, hf, hin⟩, _⟩ := own g hg
      have hf' := List.mem_of_getElem? hf
      exact ⟨f, hf', (mem_boxCells (hb f hf')).2 hin⟩

end Fidi
