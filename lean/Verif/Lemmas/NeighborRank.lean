import Verif.Spec.Neighbour
import Verif.Lemmas.FilterShapesNever

/-
`getNeighborRank` for directions of any length.
-/
namespace Fidi
open Spec

theorem rankOfInt_acc (d : List Nat) (t : List Int) (h : t.length = d.length) (acc : Int) :
    (d.zip t).foldl (fun acc p => acc * (p.1 : Int) + p.2) acc = acc * (d.prod : Nat) + rankOfInt d t := by
  unfold rankOfInt
  induction d generalizing t acc with
  | nil => simp
  | cons n d ih =>
    match t, h with
    | x :: t, h =>
      have h' : t.length = d.length := by simpa using h
      simp only [List.zip_cons_cons, List.foldl_cons, List.prod_cons]
      rw [ih t h', ih t h' (0 * (n : Int) + x)]
      push_cast
      ring

theorem rankOfInt_cons (n : Nat) (d : List Nat) (x : Int) (t : List Int) (h : t.length = d.length) :
    rankOfInt (n :: d) (x :: t) = x * (d.prod : Nat) + rankOfInt d t := by
  have := rankOfInt_acc d t h (0 * (n : Int) + x)
  rw [show rankOfInt (n :: d) (x :: t) = _ from this]
  ring

theorem rankOfInt_nat {d x : List Nat} (h : x.length = d.length) : rankOfInt d (x.map fun n : Nat => (n : Int)) = rankOf d x := by
  unfold rankOfInt rankOf
  have key : ∀ (d x : List Nat) (acc : Nat), x.length = d.length →
      (d.zip (x.map fun n : Nat => (n : Int))).foldl (fun acc p => acc * (p.1 : Int) + p.2) (acc : Int) =
      (((d.zip x).foldl (fun acc p => acc * p.1 + p.2) acc : Nat) : Int) := by
    intro d
    induction d with
    | nil => intro x acc _; simp
    | cons n d ih =>
      intro x acc h
      match x, h with
      | y :: x, h =>
        simp only [List.zip_cons_cons, List.foldl_cons]
        rw [← ih x _ (by simpa using h)]
        push_cast
        rfl
  exact key d x 0 h

/-- The index computed in `size_t` is the exact one modulo 2^32. -/
theorem dot_int (d : List Nat) (t : List Int) (h : t.length = d.length) :
    ((dot (strideR d) (t.map szOfInt) : Nat) : Int) % 2 ^ 32 = rankOfInt d t % 2 ^ 32 := by
  induction d generalizing t with
  | nil => cases t with
    | nil => rfl
    | cons => simp at h
  | cons n d ih =>
    match t, h with
    | x :: t, h =>
      have h' : t.length = d.length := by simpa using h
      rw [rankOfInt_cons n d x t h']
      simp only [strideR, List.map_cons]
      have e : dot (d.prod :: strideR d) (szOfInt x :: t.map szOfInt) = d.prod * szOfInt x + dot (strideR d) (t.map szOfInt) := by
        simp [dot]
      rw [e, Nat.cast_add, Nat.cast_mul, Int.add_emod, ih t h', Int.mul_emod]
      have hx : ((szOfInt x : Nat) : Int) % 2 ^ 32 = x % 2 ^ 32 := by
        unfold szOfInt W
        omega
      rw [hx, ← Int.mul_emod, ← Int.add_emod, mul_comm]

theorem intOfSz_congr {n : Nat} {z : Int} (h : (n : Int) % 2 ^ 32 = z % 2 ^ 32) : intOfSz (n % W) = Int.bmod z W32 := by
  have e : ((n % W : Nat) : Int) % (W32 : Int) = z % (W32 : Int) := by
    unfold W W32
    omega
  unfold intOfSz
  rw [Int.bmod_def, Int.bmod_def, e]

/-- `getNeighborRank` for any direction. -/
theorem neighborRank_eq_any {nprocs : Nat} {dims d x : List Nat} (g : GoodDecomp nprocs dims d) (hx : InGrid d x)
    {dir : List Int} (hdl : dir.length = d.length) {np : Int} {k : Nat} :
    Prod.fst <$> (movedDecomp np dims d k).getNeighborRank (rankOf d x : Nat) dir =
      .ok (Int.bmod (rankOfInt d (shiftedCoords d x dir)) W32) := by
  unfold CubeDecomp.getNeighborRank
  rw [moveMit_eq g x hx]
  simp only [M.ok_bind]
  have hl := hx.length_eq
  have e : (forUp 0 dims.length (List.replicate x.length (0 : Int)) fun i indOffset => do
      wr indOffset i (CubeDecomp.shiftIndex (← rd x i) (← rd dir i) (← rd d i))) = .ok (shiftedCoords d x dir) := by
    rw [forUp_fill dims.length _ (by simp [hl, g.length_eq])
      (fun i => CubeDecomp.shiftIndex (x.getD i 0) (dir.getD i 0) (d.getD i 0))]
    · unfold shiftedCoords
      rw [g.length_eq]
    · intro i v hi hv _
      have a : i < d.length := by rw [g.length_eq]; exact hi
      have b : i < x.length := by omega
      have c : i < dir.length := by omega
      rw [rd_of_lt a, rd_of_lt b, rd_of_lt c]
      simp only [M.ok_bind]
      rw [wr_of_lt (by omega), getD_of_lt a, getD_of_lt b, getD_of_lt c]
  have e2 : (movedDecomp np dims d (rankOf d x)).ndims = dims.length := rfl
  have e3 : (movedDecomp np dims d (rankOf d x)).decomp = d := rfl
  rw [e2, e3, e]
  simp only [M.ok_bind, movedDecomp]
  have hexd : extents (List.replicate dims.length 0) d = d := by rw [← g.length_eq]; exact extents_zero d
  have hvd : volume (List.replicate dims.length 0) d < W := by
    unfold volume
    rw [hexd, g.valid.2]
    have := g.np
    unfold W
    omega
  have hlen : (shiftedCoords d x dir).length = d.length := by simp [shiftedCoords]
  rw [bigInt_any true g.box hvd (by rw [hlen, List.length_replicate, g.length_eq])]
  simp only [M.ok_bind]
  have hz : List.zipWith (fun (x : Int) l => szSub (szOfInt x) l) (shiftedCoords d x dir) (List.replicate dims.length 0) =
      (shiftedCoords d x dir).map szOfInt := by
    apply List.ext_getElem (by simp [hlen, g.length_eq])
    intro i h1 h2
    rw [List.getElem_zipWith, List.getElem_map, List.getElem_replicate]
    unfold szSub szOfInt W
    omega
  rw [hz, hexd]
  have e4 : strides true d = strideR d := rfl
  rw [e4, intOfSz_congr (dot_int d _ hlen)]
  rfl

/-- Two tuples that differ along one axis. -/
theorem rankOfInt_axis {d : List Nat} (hp : ∀ k ∈ d, 0 < k) {a : Nat} (ha : a < d.length) :
    ∃ S : Nat, 0 < S ∧ S * d.getD a 0 ≤ d.prod ∧ ∀ t u : List Int, t.length = d.length → u.length = d.length →
      (∀ i, i ≠ a → t.getD i 0 = u.getD i 0) → rankOfInt d t = rankOfInt d u + S * (t.getD a 0 - u.getD a 0) := by
  have same : ∀ t u : List Int, t.length = u.length → (∀ i, t.getD i 0 = u.getD i 0) → t = u := by
    intro t u hl h
    apply List.ext_getElem hl
    intro i h1 h2
    have := h i
    rwa [getD_of_lt h1, getD_of_lt h2] at this
  induction d generalizing a with
  | nil => simp at ha
  | cons n d ih =>
    have hpd : 0 < d.prod := prod_pos_of fun k hk => hp k (by simp [hk])
    cases a with
    | zero =>
      refine ⟨d.prod, hpd, by simp [Nat.mul_comm], ?_⟩
      intro t u ht hu h
      match t, u, ht, hu with
      | x :: t, y :: u, ht, hu =>
        have ht' : t.length = d.length := by simpa using ht
        have hu' : u.length = d.length := by simpa using hu
        have : t = u := same t u (by omega) fun i => by simpa using h (i + 1) (by omega)
        rw [rankOfInt_cons _ _ _ _ ht', rankOfInt_cons _ _ _ _ hu', this]
        simp only [List.getD_cons_zero]
        ring
    | succ a =>
      obtain ⟨S, h0, h1, h2⟩ := ih (fun k hk => hp k (by simp [hk])) (a := a) (by simpa using ha)
      refine ⟨S, h0, ?_, ?_⟩
      · simp only [List.getD_cons_succ, List.prod_cons]
        exact Nat.le_trans h1 (Nat.le_mul_of_pos_left _ (hp n (by simp)))
      intro t u ht hu h
      match t, u, ht, hu with
      | x :: t, y :: u, ht, hu =>
        have ht' : t.length = d.length := by simpa using ht
        have hu' : u.length = d.length := by simpa using hu
        have hxy : x = y := by simpa using h 0 (by omega)
        rw [rankOfInt_cons _ _ _ _ ht', rankOfInt_cons _ _ _ _ hu', hxy,
          h2 t u ht' hu' fun i hi => by simpa using h (i + 1) (by omega)]
        simp only [List.getD_cons_succ]
        ring

end Fidi
