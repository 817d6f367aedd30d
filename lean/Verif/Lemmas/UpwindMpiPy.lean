import Verif.Model.UpwindMpiPy
import Verif.Spec.UpwindMpiPy
import Verif.Lemmas.UpwindExact
import Verif.Lemmas.UpwindAcc
import Verif.Lemmas.MainsOther
import Verif.Lemmas.VtkOther

/-
Lemmas about the model of upwindMPI.py.
-/
set_option linter.unusedSectionVars false

namespace Fidi
open Spec MpiNum
variable {R : Type}

namespace MpiNum

theorem wrap_zero {x p : Nat} (h : x < p) : wrap x 0 p = x := by
  unfold wrap
  rw [add_zero, ← Int.natCast_mod, Nat.mod_eq_of_lt h, Int.toNat_natCast]

theorem pred_mod {x p : Nat} (h : x < p) : (((x : Int) + -1) % (p : Int)).toNat = if x = 0 then p - 1 else x - 1 := by
  split
  · next h0 =>
    subst h0
    rw [show ((0 : Nat) : Int) + -1 = ((p - 1 : Nat) : Int) + (p : Int) * (-1) by omega, Int.add_mul_emod_self_left,
      ← Int.natCast_mod, Nat.mod_eq_of_lt (by omega), Int.toNat_natCast]
  · next h0 =>
    rw [show (x : Int) + -1 = ((x - 1 : Nat) : Int) by omega, ← Int.natCast_mod, Nat.mod_eq_of_lt (by omega),
      Int.toNat_natCast]

theorem lt_of_box {a p i n : Nat} (ha : a < p) (hi : i < n) : a * n + i < p * n := by
  have := Nat.mul_le_mul_right n (Nat.succ_le_of_lt ha)
  rw [Nat.succ_mul] at this
  omega

/-- The upwind neighbour of a cell in the same box. -/
theorem pred_inside {a p i n : Nat} (ha : a < p) (hi : i < n) (h : 1 ≤ i) :
    ((((a * n + i : Nat) : Int) + -1) % ((p * n : Nat) : Int)).toNat = a * n + (i - 1) := by
  rw [pred_mod (lt_of_box ha hi), if_neg (by omega)]
  omega

/-- The upwind neighbour of a cell of the first layer is in the last layer of the box before. -/
theorem pred_outside {a p n : Nat} (ha : a < p) (hn : 0 < n) :
    ((((a * n : Nat) : Int) + -1) % ((p * n : Nat) : Int)).toNat = wrap a (-1) p * n + (n - 1) := by
  have h := pred_mod (lt_of_box (i := 0) ha hn)
  rw [add_zero] at h
  rw [h, wrap, pred_mod ha]
  rcases Nat.eq_zero_or_pos a with rfl | hpos
  · rw [if_pos (by simp), if_pos rfl, Nat.sub_mul, one_mul]
    have := Nat.mul_le_mul_right n (Nat.succ_le_of_lt ha)
    omega
  · rw [if_neg (Nat.mul_pos hpos hn).ne', if_neg hpos.ne', Nat.sub_mul, one_mul]
    have := Nat.mul_le_mul_right n (Nat.succ_le_of_lt hpos)
    omega

theorem wrap_lt {x p : Nat} (d : Int) (h : 0 < p) : wrap x d p < p := by
  unfold wrap
  have h1 := Int.emod_nonneg ((x : Int) + d) (b := (p : Int)) (by omega)
  have h2 := Int.emod_lt_of_pos ((x : Int) + d) (b := (p : Int)) (by omega)
  omega

end MpiNum

/-- The arrays of the processes hold the field `u`. -/
def PyMpi.Holds (dc : MpiNum) (size : Nat) (n : Nat × Nat × Nat) (f : Nat → Arr3 R) (u : List Nat → R) : Prop :=
  ∀ rk, rk < size → ∀ i j k, i < n.1 → j < n.2.1 → k < n.2.2 →
    f rk i j k = u [(dc.coords rk).1 * n.1 + i, (dc.coords rk).2.1 * n.2.1 + j, (dc.coords rk).2.2 * n.2.2 + k]

theorem box_mod {a n i : Nat} (h : i < n) : (a * n + i) % n = i := by
  rw [Nat.mul_comm, Nat.mul_add_mod, Nat.mod_eq_of_lt h]

namespace PyMpi
variable [Zero R] [One R] [Add R] [Sub R] [Mul R] [Div R] [NatCast R] [IntCast R] [LT R] [DecidableLT R]
variable {dc : MpiNum} {size : Nat} {n N : Nat × Nat × Nat}

theorem holds_field (h : dc.Good size n N) : Holds (R := R) dc size n field cornerField := by
  intro rk hrk i j k hi hj hk
  unfold field cornerField
  refine if_congr ?_ rfl rfl
  simp only [List.mem_cons, List.not_mem_nil, or_false, forall_eq_or_imp, forall_eq, Nat.add_eq_zero_iff, mul_eq_zero]
  obtain ⟨p1, p2, p3⟩ := h.pos
  constructor
  · rintro ⟨rfl, rfl, rfl, rfl⟩
    obtain ⟨q1, q2, q3⟩ := h.inside 0 hrk
    have := (h.posOf 0 0 0 (by omega) (by omega) (by omega)).2
    rw [h.root] at this
    simp [this]
  · rintro ⟨⟨h1, rfl⟩, ⟨h2, rfl⟩, h3, rfl⟩
    refine ⟨?_, rfl, rfl, rfl⟩
    have hc : dc.coords rk = (0, 0, 0) := by
      ext
      · exact h1.resolve_right p1.ne'
      · exact h2.resolve_right p2.ne'
      · exact h3.resolve_right p3.ne'
    rw [← h.rankOf rk hrk, hc, h.root]

variable (hcast : ∀ n : Nat, ((n : Int) : R) = (n : R))
include hcast

theorem advect_holds (h : dc.Good size n N) (sum : List R → R) (dt v1 v2 v3 L1 L2 L3 : R) (h1 : ¬ v1 < 0) (h2 : ¬ v2 < 0)
    (h3 : ¬ v3 < 0) {f : Nat → Arr3 R} {u : List Nat → R} (hf : Holds dc size n f u) :
    Holds dc size n ((new dc n (v1, v2, v3) (L1, L2, L3) N).advect sum dt f)
      (boxStep sum dt [v1, v2, v3] [L1, L2, L3] [N.1, N.2.1, N.2.2] [n.1, n.2.1, n.2.2] u) := by
  intro rk hrk i j k hi hj hk
  obtain ⟨p1, p2, p3⟩ := h.pos
  obtain ⟨q1, q2, q3⟩ := h.inside rk hrk
  have hN := h.cells
  obtain ⟨N1, N2, N3⟩ := N
  simp only [Prod.mk.injEq] at hN
  obtain ⟨rfl, rfl, rfl⟩ := hN
  -- the ghost layers
  have gx : ∀ j k, j < n.2.1 → k < n.2.2 →
      f (dc.rankAt (wrap (dc.coords rk).1 (-1) dc.procs.1, (dc.coords rk).2.1, (dc.coords rk).2.2)) (n.1 - 1) j k =
        u [wrap (dc.coords rk).1 (-1) dc.procs.1 * n.1 + (n.1 - 1), (dc.coords rk).2.1 * n.2.1 + j,
          (dc.coords rk).2.2 * n.2.2 + k] := by
    intro j k hj hk
    obtain ⟨r, e⟩ := h.posOf _ _ _ (wrap_lt (x := (dc.coords rk).1) (-1) (by omega)) q2 q3
    have := hf _ r (n.1 - 1) j k (by omega) hj hk
    rw [this, e]
  have gy : ∀ i k, i < n.1 → k < n.2.2 →
      f (dc.rankAt ((dc.coords rk).1, wrap (dc.coords rk).2.1 (-1) dc.procs.2.1, (dc.coords rk).2.2)) i (n.2.1 - 1) k =
        u [(dc.coords rk).1 * n.1 + i, wrap (dc.coords rk).2.1 (-1) dc.procs.2.1 * n.2.1 + (n.2.1 - 1),
          (dc.coords rk).2.2 * n.2.2 + k] := by
    intro i k hi hk
    obtain ⟨r, e⟩ := h.posOf _ _ _ q1 (wrap_lt (x := (dc.coords rk).2.1) (-1) (by omega)) q3
    have := hf _ r i (n.2.1 - 1) k hi (by omega) hk
    rw [this, e]
  have gz : ∀ i j, i < n.1 → j < n.2.1 →
      f (dc.rankAt ((dc.coords rk).1, (dc.coords rk).2.1, wrap (dc.coords rk).2.2 (-1) dc.procs.2.2)) i j (n.2.2 - 1) =
        u [(dc.coords rk).1 * n.1 + i, (dc.coords rk).2.1 * n.2.1 + j,
          wrap (dc.coords rk).2.2 (-1) dc.procs.2.2 * n.2.2 + (n.2.2 - 1)] := by
    intro i j hi hj
    obtain ⟨r, e⟩ := h.posOf _ _ _ q1 q2 (wrap_lt (x := (dc.coords rk).2.2) (-1) (by omega))
    have := hf _ r i j (n.2.2 - 1) hi hj (by omega)
    rw [this, e]
  have nx : u (neighbour [dc.procs.1 * n.1, dc.procs.2.1 * n.2.1, dc.procs.2.2 * n.2.2] 0 (-1)
      [(dc.coords rk).1 * n.1 + i, (dc.coords rk).2.1 * n.2.1 + j, (dc.coords rk).2.2 * n.2.2 + k]) =
      if i = 0 then f (dc.rankAt (wrap (dc.coords rk).1 (-1) dc.procs.1, (dc.coords rk).2.1, (dc.coords rk).2.2)) (n.1 - 1) j k
      else f rk (i - 1) j k := by
    unfold neighbour
    simp only [List.getD_cons_zero, List.set_cons_zero]
    split
    · next h0 => rw [gx j k hj hk, h0, add_zero, pred_outside q1 p1]
    · next h0 => rw [hf rk hrk (i - 1) j k (by omega) hj hk, pred_inside q1 hi (by omega)]
  have ny : u (neighbour [dc.procs.1 * n.1, dc.procs.2.1 * n.2.1, dc.procs.2.2 * n.2.2] 1 (-1)
      [(dc.coords rk).1 * n.1 + i, (dc.coords rk).2.1 * n.2.1 + j, (dc.coords rk).2.2 * n.2.2 + k]) =
      if j = 0 then f (dc.rankAt ((dc.coords rk).1, wrap (dc.coords rk).2.1 (-1) dc.procs.2.1, (dc.coords rk).2.2)) i (n.2.1 - 1) k
      else f rk i (j - 1) k := by
    unfold neighbour
    simp only [List.getD_cons_zero, List.getD_cons_succ, List.set_cons_zero, List.set_cons_succ]
    split
    · next h0 => rw [gy i k hi hk, h0, add_zero, pred_outside q2 p2]
    · next h0 => rw [hf rk hrk i (j - 1) k hi (by omega) hk, pred_inside q2 hj (by omega)]
  have nz : u (neighbour [dc.procs.1 * n.1, dc.procs.2.1 * n.2.1, dc.procs.2.2 * n.2.2] 2 (-1)
      [(dc.coords rk).1 * n.1 + i, (dc.coords rk).2.1 * n.2.1 + j, (dc.coords rk).2.2 * n.2.2 + k]) =
      if k = 0 then f (dc.rankAt ((dc.coords rk).1, (dc.coords rk).2.1, wrap (dc.coords rk).2.2 (-1) dc.procs.2.2)) i j (n.2.2 - 1)
      else f rk i j (k - 1) := by
    unfold neighbour
    simp only [List.getD_cons_zero, List.getD_cons_succ, List.set_cons_zero, List.set_cons_succ]
    split
    · next h0 => rw [gz i j hi hj, h0, add_zero, pred_outside q3 p3]
    · next h0 => rw [hf rk hrk i j (k - 1) hi hj (by omega), pred_inside q3 hk (by omega)]
  have hr : List.range 3 = [0, 1, 2] := rfl
  have hrr := hf rk hrk i j k hi hj hk
  have e0 := box_mod (a := (dc.coords rk).1) hi
  have e1 := box_mod (a := (dc.coords rk).2.1) hj
  have e2 := box_mod (a := (dc.coords rk).2.2) hk
  simp only [advect, new, up, h1, h2, h3, if_false, boxStep, splitStep, List.length_cons, List.length_nil, Nat.zero_add,
    Nat.reduceAdd, hr, List.map_cons, List.map_nil, axisCoeff, cellWidth, List.getD_cons_zero, List.getD_cons_succ, hcast,
    neighbRk, neighbSide, getNeighborProc, getData, layer, wrap_zero q1, wrap_zero q2, wrap_zero q3, if_true, neg_neg,
    lt_irrefl, one_ne_zero, OfNat.ofNat_ne_zero, OfNat.zero_ne_ofNat, zero_ne_one, OfNat.one_ne_ofNat,
    OfNat.ofNat_ne_one, zero_lt_one, ← hrr]
  simp only [List.filter_cons, List.filter_nil, List.getD_cons_zero, List.getD_cons_succ, e0, e1, e2, ne_eq, decide_not,
    Bool.not_eq_true', decide_eq_false_iff_not, decide_eq_true_eq]
  obtain ⟨nb, hnb⟩ : ∃ nb : Nat → R, ∀ j', u (neighbour [dc.procs.1 * n.1, dc.procs.2.1 * n.2.1, dc.procs.2.2 * n.2.2] j' (-1)
      [(dc.coords rk).1 * n.1 + i, (dc.coords rk).2.1 * n.2.1 + j, (dc.coords rk).2.2 * n.2.2 + k]) = nb j' :=
    ⟨_, fun _ => rfl⟩
  rw [hnb] at nx ny nz
  simp only [hnb]
  clear hrr hnb e0 e1 e2 gx gy gz
  rcases i with _ | i <;> rcases j with _ | j <;> rcases k with _ | k <;> simp [nx, ny, nz]

theorem steps_holds (h : dc.Good size n N) (sum : List R → R) (dt v1 v2 v3 L1 L2 L3 : R) (h1 : ¬ v1 < 0) (h2 : ¬ v2 < 0)
    (h3 : ¬ v3 < 0) (k : Int) {f : Nat → Arr3 R} {u : List Nat → R} (hf : Holds dc size n f u) :
    Holds dc size n ((new dc n (v1, v2, v3) (L1, L2, L3) N).steps sum k dt f)
      ((boxStep sum dt [v1, v2, v3] [L1, L2, L3] [N.1, N.2.1, N.2.2] [n.1, n.2.1, n.2.2])^[k.toNat] u) := by
  unfold steps
  generalize k.toNat = m
  induction m generalizing f u with
  | zero => exact hf
  | succ m ih =>
    rw [Function.iterate_succ_apply, Function.iterate_succ_apply]
    exact ih (advect_holds hcast h sum dt v1 v2 v3 L1 L2 L3 h1 h2 h3 hf)

omit hcast

/-- A cell is in the slab of a process if and only if this process is at its position. -/
theorem mem_slab (h : dc.Good size n N) {rk x y z : Nat} (hrk : rk < size) (hx : x < N.1) (hy : y < N.2.1) (hz : z < N.2.2) :
    (((dc.coords rk).1 * n.1 ≤ x ∧ x < (dc.coords rk).1 * n.1 + n.1) ∧
      ((dc.coords rk).2.1 * n.2.1 ≤ y ∧ y < (dc.coords rk).2.1 * n.2.1 + n.2.1) ∧
      ((dc.coords rk).2.2 * n.2.2 ≤ z ∧ z < (dc.coords rk).2.2 * n.2.2 + n.2.2)) ↔
      rk = dc.rankAt (x / n.1, y / n.2.1, z / n.2.2) := by
  obtain ⟨p1, p2, p3⟩ := h.pos
  have one : ∀ a x n : Nat, 0 < n → ((a * n ≤ x ∧ x < a * n + n) ↔ x / n = a) := by
    intro a x n hn
    rw [Nat.div_eq_iff hn]
    omega
  rw [one _ _ _ p1, one _ _ _ p2, one _ _ _ p3]
  rw [h.cells] at hx hy hz
  have hp := (h.posOf (x / n.1) (y / n.2.1) (z / n.2.2) ((Nat.div_lt_iff_lt_mul p1).2 hx) ((Nat.div_lt_iff_lt_mul p2).2 hy)
    ((Nat.div_lt_iff_lt_mul p3).2 hz)).2
  constructor
  · rintro ⟨e1, e2, e3⟩
    rw [e1, e2, e3]
    exact (h.rankOf rk hrk).symm
  · intro e
    rw [← e] at hp
    rw [hp]
    exact ⟨rfl, rfl, rfl⟩

theorem gather_holds (h : dc.Good size n N) (self : PyMpi R) (hdc : self.dc = dc) (hn : self.nsLocal = n) {f : Nat → Arr3 R}
    {u : List Nat → R} (hf : Holds dc size n f u) (x y z : Nat) (hx : x < N.1) (hy : y < N.2.1) (hz : z < N.2.2) :
    self.gatherRoot size f x y z = u [x, y, z] := by
  obtain ⟨p1, p2, p3⟩ := h.pos
  have key : ∀ m, m ≤ size → self.gatherRoot m f x y z =
      if dc.rankAt (x / n.1, y / n.2.1, z / n.2.2) < m then u [x, y, z] else 0 := by
    intro m
    induction m with
    | zero => intro _; rfl
    | succ m ih =>
      intro hm
      have ih := ih (by omega)
      unfold gatherRoot at ih ⊢
      rw [List.range_succ, List.foldl_append]
      simp only [List.foldl_cons, List.foldl_nil]
      rw [ih, hdc, hn]
      unfold slabStart
      have hs := mem_slab h (show m < size by omega) hx hy hz
      by_cases e : m = dc.rankAt (x / n.1, y / n.2.1, z / n.2.2)
      · rw [if_pos (hs.2 e), if_pos (by omega)]
        have hb := hs.2 e
        simp only at hb ⊢
        rw [hf m (by omega) _ _ _ (by omega) (by omega) (by omega)]
        congr 2
        · omega
        · congr 1
          · omega
          · congr 1
            omega
      · rw [if_neg (fun hb => e (hs.1 hb))]
        refine if_congr ?_ rfl rfl
        omega
  rw [key size le_rfl, if_pos]
  rw [h.cells] at hx hy hz
  exact (h.posOf (x / n.1) (y / n.2.1) (z / n.2.2) ((Nat.div_lt_iff_lt_mul p1).2 hx) ((Nat.div_lt_iff_lt_mul p2).2 hy)
    ((Nat.div_lt_iff_lt_mul p3).2 hz)).1

end PyMpi

section Exact
open Finset
variable {K : Type} [Field K] [LinearOrder K] [IsStrictOrderedRing K]

theorem foldl_sub_list {α : Type} (l : List α) (t : α → K) (a : K) : l.foldl (fun acc j => acc - t j) a = a - (l.map t).sum := by
  induction l generalizing a with
  | nil => simp
  | cons x l ih => rw [List.foldl_cons, ih, List.map_cons, List.sum_cons]; ring

theorem sum_map_range (m : Nat) (t : Nat → K) : ((List.range m).map t).sum = ∑ j ∈ range m, t j := by
  induction m with
  | zero => simp
  | succ m ih => rw [List.range_succ, List.map_append, List.sum_append, ih, sum_range_succ]; simp

/-- In exact arithmetic the step is that of the upwind scheme, whatever the boxes. -/
theorem boxStep_eq (dt : K) (v L : List K) (dims box : List Nat) (hv : ∀ x ∈ v, 0 ≤ x) :
    boxStep List.sum dt v L dims box = upwindStep dims (upDir v) (upCoeff dt v L dims) := by
  have hnn : ∀ j, ¬ v.getD j 0 < 0 := by
    intro j
    rw [not_lt]
    rcases lt_or_ge j v.length with h | h
    · rw [List.getD_eq_getElem _ _ h]
      exact hv _ (List.getElem_mem h)
    · rw [List.getD_eq_default _ _ h]
  have hup : ∀ j, upDir v j = -1 := fun j => by unfold upDir; rw [if_neg (hnn j)]
  funext u g
  rw [upwindStep_eq]
  unfold boxStep splitStep
  simp only
  rw [foldl_sub_list]
  have hperm : (((List.range dims.length).filter fun j => decide (g.getD j 0 % box.getD j 0 ≠ 0)) ++
      (List.range dims.length).filter fun j => decide (g.getD j 0 % box.getD j 0 = 0)).Perm (List.range dims.length) := by
    have := List.filter_append_perm (fun j => decide (g.getD j 0 % box.getD j 0 ≠ 0)) (List.range dims.length)
    simpa using this
  rw [(hperm.map _).sum_eq, sum_map_range, sum_map_range, mul_sum, sum_mul, add_sub_assoc, ← sum_sub_distrib,
    sub_eq_add_neg, ← sum_neg_distrib]
  congr 1
  refine sum_congr rfl fun j _ => ?_
  unfold axisCoeff upCoeff
  rw [hup j]
  ring

theorem sum_flatMap_range (m : Nat) (F : Nat → List K) : ((List.range m).flatMap F).sum = ∑ j ∈ range m, (F j).sum := by
  induction m with
  | zero => simp
  | succ m ih => rw [List.range_succ, List.flatMap_append, List.sum_append, ih, sum_range_succ]; simp

/-- In exact arithmetic the check sum is the sum over the grid. -/
theorem PyMpi.checksum_eq {dc : MpiNum} {size : Nat} {n N : Nat × Nat × Nat} (h : dc.Good size n N) (self : PyMpi K)
    (hn : self.nsLocal = n) {f : Nat → Arr3 K} {u : List Nat → K} (hf : Holds dc size n f u) :
    self.checksum size f = total [N.1, N.2.1, N.2.2] u := by
  obtain ⟨p1, p2, p3⟩ := h.pos
  have hN := h.cells
  obtain ⟨N1, N2, N3⟩ := N
  simp only at hN ⊢
  obtain ⟨n1, n2, n3⟩ := n
  simp only [Prod.mk.injEq] at hN p1 p2 p3
  obtain ⟨e1, e2, e3⟩ := hN
  unfold checksum total
  rw [foldl_add, zero_add, sum_flatMap_range]
  have step : ∀ rk ∈ range size, (flat self.nsLocal (f rk)).sum = ∑ i ∈ range n1, ∑ j ∈ range n2, ∑ k ∈ range n3,
      u [(dc.coords rk).1 * n1 + i, (dc.coords rk).2.1 * n2 + j, (dc.coords rk).2.2 * n3 + k] := by
    intro rk hrk
    unfold flat
    rw [hn, sum_flatMap_range]
    refine sum_congr rfl fun i hi => ?_
    rw [sum_flatMap_range]
    refine sum_congr rfl fun j hj => ?_
    rw [sum_map_range]
    refine sum_congr rfl fun k hk => ?_
    exact hf rk (mem_range.1 hrk) i j k (mem_range.1 hi) (mem_range.1 hj) (mem_range.1 hk)
  rw [sum_congr rfl step]
  simp only [sum_sigma']
  have hin : ∀ rk i j k, rk < size → i < n1 → j < n2 → k < n3 →
      InGrid [N1, N2, N3] [(dc.coords rk).1 * n1 + i, (dc.coords rk).2.1 * n2 + j, (dc.coords rk).2.2 * n3 + k] := by
    intro rk i j k hrk hi hj hk
    obtain ⟨q1, q2, q3⟩ := h.inside rk hrk
    rw [e1, e2, e3]
    exact ⟨lt_of_box q1 hi, lt_of_box q2 hj, lt_of_box q3 hk, trivial⟩
  refine sum_nbij (fun x => rankOf [N1, N2, N3] [(dc.coords x.1).1 * n1 + x.2.1, (dc.coords x.1).2.1 * n2 + x.2.2.1,
    (dc.coords x.1).2.2 * n3 + x.2.2.2]) ?_ ?_ ?_ ?_
  · rintro ⟨rk, i, j, k⟩ hx
    simp only [mem_sigma, mem_range] at hx ⊢
    exact rankOf_lt (hin rk i j k hx.1 hx.2.1 hx.2.2.1 hx.2.2.2)
  · rintro ⟨rk, i, j, k⟩ hx ⟨rk', i', j', k'⟩ hx' he
    simp only [coe_sigma, Set.mem_sigma_iff, mem_coe, mem_range] at hx hx'
    have := rankOf_inj (hin rk i j k hx.1 hx.2.1 hx.2.2.1 hx.2.2.2) (hin rk' i' j' k' hx'.1 hx'.2.1 hx'.2.2.1 hx'.2.2.2) he
    simp only [List.cons.injEq, and_true] at this
    obtain ⟨h1, h2, h3⟩ := this
    have one : ∀ {a a' n i i' : Nat}, i < n → i' < n → a * n + i = a' * n + i' → a = a' ∧ i = i' := by
      intro a a' n i i' hi hi' e
      have hm := congrArg (· % n) e
      simp only [box_mod hi, box_mod hi'] at hm
      subst hm
      exact ⟨Nat.eq_of_mul_eq_mul_right (by omega) (Nat.add_right_cancel e), rfl⟩
    obtain ⟨a1, rfl⟩ := one hx.2.1 hx'.2.1 h1
    obtain ⟨a2, rfl⟩ := one hx.2.2.1 hx'.2.2.1 h2
    obtain ⟨a3, rfl⟩ := one hx.2.2.2 hx'.2.2.2 h3
    have : dc.coords rk = dc.coords rk' := by
      ext
      · exact a1
      · exact a2
      · exact a3
    obtain rfl : rk = rk' := by rw [← h.rankOf rk hx.1, this, h.rankOf rk' hx'.1]
    rfl
  · intro m hm
    simp only [coe_range, Set.mem_Iio] at hm
    have hpos : ∀ x ∈ [N1, N2, N3], 0 < x := by
      intro x hx
      rcases Nat.eq_zero_or_pos x with rfl | h
      · rw [List.prod_eq_zero hx] at hm
        omega
      · exact h
    have hc := cellAt_inGrid hpos m
    have hr := rankOf_cellAt hpos hm
    obtain ⟨x, y, z, hxyz⟩ : ∃ x y z, cellAt [N1, N2, N3] m = [x, y, z] := ⟨_, _, _, UpwindAcc.cellAt3 N1 N2 N3 m⟩
    rw [hxyz] at hc hr
    obtain ⟨hx, hy, hz, -⟩ := hc
    rw [e1] at hx
    rw [e2] at hy
    rw [e3] at hz
    obtain ⟨hr1, hr2⟩ := h.posOf (x / n1) (y / n2) (z / n3) ((Nat.div_lt_iff_lt_mul p1).2 hx) ((Nat.div_lt_iff_lt_mul p2).2 hy)
      ((Nat.div_lt_iff_lt_mul p3).2 hz)
    refine ⟨⟨dc.rankAt (x / n1, y / n2, z / n3), x % n1, y % n2, z % n3⟩, ?_, ?_⟩
    · simp only [coe_sigma, Set.mem_sigma_iff, mem_coe, mem_range]
      exact ⟨hr1, Nat.mod_lt _ p1, Nat.mod_lt _ p2, Nat.mod_lt _ p3⟩
    · simp only [hr2]
      rw [Nat.div_add_mod' x n1, Nat.div_add_mod' y n2, Nat.div_add_mod' z n3, hr]
  · rintro ⟨rk, i, j, k⟩ hx
    simp only [mem_sigma, mem_range] at hx ⊢
    rw [cellAt_rankOf (hin rk i j k hx.1 hx.2.1 hx.2.2.1 hx.2.2.2)]

end Exact

/-! ### The file -/

namespace PyVtk
variable [Zero R] [DoubleText R] {N : List Nat}

/-- The coordinates of an axis with any nodes. -/
theorem coordLoop_axis (hw : ∀ x : R, IsWord (DoubleText.showDouble x)) {j n : Nat} (hj : N[j]? = some n)
    (axis : List R) (ha : axis.length = n + 1) :
    ∃ text, coordLoop (ints N) axis j = .ok text ∧ ∀ t, words (text ++ '\n' :: t) =
      showSz axis.length :: "double".toList :: (axis.map DoubleText.showDouble ++ words t) := by
  obtain ⟨hj, rfl⟩ := List.getElem?_eq_some_iff.1 hj
  have hl : (ints N).length = N.length := by simp [ints]
  have e : (ints N)[j]'(by omega) + 1 = (axis.length : Int) := by
    rw [ha]; simp [ints]
  unfold coordLoop
  rw [rd_of_lt (by omega), M.ok_bind, e]
  refine ⟨_, forUp_text _ _ (fun i => ' ' :: DoubleText.showDouble (axis.getD i 0)) _ ?_, fun t => ?_⟩
  · intro i t hi
    rw [Int.toNat_natCast] at hi
    rw [rd_of_lt hi, M.ok_bind, List.getD_eq_getElem _ _ hi]
    rfl
  · rw [List.append_assoc, List.append_assoc, Fortran.showInt_nat,
      show " double".toList = ' ' :: "double".toList by decide +kernel, List.cons_append,
      words_word_blank (isWord_showSz _) (by decide), Int.toNat_natCast]
    have e2 : (List.range axis.length).map (fun i => DoubleText.showDouble (axis.getD i 0)) = axis.map DoubleText.showDouble := by
      apply List.ext_getElem (by simp)
      intro i h1 h2
      have : i < axis.length := by simpa using h2
      simp [this]
    rw [← e2, ← words_spaced _ (fun i => hw _) (List.range axis.length) (c := '\n') (by decide) t, ha, List.range_succ_eq_map,
      List.flatMap_cons, List.append_assoc, List.cons_append, words_append_blank _ (by decide),
      show words "double".toList = ["double".toList] by decide +kernel]
    rw [List.singleton_append, words_blank (by decide)]

/-- The words of the file for any nodes of three axes. -/
theorem rectilinear_words (hw : ∀ x : R, IsWord (DoubleText.showDouble x)) (a b c : Nat) (xs ys zs flat : List R)
    (hx : xs.length = c + 1) (hy : ys.length = b + 1) (hz : zs.length = a + 1) :
    ∃ text vals, rectilinear xs ys zs [(a : Int), b, c] flat = .ok text ∧
      header text = some (rectWords xs.length ys.length zs.length (xs.map DoubleText.showDouble) (ys.map DoubleText.showDouble)
        (zs.map DoubleText.showDouble) flat.length vals) ∧
      vals.flatten = flat.flatMap DoubleText.showDouble ∧ vals.length ≤ flat.length / 10 + 1 := by
  obtain ⟨tx, ex, hx'⟩ := coordLoop_axis (N := [a, b, c]) hw (j := 2) rfl xs hx
  obtain ⟨ty, ey, hy'⟩ := coordLoop_axis (N := [a, b, c]) hw (j := 1) rfl ys hy
  obtain ⟨tz, ez, hz'⟩ := coordLoop_axis (N := [a, b, c]) hw (j := 0) rfl zs hz
  obtain ⟨tv, ev, hv1, hv2⟩ := values_text flat hw
  have hN : [(a : Int), b, c] = ints [a, b, c] := rfl
  have e2 : dim (ints [a, b, c]) 2 = .ok (' ' :: showSz xs.length) := by rw [dim_eq, hx]; rfl
  have e1 : dim (ints [a, b, c]) 1 = .ok (' ' :: showSz ys.length) := by rw [dim_eq, hy]; rfl
  have e0 : rd (ints [a, b, c]) 0 = .ok (a : Int) := rfl
  have e0' : (a : Int) + 1 = (zs.length : Int) := by rw [hz]; simp
  have ex' : coords (ints [a, b, c]) xs 2 = .ok tx := by
    unfold coords
    rw [if_pos (by simp [ints]), ex]
  have ey' : coords (ints [a, b, c]) ys 1 = .ok ty := by
    unfold coords
    rw [if_pos (by simp [ints]), ey]
  unfold rectilinear
  rw [hN, e2, e1, e0, ex', ey', ez, ev]
  refine ⟨_, words tv, rfl, ?_, hv1, hv2⟩
  rw [e0', Fortran.showInt_nat]
  simp only [List.append_assoc, List.cons_append]
  rw [show "upwind\n".toList = "upwind".toList ++ ['\n'] by decide +kernel, List.append_assoc, List.singleton_append,
    header_of _ (by decide +kernel)]
  congr 1
  unfold rectWords
  rw [words_lit (ws := ["DATASET".toList, "RECTILINEAR_GRID".toList]) (by decide +kernel) (by decide +kernel),
    words_append _ (by decide), show words "DIMENSIONS".toList = ["DIMENSIONS".toList] by decide +kernel,
    words_word_blank (isWord_showSz _) (by decide), words_word_blank (isWord_showSz _) (by decide),
    show "\nX_COORDINATES ".toList = '\n' :: "X_COORDINATES ".toList by decide +kernel,
    show "\nY_COORDINATES ".toList = '\n' :: "Y_COORDINATES ".toList by decide +kernel,
    show "\nZ_COORDINATES ".toList = '\n' :: "Z_COORDINATES ".toList by decide +kernel,
    show "\nCELL_DATA ".toList = '\n' :: "CELL_DATA ".toList by decide +kernel]
  simp only [List.cons_append]
  rw [words_word_blank (isWord_showSz _) (by decide),
    words_lit (ws := ["X_COORDINATES".toList]) (by decide +kernel) (by decide +kernel), hx',
    words_lit (ws := ["Y_COORDINATES".toList]) (by decide +kernel) (by decide +kernel), hy',
    words_lit (ws := ["Z_COORDINATES".toList]) (by decide +kernel) (by decide +kernel), hz',
    words_lit (ws := ["CELL_DATA".toList]) (by decide +kernel) (by decide +kernel),
    show "\n".toList = ['\n'] by decide +kernel, List.singleton_append (x := '\n'),
    words_word_blank (isWord_showSz _) (by decide),
    words_lit (ws := ["SCALARS".toList, "f".toList, "double".toList, "1".toList]) (by decide +kernel) (by decide +kernel),
    words_lit (ws := ["LOOKUP_TABLE".toList, "default".toList]) (by decide +kernel) (by decide +kernel)]
  simp only [List.cons_append, List.nil_append, List.length_map]

end PyVtk

end Fidi
