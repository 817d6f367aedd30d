import Verif.Lemmas.UpwindMpiPy
import Mathlib.Tactic.IntervalCases
import Mathlib.Tactic.Tauto
import Mathlib.Tactic.Linarith

/-
Lemmas about upwindMPI.py with velocities of any sign.
-/
set_option linter.unusedSectionVars false

namespace Fidi
open Spec MpiNum
variable {R : Type}

namespace PyMpi
variable [Zero R] [One R] [Add R] [Sub R] [Mul R] [Div R] [NatCast R] [IntCast R] [LT R] [DecidableLT R]
variable {dc : MpiNum} {size : Nat} {n N : Nat × Nat × Nat}

/-- The index read along one axis. -/
theorem axis_read (v : R) {a p i n : Nat} (ha : a < p) (hi : i < n) :
    (if v < 0 ∧ (a * n + i) % n = 0 then (a * n + i + n) % (p * n)
      else ((((a * n + i : Nat) : Int) + -1) % ((p * n : Nat) : Int)).toNat) =
    if i = 0 then wrap a (up v) p * n + layer (-up v) n else a * n + (i - 1) := by
  rw [box_mod hi]
  by_cases h0 : i = 0
  · subst h0
    by_cases hv : v < 0
    · rw [if_pos ⟨hv, rfl⟩, if_pos rfl, up, if_pos hv, add_zero, ← Nat.succ_mul, Nat.mul_mod_mul_right, wrap, layer,
        if_neg (by decide), add_zero]
      congr 1
    · rw [if_neg (fun h => hv h.1), if_pos rfl, up, if_neg hv, add_zero, pred_outside ha hi, layer, if_pos (by decide)]
  · rw [if_neg (fun h => h0 h.2), if_neg h0, pred_inside ha hi (by omega)]

variable (hcast : ∀ n : Nat, ((n : Int) : R) = (n : R))
include hcast

theorem advect_any (h : dc.Good size n N) (sum : List R → R) (dt v1 v2 v3 L1 L2 L3 : R) {f : Nat → Arr3 R} {u : List Nat → R}
    (hf : Holds dc size n f u) :
    Holds dc size n ((new dc n (v1, v2, v3) (L1, L2, L3) N).advect sum dt f)
      (mpiStep sum dt [v1, v2, v3] [L1, L2, L3] [N.1, N.2.1, N.2.2] [n.1, n.2.1, n.2.2] u) := by
  intro rk hrk i j k hi hj hk
  obtain ⟨p1, p2, p3⟩ := h.pos
  obtain ⟨q1, q2, q3⟩ := h.inside rk hrk
  have hN := h.cells
  obtain ⟨N1, N2, N3⟩ := N
  simp only [Prod.mk.injEq] at hN
  obtain ⟨rfl, rfl, rfl⟩ := hN
  have hl : ∀ (s : Int) {m : Nat}, 0 < m → layer s m < m := by
    intro s m hm
    unfold layer
    split <;> omega
  obtain ⟨w1, w2, w3⟩ : (∀ d, wrap (dc.coords rk).1 d dc.procs.1 < dc.procs.1) ∧
      (∀ d, wrap (dc.coords rk).2.1 d dc.procs.2.1 < dc.procs.2.1) ∧
      (∀ d, wrap (dc.coords rk).2.2 d dc.procs.2.2 < dc.procs.2.2) :=
    ⟨fun d => wrap_lt d (by omega), fun d => wrap_lt d (by omega), fun d => wrap_lt d (by omega)⟩
  have nx : u (readCell [v1, v2, v3] [dc.procs.1 * n.1, dc.procs.2.1 * n.2.1, dc.procs.2.2 * n.2.2] [n.1, n.2.1, n.2.2] 0
      [(dc.coords rk).1 * n.1 + i, (dc.coords rk).2.1 * n.2.1 + j, (dc.coords rk).2.2 * n.2.2 + k]) =
      if i = 0 then f (dc.rankAt (wrap (dc.coords rk).1 (up v1) dc.procs.1, (dc.coords rk).2.1, (dc.coords rk).2.2))
        (layer (-up v1) n.1) j k
      else f rk (i - 1) j k := by
    have e := axis_read v1 (a := (dc.coords rk).1) (p := dc.procs.1) (i := i) (n := n.1) q1 hi
    unfold readCell neighbour
    simp only [List.getD_cons_zero, List.set_cons_zero]
    rw [← apply_ite (fun t => t :: [(dc.coords rk).2.1 * n.2.1 + j, (dc.coords rk).2.2 * n.2.2 + k]), e]
    split
    · obtain ⟨r, e'⟩ := h.posOf _ _ _ (w1 (up v1)) q2 q3
      rw [hf _ r _ j k (hl _ p1) hj hk, e']
    · rw [hf rk hrk (i - 1) j k (by omega) hj hk]
  have ny : u (readCell [v1, v2, v3] [dc.procs.1 * n.1, dc.procs.2.1 * n.2.1, dc.procs.2.2 * n.2.2] [n.1, n.2.1, n.2.2] 1
      [(dc.coords rk).1 * n.1 + i, (dc.coords rk).2.1 * n.2.1 + j, (dc.coords rk).2.2 * n.2.2 + k]) =
      if j = 0 then f (dc.rankAt ((dc.coords rk).1, wrap (dc.coords rk).2.1 (up v2) dc.procs.2.1, (dc.coords rk).2.2))
        i (layer (-up v2) n.2.1) k
      else f rk i (j - 1) k := by
    have e := axis_read v2 (a := (dc.coords rk).2.1) (p := dc.procs.2.1) (i := j) (n := n.2.1) q2 hj
    unfold readCell neighbour
    simp only [List.getD_cons_zero, List.getD_cons_succ, List.set_cons_zero, List.set_cons_succ]
    rw [← apply_ite (fun t => [(dc.coords rk).1 * n.1 + i, t, (dc.coords rk).2.2 * n.2.2 + k]), e]
    split
    · obtain ⟨r, e'⟩ := h.posOf _ _ _ q1 (w2 (up v2)) q3
      rw [hf _ r i _ k hi (hl _ p2) hk, e']
    · rw [hf rk hrk i (j - 1) k hi (by omega) hk]
  have nz : u (readCell [v1, v2, v3] [dc.procs.1 * n.1, dc.procs.2.1 * n.2.1, dc.procs.2.2 * n.2.2] [n.1, n.2.1, n.2.2] 2
      [(dc.coords rk).1 * n.1 + i, (dc.coords rk).2.1 * n.2.1 + j, (dc.coords rk).2.2 * n.2.2 + k]) =
      if k = 0 then f (dc.rankAt ((dc.coords rk).1, (dc.coords rk).2.1, wrap (dc.coords rk).2.2 (up v3) dc.procs.2.2))
        i j (layer (-up v3) n.2.2)
      else f rk i j (k - 1) := by
    have e := axis_read v3 (a := (dc.coords rk).2.2) (p := dc.procs.2.2) (i := k) (n := n.2.2) q3 hk
    unfold readCell neighbour
    simp only [List.getD_cons_zero, List.getD_cons_succ, List.set_cons_zero, List.set_cons_succ]
    rw [← apply_ite (fun t => [(dc.coords rk).1 * n.1 + i, (dc.coords rk).2.1 * n.2.1 + j, t]), e]
    split
    · obtain ⟨r, e'⟩ := h.posOf _ _ _ q1 q2 (w3 (up v3))
      rw [hf _ r i j _ hi hj (hl _ p3), e']
    · rw [hf rk hrk i j (k - 1) hi hj (by omega)]
  have hr : List.range 3 = [0, 1, 2] := rfl
  have hrr := hf rk hrk i j k hi hj hk
  have e0 := box_mod (a := (dc.coords rk).1) hi
  have e1 := box_mod (a := (dc.coords rk).2.1) hj
  have e2 := box_mod (a := (dc.coords rk).2.2) hk
  have hu : ∀ (v : List R) j, upDir v j = up (v.getD j 0) := fun _ _ => rfl
  have l0 : ∀ m, layer 0 m = 0 := fun _ => rfl
  simp only [advect, new, mpiStep, List.length_cons, List.length_nil, Nat.zero_add, hu,
    Nat.reduceAdd, hr, List.map_cons, List.map_nil, signedCoeff, cellWidth, List.getD_cons_zero, List.getD_cons_succ, hcast,
    neighbRk, neighbSide, getNeighborProc, getData, l0, wrap_zero q1, wrap_zero q2, wrap_zero q3, if_true, if_false,
    one_ne_zero, OfNat.ofNat_ne_zero, OfNat.zero_ne_ofNat, zero_ne_one, OfNat.one_ne_ofNat,
    OfNat.ofNat_ne_one, ← hrr]
  simp only [List.filter_cons, List.filter_nil, List.getD_cons_zero, List.getD_cons_succ, e0, e1, e2, ne_eq, decide_not,
    Bool.not_eq_true', decide_eq_false_iff_not, decide_eq_true_eq]
  obtain ⟨nb, hnb⟩ : ∃ nb : Nat → R, ∀ j', u (readCell [v1, v2, v3]
      [dc.procs.1 * n.1, dc.procs.2.1 * n.2.1, dc.procs.2.2 * n.2.2] [n.1, n.2.1, n.2.2] j'
      [(dc.coords rk).1 * n.1 + i, (dc.coords rk).2.1 * n.2.1 + j, (dc.coords rk).2.2 * n.2.2 + k]) = nb j' :=
    ⟨_, fun _ => rfl⟩
  rw [hnb] at nx ny nz
  simp only [hnb]
  clear hrr hnb e0 e1 e2
  rcases i with _ | i <;> rcases j with _ | j <;> rcases k with _ | k <;> simp [nx, ny, nz]

theorem steps_any (h : dc.Good size n N) (sum : List R → R) (dt v1 v2 v3 L1 L2 L3 : R) (k : Int) {f : Nat → Arr3 R}
    {u : List Nat → R} (hf : Holds dc size n f u) :
    Holds dc size n ((new dc n (v1, v2, v3) (L1, L2, L3) N).steps sum k dt f)
      ((mpiStep sum dt [v1, v2, v3] [L1, L2, L3] [N.1, N.2.1, N.2.2] [n.1, n.2.1, n.2.2])^[k.toNat] u) := by
  unfold steps
  generalize k.toNat = m
  induction m generalizing f u with
  | zero => exact hf
  | succ m ih =>
    rw [Function.iterate_succ_apply, Function.iterate_succ_apply]
    exact ih (advect_any hcast h sum dt v1 v2 v3 L1 L2 L3 hf)

end PyMpi

section Exact
open Finset
variable {K : Type} [Field K] [LinearOrder K] [IsStrictOrderedRing K]

/-- The step in exact arithmetic. -/
theorem mpiStep_eq (dt : K) (v L : List K) (dims box : List Nat) (u : List Nat → K) (g : List Nat) :
    mpiStep List.sum dt v L dims box u g =
      u g - ∑ j ∈ range dims.length, upCoeff dt v L dims j * (u (readCell v dims box j g) - u g) := by
  unfold mpiStep
  simp only
  rw [foldl_sub_list]
  have hperm : (((List.range dims.length).filter fun j => decide (g.getD j 0 % box.getD j 0 ≠ 0)) ++
      (List.range dims.length).filter fun j => decide (g.getD j 0 % box.getD j 0 = 0)).Perm (List.range dims.length) := by
    have := List.filter_append_perm (fun j => decide (g.getD j 0 % box.getD j 0 ≠ 0)) (List.range dims.length)
    simpa using this
  rw [(hperm.map _).sum_eq, sum_map_range, sum_map_range, mul_sum, sum_mul, add_sub_assoc, ← sum_sub_distrib,
    sub_eq_add_neg, ← sum_neg_distrib]
  congr 1
  refine sum_congr rfl fun j _ => ?_
  unfold signedCoeff upCoeff
  ring

/-- Where the velocity is not negative or the boxes are one cell wide, the cell read is the upwind neighbour. -/
theorem readCell_eq {v : List K} {dims box : List Nat} {j : Nat} (h : 0 ≤ v.getD j 0 ∨ box.getD j 0 = 1) (g : List Nat) :
    readCell v dims box j g = neighbour dims j (upDir v j) g := by
  unfold readCell upDir
  by_cases hv : v.getD j 0 < 0
  · have h1 := h.resolve_left hv.not_ge
    rw [if_pos ⟨hv, by rw [h1, Nat.mod_one]⟩, if_pos hv, h1]
    unfold neighbour
    congr 1
  · rw [if_neg (fun h => hv h.1), if_neg hv]

/-- The sum of a field that is 1 in one cell. -/
theorem total_single {N : List Nat} (hp : ∀ n ∈ N, 0 < n) {a : List Nat} (ha : InGrid N a) :
    total N (fun g => if g = a then (1 : K) else 0) = 1 := by
  unfold total
  rw [sum_eq_single (rankOf N a)]
  · exact if_pos (cellAt_rankOf ha)
  · intro i hi hne
    refine if_neg fun e => ?_
    exact hne (by rw [← e, rankOf_cellAt hp (mem_range.1 hi)])
  · intro h
    exact absurd (mem_range.2 (rankOf_lt ha)) h

/-- Two cells along a line read the first one if the velocity is negative and the boxes are two or more cells wide. -/
theorem read_zero {p n x : Nat} (hn : 2 ≤ n) (hx : x < p * n) :
    (if x % n = 0 then (x + n) % (p * n) else (((x : Int) + -1) % ((p * n : Nat) : Int)).toNat) = 0 ↔
      x = 1 ∨ x = (p - 1) * n := by
  have hp : 0 < p := Nat.pos_of_ne_zero (by rintro rfl; simp at hx)
  split
  · next h0 =>
    obtain ⟨a, rfl⟩ := Nat.dvd_of_mod_eq_zero h0
    rw [Nat.mul_comm n a] at hx ⊢
    have ha : a < p := Nat.lt_of_mul_lt_mul_right hx
    rw [← Nat.succ_mul, Nat.mul_mod_mul_right, Nat.mul_eq_zero]
    have h1 : a * n ≠ 1 := by
      intro h
      have := Nat.eq_one_of_mul_eq_one_left h
      omega
    have h2 : a * n = (p - 1) * n ↔ a = p - 1 := Nat.mul_left_inj (by omega)
    rw [h2]
    constructor
    · rintro (h | h)
      · right
        have := Nat.le_of_dvd (by omega) (Nat.dvd_of_mod_eq_zero h)
        omega
      · omega
    · rintro (h | h)
      · exact absurd h h1
      · left
        rw [h, show (p - 1).succ = p by omega, Nat.mod_self]
  · next h0 =>
    rw [pred_mod hx]
    have h1 : x ≠ 0 := by rintro rfl; simp at h0
    have h2 : x ≠ (p - 1) * n := by rintro rfl; simp at h0
    rw [if_neg h1]
    omega

/-- The sum of the values read along an axis from a field that is 1 in the corner. -/
theorem total_read (p1 p2 p3 : Nat) (n1 n2 n3 : Nat) (h1 : 0 < p1 * n1) (h2 : 0 < p2 * n2) (h3 : 0 < p3 * n3) (v : List K) (j : Nat)
    (hj : j < 3) (hv : v.getD j 0 < 0) (hn : 2 ≤ [n1, n2, n3].getD j 0) :
    total [p1 * n1, p2 * n2, p3 * n3]
      (fun g => (cornerField (readCell v [p1 * n1, p2 * n2, p3 * n3] [n1, n2, n3] j g) : K)) = 2 := by
  have hp : ∀ m ∈ [p1 * n1, p2 * n2, p3 * n3], 0 < m := by simp [h1, h2, h3]
  have key : ∀ a b : List Nat, InGrid [p1 * n1, p2 * n2, p3 * n3] a → InGrid [p1 * n1, p2 * n2, p3 * n3] b → a ≠ b →
      (∀ g, InGrid [p1 * n1, p2 * n2, p3 * n3] g →
        ((∀ x ∈ readCell v [p1 * n1, p2 * n2, p3 * n3] [n1, n2, n3] j g, x = 0) ↔ g = a ∨ g = b)) →
      total [p1 * n1, p2 * n2, p3 * n3]
        (fun g => (cornerField (readCell v [p1 * n1, p2 * n2, p3 * n3] [n1, n2, n3] j g) : K)) = 2 := by
    intro a b ha hb hab hg
    have e : total [p1 * n1, p2 * n2, p3 * n3]
        (fun g => (cornerField (readCell v [p1 * n1, p2 * n2, p3 * n3] [n1, n2, n3] j g) : K)) =
        total [p1 * n1, p2 * n2, p3 * n3] (fun g => (if g = a then (1 : K) else 0) + if g = b then 1 else 0) := by
      refine total_congr hp fun g hin => ?_
      unfold cornerField
      by_cases e1 : g = a
      · rw [if_pos ((hg g hin).2 (.inl e1)), if_pos e1, if_neg (by rw [e1]; exact hab), add_zero]
      · by_cases e2 : g = b
        · rw [if_pos ((hg g hin).2 (.inr e2)), if_neg e1, if_pos e2, zero_add]
        · rw [if_neg (fun h => ((hg g hin).1 h).elim e1 e2), if_neg e1, if_neg e2, add_zero]
    rw [e]
    have := total_single (K := K) hp ha
    have := total_single (K := K) hp hb
    unfold total at *
    rw [sum_add_distrib]
    linarith
  have far : ∀ {p n : Nat}, 0 < p * n → 2 ≤ n → 1 < p * n ∧ (p - 1) * n < p * n ∧ 1 ≠ (p - 1) * n := by
    intro p n hpn hn
    have hp : 0 < p := Nat.pos_of_mul_pos_right hpn
    have hm := Nat.mul_le_mul_right n hp
    rw [Nat.succ_eq_add_one, zero_add, one_mul] at hm
    refine ⟨by omega, Nat.mul_lt_mul_of_pos_right (by omega) (by omega), fun h => ?_⟩
    have := Nat.eq_one_of_mul_eq_one_left h.symm
    omega
  interval_cases j
  · simp only [List.getD_cons_zero] at hn
    obtain ⟨f1, f2, f3⟩ := far h1 hn
    refine key [1, 0, 0] [(p1 - 1) * n1, 0, 0] ⟨f1, h2, h3, trivial⟩ ⟨f2, h2, h3, trivial⟩ (by simpa using f3) ?_
    rintro g hg
    obtain ⟨x, y, z, rfl, hx, hy, hz⟩ : ∃ x y z, g = [x, y, z] ∧ x < p1 * n1 ∧ y < p2 * n2 ∧ z < p3 * n3 := by
      match g, hg with
      | [x, y, z], ⟨a, b, c, _⟩ => exact ⟨x, y, z, rfl, a, b, c⟩
    have e := read_zero hn hx
    unfold readCell neighbour
    simp only [hv, true_and, List.getD_cons_zero, List.set_cons_zero]
    rw [← apply_ite (fun t => [t, y, z])]
    simp only [List.mem_cons, List.not_mem_nil, or_false, forall_eq_or_imp, forall_eq, List.cons.injEq, and_true]
    rw [e]
    tauto
  · simp only [List.getD_cons_zero, List.getD_cons_succ] at hn
    obtain ⟨f1, f2, f3⟩ := far h2 hn
    refine key [0, 1, 0] [0, (p2 - 1) * n2, 0] ⟨h1, f1, h3, trivial⟩ ⟨h1, f2, h3, trivial⟩ (by simpa using f3) ?_
    rintro g hg
    obtain ⟨x, y, z, rfl, hx, hy, hz⟩ : ∃ x y z, g = [x, y, z] ∧ x < p1 * n1 ∧ y < p2 * n2 ∧ z < p3 * n3 := by
      match g, hg with
      | [x, y, z], ⟨a, b, c, _⟩ => exact ⟨x, y, z, rfl, a, b, c⟩
    have e := read_zero hn hy
    unfold readCell neighbour
    simp only [hv, true_and, List.getD_cons_zero, List.getD_cons_succ, List.set_cons_zero, List.set_cons_succ]
    rw [← apply_ite (fun t => [x, t, z])]
    simp only [List.mem_cons, List.not_mem_nil, or_false, forall_eq_or_imp, forall_eq, List.cons.injEq, and_true]
    rw [e]
    tauto
  · simp only [List.getD_cons_zero, List.getD_cons_succ] at hn
    obtain ⟨f1, f2, f3⟩ := far h3 hn
    refine key [0, 0, 1] [0, 0, (p3 - 1) * n3] ⟨h1, h2, f1, trivial⟩ ⟨h1, h2, f2, trivial⟩ (by simpa using f3) ?_
    rintro g hg
    obtain ⟨x, y, z, rfl, hx, hy, hz⟩ : ∃ x y z, g = [x, y, z] ∧ x < p1 * n1 ∧ y < p2 * n2 ∧ z < p3 * n3 := by
      match g, hg with
      | [x, y, z], ⟨a, b, c, _⟩ => exact ⟨x, y, z, rfl, a, b, c⟩
    have e := read_zero hn hz
    unfold readCell neighbour
    simp only [hv, true_and, List.getD_cons_zero, List.getD_cons_succ, List.set_cons_zero, List.set_cons_succ]
    rw [← apply_ite (fun t => [x, y, t])]
    simp only [List.mem_cons, List.not_mem_nil, or_false, forall_eq_or_imp, forall_eq, List.cons.injEq, and_true]
    rw [e]
    tauto

end Exact
end Fidi
