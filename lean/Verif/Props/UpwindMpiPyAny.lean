import Verif.Lemmas.UpwindMpiPyAny
import Verif.Props.UpwindMpiPy

/-
Property C62 for velocities of any sign: which computation upwindMPI.py performs, and exactly when it is the upwind scheme. The
assumptions on the decomposition are those of UpwindMpiPy.lean.
-/
set_option linter.unusedSectionVars false

namespace Fidi
open Spec

section
variable {R : Type} [Zero R] [One R] [Add R] [Sub R] [Mul R] [Div R] [NatCast R] [IntCast R] [LT R] [DecidableLT R]

/-- C62: for every decomposition, any number of steps, time step, domain size and velocities of any sign, the array gathered on
process 0 holds in each cell the value of `mpiStep`, operation by operation, and the array of each process holds the values of its
box. (With negative velocities `mpiStep` does not read the upwind neighbours.) -/
theorem C62_any_velocity (dc : MpiNum) (size : Nat) (n N : Nat × Nat × Nat) (h : dc.Good size n N)
    (hcast : ∀ n : Nat, ((n : Int) : R) = (n : R)) (sum : List R → R) (dt v1 v2 v3 L1 L2 L3 : R) (k : Int) :
    let up := PyMpi.new dc n (v1, v2, v3) (L1, L2, L3) N
    let f := up.steps sum k dt PyMpi.field
    let u := (mpiStep sum dt [v1, v2, v3] [L1, L2, L3] [N.1, N.2.1, N.2.2] [n.1, n.2.1, n.2.2])^[k.toNat] cornerField
    (∀ x y z, x < N.1 → y < N.2.1 → z < N.2.2 → up.gatherRoot size f x y z = u [x, y, z]) ∧
    ∀ rk, rk < size → ∀ x y z, x < n.1 → y < n.2.1 → z < n.2.2 →
      f rk x y z = u [(dc.coords rk).1 * n.1 + x, (dc.coords rk).2.1 * n.2.1 + y, (dc.coords rk).2.2 * n.2.2 + z] := by
  have hf := PyMpi.steps_any hcast h sum dt v1 v2 v3 L1 L2 L3 k (PyMpi.holds_field h)
  exact ⟨fun x y z hx hy hz => PyMpi.gather_holds h _ rfl rfl hf x y z hx hy hz, hf⟩

end

section
open Finset
variable {K : Type} [Field K] [LinearOrder K] [IsStrictOrderedRing K]

/-- The sum over the grid after the first step. -/
theorem total_mpiStep (p1 p2 p3 n1 n2 n3 : Nat) (h1 : 0 < p1 * n1) (h2 : 0 < p2 * n2) (h3 : 0 < p3 * n3) (dt : K) (v L : List K) :
    total [p1 * n1, p2 * n2, p3 * n3]
      (mpiStep List.sum dt v L [p1 * n1, p2 * n2, p3 * n3] [n1, n2, n3] cornerField) =
    1 - ∑ j ∈ range 3, if v.getD j 0 < 0 ∧ 2 ≤ [n1, n2, n3].getD j 0 then
      upCoeff dt v L [p1 * n1, p2 * n2, p3 * n3] j else 0 := by
  have hp : ∀ m ∈ [p1 * n1, p2 * n2, p3 * n3], 0 < m := by simp [h1, h2, h3]
  have hbox : ∀ j, j < 3 → 0 < [n1, n2, n3].getD j 0 := by
    intro j hj
    interval_cases j
    · exact Nat.pos_of_mul_pos_left h1
    · exact Nat.pos_of_mul_pos_left h2
    · exact Nat.pos_of_mul_pos_left h3
  have e : total [p1 * n1, p2 * n2, p3 * n3]
      (mpiStep List.sum dt v L [p1 * n1, p2 * n2, p3 * n3] [n1, n2, n3] cornerField) =
      total [p1 * n1, p2 * n2, p3 * n3] cornerField - ∑ j ∈ range 3, upCoeff dt v L [p1 * n1, p2 * n2, p3 * n3] j *
        (total [p1 * n1, p2 * n2, p3 * n3] (fun g => cornerField (readCell v [p1 * n1, p2 * n2, p3 * n3] [n1, n2, n3] j g)) -
          total [p1 * n1, p2 * n2, p3 * n3] cornerField) := by
    unfold total
    simp only [mpiStep_eq]
    rw [sum_sub_distrib, sum_comm]
    congr 1
    refine sum_congr rfl fun j _ => ?_
    rw [← mul_sum, sum_sub_distrib]
  rw [e, total_corner hp]
  congr 1
  refine sum_congr rfl fun j hj => ?_
  have hj := mem_range.1 hj
  split
  · next hb =>
    rw [total_read p1 p2 p3 n1 n2 n3 h1 h2 h3 v j hj hb.1 hb.2]
    ring
  · next hb =>
    have hg : 0 ≤ v.getD j 0 ∨ [n1, n2, n3].getD j 0 = 1 := by
      by_cases hv : v.getD j 0 < 0
      · right
        have := hbox j hj
        by_contra hne
        exact hb ⟨hv, by omega⟩
      · exact .inl (not_lt.1 hv)
    simp only [readCell_eq hg]
    rw [total_neighbour hp, total_corner hp]
    ring

/-- Where no axis has both a negative velocity and wide boxes, the step is that of the upwind scheme. -/
theorem mpiStep_upwind {dt : K} {v L : List K} {dims box : List Nat}
    (h : ∀ j, j < dims.length → 0 ≤ v.getD j 0 ∨ box.getD j 0 = 1) :
    mpiStep List.sum dt v L dims box = upwindStep dims (upDir v) (upCoeff dt v L dims) := by
  funext u g
  rw [mpiStep_eq, upwindStep_eq]
  congr 1
  refine sum_congr rfl fun j hj => ?_
  rw [readCell_eq (h j (mem_range.1 hj))]

/-- C62, exact arithmetic: the check sum after the first step is 1 minus, for each axis with a negative velocity along which the
boxes are two or more cells wide, the (negative) Courant number of this axis. -/
theorem C62_first_check_sum (dc : MpiNum) (size : Nat) (hsize : 0 < size) (n N : Nat × Nat × Nat) (h : dc.Good size n N)
    (dt v1 v2 v3 L1 L2 L3 : K) :
    let up := PyMpi.new dc n (v1, v2, v3) (L1, L2, L3) N
    up.checksum size (up.steps List.sum 1 dt PyMpi.field) =
      1 - ((if v1 < 0 ∧ 2 ≤ n.1 then dt * v1 / (L1 / N.1) else 0) + (if v2 < 0 ∧ 2 ≤ n.2.1 then dt * v2 / (L2 / N.2.1) else 0) +
        (if v3 < 0 ∧ 2 ≤ n.2.2 then dt * v3 / (L3 / N.2.2) else 0)) := by
  intro up
  have hf := PyMpi.steps_any (fun n => Int.cast_natCast n) h List.sum dt v1 v2 v3 L1 L2 L3 1 (PyMpi.holds_field h)
  rw [PyMpi.checksum_eq h up rfl hf]
  obtain ⟨p1, p2, p3⟩ := h.pos
  obtain ⟨q1, q2, q3⟩ := h.inside 0 hsize
  have hN := h.cells
  obtain ⟨N1, N2, N3⟩ := N
  simp only [Prod.mk.injEq] at hN
  obtain ⟨rfl, rfl, rfl⟩ := hN
  have e := total_mpiStep dc.procs.1 dc.procs.2.1 dc.procs.2.2 n.1 n.2.1 n.2.2 (Nat.mul_pos (by omega) p1)
    (Nat.mul_pos (by omega) p2) (Nat.mul_pos (by omega) p3) dt [v1, v2, v3] [L1, L2, L3]
  refine Eq.trans e ?_
  rw [sum_range_succ, sum_range_succ, sum_range_succ, sum_range_zero, zero_add]
  have one : ∀ j (x L : K) (m : Nat) (d : Nat), [v1, v2, v3].getD j 0 = x → [L1, L2, L3].getD j 0 = L →
      [dc.procs.1 * n.1, dc.procs.2.1 * n.2.1, dc.procs.2.2 * n.2.2].getD j 0 = d → [n.1, n.2.1, n.2.2].getD j 0 = m →
      (if [v1, v2, v3].getD j 0 < 0 ∧ 2 ≤ [n.1, n.2.1, n.2.2].getD j 0 then
        upCoeff dt [v1, v2, v3] [L1, L2, L3] [dc.procs.1 * n.1, dc.procs.2.1 * n.2.1, dc.procs.2.2 * n.2.2] j else 0) =
      if x < 0 ∧ 2 ≤ m then dt * x / (L / (d : K)) else 0 := by
    rintro j x L m d rfl rfl rfl rfl
    split
    · next hb =>
      unfold upCoeff upDir cellWidth
      rw [if_pos hb.1, Int.cast_one, mul_one]
    · rfl
  rw [one 0 v1 L1 n.1 _ rfl rfl rfl rfl, one 1 v2 L2 n.2.1 _ rfl rfl rfl rfl, one 2 v3 L3 n.2.2 _ rfl rfl rfl rfl]
  rfl

/-- C62, exact arithmetic: with a positive time step and domain size the following are equivalent: the gathered field is that of the
upwind scheme after any number of steps; the check sum is 1 after any number of steps; along each axis the velocity is not negative or the boxes are one
cell wide. -/
theorem C62_right_iff (dc : MpiNum) (size : Nat) (hsize : 0 < size) (n N : Nat × Nat × Nat) (h : dc.Good size n N)
    (dt v1 v2 v3 L1 L2 L3 : K) (hdt : 0 < dt) (hL1 : 0 < L1) (hL2 : 0 < L2) (hL3 : 0 < L3) :
    let up := PyMpi.new dc n (v1, v2, v3) (L1, L2, L3) N
    let good := (0 ≤ v1 ∨ n.1 = 1) ∧ (0 ≤ v2 ∨ n.2.1 = 1) ∧ (0 ≤ v3 ∨ n.2.2 = 1)
    ((∀ (k : Int) x y z, x < N.1 → y < N.2.1 → z < N.2.2 →
      up.gatherRoot size (up.steps List.sum k dt PyMpi.field) x y z =
        (upwindStep [N.1, N.2.1, N.2.2] (upDir [v1, v2, v3])
          (upCoeff dt [v1, v2, v3] [L1, L2, L3] [N.1, N.2.1, N.2.2]))^[k.toNat] cornerField [x, y, z]) ↔ good) ∧
    ((∀ k : Int, up.checksum size (up.steps List.sum k dt PyMpi.field) = 1) ↔ good) := by
  intro up good
  have hp : ∀ x ∈ [N.1, N.2.1, N.2.2], 0 < x := by
    obtain ⟨p1, p2, p3⟩ := h.pos
    obtain ⟨q1, q2, q3⟩ := h.inside 0 hsize
    rw [h.cells]
    simp only [List.mem_cons, List.not_mem_nil, or_false, forall_eq_or_imp, forall_eq]
    exact ⟨Nat.mul_pos (by omega) p1, Nat.mul_pos (by omega) p2, Nat.mul_pos (by omega) p3⟩
  have step : good → mpiStep List.sum dt [v1, v2, v3] [L1, L2, L3] [N.1, N.2.1, N.2.2] [n.1, n.2.1, n.2.2] =
      upwindStep [N.1, N.2.1, N.2.2] (upDir [v1, v2, v3]) (upCoeff dt [v1, v2, v3] [L1, L2, L3] [N.1, N.2.1, N.2.2]) := by
    rintro ⟨g1, g2, g3⟩
    refine mpiStep_upwind fun j hj => ?_
    have hj : j < 3 := hj
    interval_cases j
    · exact g1
    · exact g2
    · exact g3
  have bad : up.checksum size (up.steps List.sum 1 dt PyMpi.field) = 1 → good := by
    intro hs
    have e := C62_first_check_sum dc size hsize n N h dt v1 v2 v3 L1 L2 L3
    simp only at e
    rw [show up.checksum size (up.steps List.sum 1 dt PyMpi.field) = _ from e] at hs
    have sgn : ∀ (v L : K) (m d : Nat), 0 < L → 0 < d → (if v < 0 ∧ 2 ≤ m then dt * v / (L / (d : K)) else 0) ≤ 0 ∧
        ((if v < 0 ∧ 2 ≤ m then dt * v / (L / (d : K)) else 0) = 0 → ¬ (v < 0 ∧ 2 ≤ m)) := by
      intro v L m d hL hd
      have hw : 0 < L / (d : K) := div_pos hL (Nat.cast_pos.2 hd)
      split
      · next hb =>
        have : dt * v / (L / (d : K)) < 0 := div_neg_of_neg_of_pos (mul_neg_of_pos_of_neg hdt hb.1) hw
        exact ⟨this.le, fun h => absurd h this.ne⟩
      · next hb => exact ⟨le_rfl, fun _ => hb⟩
    obtain ⟨a1, b1⟩ := sgn v1 L1 n.1 N.1 hL1 (hp _ (by simp))
    obtain ⟨a2, b2⟩ := sgn v2 L2 n.2.1 N.2.1 hL2 (hp _ (by simp))
    obtain ⟨a3, b3⟩ := sgn v3 L3 n.2.2 N.2.2 hL3 (hp _ (by simp))
    obtain ⟨p1, p2, p3⟩ := h.pos
    have fin : ∀ (v : K) (m : Nat), 0 < m → ¬ (v < 0 ∧ 2 ≤ m) → 0 ≤ v ∨ m = 1 := by
      intro v m hm hb
      by_cases hv : v < 0
      · right
        by_contra hne
        exact hb ⟨hv, by omega⟩
      · exact .inl (not_lt.1 hv)
    exact ⟨fin _ _ p1 (b1 (by linarith)), fin _ _ p2 (b2 (by linarith)), fin _ _ p3 (b3 (by linarith))⟩
  have sum1 : (∀ (k : Int) x y z, x < N.1 → y < N.2.1 → z < N.2.2 →
      up.gatherRoot size (up.steps List.sum k dt PyMpi.field) x y z =
        (upwindStep [N.1, N.2.1, N.2.2] (upDir [v1, v2, v3])
          (upCoeff dt [v1, v2, v3] [L1, L2, L3] [N.1, N.2.1, N.2.2]))^[k.toNat] cornerField [x, y, z]) →
      ∀ k : Int, up.checksum size (up.steps List.sum k dt PyMpi.field) = 1 := by
    intro hg k
    have hf := PyMpi.steps_any (fun n => Int.cast_natCast n) h List.sum dt v1 v2 v3 L1 L2 L3 k (PyMpi.holds_field h)
    have ht := total_iter hp (upDir [v1, v2, v3]) (upCoeff dt [v1, v2, v3] [L1, L2, L3] [N.1, N.2.1, N.2.2]) k.toNat
      cornerField
    rw [total_corner hp] at ht
    rw [PyMpi.checksum_eq h up rfl hf, ← ht]
    refine total_congr hp fun g hin => ?_
    match g, hin with
    | [x, y, z], ⟨hx, hy, hz, _⟩ => rw [← hg k x y z hx hy hz]; exact (PyMpi.gather_holds h up rfl rfl hf x y z hx hy hz).symm
  have right : good → ∀ (k : Int) x y z, x < N.1 → y < N.2.1 → z < N.2.2 →
      up.gatherRoot size (up.steps List.sum k dt PyMpi.field) x y z =
        (upwindStep [N.1, N.2.1, N.2.2] (upDir [v1, v2, v3])
          (upCoeff dt [v1, v2, v3] [L1, L2, L3] [N.1, N.2.1, N.2.2]))^[k.toNat] cornerField [x, y, z] := by
    intro g k x y z hx hy hz
    rw [← step g]
    exact (C62_any_velocity dc size n N h (fun n => Int.cast_natCast n) List.sum dt v1 v2 v3 L1 L2 L3 k).1 x y z hx hy hz
  exact ⟨⟨fun hg => bad (sum1 hg 1), right⟩, fun hs => bad (hs 1), fun g => sum1 (right g)⟩

/-- Both sides occur: velocity -1 along the first axis with 6 processes on a 6 x 4 x 5 grid. -/
example : (rowMajor 6 1 1).Good 6 (1, 4, 5) (6, 4, 5) ∧ (rowMajor 3 2 1).Good 6 (2, 2, 5) (6, 4, 5) ∧
    ((0 ≤ (-1 : ℚ) ∨ ((1, 4, 5) : Nat × Nat × Nat).1 = 1) ∧ ¬ (0 ≤ (-1 : ℚ) ∨ ((2, 2, 5) : Nat × Nat × Nat).1 = 1)) :=
  ⟨rowMajor_good 6 1 1 (1, 4, 5) (by decide) (by decide) (by decide), rowMajor_good 3 2 1 (2, 2, 5) (by decide) (by decide) (by decide),
    .inr rfl, by norm_num⟩

example :
    let up : PyMpi ℚ := PyMpi.new (rowMajor 3 2 1) (2, 2, 5) (-1, 1, -2) (1, 1, 1) (6, 4, 5)
    up.checksum 6 (up.steps List.sum 1 (1 / 60) PyMpi.field) = 1 + 6 / 60 + 10 / 60 := by
  have e := C62_first_check_sum (K := ℚ) (rowMajor 3 2 1) 6 (by decide) (2, 2, 5) (6, 4, 5)
    (rowMajor_good 3 2 1 (2, 2, 5) (by decide) (by decide) (by decide)) (1 / 60) (-1) 1 (-2) 1 1 1
  simp only at e ⊢
  rw [e]
  norm_num

end
end Fidi
