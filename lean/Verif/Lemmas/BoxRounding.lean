import Verif.Lemmas.UpwindMpiPy
import Verif.Lemmas.IeeeFilter
import Verif.Lemmas.GridSum
import Verif.Spec.AnyOrder

/-
The step of upwindMPI.py with rounding and with IEEE numbers.
-/
set_option linter.unusedSectionVars false
set_option exponentiation.threshold 1100

namespace Fidi
open Spec Finset

section error
variable {R K : Type} [Zero R] [One R] [Add R] [Sub R] [Mul R] [Div R] [NatCast R] [IntCast R] [LT R] [DecidableLT R]
  [Field K] [LinearOrder K] [IsStrictOrderedRing K] {val : R → K} {r η tiny z m : K} {N : List Nat}
  {P : (List Nat → K) → K → Prop}

/-- Error of subtracting the terms `t j` one after the other; `x j` are the exact terms. -/
theorem fold_sub_error (H : Rounded R K val r η tiny) {t : Nat → R} {x d : Nat → K} {M : K} (js : List Nat)
    (hd : ∀ j ∈ js, |val (t j) - x j| ≤ d j) (acc : R) {A E : K} (hA : |val acc - A| ≤ E)
    (hM : |A| + (js.map fun j => |x j|).sum ≤ M) :
    |val (js.foldl (fun a j => a - t j) acc) - (A - (js.map x).sum)| ≤
      (1 + r) ^ js.length * (E + (js.map d).sum + js.length * (r * M + η)) := by
  have h0 := H.r_nonneg
  have hη := H.η_nonneg
  induction js generalizing acc A E with
  | nil => simpa using hA
  | cons j js ih =>
    have hdj := hd j (by simp)
    simp only [List.map_cons, List.sum_cons] at hM ⊢
    have hS : 0 ≤ (js.map fun j => |x j|).sum := by
      apply List.sum_nonneg; intro y hy
      obtain ⟨t, _, rfl⟩ := List.mem_map.1 hy
      exact abs_nonneg _
    have hA' : |A - x j| ≤ |A| + |x j| := abs_sub _ _
    have e1 : |val acc - val (t j) - (A - x j)| ≤ E + d j := by
      have e : val acc - val (t j) - (A - x j) = (val acc - A) - (val (t j) - x j) := by ring
      rw [e]; exact (abs_sub _ _).trans (add_le_add hA hdj)
    have e2 : |val acc - val (t j)| ≤ M + (E + d j) := by
      have : val acc - val (t j) = (val acc - val (t j) - (A - x j)) + (A - x j) := by ring
      rw [this]
      refine (abs_add_le _ _).trans ?_
      linarith
    have e3 : |val (acc - t j) - (A - x j)| ≤ (1 + r) * (E + d j) + (r * M + η) := by
      have e : val (acc - t j) - (A - x j) = (val (acc - t j) - (val acc - val (t j))) + (val acc - val (t j) - (A - x j)) := by ring
      rw [e]
      refine (abs_add_le _ _).trans ?_
      have := (H.sub acc (t j)).1
      have := mul_le_mul_of_nonneg_left e2 h0
      linarith
    have h := ih (fun i hi => hd i (by simp [hi])) (acc - t j) e3 (by linarith)
    rw [List.foldl_cons, show A - (x j + (js.map x).sum) = A - x j - (js.map x).sum by ring]
    refine h.trans ?_
    have hD : 0 ≤ (js.map d).sum := by
      apply List.sum_nonneg; intro y hy
      obtain ⟨i, hi, rfl⟩ := List.mem_map.1 hy
      exact (abs_nonneg _).trans (hd i (by simp [hi]))
    have hM0 : 0 ≤ M := by linarith [abs_nonneg A, abs_nonneg (x j)]
    have hq : 0 ≤ r * M + η := add_nonneg (mul_nonneg h0 hM0) hη
    have hp : (0 : K) ≤ (1 + r) ^ js.length := pow_nonneg (by linarith) _
    rw [List.length_cons, pow_succ, mul_assoc]
    apply mul_le_mul_of_nonneg_left _ hp
    push_cast
    have hn0 : (0 : K) ≤ js.length := Nat.cast_nonneg _
    have := mul_nonneg h0 hD
    have := mul_nonneg h0 (mul_nonneg hn0 hq)
    have := mul_nonneg h0 hq
    nlinarith

/-- The axes in the order of a cell. -/
theorem axes_perm (d : Nat) (box g : List Nat) :
    (((List.range d).filter fun j => decide (g.getD j 0 % box.getD j 0 ≠ 0)) ++
      (List.range d).filter fun j => decide (g.getD j 0 % box.getD j 0 = 0)).Perm (List.range d) := by
  have := List.filter_append_perm (fun j => decide (g.getD j 0 % box.getD j 0 ≠ 0)) (List.range d)
  simpa using this

/-- Error of the step in one cell, the total of the exact coefficients being at most 1/2. -/
theorem split_cell_error (H : Rounded R K val r η tiny) (hN : N.length = 3) (box : List Nat) {c : R} {w : Nat → R} {a : Nat → K}
    (ha : ∀ j, 0 ≤ a j) (hs : ∑ j ∈ range N.length, a j ≤ 1 / 2)
    (hc : Rel (18 * r) (val c) (-∑ j ∈ range N.length, a j))
    (hw : ∀ j, j < N.length → Rel (65 / 10 * r) (val (w j)) (-a j)) (u : List Nat → R) (g : List Nat) :
    |val (splitStep N box c w u g) - upwindStep N (fun _ => -1) (fun j => -a j) (fun g => val (u g)) g| ≤
      (1 + r) ^ 3 * (137 / 10 * r * (1 * |val (u g)| + ∑ j ∈ range N.length, a j * |val (u (neighbour N j (-1) g))|) +
        801 / 100 * η) := by
  have h0 := H.r_nonneg
  have h1 := H.r_le
  have hη := H.η_nonneg
  set W := ∑ j ∈ range N.length, a j with hW
  have hW0 : 0 ≤ W := sum_nonneg fun j _ => ha j
  set U := val (u g) with hU
  set S := ∑ j ∈ range N.length, a j * |val (u (neighbour N j (-1) g))| with hS
  have hS0 : 0 ≤ S := sum_nonneg fun j _ => mul_nonneg (ha j) (abs_nonneg _)
  have hU0 := abs_nonneg U
  have hr2 : r * r ≤ r / 100 := by nlinarith
  have hWU : W * |U| ≤ 1 / 2 * |U| := mul_le_mul_of_nonneg_right hs hU0
  have hWU0 : 0 ≤ W * |U| := mul_nonneg hW0 hU0
  -- the outflow
  have c1 : |val c + W| ≤ 18 * r * W := by
    have := hc
    unfold Rel at this
    rwa [abs_neg, abs_of_nonneg hW0, sub_neg_eq_add] at this
  have c2 : |val c| ≤ (1 + 18 * r) * W := by
    have := hc.abs_le
    rwa [abs_neg, abs_of_nonneg hW0] at this
  have c3 : |val (c * u g) - val c * U| ≤ r * ((1 + 18 * r) * (W * |U|)) + η := by
    refine (H.mul c (u g)).1.trans ?_
    rw [abs_mul]
    have := mul_le_mul_of_nonneg_left (mul_le_mul_of_nonneg_right c2 hU0) h0
    linarith
  have c4 : |val (c * u g) - -(W * U)| ≤ 96 / 10 * r * |U| + η := by
    have e : val (c * u g) - -(W * U) = (val (c * u g) - val c * U) + (val c + W) * U := by ring
    rw [e]
    refine (abs_add_le _ _).trans ?_
    rw [abs_mul]
    have b1 := mul_le_mul_of_nonneg_right c1 hU0
    have b2 : r * (W * |U|) ≤ r * (1 / 2 * |U|) := mul_le_mul_of_nonneg_left hWU h0
    have b3 : r * r * (W * |U|) ≤ r / 100 * (1 / 2 * |U|) :=
      mul_le_mul hr2 hWU hWU0 (by linarith)
    nlinarith [mul_nonneg h0 hU0]
  have c5 : |U - W * U| ≤ (1 - W) * |U| := by
    rw [show U - W * U = (1 - W) * U by ring, abs_mul, abs_of_nonneg (by linarith)]
  have c6 : |val (u g + c * u g) - (U - W * U)| ≤ 107 / 10 * r * |U| + 201 / 100 * η := by
    have e : val (u g + c * u g) - (U - W * U) = (val (u g + c * u g) - (U + val (c * u g))) + (val (c * u g) - -(W * U)) := by ring
    rw [e]
    refine (abs_add_le _ _).trans ?_
    have b1 : |U + val (c * u g)| ≤ |U| + (96 / 10 * r * |U| + η) := by
      have e : U + val (c * u g) = (U - W * U) + (val (c * u g) - -(W * U)) := by ring
      rw [e]
      refine (abs_add_le _ _).trans ?_
      linarith
    have b2 := (H.add (u g) (c * u g)).1
    have b3 := mul_le_mul_of_nonneg_left b1 h0
    have b4 : r * r * |U| ≤ r / 100 * |U| := mul_le_mul_of_nonneg_right hr2 hU0
    have b5 : r * η ≤ 1 / 100 * η := mul_le_mul_of_nonneg_right h1 hη
    nlinarith [mul_nonneg h0 hU0]
  -- the inflow
  have d1 : ∀ j, j < N.length → |val (w j * u (neighbour N j (-1) g)) - -(a j * val (u (neighbour N j (-1) g)))| ≤
      76 / 10 * r * (a j * |val (u (neighbour N j (-1) g))|) + η := by
    intro j hj
    set V := val (u (neighbour N j (-1) g))
    have hV0 := abs_nonneg V
    have haV := mul_nonneg (ha j) hV0
    have b1 : |val (w j) + a j| ≤ 65 / 10 * r * a j := by
      have := hw j hj
      unfold Rel at this
      rwa [abs_neg, abs_of_nonneg (ha j), sub_neg_eq_add] at this
    have b2 : |val (w j)| ≤ (1 + 65 / 10 * r) * a j := by
      have := (hw j hj).abs_le
      rwa [abs_neg, abs_of_nonneg (ha j)] at this
    have b3 : |val (w j * u (neighbour N j (-1) g)) - val (w j) * V| ≤ r * ((1 + 65 / 10 * r) * (a j * |V|)) + η := by
      refine (H.mul _ _).1.trans ?_
      rw [abs_mul]
      have := mul_le_mul_of_nonneg_left (mul_le_mul_of_nonneg_right b2 hV0) h0
      linarith
    have e : val (w j * u (neighbour N j (-1) g)) - -(a j * V) =
      (val (w j * u (neighbour N j (-1) g)) - val (w j) * V) + (val (w j) + a j) * V := by ring
    rw [e]
    refine (abs_add_le _ _).trans ?_
    rw [abs_mul]
    have b4 := mul_le_mul_of_nonneg_right b1 hV0
    have b5 : r * r * (a j * |V|) ≤ r / 100 * (a j * |V|) := mul_le_mul_of_nonneg_right hr2 haV
    nlinarith [mul_nonneg h0 haV]
  -- the order of the axes
  set js := ((List.range N.length).filter fun j => decide (g.getD j 0 % box.getD j 0 ≠ 0)) ++
      (List.range N.length).filter fun j => decide (g.getD j 0 % box.getD j 0 = 0) with hjs
  have hperm : js.Perm (List.range N.length) := axes_perm _ _ _
  have hlen : js.length = 3 := by rw [hperm.length_eq, List.length_range, hN]
  have hmem : ∀ j ∈ js, j < N.length := fun j hj => List.mem_range.1 (hperm.mem_iff.1 hj)
  have s1 : (js.map fun j => |-(a j * val (u (neighbour N j (-1) g)))|).sum = S := by
    rw [(hperm.map _).sum_eq, sum_map_range]
    exact sum_congr rfl fun j _ => by rw [abs_neg, abs_mul, abs_of_nonneg (ha j)]
  have s2 : (js.map fun j => 76 / 10 * r * (a j * |val (u (neighbour N j (-1) g))|) + η).sum = 76 / 10 * r * S + 3 * η := by
    rw [(hperm.map _).sum_eq, sum_map_range, sum_add_distrib, ← mul_sum, sum_const, card_range, hN]
    simp [hS, hN]
  have s3 : (U - W * U) - (js.map fun j => -(a j * val (u (neighbour N j (-1) g)))).sum =
      upwindStep N (fun _ => -1) (fun j => -a j) (fun g => val (u g)) g := by
    rw [(hperm.map _).sum_eq, sum_map_range, upwindStep_eq, hW, sum_mul, sub_sub, ← sum_add_distrib]
    congr 1
    exact sum_congr rfl fun j _ => by ring
  have key := fold_sub_error H (t := fun j => w j * u (neighbour N j (-1) g)) (M := |U| + S) js
    (fun j hj => d1 j (hmem j hj)) (u g + c * u g) c6 (by
      rw [s1]
      have : (1 - W) * |U| ≤ 1 * |U| := mul_le_mul_of_nonneg_right (by linarith) hU0
      linarith)
  rw [s2, s3, hlen] at key
  refine key.trans (mul_le_mul_of_nonneg_left ?_ (pow_nonneg (by linarith) _))
  push_cast
  nlinarith [mul_nonneg h0 hS0]

/-- Error of a step. -/
theorem split_error (H : Rounded R K val r η tiny) (hP : GridNorm N m P) (hN : N.length = 3) (box : List Nat) {c : R} {w : Nat → R}
    {a : Nat → K} (ha : ∀ j, 0 ≤ a j) (hs : ∑ j ∈ range N.length, a j ≤ 1 / 2)
    (hc : Rel (18 * r) (val c) (-∑ j ∈ range N.length, a j))
    (hw : ∀ j, j < N.length → Rel (65 / 10 * r) (val (w j)) (-a j)) (u : List Nat → R) {b : K} (hb : 0 ≤ b)
    (hu : P (fun g => val (u g)) b) :
    P (fun g => val (splitStep N box c w u g) - upwindStep N (fun _ => -1) (fun j => -a j) (fun g => val (u g)) g)
      (stepError 3 r * b + stepUnderflow 3 r (4 * η * m)) := by
  have h0 := H.r_nonneg
  have hη := H.η_nonneg
  have hm := hP.m_nonneg
  have h1 := hP.mean (fun _ => -1) ha (hP.abs hu) 1 N.length
  rw [abs_one] at h1
  have h2 := hP.smul ((1 + r) ^ 3) (hP.add (hP.smul (137 / 10 * r) h1) (hP.const (801 / 100 * η)))
  have hp : (0 : K) ≤ (1 + r) ^ 3 := pow_nonneg (by linarith) _
  refine hP.mono (hP.dom h2 fun g _ => ?_) ?_
  · exact (split_cell_error H hN box ha hs hc hw u g).trans (le_abs_self _)
  · rw [abs_of_nonneg hp, abs_of_nonneg (by linarith : (0 : K) ≤ 137 / 10 * r), abs_of_nonneg (by linarith : (0 : K) ≤ 801 / 100 * η)]
    unfold stepError stepUnderflow
    have hrb := mul_nonneg h0 hb
    have hηm := mul_nonneg hη hm
    have e : (1 + r) ^ 3 * ((3 : Nat) + 18 : K) * r * b + (1 + r) ^ 3 * (3 : Nat) * (4 * η * m) =
        (1 + r) ^ 3 * (21 * (r * b) + 12 * (η * m)) := by push_cast; ring
    rw [e]
    apply mul_le_mul_of_nonneg_left _ hp
    have : (1 + ∑ j ∈ range N.length, a j) * (r * b) ≤ (3 / 2) * (r * b) := mul_le_mul_of_nonneg_right (by linarith) hrb
    nlinarith

/-- Error and size of the field after `k` steps. -/
theorem split_iter_error (H : Rounded R K val r η tiny) (hP : GridNorm N m P) (hN : N.length = 3) (box : List Nat) {c : R}
    {w : Nat → R} {a : Nat → K} (ha : ∀ j, 0 ≤ a j) (hs : ∑ j ∈ range N.length, a j ≤ 1 / 2)
    (hc : Rel (18 * r) (val c) (-∑ j ∈ range N.length, a j))
    (hw : ∀ j, j < N.length → Rel (65 / 10 * r) (val (w j)) (-a j)) (u : List Nat → R) {b : K} (hb : 0 ≤ b)
    (hu : P (fun g => val (u g)) b) (k : Nat) :
    P (fun g => val ((splitStep N box c w)^[k] u g)) (grown 3 r (4 * η * m) k b) ∧
    P (fun g => val ((splitStep N box c w)^[k] u g) - (upwindStep N (fun _ => -1) fun j => -a j)^[k] (fun g => val (u g)) g)
      (grown 3 r (4 * η * m) k b - b) := by
  have h0 := H.r_nonneg
  have hη := H.η_nonneg
  have hm := hP.m_nonneg
  have he := stepError_nonneg h0 3
  have hzm : 0 ≤ 4 * η * m := mul_nonneg (by linarith) hm
  have hun := stepUnderflow_nonneg h0 hzm 3
  induction k with
  | zero =>
    refine ⟨by simpa [grown] using hu, hP.mono (hP.dom (hP.const 0) fun g _ => by simp) (by simp [grown])⟩
  | succ k ih =>
    obtain ⟨h1, h2⟩ := ih
    have hbk : 0 ≤ grown 3 r (4 * η * m) k b := mul_nonneg (pow_nonneg (by linarith) _)
      (add_nonneg hb (mul_nonneg (Nat.cast_nonneg _) hun))
    have hl := split_error H hP hN box ha hs hc hw ((splitStep N box c w)^[k] u) hbk h1
    have hS : ∀ x b, P x b → P (upwindStep N (fun _ => -1) (fun j => -a j) x) b := fun x b hx => by
      rw [upwindStep_partial]; exact hP.partialStep _ ha hx _ (by linarith)
    have hg := grown_succ h0 hzm 3 k b
    constructor
    · rw [Function.iterate_succ', Function.comp_apply]
      refine hP.mono (hP.dom (hP.add hl (hS _ _ h1)) fun g _ => by rw [sub_add_cancel]) ?_
      linarith
    · rw [Function.iterate_succ', Function.comp_apply, Function.iterate_succ', Function.comp_apply]
      refine hP.mono (hP.dom (hP.add hl (hS _ _ h2)) fun g _ => ?_) ?_
      · rw [← upwindStep_sub, sub_add_sub_cancel]
      · linarith

end error

/-! ### IEEE numbers -/

/-- Subtracting terms one after the other without overflow. -/
theorem fold_sub_fin {t : Nat → Dbl} {t' : Nat → F64} {T : ℚ} (hT : 1 ≤ T) (js : List Nat) (ht : ∀ j ∈ js, t' j = .fin (t j))
    (hb : ∀ j ∈ js, |(t j).val| ≤ T) (acc : Dbl) {A : ℚ} (hA : |acc.val| ≤ A) (hbig : 4 ^ js.length * (A + T) ≤ 2 ^ 1020) :
    js.foldl (fun a j => a - t' j) (.fin acc) = .fin (js.foldl (fun a j => a - t j) acc) := by
  induction js generalizing acc A with
  | nil => rfl
  | cons j js ih =>
    have hA0 : 0 ≤ A := (abs_nonneg _).trans hA
    have h1 := RoundsTo.abs_le (Dbl.rounded.sub acc (t j))
    have h2 : |acc.val - (t j).val| ≤ |acc.val| + |(t j).val| := abs_sub _ _
    have h3 := hb j (by simp)
    have h4 : |(acc - t j).val| ≤ 3 * (A + T) := by linarith
    have hp : (1 : ℚ) ≤ 4 ^ js.length := one_le_pow₀ (by norm_num)
    rw [List.length_cons, pow_succ] at hbig
    have h5 : 4 ^ js.length * (3 * (A + T) + T) ≤ (2 : ℚ) ^ 1020 := by
      refine le_trans ?_ hbig
      rw [mul_assoc]
      exact mul_le_mul_of_nonneg_left (by linarith) (by linarith)
    have h6 : 3 * (A + T) ≤ (2 : ℚ) ^ 1020 := by
      refine le_trans ?_ h5
      have : 1 * (3 * (A + T) + T) ≤ 4 ^ js.length * (3 * (A + T) + T) := mul_le_mul_of_nonneg_right hp (by linarith)
      linarith
    rw [List.foldl_cons, List.foldl_cons, ht j (by simp), F64.fin_sub (le_max (h4.trans h6))]
    exact ih (fun i hi => ht i (by simp [hi])) (fun i hi => hb i (by simp [hi])) _ h4 h5

theorem abs_mul_le {x y : Dbl} {p q : ℚ} (hx : |x.val| ≤ p) (hy : |y.val| ≤ q) (hp : 0 ≤ p) : |(x * y).val| ≤ 2 * (p * q) + 1 := by
  have h1 := RoundsTo.abs_le (Dbl.rounded.mul x y)
  rw [abs_mul] at h1
  have h2 : |x.val| * |y.val| ≤ p * q := mul_le_mul hx hy (abs_nonneg _) hp
  linarith

/-- One step. -/
theorem split_fin {N : List Nat} (hN : N.length = 3) (box : List Nat) {c : Dbl} {w : Nat → Dbl} {w' : Nat → F64} (hc : |c.val| ≤ 2)
    (hw : ∀ j, j < N.length → w' j = .fin (w j) ∧ |(w j).val| ≤ 2) {u : List Nat → Dbl} {u' : List Nat → F64}
    (hu : ∀ g, InGrid N g → u' g = .fin (u g)) (hb : ∀ g, InGrid N g → |(u g).val| ≤ 2 ^ 500) :
    ∀ g, InGrid N g → splitStep N box (.fin c) w' u' g = .fin (splitStep N box c w u g) := by
  intro g hg
  unfold splitStep
  simp only
  set js := ((List.range N.length).filter fun j => decide (g.getD j 0 % box.getD j 0 ≠ 0)) ++
      (List.range N.length).filter fun j => decide (g.getD j 0 % box.getD j 0 = 0) with hjs
  have hperm : js.Perm (List.range N.length) := axes_perm _ _ _
  have hlen : js.length = 3 := by rw [hperm.length_eq, List.length_range, hN]
  have hmem : ∀ j ∈ js, j < N.length := fun j hj => List.mem_range.1 (hperm.mem_iff.1 hj)
  have hprod : ∀ (x : Dbl) h, |x.val| ≤ 2 → InGrid N h →
      F64.fin x * F64.fin (u h) = .fin (x * u h) ∧ |(x * u h).val| ≤ 2 * (2 * 2 ^ 500) + 1 := fun x h hx hh =>
    ⟨prod_fin hx (hb h hh) (by norm_num) (by norm_num), abs_mul_le hx (hb h hh) (by norm_num)⟩
  obtain ⟨q1, q2⟩ := hprod c g hc hg
  have q3 : |(u g + c * u g).val| ≤ 13 * 2 ^ 500 := by
    have h1 := RoundsTo.abs_le (Dbl.rounded.add (u g) (c * u g))
    have h2 := abs_add_le (u g).val (c * u g).val
    have := hb g hg
    have : (1 : ℚ) ≤ 2 ^ 500 := one_le_pow₀ (by norm_num)
    linarith
  rw [hu g hg, q1, F64.fin_add (le_max (q3.trans (by norm_num)))]
  refine fold_sub_fin (T := 2 * (2 * 2 ^ 500) + 1) (by linarith [show (0 : ℚ) ≤ 2 ^ 500 by positivity]) js (fun j hj => ?_) (fun j hj => ?_) _ q3 (by
    rw [hlen]; norm_num)
  · have hj' := hmem j hj
    have hh := neighbour_inGrid hg j (-1)
    rw [(hw j hj').1, hu _ hh, (hprod _ _ (hw j hj').2 hh).1]
  · exact (hprod _ _ (hw j (hmem j hj)).2 (neighbour_inGrid hg j (-1))).2

/-- Any number of steps. -/
theorem split_iter_fin {N : List Nat} (hN : N.length = 3) (box : List Nat) {c : Dbl} {w : Nat → Dbl} {w' : Nat → F64} (hc : |c.val| ≤ 2)
    (hw : ∀ j, j < N.length → w' j = .fin (w j) ∧ |(w j).val| ≤ 2) {u : List Nat → Dbl} {u' : List Nat → F64}
    (hu : ∀ g, InGrid N g → u' g = .fin (u g)) (k : Nat)
    (hb : ∀ i, i < k → ∀ g, InGrid N g → |((splitStep N box c w)^[i] u g).val| ≤ 2 ^ 500) :
    ∀ g, InGrid N g → (splitStep N box (.fin c) w')^[k] u' g = .fin ((splitStep N box c w)^[k] u g) := by
  induction k with
  | zero => exact hu
  | succ k ih =>
    intro g hg
    rw [Function.iterate_succ', Function.comp_apply, Function.iterate_succ', Function.comp_apply]
    exact split_fin hN box hc hw (ih fun i hi => hb i (by omega)) (hb k (by omega)) g hg

section coeffs
variable {N : List Nat} {dt : Dbl} {v L : List Dbl} (hf : FitCoeffs dt v L N) {j : Nat} (hj : j < N.length)
include hf hj

/-- The velocity over the width. -/
theorem FitCoeffs.rate_rel (hr : |(v.map Dbl.val).getD j 0 / cellWidth (L.map Dbl.val) N j| ≤ 2 ^ 500) :
    F64.fin (v.getD j 0) * ((upDir v j : Int) : F64) / .fin (cellWidth L N j) =
      .fin (v.getD j 0 * ((upDir v j : Int) : Dbl) / cellWidth L N j) ∧
    Rel (54 / 10 * (1 / 2 ^ 53)) (v.getD j 0 * ((upDir v j : Int) : Dbl) / cellWidth L N j).val
      ((v.getD j 0).val * ((upDir v j : Int) : ℚ) / cellWidth (L.map Dbl.val) N j) := by
  have H := Dbl.rounded
  have h1 := hf.normal.velocity j hj
  have h2 := hf.normal.rate j hj
  rw [getD_map_val H] at h1 h2 hr
  have hs : |((upDir v j : Int) : ℚ)| = 1 := abs_upDir j
  obtain ⟨w1, w2⟩ := hf.width_pos hj
  have a1 : Rel (205 / 100 * (1 / 2 ^ 53)) (v.getD j 0 * ((upDir v j : Int) : Dbl)).val ((v.getD j 0).val * ((upDir v j : Int) : ℚ)) :=
    mul_rel H (le_refl 0) zero_le_one (self_rel _) (dir_rel H _) (h1.congr_abs (by rw [abs_mul, hs, mul_one])) (by norm_num)
      (by norm_num)
  have b1 := a1.le_two (by norm_num)
  have hv : |(v.getD j 0).val| ≤ 2 ^ 900 := by
    rw [abs_div, abs_of_pos w1, div_le_iff₀ w1] at hr
    have : (2 : ℚ) ^ 500 * cellWidth (L.map Dbl.val) N j ≤ 2 ^ 500 * 2 ^ 400 := mul_le_mul_of_nonneg_left w2 (by positivity)
    refine (hr.trans this).trans (by norm_num)
  rw [abs_mul, hs, mul_one] at b1
  have f1 : F64.fin (v.getD j 0) * ((upDir v j : Int) : F64) = .fin (v.getD j 0 * ((upDir v j : Int) : Dbl)) := by
    rw [dir_fin hf hj]
    exact F64.fin_mul (le_max (b1.trans ((mul_le_mul_of_nonneg_left hv (by norm_num)).trans (by norm_num))))
  have a2 : Rel (54 / 10 * (1 / 2 ^ 53)) (v.getD j 0 * ((upDir v j : Int) : Dbl) / cellWidth L N j).val
      ((v.getD j 0).val * ((upDir v j : Int) : ℚ) / cellWidth (L.map Dbl.val) N j) :=
    div_rel H (p := 205 / 100) (q := 21 / 10) (m := 43 / 10) (by norm_num) (by norm_num) a1 (hf.width_rel hj)
      (h2.congr_abs (by rw [abs_div, abs_div, abs_mul, hs, mul_one])) (by norm_num) (by norm_num) (by norm_num) (by norm_num)
  have b2 := a2.le_two (by norm_num)
  have e2 : |(v.getD j 0).val * ((upDir v j : Int) : ℚ) / cellWidth (L.map Dbl.val) N j| =
      |(v.getD j 0).val / cellWidth (L.map Dbl.val) N j| := by rw [abs_div, abs_mul, hs, mul_one, ← abs_div]
  rw [e2] at b2
  have f2 : F64.fin (v.getD j 0 * ((upDir v j : Int) : Dbl)) / .fin (cellWidth L N j) =
      .fin (v.getD j 0 * ((upDir v j : Int) : Dbl) / cellWidth L N j) :=
    F64.fin_div (hf.width_ne hj) (le_max (b2.trans ((mul_le_mul_of_nonneg_left hr (by norm_num)).trans (by norm_num))))
  exact ⟨by rw [f1, f2], a2⟩

end coeffs

/-! ### The order of the sum -/

section order
open PyMpi MpiNum

/-- The cells of the boxes of all processes are the cells of the grid. -/
theorem box_cells_perm {dc : MpiNum} {size : Nat} {n N : Nat × Nat × Nat} (h : dc.Good size n N) :
    ((List.range size).flatMap fun (rk : Nat) => (List.range n.1).flatMap fun (x : Nat) => (List.range n.2.1).flatMap fun (y : Nat) =>
      (List.range n.2.2).map fun (z : Nat) =>
        [(dc.coords rk).1 * n.1 + x, (dc.coords rk).2.1 * n.2.1 + y, (dc.coords rk).2.2 * n.2.2 + z]).Perm
      ((List.range [N.1, N.2.1, N.2.2].prod).map fun i => cellAt [N.1, N.2.1, N.2.2] i) := by
  classical
  rw [List.perm_iff_count]
  intro g
  have hcount : ∀ l : List (List Nat), (l.count g : ℚ) = (l.map fun x => if x = g then (1 : ℚ) else 0).sum := by
    intro l
    induction l with
    | nil => simp
    | cons x l ih =>
      rw [List.count_cons, List.map_cons, List.sum_cons, ← ih]
      by_cases e : x = g <;> simp [e, add_comm]
  have key := PyMpi.checksum_eq h (⟨dc, n, N, (0, 0, 0), ((0 : ℚ), 0, 0), (0, 0, 0)⟩ : PyMpi ℚ) rfl (f := fun rk x y z => if [(dc.coords rk).1 * n.1 + x,
      (dc.coords rk).2.1 * n.2.1 + y, (dc.coords rk).2.2 * n.2.2 + z] = g then 1 else 0) (u := fun c => if c = g then 1 else 0)
    (fun rk _ x y z _ _ _ => rfl)
  have hq : ((List.count g ((List.range size).flatMap fun (rk : Nat) => (List.range n.1).flatMap fun (x : Nat) =>
      (List.range n.2.1).flatMap fun (y : Nat) => (List.range n.2.2).map fun (z : Nat) =>
        [(dc.coords rk).1 * n.1 + x, (dc.coords rk).2.1 * n.2.1 + y, (dc.coords rk).2.2 * n.2.2 + z]) : Nat) : ℚ) =
      (List.count g ((List.range [N.1, N.2.1, N.2.2].prod).map fun i => cellAt [N.1, N.2.1, N.2.2] i) : Nat) := by
    rw [hcount, hcount]
    unfold checksum at key
    rw [foldl_add, zero_add] at key
    rw [List.map_map, sum_map_range]
    refine Eq.trans ?_ key
    congr 1
    simp only [List.map_flatMap, List.map_map, flat]
    rfl
  exact_mod_cast hq

/-- The values that `reduce` adds are the values of the field. -/
theorem box_values_perm {R : Type} {dc : MpiNum} {size : Nat} {n N : Nat × Nat × Nat} (h : dc.Good size n N) {f : Nat → Arr3 R}
    {u : List Nat → R} (hf : ∀ rk, rk < size → ∀ x y z, x < n.1 → y < n.2.1 → z < n.2.2 →
      f rk x y z = u [(dc.coords rk).1 * n.1 + x, (dc.coords rk).2.1 * n.2.1 + y, (dc.coords rk).2.2 * n.2.2 + z]) :
    ((List.range size).flatMap fun rk => (List.range n.1).flatMap fun x => (List.range n.2.1).flatMap fun y =>
      (List.range n.2.2).map fun z => f rk x y z).Perm (listOf [N.1, N.2.1, N.2.2] u) := by
  have hp := (box_cells_perm h).map u
  unfold listOf
  rw [List.map_map] at hp
  refine (List.Perm.of_eq ?_).trans hp
  simp only [List.map_flatMap, List.map_map]
  have fm : ∀ {α : Type} (m : Nat) (F G : Nat → List α), (∀ i, i < m → F i = G i) →
      (List.range m).flatMap F = (List.range m).flatMap G := by
    intro α m F G hFG
    induction m with
    | zero => rfl
    | succ m ih =>
      rw [List.range_succ, List.flatMap_append, List.flatMap_append, ih fun i hi => hFG i (by omega)]
      simp [hFG m (by omega)]
  refine fm _ _ _ fun rk hrk => fm _ _ _ fun x hx => fm _ _ _ fun y hy => List.map_congr_left fun z hz => ?_
  exact hf rk hrk x y z hx hy (List.mem_range.1 hz)

end order
end Fidi
