import Verif.Lemmas.Upwind
import Verif.Lemmas.CubeDecompGeom
import Verif.Model.UpwindMain
import Verif.Model.Exact
import Mathlib.Data.Rat.Cast.Order
import Mathlib.Algebra.Order.Ring.Rat
import Mathlib.Algebra.Order.Field.Rat
import Mathlib.Tactic.NormNum
import Mathlib.Algebra.BigOperators.Field
import Mathlib.Algebra.Order.BigOperators.Ring.Finset
import Mathlib.Algebra.Order.Field.Basic
import Mathlib.Tactic.Ring
import Mathlib.Tactic.Linarith
import Mathlib.Tactic.FieldSimp
import Mathlib.Tactic.Positivity

/-
The upwind step in exact arithmetic: conservation, convexity, variance.
-/
set_option linter.unusedSectionVars false

namespace Fidi
open Fidi.Spec Finset Upwind

theorem neighbour_getElem {N g : List Nat} {j i : Nat} {s : Int} (hi : i < g.length) :
    (neighbour N j s g)[i]'(by simpa [neighbour] using hi) =
      if j = i then (((g[i] : Nat) : Int) + s) % (N.getD j 0 : Int) |>.toNat else g[i] := by
  simp only [neighbour]
  rw [List.getElem_set]
  split
  · next h => subst h; rw [natGetD_of_lt (l := g) hi]
  · rfl

theorem neighbour_length {N g : List Nat} {j : Nat} {s : Int} : (neighbour N j s g).length = g.length := by
  simp [neighbour]

/-- Going back. -/
theorem neighbour_neg {N g : List Nat} (hg : InGrid N g) (j : Nat) (s : Int) :
    neighbour N j (-s) (neighbour N j s g) = g := by
  obtain ⟨hl, h⟩ := inGrid_iff_getElem.1 hg
  apply List.ext_getElem (by simp [neighbour])
  intro i h1 h2
  rw [neighbour_getElem (by simpa [neighbour] using h2), neighbour_getElem h2]
  split
  · next e =>
    subst e
    rw [natGetD_of_lt (l := N) (by omega)]
    have := h j (by omega) h2
    have hn : 0 < (N[j]'(by omega) : Int) := by omega
    have e1 : (((((g[j] : Nat) : Int) + s) % (N[j]'(by omega) : Int)).toNat : Int) =
        ((g[j] : Int) + s) % (N[j]'(by omega) : Int) := Int.toNat_of_nonneg (Int.emod_nonneg _ (by omega))
    rw [e1, Int.emod_add_emod, show (g[j] : Int) + s + -s = g[j] by ring, Int.emod_eq_of_lt (by omega) (by omega)]
    simp
  · rfl

/-- Translations commute with taking neighbours. -/
theorem neighbour_shiftMod {N g : List Nat} (hg : InGrid N g) {d : List Int} (hd : d.length = N.length) (j : Nat)
    (s : Int) : neighbour N j s (shiftMod N g d) = shiftMod N (neighbour N j s g) d := by
  obtain ⟨hl, h⟩ := inGrid_iff_getElem.1 hg
  have h1 := (shiftMod_inGrid hg hd).length_eq
  have h2 := (shiftMod_inGrid (neighbour_inGrid hg j s) hd).length_eq
  apply ext_of_getElem? (by rw [neighbour_length, h1, h2])
  intro i hi
  rw [h2] at hi
  rw [List.getElem?_eq_getElem (by rw [neighbour_length, h1]; exact hi), neighbour_getElem (by omega),
    shiftMod_getElem i hi (by rw [neighbour_length]; omega) (by omega), neighbour_getElem (by omega)]
  have e1 : (shiftMod N g d)[i]'(by omega) = (((g[i]'(by omega) : Int) + d[i]'(by omega)) % (N[i] : Int)).toNat := by
    have := shiftMod_getElem (d := N) (x := g) (dir := d) i hi (by omega) (by omega)
    rw [List.getElem?_eq_getElem (by omega)] at this
    exact Option.some.inj this
  have hn := h i hi (by omega)
  congr 1
  rw [e1]
  split
  · next e =>
    subst e
    rw [natGetD_of_lt (l := N) hi, Int.toNat_of_nonneg (Int.emod_nonneg _ (by omega)),
      Int.toNat_of_nonneg (Int.emod_nonneg _ (by omega)), Int.emod_add_emod, Int.emod_add_emod]
    congr 2
    ring
  · rfl

/-- The step commutes with translations, in any arithmetic. -/
theorem upwindStep_shift {R : Type} [Sub R] [Mul R] {N : List Nat} (s : Nat → Int) (c : Nat → R) (u : List Nat → R)
    {d : List Int} (hd : d.length = N.length) {g : List Nat} (hg : InGrid N g) :
    upwindStep N s c (fun g => u (shiftMod N g d)) g = upwindStep N s c u (shiftMod N g d) := by
  unfold upwindStep
  congr 1
  funext acc j
  rw [neighbour_shiftMod hg hd]

/-- The step uses only values on the grid. -/
theorem upwindStep_congr {R : Type} [Sub R] [Mul R] {N : List Nat} (s : Nat → Int) (c : Nat → R) {u u' : List Nat → R}
    (hu : ∀ g, InGrid N g → u g = u' g) {g : List Nat} (hg : InGrid N g) : upwindStep N s c u g = upwindStep N s c u' g := by
  unfold upwindStep
  rw [hu g hg]
  congr 1
  funext acc j
  rw [hu _ (neighbour_inGrid hg j (s j))]

theorem iter_congr {R : Type} [Sub R] [Mul R] {N : List Nat} (s : Nat → Int) (c : Nat → R) (k : Nat)
    {u u' : List Nat → R} (hu : ∀ g, InGrid N g → u g = u' g) :
    ∀ g, InGrid N g → (upwindStep N s c)^[k] u g = (upwindStep N s c)^[k] u' g := by
  induction k generalizing u u' with
  | zero => exact hu
  | succ k ih =>
    intro g hg
    rw [Function.iterate_succ_apply, Function.iterate_succ_apply]
    exact ih (fun g hg => upwindStep_congr s c hu hg) g hg

theorem iter_shift {R : Type} [Sub R] [Mul R] {N : List Nat} (s : Nat → Int) (c : Nat → R) (k : Nat) {d : List Int}
    (hd : d.length = N.length) (u : List Nat → R) :
    ∀ g, InGrid N g → (upwindStep N s c)^[k] (fun g => u (shiftMod N g d)) g =
      (upwindStep N s c)^[k] u (shiftMod N g d) := by
  induction k generalizing u with
  | zero => intro g _; rfl
  | succ k ih =>
    intro g hg
    rw [Function.iterate_succ_apply, Function.iterate_succ_apply, ← ih (upwindStep N s c u) g hg]
    exact iter_congr s c k (fun g hg => upwindStep_shift s c u hd hg) g hg

section Any
variable {R : Type} [Zero R] [One R] [Add R] [Sub R] [Mul R] [Div R] [NatCast R] [IntCast R] [LT R] [DecidableLT R]

omit [Sub R] [Mul R] [IntCast R] [Add R] in
theorem Upwind.new_built {N : List Nat} (hN : N ≠ []) (hdim : N.length < 2 ^ 64) (hg : GoodGrid N) {v L : List R}
    (hv : v.length = N.length) (hL : L.length = N.length) : Upwind.new N.length v L N = .ok (built v L N) := by
  have hpos : 0 < N.prod := List.prod_pos hg.pos
  have hlt := hg.prod
  rw [new_eq v L N hv hL hN (by unfold W; omega), if_neg]
  rw [Nat.mod_eq_of_lt (by unfold W; omega)]
  omega

omit [Sub R] [Mul R] [IntCast R] [Add R] in
theorem Upwind.built_stores {N : List Nat} (hg : GoodGrid N) {v L : List R} :
    Stores N (built v L N).f cornerField := by
  have hpos : 0 < N.prod := List.prod_pos hg.pos
  have hlt := hg.prod
  have hW : N.prod % W = N.prod := Nat.mod_eq_of_lt (by unfold W; omega)
  have hz : InGrid N (List.replicate N.length 0) := by
    refine inGrid_iff_getElem.2 ⟨by simp, fun i h1 h2 => ?_⟩
    simpa using hg.pos _ (List.getElem_mem h1)
  have hr0 : rankOf N (List.replicate N.length 0) = 0 := by
    rw [rankOf_eq_dot _ _ (by simp)]
    have : ∀ (a : List Nat) n, dot a (List.replicate n 0) = 0 := by
      intro a
      induction a with
      | nil => intro n; cases n <;> rfl
      | cons x a ih => intro n; cases n with
        | zero => rfl
        | succ n =>
          have := ih n
          simp only [dot] at this ⊢
          simp [List.replicate_succ, this]
    exact this _ _
  refine ⟨by simp [built, hW], fun g hgr => ?_⟩
  have hr := rankOf_lt hgr
  simp only [built, hW]
  rw [List.getElem?_set]
  by_cases h0 : rankOf N g = 0
  · have : g = List.replicate N.length 0 := rankOf_inj hgr hz (by rw [h0, hr0])
    rw [if_pos h0.symm, if_pos (by simpa using hpos)]
    simp [cornerField, this]
  · rw [if_neg (fun h => h0 h.symm), List.getElem?_replicate, if_pos hr]
    simp only [cornerField]
    rw [if_neg]
    intro hall
    apply h0
    have : g = List.replicate N.length 0 := by
      apply List.eq_replicate_of_mem hall |>.trans
      rw [hgr.length_eq]
    rw [this, hr0]

/-- What `advect` does to an object whose field is `u`. -/
theorem Upwind.advect_spec {N : List Nat} (hN : N ≠ []) (hdim : N.length < 2 ^ 64) (hg : GoodGrid N) {v L : List R}
    (hv : v.length = N.length) (hL : L.length = N.length) {s0 : Upwind R} (hnew : Upwind.new N.length v L N = .ok s0)
    {f0 : List R} {u : List Nat → R} (hf : Stores N f0 u) (k : Int) (dt : R) :
    ∃ old', old'.length = N.prod ∧ { s0 with f := f0 }.advect k dt =
      .ok (withF v L N (listOf N ((upwindStep N (upDir v) (upCoeff dt v L N))^[k.toNat] u)) old') := by
  rw [new_built hN hdim hg hv hL] at hnew
  injection hnew with hnew
  subst hnew
  have hlt := hg.prod
  exact advect_eq (old := (built v L N).oldF) hg hv k dt hf
    (by simp only [built, List.length_replicate]; exact Nat.mod_eq_of_lt (by unfold W; omega))

end Any

section Ring
variable {K : Type} [Field K]

theorem foldl_sub (n : Nat) (h : Nat → K) (a : K) :
    (List.range n).foldl (fun acc j => acc - h j) a = a - ∑ j ∈ range n, h j := by
  induction n with
  | zero => simp
  | succ n ih => rw [List.range_succ, List.foldl_append, ih, sum_range_succ]; simp; ring

theorem upwindStep_eq (N : List Nat) (s : Nat → Int) (c : Nat → K) (u : List Nat → K) (g : List Nat) :
    upwindStep N s c u g = u g - ∑ j ∈ range N.length, c j * (u (neighbour N j (s j) g) - u g) := by
  unfold upwindStep
  exact foldl_sub _ (fun j => c j * (u (neighbour N j (s j) g) - u g)) _

/-- Sum of a field over the grid. -/
def total (N : List Nat) (u : List Nat → K) : K := ∑ i ∈ range N.prod, u (cellAt N i)

theorem total_congr {N : List Nat} (hp : ∀ n ∈ N, 0 < n) {u u' : List Nat → K} (h : ∀ g, InGrid N g → u g = u' g) :
    total N u = total N u' := sum_congr rfl fun i _ => h _ (cellAt_inGrid hp i)

theorem foldl_add (l : List K) (a : K) : l.foldl (· + ·) a = a + l.sum := by
  induction l generalizing a with
  | nil => simp
  | cons x l ih => simp [ih, add_assoc]

theorem sum_listOf (N : List Nat) (u : List Nat → K) : (listOf N u).sum = total N u := by
  unfold listOf total
  generalize N.prod = n
  induction n with
  | zero => simp
  | succ n ih => rw [List.range_succ, List.map_append, List.sum_append, ih, sum_range_succ]; simp

/-- Summing over the neighbours is summing over the grid. -/
theorem total_neighbour {N : List Nat} (hp : ∀ n ∈ N, 0 < n) (j : Nat) (s : Int) (u : List Nat → K) :
    total N (fun g => u (neighbour N j s g)) = total N u := by
  unfold total
  have hin := fun i => cellAt_inGrid hp i
  refine sum_nbij' (fun i => rankOf N (neighbour N j s (cellAt N i)))
    (fun i => rankOf N (neighbour N j (-s) (cellAt N i))) ?_ ?_ ?_ ?_ ?_
  · intro i _; exact mem_range.2 (rankOf_lt (neighbour_inGrid (hin i) j s))
  · intro i _; exact mem_range.2 (rankOf_lt (neighbour_inGrid (hin i) j (-s)))
  · intro i hi
    rw [cellAt_rankOf (neighbour_inGrid (hin i) j s), neighbour_neg (hin i), rankOf_cellAt hp (mem_range.1 hi)]
  · intro i hi
    rw [cellAt_rankOf (neighbour_inGrid (hin i) j (-s))]
    have := neighbour_neg (hin i) j (-s)
    rw [neg_neg] at this
    rw [this, rankOf_cellAt hp (mem_range.1 hi)]
  · intro i _
    rw [cellAt_rankOf (neighbour_inGrid (hin i) j s)]

theorem total_step {N : List Nat} (hp : ∀ n ∈ N, 0 < n) (s : Nat → Int) (c : Nat → K) (u : List Nat → K) :
    total N (upwindStep N s c u) = total N u := by
  have : total N (upwindStep N s c u) =
      total N u - ∑ j ∈ range N.length, c j * (total N (fun g => u (neighbour N j (s j) g)) - total N u) := by
    unfold total
    simp only [upwindStep_eq]
    rw [sum_sub_distrib, sum_comm]
    congr 1
    apply sum_congr rfl
    intro j _
    rw [← mul_sum, sum_sub_distrib]
  rw [this]
  have h0 : ∀ j ∈ range N.length, c j * (total N (fun g => u (neighbour N j (s j) g)) - total N u) = 0 := by
    intro j _
    rw [total_neighbour hp, sub_self, mul_zero]
  rw [sum_eq_zero h0, sub_zero]

theorem total_iter {N : List Nat} (hp : ∀ n ∈ N, 0 < n) (s : Nat → Int) (c : Nat → K) (k : Nat) (u : List Nat → K) :
    total N ((upwindStep N s c)^[k] u) = total N u := by
  induction k generalizing u with
  | zero => rfl
  | succ k ih => rw [Function.iterate_succ_apply, ih, total_step hp]

theorem iter_linear {N : List Nat} (s : Nat → Int) (c : Nat → K) (k : Nat) (a b : K) (u w : List Nat → K) :
    (upwindStep N s c)^[k] (fun g => a * u g + b * w g) =
      fun g => a * (upwindStep N s c)^[k] u g + b * (upwindStep N s c)^[k] w g := by
  induction k generalizing u w with
  | zero => rfl
  | succ k ih =>
    simp only [Function.iterate_succ_apply]
    rw [← ih]
    congr 1
    funext g
    simp only [upwindStep_eq]
    rw [mul_sub, mul_sub, mul_sum, mul_sum]
    have : ∀ x y z w : K, x - y + (z - w) = (x + z) - (y + w) := by intros; ring
    rw [this, ← sum_add_distrib]
    congr 1
    apply sum_congr rfl
    intro j _
    ring

end Ring

section Ordered
variable {K : Type} [Field K] [LinearOrder K] [IsStrictOrderedRing K]

/-- Weights of the neighbours. -/
theorem upCoeff_eq (dt : K) (v L : List K) (N : List Nat) (j : Nat) :
    upCoeff dt v L N j = -(dt * |v.getD j 0| / cellWidth L N j) := by
  unfold upCoeff upDir
  split
  · next h => rw [abs_of_neg h]; push_cast; ring
  · next h => rw [abs_of_nonneg (not_lt.1 h)]; push_cast; ring

/-- The step is a weighted mean if the coefficients are `-w j` with weights `w j ≥ 0` of sum at most 1. -/
theorem upwindStep_mean (N : List Nat) (s : Nat → Int) (w : Nat → K) (u : List Nat → K) (g : List Nat) :
    upwindStep N s (fun j => -w j) u g = (1 - ∑ j ∈ range N.length, w j) * u g +
      ∑ j ∈ range N.length, w j * u (neighbour N j (s j) g) := by
  rw [upwindStep_eq, sub_mul, one_mul, sum_mul, sub_add, ← sum_sub_distrib]
  congr 1
  apply sum_congr rfl
  intro j _
  ring

theorem step_le {N : List Nat} (s : Nat → Int) {w : Nat → K} (hw : ∀ j, j < N.length → 0 ≤ w j)
    (hs : ∑ j ∈ range N.length, w j ≤ 1) {u : List Nat → K} {b : K} (hb : ∀ g, InGrid N g → u g ≤ b) {g : List Nat}
    (hg : InGrid N g) : upwindStep N s (fun j => -w j) u g ≤ b := by
  rw [upwindStep_mean]
  have h1 : (1 - ∑ j ∈ range N.length, w j) * u g ≤ (1 - ∑ j ∈ range N.length, w j) * b :=
    mul_le_mul_of_nonneg_left (hb g hg) (by linarith)
  have h2 : ∑ j ∈ range N.length, w j * u (neighbour N j (s j) g) ≤ ∑ j ∈ range N.length, w j * b :=
    sum_le_sum fun j hj => mul_le_mul_of_nonneg_left (hb _ (neighbour_inGrid hg j (s j))) (hw j (mem_range.1 hj))
  rw [← sum_mul] at h2
  linarith

theorem le_step {N : List Nat} (s : Nat → Int) {w : Nat → K} (hw : ∀ j, j < N.length → 0 ≤ w j)
    (hs : ∑ j ∈ range N.length, w j ≤ 1) {u : List Nat → K} {b : K} (hb : ∀ g, InGrid N g → b ≤ u g) {g : List Nat}
    (hg : InGrid N g) : b ≤ upwindStep N s (fun j => -w j) u g := by
  rw [upwindStep_mean]
  have h1 : (1 - ∑ j ∈ range N.length, w j) * b ≤ (1 - ∑ j ∈ range N.length, w j) * u g :=
    mul_le_mul_of_nonneg_left (hb g hg) (by linarith)
  have h2 : ∑ j ∈ range N.length, w j * b ≤ ∑ j ∈ range N.length, w j * u (neighbour N j (s j) g) :=
    sum_le_sum fun j hj => mul_le_mul_of_nonneg_left (hb _ (neighbour_inGrid hg j (s j))) (hw j (mem_range.1 hj))
  rw [← sum_mul] at h2
  linarith

/-- Jensen's inequality for the square. -/
theorem step_sq_le {N : List Nat} (s : Nat → Int) {w : Nat → K} (hw : ∀ j, j < N.length → 0 ≤ w j)
    (hs : ∑ j ∈ range N.length, w j ≤ 1) (u : List Nat → K) (g : List Nat) :
    upwindStep N s (fun j => -w j) u g ^ 2 ≤ upwindStep N s (fun j => -w j) (fun g => u g ^ 2) g := by
  have key : ∀ μ : K, 2 * μ * upwindStep N s (fun j => -w j) u g - μ ^ 2 ≤
      upwindStep N s (fun j => -w j) (fun g => u g ^ 2) g := by
    intro μ
    rw [upwindStep_mean, upwindStep_mean]
    have h0 : ∀ x : K, 2 * μ * x - μ ^ 2 ≤ x ^ 2 := by intro x; nlinarith [sq_nonneg (x - μ)]
    have h1 := mul_le_mul_of_nonneg_left (h0 (u g)) (show 0 ≤ 1 - ∑ j ∈ range N.length, w j by linarith)
    have h2 : ∑ j ∈ range N.length, w j * (2 * μ * u (neighbour N j (s j) g) - μ ^ 2) ≤
        ∑ j ∈ range N.length, w j * u (neighbour N j (s j) g) ^ 2 :=
      sum_le_sum fun j hj => mul_le_mul_of_nonneg_left (h0 _) (hw j (mem_range.1 hj))
    have h3 : ∑ j ∈ range N.length, w j * (2 * μ * u (neighbour N j (s j) g) - μ ^ 2) =
        2 * μ * ∑ j ∈ range N.length, w j * u (neighbour N j (s j) g) - (∑ j ∈ range N.length, w j) * μ ^ 2 := by
      rw [mul_sum, sum_mul, ← sum_sub_distrib]
      apply sum_congr rfl
      intro j _
      ring
    rw [h3] at h2
    linarith
  have := key (upwindStep N s (fun j => -w j) u g)
  linarith

/-- The sum of the squares does not grow. -/
theorem total_sq_step {N : List Nat} (hp : ∀ n ∈ N, 0 < n) (s : Nat → Int) {w : Nat → K}
    (hw : ∀ j, j < N.length → 0 ≤ w j) (hs : ∑ j ∈ range N.length, w j ≤ 1) (u : List Nat → K) :
    total N (fun g => upwindStep N s (fun j => -w j) u g ^ 2) ≤ total N (fun g => u g ^ 2) := by
  rw [← total_step hp s (fun j => -w j) (fun g => u g ^ 2)]
  exact sum_le_sum fun i _ => step_sq_le s hw hs u _

theorem total_sq_iter {N : List Nat} (hp : ∀ n ∈ N, 0 < n) (s : Nat → Int) {w : Nat → K}
    (hw : ∀ j, j < N.length → 0 ≤ w j) (hs : ∑ j ∈ range N.length, w j ≤ 1) (k : Nat) (u : List Nat → K) :
    total N (fun g => (upwindStep N s (fun j => -w j))^[k] u g ^ 2) ≤ total N (fun g => u g ^ 2) := by
  induction k generalizing u with
  | zero => exact le_refl _
  | succ k ih =>
    rw [Function.iterate_succ_apply]
    exact le_trans (ih _) (total_sq_step hp s hw hs u)

/-- Sum of squared deviations from the mean. -/
theorem sum_dev (N : List Nat) (u : List Nat → K) (hn : (N.prod : K) ≠ 0) :
    total N (fun g => (u g - total N u / N.prod) ^ 2) = total N (fun g => u g ^ 2) - total N u ^ 2 / N.prod := by
  have : total N (fun g => (u g - total N u / N.prod) ^ 2) =
      total N (fun g => u g ^ 2) - 2 * (total N u / N.prod) * total N u + N.prod * (total N u / N.prod) ^ 2 := by
    conv_lhs => unfold total
    rw [show total N (fun g => u g ^ 2) = ∑ i ∈ range N.prod, u (cellAt N i) ^ 2 from rfl]
    conv_rhs => rw [show 2 * (total N u / N.prod) * total N u =
      ∑ i ∈ range N.prod, 2 * (total N u / N.prod) * u (cellAt N i) by rw [← mul_sum]; rfl]
    rw [show (N.prod : K) * (total N u / N.prod) ^ 2 = ∑ i ∈ range N.prod, (total N u / N.prod) ^ 2 by
      rw [sum_const, card_range, nsmul_eq_mul], ← sum_sub_distrib, ← sum_add_distrib]
    apply sum_congr rfl
    intro i _
    change (u (cellAt N i) - total N u / N.prod) ^ 2 = _
    ring
  rw [this]
  field_simp
  ring

omit [IsStrictOrderedRing K] in
theorem courant_eq (dt : K) (v L : List K) (N : List Nat) :
    courant dt v L N = ∑ j ∈ range N.length, dt * |v.getD j 0| / cellWidth L N j := by
  unfold courant
  generalize N.length = n
  induction n with
  | zero => simp
  | succ n ih => rw [List.range_succ, List.map_append, List.sum_append, ih, sum_range_succ]; simp

theorem weight_nonneg {dt : K} (hdt : 0 ≤ dt) {v L : List K} {N : List Nat} (hLpos : ∀ x ∈ L, 0 < x) (j : Nat) :
    0 ≤ dt * |v.getD j 0| / cellWidth L N j := by
  apply div_nonneg (mul_nonneg hdt (abs_nonneg _))
  unfold cellWidth
  apply div_nonneg
  · rw [List.getD_eq_getElem?_getD]
    by_cases h : j < L.length
    · rw [List.getElem?_eq_getElem h]; exact le_of_lt (hLpos _ (List.getElem_mem h))
    · rw [List.getElem?_eq_none (by omega)]; simp
  · exact Nat.cast_nonneg _


theorem variance_listOf {N : List Nat} (hp : ∀ n ∈ N, 0 < n) (u : List Nat → K) :
    variance (listOf N u) = (total N (fun g => u g ^ 2) - total N u ^ 2 / N.prod) / N.prod := by
  have hn : (N.prod : K) ≠ 0 := by exact_mod_cast (Nat.pos_iff_ne_zero.1 (List.prod_pos hp))
  rw [← sum_dev N u hn, ← sum_listOf]
  unfold variance mean
  rw [sum_listOf, length_listOf]
  congr 2
  simp only [listOf, List.map_map]
  rfl

theorem variance_nonneg (f : List K) : 0 ≤ variance f := by
  unfold variance
  apply div_nonneg _ (Nat.cast_nonneg _)
  apply List.sum_nonneg
  intro x hx
  obtain ⟨y, _, rfl⟩ := List.mem_map.1 hx
  exact sq_nonneg _

theorem variance_zero {f : List K} (hp : 0 < f.length) (h : variance f = 0) : ∀ x ∈ f, x = mean f := by
  have hn : (f.length : K) ≠ 0 := by exact_mod_cast (Nat.pos_iff_ne_zero.1 hp)
  unfold variance at h
  rw [div_eq_zero_iff, or_iff_left hn] at h
  have key : ∀ l : List K, (l.map fun x => (x - mean f) ^ 2).sum = 0 → ∀ x ∈ l, x = mean f := by
    intro l
    induction l with
    | nil => intro _ x hx; simp at hx
    | cons a l ih =>
      intro hs
      rw [List.map_cons, List.sum_cons] at hs
      have h2 : 0 ≤ (l.map fun x => (x - mean f) ^ 2).sum := by
        apply List.sum_nonneg
        intro x hx
        obtain ⟨y, _, rfl⟩ := List.mem_map.1 hx
        exact sq_nonneg _
      have h1 := sq_nonneg (a - mean f)
      have h3 : (a - mean f) ^ 2 = 0 := by linarith
      have h4 : (l.map fun x => (x - mean f) ^ 2).sum = 0 := by linarith
      intro x hx
      rcases List.mem_cons.1 hx with rfl | hx
      · exact sub_eq_zero.1 (pow_eq_zero_iff (two_ne_zero) |>.1 h3)
      · exact ih h4 x hx
  exact key f h

theorem variance_uniform {f : List K} (hp : 0 < f.length) {c : K} (h : ∀ x ∈ f, x = c) : variance f = 0 := by
  have hn : (f.length : K) ≠ 0 := by exact_mod_cast (Nat.pos_iff_ne_zero.1 hp)
  have hf : f = List.replicate f.length c := List.eq_replicate_of_mem h
  have hm : mean f = c := by
    unfold mean
    rw [hf, List.sum_replicate, List.length_replicate, nsmul_eq_mul, mul_div_cancel_left₀ _ hn]
  unfold variance
  rw [hm, hf]
  simp

/-- Closed form of `std`. -/
theorem std_eq [HasSqrt K] {N : List Nat} (hcells : N.prod < 2 ^ 31) {v L f o : List K} (hf : f.length = N.prod) :
    (withF v L N f o).std = .ok (HasSqrt.sqrt (variance f)) := by
  have hW : N.prod % W = N.prod := Nat.mod_eq_of_lt (by unfold W; omega)
  have hm : (withF v L N f o).checksum / ((N.prod : Nat) : K) = mean f := by
    unfold Upwind.checksum mean
    simp only
    rw [foldl_add, zero_add, hf]
  unfold Upwind.std
  simp only [built, hW]
  obtain ⟨r, e, hr⟩ := forUp_inv (Nat.zero_le f.length)
    (fun i (r : K) => r = ((f.take i).map fun x => (x - mean f) ^ 2).sum)
    (fun i res => do
      let x ← rd f i
      let _ ← mkInt ((i : Int) + 1)
      pure (res + (x - mean f) * (x - mean f))) 0 (by simp)
    (by
      rintro i r _ hi rfl
      refine ⟨_, ?_, rfl⟩
      rw [rd_of_lt hi, mkInt_ok (by rw [intLim_eq]; omega) (by rw [intLim_eq]; omega)]
      simp only [M.ok_bind, M.pure_eq]
      congr 1
      rw [List.take_add_one, List.getElem?_eq_getElem hi, List.map_append, List.sum_append]
      simp only [Option.toList_some, List.map_cons, List.map_nil, List.sum_cons, List.sum_nil]
      ring)
  rw [List.take_length] at hr
  simp only [hm]
  rw [e, hr]
  simp only [M.ok_bind, M.pure_eq, variance, hf]

end Ordered

/-- The time step of `main`. -/
theorem mainDt_eq {n : Nat} (hn : 0 < n) :
    Upwind.mainDt (0.1 : ℚ) (List.replicate 3 1) (List.replicate 3 1) (List.replicate 3 n) = .ok (1 / 10 / n) := by
  have hq1 : (1 : ℚ) ≤ n := by exact_mod_cast hn
  have hv : (0.1 : ℚ) * (1 / (n : ℚ)) / 1 = 1 / 10 / n := by norm_num; field_simp
  have hlt : (1 : ℚ) / 10 / n < HasMax.dblMax := by
    have h1 : (1 : ℚ) / 10 / n ≤ 1 / 10 := div_le_self (by norm_num) hq1
    have h2 : (1 : ℚ) / 10 < HasMax.dblMax := by decide +kernel
    exact lt_of_le_of_lt h1 h2
  unfold Upwind.mainDt
  obtain ⟨r, e, _, hr⟩ := forUp_inv (Nat.zero_le 3)
    (fun i (r : ℚ) => (i = 0 → r = HasMax.dblMax) ∧ (0 < i → r = 1 / 10 / n))
    (fun j dt => do
      let dx := (← rd (List.replicate 3 (1 : ℚ)) j) / ((← rd (List.replicate 3 n) j : Nat) : ℚ)
      let val := (0.1 : ℚ) * dx / (← rd (List.replicate 3 (1 : ℚ)) j)
      pure (if val < dt then val else dt)) HasMax.dblMax ⟨fun _ => rfl, fun h => by omega⟩
    (by
      rintro i r _ hi ⟨h1, h2⟩
      refine ⟨1 / 10 / n, ?_, fun h => by omega, fun _ => rfl⟩
      rw [rd_of_lt (by simpa using hi), rd_of_lt (by simpa using hi)]
      simp only [M.ok_bind, M.pure_eq, List.getElem_replicate]
      rw [hv]
      rcases Nat.eq_zero_or_pos i with h | h
      · rw [h1 h, if_pos hlt]
      · rw [h2 h, if_neg (lt_irrefl _)])
  rw [List.length_replicate, e, hr (by omega)]

end Fidi
