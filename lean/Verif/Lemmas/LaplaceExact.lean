import Verif.Lemmas.UpwindExact
import Mathlib.Analysis.SpecialFunctions.Trigonometric.Basic
import Mathlib.Algebra.BigOperators.Group.List.Lemmas
import Mathlib.Analysis.Calculus.MeanValue
import Mathlib.Analysis.Calculus.Deriv.Add
import Mathlib.Analysis.Calculus.Deriv.Mul
import Mathlib.Analysis.Calculus.Deriv.Pow
import Mathlib.Analysis.Calculus.Deriv.Comp
import Verif.Lemmas.UpwindConverge
import Mathlib.Tactic.Linarith

/-
The discrete Laplacian: quadratic form, kernel, and its action on products of sines (helper lemmas of C73).
-/
set_option linter.unusedSectionVars false

namespace Fidi
open Spec Upwind Finset

theorem sum_list_range {K : Type} [AddCommMonoid K] (n : Nat) (f : Nat → K) : ((List.range n).map f).sum = ∑ j ∈ range n, f j := by
  induction n with
  | zero => simp
  | succ n ih => rw [List.range_succ, List.map_append, List.sum_append, ih, sum_range_succ]; simp

section
variable {K : Type} [Field K]

theorem laplace_eq (N : List Nat) (u : List Nat → K) (g : List Nat) :
    laplace N u g = ∑ j ∈ range N.length, (u (neighbour N j 1 g) + u (neighbour N j (-1) g) - 2 * u g) :=
  sum_list_range _ _

theorem total_sum (N : List Nat) (n : Nat) (u : Nat → List Nat → K) :
    total N (fun g => ∑ j ∈ range n, u j g) = ∑ j ∈ range n, total N (u j) := by
  unfold total
  exact sum_comm

/-- The quadratic form of the discrete Laplacian. -/
theorem laplace_form {N : List Nat} (hp : ∀ n ∈ N, 0 < n) (u : List Nat → K) :
    total N (fun g => u g * laplace N u g) =
      -∑ j ∈ range N.length, total N (fun g => (u (neighbour N j 1 g) - u g) ^ 2) := by
  simp only [laplace_eq, mul_sum]
  rw [total_sum, ← sum_neg_distrib]
  apply sum_congr rfl
  intro j _
  have h1 := total_neighbour hp j 1 (fun g => u g ^ 2)
  have h2 := total_neighbour hp j (-1) (fun g => u (neighbour N j 1 g) * u g)
  have h3 : total N (fun g => u (neighbour N j 1 (neighbour N j (-1) g)) * u (neighbour N j (-1) g)) =
      total N (fun g => u g * u (neighbour N j (-1) g)) := by
    refine total_congr hp fun g hg => ?_
    have := neighbour_neg hg j (-1)
    rw [neg_neg] at this
    rw [this]
  rw [h3] at h2
  have e1 : total N (fun g => u g * (u (neighbour N j 1 g) + u (neighbour N j (-1) g) - 2 * u g)) =
      total N (fun g => u (neighbour N j 1 g) * u g) + total N (fun g => u g * u (neighbour N j (-1) g)) -
        2 * total N (fun g => u g ^ 2) := by
    unfold total
    rw [mul_sum, ← sum_add_distrib, ← sum_sub_distrib]
    exact sum_congr rfl fun i _ => by ring
  have e2 : total N (fun g => (u (neighbour N j 1 g) - u g) ^ 2) =
      total N (fun g => u (neighbour N j 1 g) ^ 2) - 2 * total N (fun g => u (neighbour N j 1 g) * u g) +
        total N (fun g => u g ^ 2) := by
    unfold total
    rw [mul_sum, ← sum_sub_distrib, ← sum_add_distrib]
    exact sum_congr rfl fun i _ => by ring
  rw [e1, e2, h1, h2]
  ring

/-- A field that does not change from a cell to the next is uniform. -/
theorem uniform_of_next {N : List Nat} {u : List Nat → K}
    (h : ∀ j < N.length, ∀ g, InGrid N g → u (neighbour N j 1 g) = u g) :
    ∀ g, InGrid N g → u g = u (List.replicate N.length 0) := by
  intro g
  induction hs : g.sum using Nat.strong_induction_on generalizing g with
  | _ m ih =>
    intro hg
    obtain ⟨hl, hb⟩ := inGrid_iff_getElem.1 hg
    by_cases hz : ∃ j, ∃ hj : j < g.length, g[j] ≠ 0
    · obtain ⟨j, hj, hne⟩ := hz
      have hg' : InGrid N (g.set j (g[j] - 1)) := by
        refine inGrid_iff_getElem.2 ⟨by simpa using hl, fun i h1 h2 => ?_⟩
        rw [List.getElem_set]
        have := hb i h1 (by simpa using h2)
        split
        · next e => subst e; omega
        · exact this
      have hnb : neighbour N j 1 (g.set j (g[j] - 1)) = g := by
        apply List.ext_getElem (by simp [neighbour])
        intro i h1 h2
        rw [neighbour_getElem (by simpa using h2)]
        rw [List.getElem_set]
        split
        · next e =>
          subst e
          have := hb j (by omega) hj
          rw [natGetD_of_lt (by omega)]
          rw [Int.emod_eq_of_lt (by omega) (by omega)]
          omega
        · rfl
      have hsum : (g.set j (g[j] - 1)).sum < m := by
        have h2 : g.sum = (g.take j).sum + g[j] + (g.drop (j + 1)).sum := by
          conv_lhs => rw [← List.take_append_drop j g, List.sum_append, List.drop_eq_getElem_cons hj, List.sum_cons]
          omega
        rw [List.set_eq_take_append_cons_drop, if_pos hj, List.sum_append, List.sum_cons]
        omega
      have := h j (by omega) _ hg'
      rw [hnb] at this
      rw [this]
      exact ih _ hsum _ rfl hg'
    · have : g = List.replicate N.length 0 := by
        rw [← hl]
        apply List.eq_replicate_of_mem
        intro x hx
        obtain ⟨i, hi, rfl⟩ := List.mem_iff_getElem.1 hx
        by_contra hne
        exact hz ⟨i, hi, hne⟩
      rw [this]

variable [LinearOrder K] [IsStrictOrderedRing K]

theorem total_nonneg_of {N : List Nat} (hp : ∀ n ∈ N, 0 < n) {u : List Nat → K} (h : ∀ g, InGrid N g → 0 ≤ u g) : 0 ≤ total N u :=
  sum_nonneg fun i _ => h _ (cellAt_inGrid hp i)

theorem eq_zero_of_total {N : List Nat} {u : List Nat → K} (h : ∀ g, 0 ≤ u g) (h0 : total N u = 0) :
    ∀ g, InGrid N g → u g = 0 := by
  intro g hg
  have := (sum_eq_zero_iff_of_nonneg fun i _ => h (cellAt N i)).1 h0 (rankOf N g) (mem_range.2 (rankOf_lt hg))
  rwa [cellAt_rankOf hg] at this

/-- Bounds of the quadratic form. -/
theorem laplace_bounds {N : List Nat} (hp : ∀ n ∈ N, 0 < n) (u : List Nat → K) :
    -(4 * (N.length : K)) * total N (fun g => u g ^ 2) ≤ total N (fun g => u g * laplace N u g) ∧
      total N (fun g => u g * laplace N u g) ≤ 0 := by
  rw [laplace_form hp]
  constructor
  · have : ∑ j ∈ range N.length, total N (fun g => (u (neighbour N j 1 g) - u g) ^ 2) ≤
        ∑ _j ∈ range N.length, 4 * total N (fun g => u g ^ 2) := by
      apply sum_le_sum
      intro j _
      have h1 := total_neighbour hp j 1 (fun g => u g ^ 2)
      have h2 : total N (fun g => (u (neighbour N j 1 g) - u g) ^ 2) ≤
          total N (fun g => 2 * u (neighbour N j 1 g) ^ 2 + 2 * u g ^ 2) := by
        apply sum_le_sum
        intro i _
        have := sq_nonneg (u (neighbour N j 1 (cellAt N i)) + u (cellAt N i))
        nlinarith
      have h3 : total N (fun g => 2 * u (neighbour N j 1 g) ^ 2 + 2 * u g ^ 2) =
          2 * total N (fun g => u (neighbour N j 1 g) ^ 2) + 2 * total N (fun g => u g ^ 2) := by
        unfold total
        rw [mul_sum, mul_sum, ← sum_add_distrib]
      rw [h3, h1] at h2
      linarith
    rw [sum_const, card_range, nsmul_eq_mul] at this
    linarith
  · rw [neg_nonpos]
    exact sum_nonneg fun j _ => total_nonneg_of hp fun g _ => sq_nonneg _

theorem laplace_kernel {N : List Nat} (hp : ∀ n ∈ N, 0 < n) (u : List Nat → K) :
    (∀ g, InGrid N g → laplace N u g = 0) ↔ ∃ c, ∀ g, InGrid N g → u g = c := by
  constructor
  · intro h
    have h0 : total N (fun g => u g * laplace N u g) = 0 := by
      rw [total_congr (u' := fun _ => 0) hp fun g hg => by rw [h g hg, mul_zero]]
      simp [total]
    rw [laplace_form hp, neg_eq_zero] at h0
    have h1 := (sum_eq_zero_iff_of_nonneg fun j _ => total_nonneg_of hp fun g _ => sq_nonneg _).1 h0
    refine ⟨_, uniform_of_next fun j hj g hg => ?_⟩
    have h2 := eq_zero_of_total (fun g => sq_nonneg (u (neighbour N j 1 g) - u g)) (h1 j (mem_range.2 hj)) g hg
    exact sub_eq_zero.1 (pow_eq_zero_iff (two_ne_zero)|>.1 h2)
  · rintro ⟨c, hc⟩ g hg
    rw [laplace_eq]
    apply sum_eq_zero
    intro j _
    rw [hc g hg, hc _ (neighbour_inGrid hg j 1), hc _ (neighbour_inGrid hg j (-1))]
    ring

end

/-! ### Products of sines -/

/-- The sine of the driver at cell `i` of `N`. -/
noncomputable def wave (N : Nat) (i : Nat) : ℝ := Real.sin (2 * Real.pi * (((i : ℝ) + 1 / 2) / (N : ℝ)))

theorem wave_shift {N : Nat} (hN : 0 < N) (i : Nat) (s : Int) :
    wave N (((i : Int) + s) % (N : Int)).toNat = Real.sin (2 * Real.pi * (((i : ℝ) + 1 / 2) / (N : ℝ)) + 2 * Real.pi * s / N) := by
  have hR : (N : ℝ) ≠ 0 := by exact_mod_cast hN.ne'
  unfold wave
  have h2 : (((((i : Int) + s) % (N : Int)).toNat : Nat) : Int) = ((i : Int) + s) % (N : Int) :=
    Int.toNat_of_nonneg (Int.emod_nonneg _ (by omega))
  have h3 : (((((i : Int) + s) % (N : Int)).toNat : Nat) : ℝ) =
      (i : ℝ) + s - (N : ℝ) * ((((i : Int) + s) / (N : Int) : Int) : ℝ) := by
    have h4 := congrArg (fun z : Int => (z : ℝ)) (h2.trans (Int.emod_def _ _))
    push_cast at h4
    exact h4
  rw [h3]
  have e : 2 * Real.pi * (((i : ℝ) + s - (N : ℝ) * ((((i : Int) + s) / (N : Int) : Int) : ℝ) + 1 / 2) / (N : ℝ)) =
      2 * Real.pi * (((i : ℝ) + 1 / 2) / (N : ℝ)) + 2 * Real.pi * s / N - ((((i : Int) + s) / (N : Int) : Int) : ℝ) * (2 * Real.pi) := by
    field_simp
    ring
  rw [e, Real.sin_sub_int_mul_two_pi]

/-- Every product of such sines is an eigenfunction. -/
theorem laplace_waves {N n : Nat} (hN : 0 < N) {g : List Nat} (hg : InGrid (List.replicate n N) g) :
    laplace (List.replicate n N) (fun g => (g.map (wave N)).prod) g =
      n * (2 * (Real.cos (2 * Real.pi / N) - 1)) * (g.map (wave N)).prod := by
  rw [laplace_eq]
  obtain ⟨hl, _⟩ := inGrid_iff_getElem.1 hg
  rw [List.length_replicate] at hl ⊢
  have key : ∀ j ∈ range n, ((neighbour (List.replicate n N) j 1 g).map (wave N)).prod +
      ((neighbour (List.replicate n N) j (-1) g).map (wave N)).prod - 2 * (g.map (wave N)).prod =
      2 * (Real.cos (2 * Real.pi / N) - 1) * (g.map (wave N)).prod := by
    intro j hj
    have hj := mem_range.1 hj
    have hjg : j < g.length := by omega
    have hnb : ∀ s : Int, ((neighbour (List.replicate n N) j s g).map (wave N)).prod =
        ((g.take j).map (wave N)).prod *
          (Real.sin (2 * Real.pi * (((g[j] : ℝ) + 1 / 2) / (N : ℝ)) + 2 * Real.pi * s / N) *
            ((g.drop (j + 1)).map (wave N)).prod) := by
      intro s
      unfold neighbour
      rw [natGetD_of_lt hjg, natGetD_of_lt (by simpa using hj), List.getElem_replicate,
        List.set_eq_take_append_cons_drop, if_pos hjg, List.map_append, List.map_cons, List.prod_append, List.prod_cons,
        wave_shift hN]
    have hg0 : (g.map (wave N)).prod = ((g.take j).map (wave N)).prod * (wave N g[j] * ((g.drop (j + 1)).map (wave N)).prod) := by
      conv_lhs => rw [← List.take_append_drop j g, List.drop_eq_getElem_cons hjg]
      rw [List.map_append, List.map_cons, List.prod_append, List.prod_cons]
    rw [hnb, hnb, hg0]
    have hsin : Real.sin (2 * Real.pi * (((g[j] : ℝ) + 1 / 2) / (N : ℝ)) + 2 * Real.pi * ((1 : Int) : ℝ) / N) +
        Real.sin (2 * Real.pi * (((g[j] : ℝ) + 1 / 2) / (N : ℝ)) + 2 * Real.pi * ((-1 : Int) : ℝ) / N) =
        2 * Real.cos (2 * Real.pi / N) * wave N g[j] := by
      have e1 : 2 * Real.pi * ((1 : Int) : ℝ) / N = 2 * Real.pi / N := by push_cast; ring
      have e2 : 2 * Real.pi * ((-1 : Int) : ℝ) / N = -(2 * Real.pi / N) := by push_cast; ring
      rw [e1, e2, Real.sin_add, Real.sin_add, Real.cos_neg, Real.sin_neg]
      unfold wave
      ring
    linear_combination (((g.take j).map (wave N)).prod * ((g.drop (j + 1)).map (wave N)).prod) * hsin
  rw [sum_congr rfl key, sum_const, card_range, nsmul_eq_mul]
  ring

theorem laplace_congr {K : Type} [Field K] {N : List Nat} {u u' : List Nat → K} (h : ∀ g, InGrid N g → u g = u' g)
    {g : List Nat} (hg : InGrid N g) : laplace N u g = laplace N u' g := by
  rw [laplace_eq, laplace_eq]
  apply sum_congr rfl
  intro j _
  rw [h g hg, h _ (neighbour_inGrid hg j 1), h _ (neighbour_inGrid hg j (-1))]

theorem laplace_waves_iter {N n : Nat} (hN : 0 < N) (k : Nat) : ∀ g, InGrid (List.replicate n N) g →
    (laplace (List.replicate n N))^[k] (fun g => (g.map (wave N)).prod) g =
      (n * (2 * (Real.cos (2 * Real.pi / N) - 1))) ^ k * (g.map (wave N)).prod := by
  induction k with
  | zero => intro g _; simp
  | succ k ih =>
    intro g hg
    rw [Function.iterate_succ_apply', laplace_congr ih hg, laplace_eq]
    have h := laplace_waves hN hg
    rw [laplace_eq] at h
    rw [pow_succ, mul_assoc, ← h, mul_sum]
    apply sum_congr rfl
    intro j _
    ring

/-! ### Second order consistency -/

/-- Growth of a function whose derivative is bounded by a power. -/
theorem growth_bound {G G' : ℝ → ℝ} {C : ℝ} {m : Nat} (hG : ∀ s, HasDerivAt G (G' s) s) (h0 : G 0 = 0)
    (hb : ∀ s, 0 ≤ s → |G' s| ≤ C * s ^ m) {h : ℝ} (hh : 0 ≤ h) : |G h| ≤ C / (m + 1) * h ^ (m + 1) := by
  have hm : ((m : ℝ) + 1) ≠ 0 := by positivity
  have hB : ∀ s : ℝ, HasDerivAt (fun s : ℝ => C / (m + 1) * s ^ (m + 1)) (C * s ^ m) s := by
    intro s
    have h1 := (hasDerivAt_pow (m + 1) s).const_mul (C / (m + 1))
    have e : C / ((m : ℝ) + 1) * (((m + 1 : Nat) : ℝ) * s ^ (m + 1 - 1)) = C * s ^ m := by
      rw [Nat.add_sub_cancel]
      push_cast
      field_simp
    rw [e] at h1
    exact h1
  have key := image_norm_le_of_norm_deriv_right_le_deriv_boundary (a := 0) (b := h) (f := G) (f' := G')
    (fun s _ => (hG s).continuousAt.continuousWithinAt) (fun s _ => (hG s).hasDerivWithinAt)
    (by rw [h0]; simp) hB (fun s hs => hb s hs.1) (x := h) ⟨hh, le_refl _⟩
  exact key

/-- The second difference of a four times differentiable function. -/
theorem second_difference {F F1 F2 F3 : ℝ → ℝ} {M : ℝ} (h1 : ∀ s, HasDerivAt F (F1 s) s) (h2 : ∀ s, HasDerivAt F1 (F2 s) s)
    (h3 : ∀ s, HasDerivAt F2 (F3 s) s) (hM : ∀ a b, |F3 a - F3 b| ≤ M * |a - b|) {h : ℝ} (hh : 0 ≤ h) :
    |F h + F (-h) - 2 * F 0 - h ^ 2 * F2 0| ≤ M / 12 * h ^ 4 := by
  have neg : ∀ {G G' : ℝ → ℝ}, (∀ s, HasDerivAt G (G' s) s) → ∀ s, HasDerivAt (fun s => G (-s)) (-G' (-s)) s := by
    intro G G' hG s
    have := (hG (-s)).comp s (hasDerivAt_neg s)
    rw [mul_neg_one] at this
    exact this
  have d3 : ∀ s, HasDerivAt (fun s => F2 s + F2 (-s) - 2 * F2 0) (F3 s - F3 (-s)) s := by
    intro s
    exact ((h3 s).add (neg h3 s)).sub_const (2 * F2 0)
  have d2 : ∀ s, HasDerivAt (fun s => F1 s - F1 (-s) - s * (2 * F2 0)) (F2 s + F2 (-s) - 2 * F2 0) s := by
    intro s
    have := ((h2 s).sub (neg h2 s)).sub ((hasDerivAt_id s).mul_const (2 * F2 0))
    rw [sub_neg_eq_add, one_mul] at this
    exact this
  have d1 : ∀ s, HasDerivAt (fun s => F s + F (-s) - 2 * F 0 - s ^ 2 * F2 0) (F1 s - F1 (-s) - s * (2 * F2 0)) s := by
    intro s
    have := (((h1 s).add (neg h1 s)).sub_const (2 * F 0)).sub ((hasDerivAt_pow 2 s).mul_const (F2 0))
    have e : F1 s + -F1 (-s) - ((2 : Nat) : ℝ) * s ^ (2 - 1) * F2 0 = F1 s - F1 (-s) - s * (2 * F2 0) := by
      norm_num
      ring
    rw [e] at this
    exact this
  have b3 : ∀ s, 0 ≤ s → |F3 s - F3 (-s)| ≤ 2 * M * s ^ 1 := by
    intro s hs
    refine le_trans (hM s (-s)) (le_of_eq ?_)
    rw [show s - -s = 2 * s by ring, abs_of_nonneg (by positivity)]
    ring
  have b2 : ∀ s, 0 ≤ s → |F2 s + F2 (-s) - 2 * F2 0| ≤ M * s ^ 2 := by
    intro s hs
    refine le_trans (growth_bound d3 (by simp; ring) b3 hs) (le_of_eq ?_)
    push_cast
    ring
  have b1 : ∀ s, 0 ≤ s → |F1 s - F1 (-s) - s * (2 * F2 0)| ≤ M / 3 * s ^ 3 := by
    intro s hs
    refine le_trans (growth_bound d2 (by simp) b2 hs) (le_of_eq ?_)
    push_cast
    ring
  refine le_trans (growth_bound d1 (by simp; ring) b1 hh) (le_of_eq ?_)
  push_cast
  ring

end Fidi
