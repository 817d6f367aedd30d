import Verif.Lemmas.UpwindExact
import Verif.Spec.Advection
import Verif.Spec.Rounding
import Mathlib.Data.Rat.Cast.Order
import Mathlib.Analysis.Calculus.MeanValue
import Mathlib.Analysis.Calculus.Deriv.Comp
import Mathlib.Analysis.Calculus.Deriv.Add
import Mathlib.Analysis.Calculus.Deriv.Mul
import Mathlib.Analysis.Calculus.Deriv.Pow
import Mathlib.Analysis.Calculus.Deriv.Prod
import Mathlib.Tactic.Linarith
import Mathlib.Tactic.Positivity
import Mathlib.Tactic.FieldSimp

/-
Truncation error and convergence of the upwind scheme (helper lemmas of C70).
-/
namespace Fidi
open Spec Upwind Finset

section taylor
variable {E : Type} [NormedAddCommGroup E] [NormedSpace ℝ E]

/-- Taylor's formula of first order for a function with Lipschitz derivative. -/
theorem taylor_bound {φ : E → ℝ} {D : E → (E →L[ℝ] ℝ)} {M : ℝ} (hD : ∀ x, HasFDerivAt φ (D x) x)
    (hM : ∀ x y, ‖D x - D y‖ ≤ M * ‖x - y‖) (x h : E) : |φ (x + h) - φ x - D x h| ≤ M / 2 * ‖h‖ ^ 2 := by
  have hline : ∀ t : ℝ, HasDerivAt (fun t : ℝ => x + t • h) h t := by
    intro t
    simpa using ((hasDerivAt_id t).smul_const h).const_add x
  have hf : ∀ t : ℝ, HasDerivAt (fun t : ℝ => φ (x + t • h) - φ x - t * D x h) (D (x + t • h) h - D x h) t := by
    intro t
    have h1 := (hD (x + t • h)).comp_hasDerivAt t (hline t)
    have h2 : HasDerivAt (fun t : ℝ => t * D x h) (D x h) t := by
      simpa using (hasDerivAt_id t).mul_const (D x h)
    exact (h1.sub_const (φ x)).sub h2
  have hB : ∀ t : ℝ, HasDerivAt (fun t : ℝ => M / 2 * ‖h‖ ^ 2 * t ^ 2) (M * ‖h‖ ^ 2 * t) t := by
    intro t
    have := (hasDerivAt_pow 2 t).const_mul (M / 2 * ‖h‖ ^ 2)
    have e : M / 2 * ‖h‖ ^ 2 * (((2 : Nat) : ℝ) * t ^ (2 - 1)) = M * ‖h‖ ^ 2 * t := by
      norm_num
      ring
    rw [e] at this
    exact this
  have key := image_norm_le_of_norm_deriv_right_le_deriv_boundary (a := 0) (b := 1)
    (f := fun t : ℝ => φ (x + t • h) - φ x - t * D x h) (f' := fun t => D (x + t • h) h - D x h)
    (fun t _ => (hf t).continuousAt.continuousWithinAt) (fun t _ => (hf t).hasDerivWithinAt) (by simp) hB
    (by
      intro t ht
      have e : D (x + t • h) h - D x h = (D (x + t • h) - D x) h := rfl
      rw [e]
      refine le_trans ((D (x + t • h) - D x).le_opNorm h) ?_
      refine le_trans (mul_le_mul_of_nonneg_right (hM _ _) (norm_nonneg _)) ?_
      rw [add_sub_cancel_left, norm_smul, Real.norm_of_nonneg ht.1]
      apply le_of_eq
      ring)
    (x := 1) ⟨zero_le_one, le_refl _⟩
  simpa using key

end taylor

section
variable {d : Nat} {L : List ℝ} {M : ℝ} {φ : (Fin d → ℝ) → ℝ}

theorem periodic_int (hp : ∀ (x : Fin d → ℝ) (i : Fin d), φ (x + Pi.single i (L.getD i 0)) = φ x) (x : Fin d → ℝ) (i : Fin d) (m : ℤ) :
    φ (x + Pi.single i (m * L.getD i 0)) = φ x := by
  have hn : ∀ (n : Nat) (x : Fin d → ℝ), φ (x + Pi.single i ((n : ℝ) * L.getD i 0)) = φ x := by
    intro n
    induction n with
    | zero => intro x; simp
    | succ n ih =>
      intro x
      have e : x + Pi.single i (((n + 1 : Nat) : ℝ) * L.getD i 0) =
          (x + Pi.single i ((n : ℝ) * L.getD i 0)) + Pi.single i (L.getD i 0) := by
        rw [add_assoc, ← Pi.single_add]
        congr 2
        push_cast
        ring
      rw [e, hp, ih]
  rcases Int.eq_nat_or_neg m with ⟨n, rfl | rfl⟩
  · exact_mod_cast hn n x
  · rw [← hn n]
    congr 1
    rw [add_assoc, ← Pi.single_add]
    push_cast
    simp

theorem lipschitz_nonneg [NeZero d] (h : SmoothPeriodic L M φ) : 0 ≤ M := by
  obtain ⟨D, _, hM⟩ := h.smooth
  have := hM (Pi.single 0 1) 0
  rw [sub_zero, Pi.norm_single, norm_one, mul_one] at this
  exact le_trans (norm_nonneg _) this

end

/-- The centre of a neighbour, up to a period. -/
theorem centre_neighbour {L : List ℝ} {N g : List Nat} (hp : ∀ n ∈ N, 0 < n) (hg : InGrid N g) (j : Fin N.length) (s : Int) :
    ∃ m : ℤ, cellCentre L N (neighbour N j s g) =
      cellCentre L N g + Pi.single j ((s : ℝ) * cellWidth L N j) + Pi.single j ((m : ℝ) * L.getD j 0) := by
  have hl := hg.length_eq
  have hn : 0 < N[(j : Nat)] := hp _ (List.getElem_mem _)
  have hnR : (N[(j : Nat)] : ℝ) ≠ 0 := by exact_mod_cast hn.ne'
  have hnget : N.getD j 0 = N[(j : Nat)] := natGetD_of_lt j.2
  refine ⟨-(((g.getD j 0 : Int) + s) / (N.getD j 0 : Int)), ?_⟩
  funext i
  simp only [cellCentre, Pi.add_apply]
  by_cases hij : i = j
  · subst hij
    rw [Pi.single_eq_same, Pi.single_eq_same]
    have h1 : (neighbour N i s g).getD i 0 = (((g.getD i 0 : Int) + s) % (N.getD i 0 : Int)).toNat := by
      rw [neighbour, List.getD_eq_getElem?_getD, List.getElem?_set_self (by rw [hl]; exact i.2)]
      rfl
    have h2 : ((((g.getD i 0 : Int) + s) % (N.getD i 0 : Int)).toNat : Int) = ((g.getD i 0 : Int) + s) % (N.getD i 0 : Int) :=
      Int.toNat_of_nonneg (Int.emod_nonneg _ (by rw [hnget]; exact_mod_cast hn.ne'))
    have h3 : (((((g.getD i 0 : Int) + s) % (N.getD i 0 : Int)).toNat : Nat) : ℝ) =
        (g.getD i 0 : ℝ) + s - (N.getD i 0 : ℝ) * ((((g.getD i 0 : Int) + s) / (N.getD i 0 : Int) : Int) : ℝ) := by
      have h4 := congrArg (fun z : Int => (z : ℝ)) (h2.trans (Int.emod_def _ _))
      push_cast at h4
      exact h4
    rw [h1, h3]
    have h5 : (N.getD i 0 : ℝ) * cellWidth L N i = L.getD i 0 := by
      unfold cellWidth
      rw [hnget]
      field_simp
    push_cast
    rw [← h5]
    ring
  · rw [Pi.single_eq_of_ne hij, Pi.single_eq_of_ne hij]
    have h1 : (neighbour N j s g).getD i 0 = g.getD i 0 := by
      rw [neighbour, List.getD_eq_getElem?_getD, List.getElem?_set_ne (fun e => hij (Fin.ext e.symm)),
        ← List.getD_eq_getElem?_getD]
    rw [h1]
    ring

theorem upDir_abs (v : List ℝ) (j : Nat) : |v.getD j 0| * (upDir v j : ℝ) = -v.getD j 0 := by
  unfold upDir
  split
  · next h => rw [abs_of_neg h]; push_cast; ring
  · next h => rw [abs_of_nonneg (not_lt.1 h)]; push_cast; ring

theorem upDir_sq (v : List ℝ) (j : Nat) : |(upDir v j : ℝ)| = 1 := by
  unfold upDir
  split <;> simp

/-- The differences of two fields are not amplified. -/
theorem step_diff {N : List Nat} (s : Nat → Int) {w : Nat → ℝ} (hw : ∀ j, j < N.length → 0 ≤ w j)
    (hs : ∑ j ∈ range N.length, w j ≤ 1) {u u' : List Nat → ℝ} {b : ℝ} (hb : ∀ g, InGrid N g → |u g - u' g| ≤ b)
    {g : List Nat} (hg : InGrid N g) :
    |upwindStep N s (fun j => -w j) u g - upwindStep N s (fun j => -w j) u' g| ≤ b := by
  have h := congrFun (iter_linear (N := N) s (fun j => -w j) 1 1 (-1) u u') g
  simp only [Function.iterate_one] at h
  have e : upwindStep N s (fun j => -w j) u g - upwindStep N s (fun j => -w j) u' g =
      upwindStep N s (fun j => -w j) (fun g => 1 * u g + -1 * u' g) g := by rw [h]; ring
  rw [e, abs_le]
  exact ⟨le_step s hw hs (fun g hg => by have := (abs_le.1 (hb g hg)).1; linarith) hg,
    step_le s hw hs (fun g hg => by have := (abs_le.1 (hb g hg)).2; linarith) hg⟩

section
variable {L v : List ℝ} {N : List Nat} {M dt : ℝ} {φ : (Fin N.length → ℝ) → ℝ}

theorem cellWidth_pos (hp : ∀ n ∈ N, 0 < n) (hL : L.length = N.length) (hLpos : ∀ x ∈ L, 0 < x) {j : Nat}
    (hj : j < N.length) : 0 < cellWidth L N j := by
  unfold cellWidth
  apply div_pos
  · rw [List.getD_eq_getElem?_getD, List.getElem?_eq_getElem (hL ▸ hj)]
    exact hLpos _ (List.getElem_mem _)
  · rw [natGetD_of_lt hj]
    exact_mod_cast hp _ (List.getElem_mem _)

/-- Local truncation error: one step of the scheme applied to the exact solution. -/
theorem truncation (hφ : SmoothPeriodic L M φ) (hN : N ≠ []) (hp : ∀ n ∈ N, 0 < n) (hL : L.length = N.length)
    (hLpos : ∀ x ∈ L, 0 < x) (hdt : 0 ≤ dt) (hc : courant dt v L N ≤ 1) (t : ℝ) {g : List Nat} (hg : InGrid N g) :
    |upwindStep N (upDir v) (upCoeff dt v L N) (fun g => advected v φ t (cellCentre L N g)) g -
      advected v φ (t + dt) (cellCentre L N g)| ≤ dt * (M * ∑ j ∈ range N.length, |v.getD j 0| * cellWidth L N j) := by
  have : NeZero N.length := ⟨fun h => hN (List.length_eq_zero_iff.1 h)⟩
  have hM0 : 0 ≤ M := lipschitz_nonneg hφ
  obtain ⟨D, hD, hM⟩ := hφ.smooth
  set x : Fin N.length → ℝ := fun i => cellCentre L N g i - t * v.getD i 0 with hx
  set V : Fin N.length → ℝ := fun i => v.getD i 0 with hV
  have hpos : ∀ j : Fin N.length, 0 < cellWidth L N j := fun j => cellWidth_pos hp hL hLpos j.2
  -- values at the neighbours
  have hnb : ∀ j : Fin N.length, advected v φ t (cellCentre L N (neighbour N j (upDir v j) g)) =
      φ (x + Pi.single j ((upDir v j : ℝ) * cellWidth L N j)) := by
    intro j
    obtain ⟨m, hm⟩ := centre_neighbour (L := L) hp hg j (upDir v j)
    unfold advected
    rw [hm]
    refine Eq.trans ?_ (periodic_int hφ.periodic _ j m)
    congr 1
    funext i
    simp only [Pi.add_apply, hx]
    ring
  have h0 : advected v φ t (cellCentre L N g) = φ x := rfl
  have h1 : advected v φ (t + dt) (cellCentre L N g) = φ (x + (-dt) • V) := by
    unfold advected
    congr 1
    funext i
    simp only [Pi.add_apply, Pi.smul_apply, hx, hV, smul_eq_mul]
    ring
  -- Taylor
  have hr : ∀ j : Fin N.length, |φ (x + Pi.single j ((upDir v j : ℝ) * cellWidth L N j)) - φ x -
      (upDir v j : ℝ) * cellWidth L N j * D x (Pi.single j 1)| ≤ M / 2 * cellWidth L N j ^ 2 := by
    intro j
    have := taylor_bound hD hM x (Pi.single j ((upDir v j : ℝ) * cellWidth L N j))
    have e : D x (Pi.single j ((upDir v j : ℝ) * cellWidth L N j)) = (upDir v j : ℝ) * cellWidth L N j * D x (Pi.single j 1) := by
      have e2 : (Pi.single j ((upDir v j : ℝ) * cellWidth L N j) : Fin N.length → ℝ) =
          ((upDir v j : ℝ) * cellWidth L N j) • Pi.single j (1 : ℝ) := by
        rw [← Pi.single_smul, smul_eq_mul, mul_one]
      rw [e2, map_smul, smul_eq_mul]
    rw [e, Pi.norm_single, Real.norm_eq_abs, abs_mul, upDir_sq, one_mul, abs_of_pos (hpos j)] at this
    exact this
  have hR := taylor_bound hD hM x ((-dt) • V)
  have hlin : D x ((-dt) • V) = -dt * ∑ j : Fin N.length, v.getD j 0 * D x (Pi.single j 1) := by
    rw [map_smul, smul_eq_mul]
    congr 1
    have e : V = ∑ j : Fin N.length, v.getD j 0 • (Pi.single j (1 : ℝ) : Fin N.length → ℝ) := by
      funext i
      simp [hV, Finset.sum_apply, Pi.single_apply]
    rw [e, map_sum]
    apply sum_congr rfl
    intro j _
    rw [map_smul, smul_eq_mul]
  rw [hlin] at hR
  -- size of the second time derivative
  have hVn : dt * ‖V‖ ^ 2 ≤ ∑ j : Fin N.length, |v.getD j 0| * cellWidth L N j := by
    have hcj : ∀ j : Fin N.length, dt * |v.getD j 0| ≤ cellWidth L N j := by
      intro j
      have h2 : dt * |v.getD j 0| / cellWidth L N j ≤ courant dt v L N := by
        rw [courant_eq]
        exact single_le_sum (f := fun j => dt * |v.getD j 0| / cellWidth L N j)
          (fun i _ => weight_nonneg hdt hLpos i) (mem_range.2 j.2)
      exact (div_le_one (hpos j)).1 (le_trans h2 hc)
    obtain ⟨j, -, hj⟩ := exists_max_image (univ : Finset (Fin N.length)) (fun j => |v.getD j 0|) ⟨0, mem_univ _⟩
    have hn : ‖V‖ ≤ |v.getD j 0| :=
      (pi_norm_le_iff_of_nonneg (abs_nonneg _)).2 fun i => hj i (mem_univ _)
    calc dt * ‖V‖ ^ 2 ≤ dt * |v.getD j 0| ^ 2 := by
          apply mul_le_mul_of_nonneg_left _ hdt
          exact pow_le_pow_left₀ (norm_nonneg _) hn 2
      _ = (dt * |v.getD j 0|) * |v.getD j 0| := by ring
      _ ≤ cellWidth L N j * |v.getD j 0| := mul_le_mul_of_nonneg_right (hcj j) (abs_nonneg _)
      _ = |v.getD j 0| * cellWidth L N j := mul_comm _ _
      _ ≤ _ := single_le_sum (f := fun j : Fin N.length => |v.getD j 0| * cellWidth L N j)
          (fun i _ => mul_nonneg (abs_nonneg _) (hpos i).le) (mem_univ j)
  rw [norm_smul, Real.norm_eq_abs, abs_neg, abs_of_nonneg hdt, mul_pow] at hR
  rw [upwindStep_eq, h1]
  simp only [h0]
  rw [Finset.sum_range (f := fun j => upCoeff dt v L N j * (advected v φ t (cellCentre L N (neighbour N j (upDir v j) g)) - φ x)),
    Finset.sum_range (f := fun j => |v.getD j 0| * cellWidth L N j)]
  simp only [hnb]
  have hsum : φ x - ∑ j : Fin N.length, upCoeff dt v L N j * (φ (x + Pi.single j ((upDir v j : ℝ) * cellWidth L N j)) - φ x) -
      φ (x + (-dt) • V) =
      ∑ j : Fin N.length, dt * |v.getD j 0| / cellWidth L N j *
        (φ (x + Pi.single j ((upDir v j : ℝ) * cellWidth L N j)) - φ x -
          (upDir v j : ℝ) * cellWidth L N j * D x (Pi.single j 1)) -
      (φ (x + (-dt) • V) - φ x - -dt * ∑ j : Fin N.length, v.getD j 0 * D x (Pi.single j 1)) := by
    have e : ∀ j : Fin N.length, dt * |v.getD j 0| / cellWidth L N j *
        (φ (x + Pi.single j ((upDir v j : ℝ) * cellWidth L N j)) - φ x -
          (upDir v j : ℝ) * cellWidth L N j * D x (Pi.single j 1)) =
        -(upCoeff dt v L N j * (φ (x + Pi.single j ((upDir v j : ℝ) * cellWidth L N j)) - φ x)) +
          dt * (v.getD j 0 * D x (Pi.single j 1)) := by
      intro j
      have h3 := upDir_abs v j
      have h4 := (hpos j).ne'
      rw [upCoeff_eq]
      have h5 : dt * |v.getD j 0| / cellWidth L N j * ((upDir v j : ℝ) * cellWidth L N j * D x (Pi.single j 1)) =
          dt * (|v.getD j 0| * (upDir v j : ℝ)) * D x (Pi.single j 1) := by
        field_simp
      rw [mul_sub, h5, h3]
      ring
    rw [sum_congr rfl (fun j _ => e j), sum_add_distrib, sum_neg_distrib, ← mul_sum]
    ring
  rw [hsum]
  have hA : |∑ j : Fin N.length, dt * |v.getD j 0| / cellWidth L N j *
        (φ (x + Pi.single j ((upDir v j : ℝ) * cellWidth L N j)) - φ x -
          (upDir v j : ℝ) * cellWidth L N j * D x (Pi.single j 1))| ≤
      dt * (M / 2 * ∑ j : Fin N.length, |v.getD j 0| * cellWidth L N j) := by
    refine le_trans (abs_sum_le_sum_abs _ _) ?_
    rw [mul_sum, mul_sum]
    apply sum_le_sum
    intro j _
    rw [abs_mul, abs_of_nonneg (weight_nonneg hdt hLpos j)]
    refine le_trans (mul_le_mul_of_nonneg_left (hr j) (weight_nonneg hdt hLpos j)) (le_of_eq ?_)
    have h4 := (hpos j).ne'
    field_simp
  have hB : M / 2 * (dt ^ 2 * ‖V‖ ^ 2) ≤ dt * (M / 2 * ∑ j : Fin N.length, |v.getD j 0| * cellWidth L N j) := by
    have : M / 2 * dt * (dt * ‖V‖ ^ 2) ≤ M / 2 * dt * ∑ j : Fin N.length, |v.getD j 0| * cellWidth L N j :=
      mul_le_mul_of_nonneg_left hVn (by positivity)
    linarith [this]
  have := abs_sub (∑ j : Fin N.length, dt * |v.getD j 0| / cellWidth L N j *
        (φ (x + Pi.single j ((upDir v j : ℝ) * cellWidth L N j)) - φ x -
          (upDir v j : ℝ) * cellWidth L N j * D x (Pi.single j 1)))
      (φ (x + (-dt) • V) - φ x - -dt * ∑ j : Fin N.length, v.getD j 0 * D x (Pi.single j 1))
  linarith

/-- The error after `k` steps is at most the sum of the truncation errors. -/
theorem converge (hφ : SmoothPeriodic L M φ) (hN : N ≠ []) (hp : ∀ n ∈ N, 0 < n) (hL : L.length = N.length)
    (hLpos : ∀ x ∈ L, 0 < x) (hdt : 0 ≤ dt) (hc : courant dt v L N ≤ 1) (k : Nat) :
    ∀ g, InGrid N g →
      |(upwindStep N (upDir v) (upCoeff dt v L N))^[k] (fun g => φ (cellCentre L N g)) g -
        advected v φ (k * dt) (cellCentre L N g)| ≤
      k * dt * (M * ∑ j ∈ range N.length, |v.getD j 0| * cellWidth L N j) := by
  induction k with
  | zero =>
    intro g _
    simp [advected]
  | succ k ih =>
    intro g hg
    rw [Function.iterate_succ_apply']
    have hcoef : upCoeff dt v L N = fun j => -(dt * |v.getD j 0| / cellWidth L N j) := by
      funext j; exact upCoeff_eq dt v L N j
    have h1 := truncation hφ hN hp hL hLpos hdt hc (k * dt) hg
    have hc' := hc
    rw [courant_eq] at hc'
    have h2 := step_diff (N := N) (upDir v) (w := fun j => dt * |v.getD j 0| / cellWidth L N j)
      (fun j _ => weight_nonneg hdt hLpos j) hc' ih hg
    rw [← hcoef] at h2
    have e : ((k + 1 : Nat) : ℝ) * dt = k * dt + dt := by push_cast; ring
    rw [e, add_mul]
    have := abs_sub_le (upwindStep N (upDir v) (upCoeff dt v L N)
        ((upwindStep N (upDir v) (upCoeff dt v L N))^[k] (fun g => φ (cellCentre L N g))) g)
      (upwindStep N (upDir v) (upCoeff dt v L N) (fun g => advected v φ (k * dt) (cellCentre L N g)) g)
      (advected v φ (k * dt + dt) (cellCentre L N g))
    linarith

/-- The same from a field close to the initial one. -/
theorem converge_near (hφ : SmoothPeriodic L M φ) (hN : N ≠ []) (hp : ∀ n ∈ N, 0 < n) (hL : L.length = N.length)
    (hLpos : ∀ x ∈ L, 0 < x) (hdt : 0 ≤ dt) (hc : courant dt v L N ≤ 1) {u : List Nat → ℝ} {δ : ℝ}
    (hu : ∀ g, InGrid N g → |u g - φ (cellCentre L N g)| ≤ δ) (k : Nat) :
    ∀ g, InGrid N g →
      |(upwindStep N (upDir v) (upCoeff dt v L N))^[k] u g - advected v φ (k * dt) (cellCentre L N g)| ≤
      δ + k * dt * (M * ∑ j ∈ range N.length, |v.getD j 0| * cellWidth L N j) := by
  have hd : ∀ k : Nat, ∀ g, InGrid N g → |(upwindStep N (upDir v) (upCoeff dt v L N))^[k] u g -
      (upwindStep N (upDir v) (upCoeff dt v L N))^[k] (fun g => φ (cellCentre L N g)) g| ≤ δ := by
    have hcoef : upCoeff dt v L N = fun j => -(dt * |v.getD j 0| / cellWidth L N j) := by
      funext j; exact upCoeff_eq dt v L N j
    rw [courant_eq] at hc
    intro k
    induction k with
    | zero => exact hu
    | succ k ih =>
      intro g hg
      simp only [Function.iterate_succ_apply']
      rw [hcoef] at ih ⊢
      exact step_diff (N := N) (upDir v) (w := fun j => dt * |v.getD j 0| / cellWidth L N j)
        (fun j _ => weight_nonneg hdt hLpos j) hc ih hg
  intro g hg
  have h1 := hd k g hg
  have h2 := converge (v := v) hφ hN hp hL hLpos hdt hc k g hg
  have := abs_sub_le ((upwindStep N (upDir v) (upCoeff dt v L N))^[k] u g)
    ((upwindStep N (upDir v) (upCoeff dt v L N))^[k] (fun g => φ (cellCentre L N g)) g)
    (advected v φ (k * dt) (cellCentre L N g))
  linarith

end

section
variable {d : Nat} {v : List ℝ}

theorem dir_eq (D : ℝ × (Fin d → ℝ) →L[ℝ] ℝ) :
    D (1, fun i : Fin d => v.getD i 0) = D (1, 0) + ∑ i : Fin d, v.getD i 0 * D (0, Pi.single i 1) := by
  have e : ((1, fun i : Fin d => v.getD i 0) : ℝ × (Fin d → ℝ)) =
      (1, 0) + ∑ i : Fin d, v.getD i 0 • ((0, Pi.single i 1) : ℝ × (Fin d → ℝ)) := by
    apply Prod.ext
    · simp [Prod.fst_sum]
    · funext j
      simp [Prod.snd_sum, Finset.sum_apply, Pi.single_apply]
  rw [e, map_add, map_sum]
  congr 1
  apply sum_congr rfl
  intro i _
  rw [map_smul, smul_eq_mul]

/-- A solution is constant along the characteristics. -/
theorem SolvesAdvection.unique {w : ℝ → (Fin d → ℝ) → ℝ} (h : SolvesAdvection v w) (t : ℝ) (x : Fin d → ℝ) :
    w t x = advected v (w 0) t x := by
  obtain ⟨D, hD⟩ := h
  set V : Fin d → ℝ := fun i => v.getD i 0 with hV
  have hline : ∀ s : ℝ, HasDerivAt (fun s : ℝ => ((s, x + (s - t) • V) : ℝ × (Fin d → ℝ))) (1, V) s := by
    intro s
    have h1 : HasDerivAt (fun s : ℝ => x + (s - t) • V) V s := by
      simpa using (((hasDerivAt_id s).sub_const t).smul_const V).const_add x
    exact (hasDerivAt_id s).prodMk h1
  have hd : ∀ s : ℝ, HasDerivAt (fun s : ℝ => w s (x + (s - t) • V)) 0 s := by
    intro s
    have h1 := (hD (s, x + (s - t) • V)).1.comp_hasDerivAt s (hline s)
    rw [dir_eq, (hD _).2] at h1
    exact h1
  have hc := is_const_of_deriv_eq_zero (fun s => (hd s).differentiableAt) (fun s => (hd s).deriv) t 0
  simp only [sub_self, zero_smul, add_zero, zero_sub] at hc
  rw [hc]
  unfold advected
  congr 1
  funext i
  simp [hV, sub_eq_add_neg]

/-- The initial field carried along is a solution. -/
theorem advected_solves {L : List ℝ} {M : ℝ} {φ : (Fin d → ℝ) → ℝ} (hφ : SmoothPeriodic L M φ) :
    SolvesAdvection v (advected v φ) := by
  obtain ⟨D, hD, -⟩ := hφ.smooth
  set V : Fin d → ℝ := fun i => v.getD i 0 with hV
  let A : ℝ × (Fin d → ℝ) →L[ℝ] (Fin d → ℝ) :=
    ContinuousLinearMap.snd ℝ ℝ (Fin d → ℝ) - (ContinuousLinearMap.fst ℝ ℝ (Fin d → ℝ)).smulRight V
  have hA : ∀ p : ℝ × (Fin d → ℝ), (fun i => p.2 i - p.1 * v.getD i 0) = A p := by
    intro p
    funext i
    simp [A, hV]
  refine ⟨fun p => (D (A p)).comp A, fun p => ⟨?_, ?_⟩⟩
  · have h1 := (hD (A p)).comp p A.hasFDerivAt
    have e : (fun p : ℝ × (Fin d → ℝ) => advected v φ p.1 p.2) = φ ∘ A := by
      funext p
      unfold advected
      rw [hA p]
      rfl
    rw [e]
    exact h1
  · rw [← dir_eq]
    have e : A (1, V) = 0 := by simp [A]
    show D (A p) (A (1, V)) = 0
    rw [e, map_zero]

end

/-- Numbers that stand for rationals stand for reals. -/
theorem rounded_real {R : Type} [Zero R] [One R] [Add R] [Sub R] [Mul R] [Div R] [NatCast R] [IntCast R] [LT R]
    {val : R → ℚ} {r η tiny : ℚ} (H : Rounded R ℚ val r η tiny) : Rounded R ℝ (fun x => (val x : ℝ)) r η tiny := by
  have hcast : ∀ {a b : ℚ}, RoundsTo r η tiny a b → RoundsTo (r : ℝ) η tiny (a : ℝ) (b : ℝ) := by
    intro a b h
    refine ⟨by exact_mod_cast h.1, fun h1 => ?_⟩
    have h2 : b = 0 ∨ tiny ≤ |b| := by
      rcases h1 with h1 | h1
      · left; exact_mod_cast h1
      · right; exact_mod_cast h1
    exact_mod_cast h.2 h2
  constructor
  · exact_mod_cast H.r_nonneg
  · have := H.r_le
    have h2 : (r : ℝ) ≤ ((1 / 100 : ℚ) : ℝ) := by exact_mod_cast this
    push_cast at h2
    exact h2
  · exact_mod_cast H.η_nonneg
  · exact_mod_cast H.tiny_nonneg
  · exact_mod_cast H.zero
  · exact_mod_cast H.one
  · intro x y
    rw [H.lt]
    exact_mod_cast Iff.rfl
  · intro x y; exact_mod_cast hcast (H.add x y)
  · intro x y; exact_mod_cast hcast (H.sub x y)
  · intro x y; exact_mod_cast hcast (H.mul x y)
  · intro x y; exact_mod_cast hcast (H.div x y)
  · intro n; exact_mod_cast H.nat n
  · intro n; exact_mod_cast H.int n

end Fidi
