import Verif.Lemmas.UpwindConverge
import Verif.Props.Rounding
import Mathlib.Analysis.SpecialFunctions.Trigonometric.Bounds
import Mathlib.Analysis.SpecialFunctions.Trigonometric.Deriv

/-
Property C70: upwind.cxx approximates the solution of the advection equation, to first order in the cell widths.
-/
set_option linter.unusedSectionVars false

namespace Fidi
open Spec Upwind Finset

/-- C70: a smooth periodic initial field has one and only one solution, the field carried along. (This is about the
specification only: it says that `SolvesAdvection` can be met and leaves no choice.) -/
theorem C70_solution_unique {d : Nat} (v L : List ℝ) (M : ℝ) (φ : (Fin d → ℝ) → ℝ) (hφ : SmoothPeriodic L M φ) :
    ∃! w, SolvesAdvection v w ∧ w 0 = φ := by
  refine ⟨advected v φ, ⟨advected_solves hφ, ?_⟩, ?_⟩
  · funext x
    simp [advected]
  · rintro w ⟨h1, rfl⟩
    funext t x
    exact SolvesAdvection.unique h1 t x

/-- C70: in exact arithmetic, if the total Courant number is at most 1, the field after `k` steps from the values `w 0` at the
cell centres is, in every cell, within `k dt M (sum over the axes of |v_j| width_j)` of the exact solution at time `k dt`. -/
theorem C70_first_order (N : List Nat) (hN : N ≠ []) (hdim : N.length < 2 ^ 64) (hpos : ∀ n ∈ N, 0 < n)
    (hcells : N.prod < 2 ^ 31) (haxis : ∀ n ∈ N, n < 2 ^ 30) (v L : List ℝ) (hv : v.length = N.length)
    (hL : L.length = N.length) (hLpos : ∀ x ∈ L, 0 < x) (s0 : Upwind ℝ)
    (hnew : Upwind.new N.length v L N = .ok s0) (dt : ℝ) (hdt : 0 ≤ dt) (hc : courant dt v L N ≤ 1)
    (w : ℝ → (Fin N.length → ℝ) → ℝ) (hw : SolvesAdvection v w) (M : ℝ) (hM : SmoothPeriodic L M (w 0))
    (f0 : List ℝ) (hf : Stores N f0 fun g => w 0 (cellCentre L N g)) (k : Nat) :
    ∃ s', { s0 with f := f0 }.advect k dt = .ok s' ∧
      Near N id s'.f (fun g => w (k * dt) (cellCentre L N g))
        (k * dt * (M * ∑ j ∈ range N.length, |v.getD j 0| * cellWidth L N j)) := by
  obtain ⟨_, _, e⟩ := advect_spec hN hdim ⟨hpos, hcells, haxis⟩ hv hL hnew hf k dt
  refine ⟨_, e, Near.of_stores (Stores.listOf hpos _) fun g hg => ?_⟩
  rw [SolvesAdvection.unique hw]
  exact converge hM hN hpos hL hLpos hdt hc k g hg

section
variable {R : Type} [Zero R] [One R] [Add R] [Sub R] [Mul R] [Div R] [NatCast R] [IntCast R] [LT R] [DecidableLT R]
  {val : R → ℝ} {r η tiny : ℝ}

/-- C70: in floating-point arithmetic, from values within `δ` of those of the exact solution: the error is at most that of the
initial values plus that of the scheme plus that of rounding (C58). -/
theorem C70_floating_point (H : Rounded R ℝ val r η tiny) (N : List Nat) (hN : N ≠ []) (hdim : N.length < 2 ^ 64)
    (hpos : ∀ n ∈ N, 0 < n) (hcells : N.prod < 2 ^ 31) (haxis : ∀ n ∈ N, n < 2 ^ 30) (v L : List R)
    (hv : v.length = N.length) (hL : L.length = N.length) (hLpos : ∀ x ∈ L, 0 < val x) (s0 : Upwind R)
    (hnew : Upwind.new N.length v L N = .ok s0) (dt : R) (hdt : 0 ≤ val dt)
    (hc : courant (val dt) (v.map val) (L.map val) N ≤ 1)
    (hn : NormalCoeffs tiny (val dt) (v.map val) (L.map val) N)
    (w : ℝ → (Fin N.length → ℝ) → ℝ) (hw : SolvesAdvection (v.map val) w) (M : ℝ)
    (hM : SmoothPeriodic (L.map val) M (w 0)) (f0 : List R) (δ B : ℝ) (hB : 0 ≤ B)
    (hf : Near N val f0 (fun g => w 0 (cellCentre (L.map val) N g)) δ) (hfB : ∀ x ∈ f0, |val x| ≤ B) (k : Nat) :
    ∃ s', { s0 with f := f0 }.advect k dt = .ok s' ∧
      Near N val s'.f (fun g => w (k * val dt) (cellCentre (L.map val) N g))
        (δ + k * val dt * (M * ∑ j ∈ range N.length, |(v.map val).getD j 0| * cellWidth (L.map val) N j) +
          (grown N.length r (4 * η) k B - B)) := by
  have hu := exists_field hf.1
  have hmem : ∀ g, InGrid N g → f0.getD (rankOf N g) 0 ∈ f0 := fun g hg => List.mem_iff_getElem?.2 ⟨_, hu.2 g hg⟩
  have hδ : ∀ g, InGrid N g → |val (f0.getD (rankOf N g) 0) - w 0 (cellCentre (L.map val) N g)| ≤ δ := by
    intro g hg
    obtain ⟨x, hx, h⟩ := hf.2 g hg
    have := hu.2 g hg
    rw [hx] at this
    injection this with this
    have e : f0.getD (rankOf N g) 0 = x := this.symm
    rw [e]
    exact h
  obtain ⟨s', e, h⟩ := C58_upwind_error H N hN hdim hpos hcells haxis v L hv hL hLpos s0 hnew dt hdt hc hn f0 _ hu B hB
    (fun g hg => hfB _ (hmem g hg)) k
  refine ⟨s', e, h.1, fun g hg => ?_⟩
  obtain ⟨x, hx, hx2⟩ := h.2 g hg
  refine ⟨x, hx, ?_⟩
  have hLpos' : ∀ x ∈ L.map val, 0 < x := by
    intro x hx
    obtain ⟨y, hy, rfl⟩ := List.mem_map.1 hx
    exact hLpos y hy
  have h2 := converge_near (v := v.map val) hM hN hpos (by simpa using hL) hLpos' hdt hc hδ k g hg
  show |val x - w (k * val dt) (cellCentre (L.map val) N g)| ≤ _
  rw [SolvesAdvection.unique hw]
  rw [Int.toNat_natCast] at hx2
  have := abs_sub_le (val x) ((upwindStep N (upDir (v.map val)) (upCoeff (val dt) (v.map val) (L.map val) N))^[k]
    (fun g => val (f0.getD (rankOf N g) 0)) g) (advected (v.map val) (w 0) (k * val dt) (cellCentre (L.map val) N g))
  linarith

end

/-- The numbers of C58, doubles without overflow, satisfy the hypothesis of `C70_floating_point`. -/
theorem Dbl.rounded_real : Rounded Dbl ℝ (fun x => (x.val : ℝ)) (1 / 2 ^ 53) (1 / 2 ^ 1075) (1 / 2 ^ 1022) := by
  have H := Fidi.rounded_real Dbl.rounded
  simp only [Rat.cast_div, Rat.cast_one, Rat.cast_pow, Rat.cast_ofNat] at H
  exact H

/-- The hypotheses of C70 are met by a sine wave on 100 cells with Courant number 1/2. -/
theorem sine_smooth : SmoothPeriodic (d := 1) [1] ((2 * Real.pi) ^ 2) fun x => Real.sin (2 * Real.pi * x 0) := by
  refine ⟨?_, ?_⟩
  · intro x i
    have hi : i = 0 := Subsingleton.elim _ _
    subst hi
    have e : 2 * Real.pi * (x + (Pi.single 0 (([1] : List ℝ).getD ((0 : Fin 1) : Nat) 0) : Fin 1 → ℝ)) 0 = 2 * Real.pi * x 0 + 2 * Real.pi := by
      simp
      ring
    rw [e, Real.sin_add_two_pi]
  · refine ⟨fun x => (2 * Real.pi * Real.cos (2 * Real.pi * x 0)) • ContinuousLinearMap.proj 0, ?_, ?_⟩
    · intro x
      have h1 : HasFDerivAt (fun x : Fin 1 → ℝ => 2 * Real.pi * x 0)
          ((2 * Real.pi) • (ContinuousLinearMap.proj 0 : (Fin 1 → ℝ) →L[ℝ] ℝ)) x :=
        (ContinuousLinearMap.proj (R := ℝ) (φ := fun _ : Fin 1 => ℝ) 0).hasFDerivAt.const_mul _
      have h2 := h1.sin
      rw [smul_smul, mul_comm (Real.cos _)] at h2
      exact h2
    · intro x y
      have h2 : |2 * Real.pi * Real.cos (2 * Real.pi * x 0) - 2 * Real.pi * Real.cos (2 * Real.pi * y 0)| ≤
          (2 * Real.pi) ^ 2 * ‖x - y‖ := by
        rw [← mul_sub, abs_mul, abs_of_pos Real.two_pi_pos, pow_two, mul_assoc (2 * Real.pi) (2 * Real.pi)]
        apply mul_le_mul_of_nonneg_left _ Real.two_pi_pos.le
        refine le_trans (Real.abs_cos_sub_cos_le _ _) ?_
        rw [← mul_sub, abs_mul, abs_of_pos Real.two_pi_pos]
        exact mul_le_mul_of_nonneg_left (norm_le_pi_norm (x - y) 0) Real.two_pi_pos.le
      apply ContinuousLinearMap.opNorm_le_bound _ (by positivity)
      intro z
      have e : ((2 * Real.pi * Real.cos (2 * Real.pi * x 0)) • (ContinuousLinearMap.proj 0 : (Fin 1 → ℝ) →L[ℝ] ℝ) -
          (2 * Real.pi * Real.cos (2 * Real.pi * y 0)) • (ContinuousLinearMap.proj 0 : (Fin 1 → ℝ) →L[ℝ] ℝ)) z =
          (2 * Real.pi * Real.cos (2 * Real.pi * x 0) - 2 * Real.pi * Real.cos (2 * Real.pi * y 0)) * z 0 := by
        rw [sub_mul]
        rfl
      show ‖((2 * Real.pi * Real.cos (2 * Real.pi * x 0)) • (ContinuousLinearMap.proj 0 : (Fin 1 → ℝ) →L[ℝ] ℝ) -
        (2 * Real.pi * Real.cos (2 * Real.pi * y 0)) • (ContinuousLinearMap.proj 0 : (Fin 1 → ℝ) →L[ℝ] ℝ)) z‖ ≤ _
      rw [e, Real.norm_eq_abs, abs_mul]
      exact mul_le_mul h2 (norm_le_pi_norm z 0) (abs_nonneg _) (by positivity)

example : ∃ s', { built [(1 : ℝ)] [1] [100] with f := listOf [100] fun g => Real.sin (2 * Real.pi * cellCentre [1] [100] g 0) }.advect 50
      (1 / 200) = .ok s' ∧
    Near [100] id s'.f (fun g => Real.sin (2 * Real.pi * (cellCentre [1] [100] g 0 - 1 / 4))) ((2 * Real.pi) ^ 2 / 400) := by
  have h := C70_first_order [100] (by simp) (by simp) (by simp) (by simp) (by simp) [1] [1] rfl rfl (by simp) _
    (new_built (by simp) (by simp) ⟨by simp, by simp, by simp⟩ rfl rfl) (1 / 200) (by norm_num)
    (by norm_num [courant, cellWidth]) (advected [1] fun x : Fin 1 → ℝ => Real.sin (2 * Real.pi * x 0))
    (advected_solves sine_smooth) ((2 * Real.pi) ^ 2)
    (by
      have e : (advected [1] (fun x : Fin 1 → ℝ => Real.sin (2 * Real.pi * x 0)) 0) =
          fun x => Real.sin (2 * Real.pi * x 0) := by
        funext x
        simp [advected]
      rw [e]
      exact sine_smooth)
    (listOf [100] fun g => Real.sin (2 * Real.pi * cellCentre [1] [100] g 0))
    (by
      have := Stores.listOf (N := [100]) (by simp) fun g => Real.sin (2 * Real.pi * cellCentre [1] [100] g 0)
      simpa [advected] using this) 50
  obtain ⟨s', e, h⟩ := h
  refine ⟨s', e, ?_⟩
  convert h using 1
  · funext g
    simp [advected]
    norm_num
  · simp [cellWidth]
    ring

end Fidi
