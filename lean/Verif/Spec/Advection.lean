import Verif.Spec.Upwind
import Mathlib.Analysis.Calculus.FDeriv.Basic
import Mathlib.Analysis.Calculus.Deriv.Basic
import Mathlib.Analysis.Normed.Module.FiniteDimension

/-
The advection equation on a periodic box, to which the upwind scheme is an approximation, and the derivatives which the filter
of `laplacian` approximates. Independent of the model.
Points of space are `Fin d → ℝ` with the maximum norm.
-/
namespace Fidi.Spec

/-- The centre of cell `g`. -/
noncomputable def cellCentre (L : List ℝ) (N : List Nat) (g : List Nat) : Fin N.length → ℝ :=
  fun i => ((g.getD i 0 : ℝ) + 1 / 2) * cellWidth L N i

/-- `φ` is periodic with period `L j` along each axis `j`, and differentiable with a derivative of Lipschitz constant `M`
(every function with second derivatives bounded by `M / d` is). -/
structure SmoothPeriodic {d : Nat} (L : List ℝ) (M : ℝ) (φ : (Fin d → ℝ) → ℝ) : Prop where
  periodic : ∀ (x : Fin d → ℝ) (i : Fin d), φ (x + Pi.single i (L.getD i 0)) = φ x
  smooth : ∃ D : (Fin d → ℝ) → ((Fin d → ℝ) →L[ℝ] ℝ), (∀ x, HasFDerivAt φ (D x) x) ∧
    ∀ x y, ‖D x - D y‖ ≤ M * ‖x - y‖

/-- `w t x` is a (differentiable) solution of the advection equation with constant velocity `v`: the derivative with respect to
time plus the sum of the velocities times the derivatives with respect to the coordinates is 0. -/
def SolvesAdvection {d : Nat} (v : List ℝ) (w : ℝ → (Fin d → ℝ) → ℝ) : Prop :=
  ∃ D : ℝ × (Fin d → ℝ) → (ℝ × (Fin d → ℝ) →L[ℝ] ℝ), ∀ p, HasFDerivAt (fun p => w p.1 p.2) (D p) p ∧
    D p (1, 0) + ∑ i : Fin d, v.getD i 0 * D p (0, Pi.single i 1) = 0

/-- The initial field `φ` carried along with velocity `v` for the time `t`. -/
def advected {d : Nat} (v : List ℝ) (φ : (Fin d → ℝ) → ℝ) (t : ℝ) (x : Fin d → ℝ) : ℝ :=
  φ (fun i => x i - t * v.getD i 0)

/-- `φ` is four times differentiable along axis `j` (the fourth derivative may be a Lipschitz constant `M` of the third);
`φ2` is the second derivative. -/
def FourTimes {d : Nat} (M : ℝ) (j : Fin d) (φ φ2 : (Fin d → ℝ) → ℝ) : Prop :=
  ∀ x : Fin d → ℝ, ∃ F1 F3 : ℝ → ℝ, ∀ s, HasDerivAt (fun s => φ (x + Pi.single j s)) (F1 s) s ∧
    HasDerivAt F1 (φ2 (x + Pi.single j s)) s ∧ HasDerivAt (fun s => φ2 (x + Pi.single j s)) (F3 s) s ∧
    ∀ t, |F3 s - F3 t| ≤ M * |s - t|

end Fidi.Spec
