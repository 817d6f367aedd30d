import Verif.Model.Drivers
import Mathlib.Analysis.SpecialFunctions.Trigonometric.Basic

/-
Exact arithmetic with `sin`: real numbers.
-/
namespace Fidi

/-- Exact `sin` and `M_PI`. -/
noncomputable instance : HasSin ℝ := ⟨Real.sin, Real.pi⟩

end Fidi
