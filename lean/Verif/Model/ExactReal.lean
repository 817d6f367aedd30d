import Verif.Model.Upwind
import Mathlib.Analysis.Real.Sqrt

/-
Exact arithmetic with square roots: real numbers.
-/
namespace Fidi

/-- Exact square root. -/
noncomputable instance : Upwind.HasSqrt ℝ := ⟨Real.sqrt⟩

end Fidi
