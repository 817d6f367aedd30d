import Verif.Model.Dbl
import Verif.Model.CubeDecomp
import Mathlib.Algebra.Order.Group.Abs

/-
IEEE `double` with its range: rounding as in `Dbl`, but a result whose rounded value exceeds the largest finite number is an
infinity, and there are NaNs. Left out: the sign of zero (so a nonzero number divided by zero is the infinity of its own
sign), the payloads of NaNs, and the exception flags.

Not code of the repository.
-/
namespace Fidi

/-- The largest finite `double`, DBL_MAX of <cfloat>. -/
def maxFinite : ℚ := (2 ^ 53 - 1) * 2 ^ 971

/-- Largest `double`. -/
instance Dbl.instHasMax : HasMax Dbl := ⟨⟨maxFinite⟩⟩

/-- An IEEE `double`. -/
inductive F64 where
  | fin (x : Dbl)
  | inf (neg : Bool)
  | nan
  deriving DecidableEq

namespace F64

/-- The result of an operation whose exact result is `q`: rounded, or an infinity if the rounded value is out of range. -/
def ofRat (q : ℚ) : F64 := if |rnd q| ≤ maxFinite then .fin ⟨rnd q⟩ else .inf (decide (q < 0))

/-- Whether the number is finite. -/
def Finite : F64 → Prop
  | .fin _ => True
  | _ => False

def add : F64 → F64 → F64
  | .fin x, .fin y => ofRat (x.val + y.val)
  | .inf a, .inf b => if a = b then .inf a else .nan
  | .inf a, .fin _ => .inf a
  | .fin _, .inf b => .inf b
  | _, _ => .nan

def sub : F64 → F64 → F64
  | .fin x, .fin y => ofRat (x.val - y.val)
  | .inf a, .inf b => if a = b then .nan else .inf a
  | .inf a, .fin _ => .inf a
  | .fin _, .inf b => .inf (!b)
  | _, _ => .nan

def mul : F64 → F64 → F64
  | .fin x, .fin y => ofRat (x.val * y.val)
  | .inf a, .inf b => .inf (a != b)
  | .inf a, .fin y => if y.val = 0 then .nan else .inf (a != decide (y.val < 0))
  | .fin x, .inf b => if x.val = 0 then .nan else .inf (decide (x.val < 0) != b)
  | _, _ => .nan

def div : F64 → F64 → F64
  | .fin x, .fin y =>
    if y.val = 0 then (if x.val = 0 then .nan else .inf (decide (x.val < 0))) else ofRat (x.val / y.val)
  | .inf a, .fin y => .inf (a != decide (y.val < 0))
  | .fin _, .inf _ => .fin 0
  | _, _ => .nan

def neg : F64 → F64
  | .fin x => .fin ⟨-x.val⟩
  | .inf a => .inf !a
  | .nan => .nan

/-- `<` of C: false as soon as one operand is a NaN. -/
def lt : F64 → F64 → Prop
  | .fin x, .fin y => x.val < y.val
  | .inf a, .inf b => a = true ∧ b = false
  | .inf a, .fin _ => a = true
  | .fin _, .inf b => b = false
  | _, _ => False

instance instZero : Zero F64 := ⟨.fin 0⟩
instance instOne : One F64 := ⟨.fin 1⟩
instance instAdd : Add F64 := ⟨add⟩
instance instSub : Sub F64 := ⟨sub⟩
instance instMul : Mul F64 := ⟨mul⟩
instance instNeg : Neg F64 := ⟨neg⟩
instance instDiv : Div F64 := ⟨div⟩
instance instNatCast : NatCast F64 := ⟨fun n => ofRat n⟩
instance instIntCast : IntCast F64 := ⟨fun n => ofRat n⟩
instance instLT : LT F64 := ⟨lt⟩
instance instDecLT : DecidableLT F64 := fun x y => by
  cases x <;> cases y <;> (first | exact inferInstanceAs (Decidable (_ < (_ : ℚ))) | exact inferInstanceAs (Decidable (_ ∧ _)) |
    exact inferInstanceAs (Decidable (_ = _)) | exact inferInstanceAs (Decidable False))
instance instHasMax : HasMax F64 := ⟨.fin ⟨maxFinite⟩⟩

end F64

/-- The largest number plus a quarter of its last place stays, plus half of it overflows; 1e200 squared overflows. -/
example : (F64.fin ⟨maxFinite⟩ + F64.fin ⟨2 ^ 969⟩ = F64.fin ⟨maxFinite⟩) ∧
    (F64.fin ⟨maxFinite⟩ + F64.fin ⟨2 ^ 970⟩ = F64.inf false) ∧
    (F64.fin ⟨rnd (-(10 ^ 200))⟩ * F64.fin ⟨rnd (10 ^ 200)⟩ = F64.inf true) := by decide +kernel

/-- An infinity minus itself is not a number, and comparisons with that are false. -/
example : (F64.inf false - F64.inf false = F64.nan) ∧ ¬ (F64.nan < F64.fin 0) ∧ ¬ (F64.fin 0 < F64.nan) ∧
    F64.inf true < F64.fin 0 := by decide +kernel

end Fidi
