import Mathlib.Data.Rat.Floor
import Mathlib.Algebra.Order.Ring.Unbundled.Rat

/-
A reader of decimal floating-point texts. Independent of the model.
-/
namespace Fidi.Spec

/-- A decimal digit. -/
def isDec (c : Char) : Bool := '0' ≤ c && c ≤ '9'

/-- The number that a list of digits denotes. -/
def natOf (s : List Char) : Nat := s.foldl (fun n c => 10 * n + (c.toNat - '0'.toNat)) 0

/-- An exponent, or nothing. -/
def readExponent : List Char → Option Int
  | [] => some 0
  | 'e' :: '+' :: s => if s ≠ [] ∧ s.all isDec then some (natOf s) else none
  | 'e' :: '-' :: s => if s ≠ [] ∧ s.all isDec then some (-natOf s) else none
  | _ => none

/-- The digits after a point, if there is one, and the rest. -/
def fraction : List Char → List Char × List Char
  | '.' :: s => (s.takeWhile isDec, s.dropWhile isDec)
  | s => ([], s)

/-- The number that a text without sign denotes: digits, perhaps a point and more digits, perhaps an exponent. -/
def readUnsigned (s : List Char) : Option ℚ :=
  let ip := s.takeWhile isDec
  let fr := (fraction (s.dropWhile isDec)).1
  let rest := (fraction (s.dropWhile isDec)).2
  if ip = [] then none
  else (readExponent rest).map fun e : Int => (natOf (ip ++ fr) : ℚ) * (10 : ℚ) ^ (e - (fr.length : Int))

/-- The number that a text denotes. -/
def readDecimal : List Char → Option ℚ
  | '-' :: s => (readUnsigned s).map fun q => -q
  | s => readUnsigned s

/-- A number that can be written with six significant digits. -/
def SixDigit (q : ℚ) : Prop := ∃ (n j : ℤ), |n| < 10 ^ 6 ∧ q = n * 10 ^ j

/-- The texts of the coordinates of `n` cells of the same width from 0 to 1: they denote numbers that increase strictly from 0 to
1 and are equidistant up to a relative error of 1 / 190000. -/
def UnitAxis (n : Nat) (ts : List (List Char)) : Prop :=
  ts.length = n + 1 ∧ ∃ c : Nat → ℚ, (∀ i, i ≤ n → (ts[i]?).bind readDecimal = some (c i)) ∧ c 0 = 0 ∧ c n = 1 ∧
    (∀ i, i < n → c i < c (i + 1)) ∧ ∀ i : Nat, i ≤ n → |c i - (i : ℚ) / n| ≤ (i : ℚ) / n / 190000

example : readDecimal "-12.50e-01".toList = some (-5 / 4) ∧ readDecimal "7".toList = some 7 ∧ readDecimal "1.".toList = some 1 ∧
    readDecimal ".5".toList = none ∧ readDecimal "nan".toList = none ∧ readDecimal "1e".toList = none := by
  decide +kernel

end Fidi.Spec
