import Verif.Model.Ieee
import Verif.Model.CmdLine
import Mathlib.Data.Int.Log

/-
How the C++ programs write a `double`: `std::ostream << double` with the default settings (none of the sources calls
`setprecision`, `fixed` or `scientific`), which is `printf` with `%g`: six significant digits, correctly rounded (ties to even,
as glibc does), without trailing zeros; the scientific form for decimal exponents below -4 or from 6 on.

Used by: upwind/cxx/saveVTK.h:27-58, cxx/writeVTK.cpp:43-79, the check sums of upwind/cxx/*.cxx, upwindMpi.cxx, laplacian.cxx, the
print methods of cxx/Filter.cpp and cxx/CmdLineArgParser.cpp.

Left out: the sign of zero (see Model/Ieee.lean) and the sign of a NaN ("-nan").
-/
namespace Fidi

/-- `x` times `10^e`. -/
def scale10 (x : ℚ) (e : Int) : ℚ := if 0 ≤ e then x * ((10 ^ e.toNat : Nat) : ℚ) else x / ((10 ^ (-e).toNat : Nat) : ℚ)

/-- The six significant digits of a positive number, as a number from 100000 to 999999, and the decimal exponent of the first. -/
def sixDigits (x : ℚ) : Nat × Int :=
  let e := Int.log 10 x
  let m := rndInt (scale10 x (5 - e))
  if m = 10 ^ 6 then (10 ^ 5, e + 1) else (m, e)

/-- Without the zeros at the end. -/
def stripZeros (s : Str) : Str := (s.reverse.dropWhile (· == '0')).reverse

/-- Digits before and after the point, which is left out if only zeros follow. -/
def withPoint (ip fr : Str) : Str := if stripZeros fr = [] then ip else ip ++ '.' :: stripZeros fr

/-- The exponent, with a sign and at least two digits. -/
def showExponent (e : Int) : Str :=
  'e' :: (if e < 0 then '-' else '+') :: ((if e.natAbs < 10 then ['0'] else []) ++ Nat.toDigits 10 e.natAbs)

/-- `%g` of the number with digits `m` and exponent `e`. -/
def showDigits (m : Nat) (e : Int) : Str :=
  let ds := Nat.toDigits 10 m
  if e < -4 ∨ 6 ≤ e then withPoint (ds.take 1) (ds.drop 1) ++ showExponent e
  else if 0 ≤ e then withPoint (ds.take (e.toNat + 1)) (ds.drop (e.toNat + 1))
  else withPoint ['0'] (List.replicate ((-e).toNat - 1) '0' ++ ds)

/-- `%g` of a positive number. -/
def showPos (x : ℚ) : Str := showDigits (sixDigits x).1 (sixDigits x).2

/-- `%g` of a finite number. -/
def showG (x : ℚ) : Str := if x = 0 then ['0'] else if 0 < x then showPos x else '-' :: showPos (-x)

/-- `std::cout << x`. -/
def F64.text : F64 → Str
  | .fin x => showG x.val
  | .inf neg => if neg then "-inf".toList else "inf".toList
  | .nan => "nan".toList

/-- The text functions for IEEE numbers: `std::cout << x` and any `atof`. -/
abbrev F64.textWith (atof : Str → F64) : DoubleText F64 := ⟨atof, F64.text⟩

/-- What a C program prints for some numbers. -/
example : showG (rnd (1 / 10)) = "0.1".toList ∧ showG (rnd (2 / 3)) = "0.666667".toList ∧ showG 1234567 = "1.23457e+06".toList ∧
    showG (-100000) = "-100000".toList ∧ showG (9999995 / 10) = "1e+06".toList ∧ showG (rnd (1 / 30000)) = "3.33333e-05".toList ∧
    showG (1 / 8192) = "0.00012207".toList ∧ showG (rnd (1 / 10 ^ 300)) = "1e-300".toList ∧ showG (5 / 2) = "2.5".toList ∧
    showG (1 - 1 / 2 ^ 53) = "1".toList ∧ showG 1000005 = "1e+06".toList ∧ showG (1000015 / 10) = "100002".toList ∧
    showG maxFinite = "1.79769e+308".toList := by
  decide +kernel

end Fidi
