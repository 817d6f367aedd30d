import Verif.Props.OtherDouble
import Verif.Props.UpwindCython

/-
Property C63 with IEEE numbers.
-/
set_option linter.unusedSectionVars false
set_option exponentiation.threshold 1100

namespace Fidi
open Spec Upwind Finset CTest

/-- C63 with IEEE numbers and the rules of Python 2 and numpy before 1.10: with the velocity, the domain and the time step of upwind.py the
check sum of upwind5.pyx is finite and within `(cells + m + 22 k)/2^52` of 1 after `k` steps, whatever the order in which `numpy` adds
and if it adds at most `m` zeros. -/
theorem C63_checksum_double_partial (py : NumpyRules) (hdiv : py.trueDivision = false) (hkind : py.sameKind = false)
    (sum : List F64 → F64) (m : Nat) (hm : m ≤ 65536) (hsum : SumsUp m sum) (n : Nat) (hn : 0 < n) (hn2 : n ≤ 1290) (k : Nat)
    (hk : k < 2 ^ 31) :
    ∃ (s0 s : CyUpwind F64) (x : Dbl), CyUpwind.new py [1, 1, 1] [1, 1, 1] [(n : Int), n, n] = .ok s0 ∧
      s0.advects py (List.replicate k (programStep (.inf false) (F64.fin ⟨rnd (1 / 10)⟩) (1 / (n : F64)))) = .ok s ∧
      s.checksum sum = .fin x ∧ |x.val - 1| ≤ ((n : ℚ) ^ 3 + m + 22 * k) / 2 ^ 52 := by
  obtain ⟨hpos, hcells, _, _⟩ := grid_of hn hn2
  obtain ⟨s0, s, h1, h2, h3, -, -⟩ := C63_field_partial py hdiv hkind [n, n, n] hpos (by
    have := Nat.mul_le_mul (Nat.mul_le_mul hn2 hn2) hn2
    simp only [List.prod_cons, List.prod_nil, mul_one]
    rw [← mul_assoc]
    omega) ([1, 1, 1] : List F64) [1, 1, 1] rfl rfl F64.cast_nat_int
    (List.replicate k (programStep (.inf false) (F64.fin ⟨rnd (1 / 10)⟩) (1 / (n : F64))))
  have hfold : ∀ (d : F64) (k : Nat) (u : List Nat → F64), (List.replicate k d).foldl (fun u dt => schemeStep [n, n, n]
      (upDir ([1, 1, 1] : List F64)) (changeTimeLast dt [1, 1, 1] [1, 1, 1] [n, n, n]) u) u =
      (schemeStep [n, n, n] (upDir ([1, 1, 1] : List F64)) (changeTimeLast d [1, 1, 1] [1, 1, 1] [n, n, n]))^[k] u := by
    intro d k
    induction k with
    | zero => intro u; rfl
    | succ k ih => intro u; rw [List.replicate_succ, List.foldl_cons, ih, Function.iterate_succ_apply]
  rw [hfold] at h3
  obtain ⟨x, e, hb⟩ := python_sum hn hn2 (steps := (k : Int)) (by omega) hm hsum h3
  exact ⟨s0, s, x, h1, h2, e, hb⟩

/-- 60 steps on 24 cells along each axis. -/
example : ∃ (s0 s : CyUpwind F64) (x : Dbl), CyUpwind.new ⟨false, false⟩ [1, 1, 1] [1, 1, 1] [((24 : Nat) : Int), (24 : Nat), (24 : Nat)] = .ok s0 ∧
    s0.advects ⟨false, false⟩ (List.replicate 60 (programStep (.inf false) (F64.fin ⟨rnd (1 / 10)⟩) (1 / ((24 : Nat) : F64)))) = .ok s ∧
    s.checksum (fun l => l.foldr (· + ·) 0) = .fin x ∧ |x.val - 1| ≤ (((24 : Nat) : ℚ) ^ 3 + (1 : Nat) + 22 * (60 : Nat)) / 2 ^ 52 :=
  C63_checksum_double_partial ⟨false, false⟩ rfl rfl _ 1 (by decide) sumsUp_fold.2 24 (by decide) (by decide) 60 (by decide)

end Fidi
