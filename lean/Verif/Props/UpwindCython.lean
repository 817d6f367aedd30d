import Verif.Lemmas.UpwindCython
import Verif.Props.UpwindOther

/-
Property C63: class `Upwind` of upwind5.pyx (Cython).

`hcast`: converting a number of cells to a floating-point number does not depend on the type of the integer.
-/
set_option linter.unusedSectionVars false

namespace Fidi
open Spec Upwind

section
variable {R : Type} [Zero R] [One R] [Add R] [Sub R] [Mul R] [Div R] [NatCast R] [IntCast R] [LT R] [DecidableLT R]

/-- C63 with the rules of Python 2 and numpy before 1.10: the constructor succeeds for any number of axes and cells with a total
below 2^31, and any sequence of calls of `advect`, with any time steps, succeeds and gives the field of as many steps of the
scheme, bit for bit. The index sets kept in the object are the same after the calls as before. -/
theorem C63_field_partial (py : NumpyRules) (hdiv : py.trueDivision = false) (hkind : py.sameKind = false)
    (N : List Nat) (hpos : ∀ n ∈ N, 0 < n) (hcells : N.prod < 2 ^ 31) (v L : List R) (hv : v.length = N.length)
    (hL : L.length = N.length) (hcast : ∀ n : Nat, ((n : Int) : R) = (n : R)) (dts : List R) :
    ∃ s0 s : CyUpwind R, CyUpwind.new py v L (N.map fun n : Nat => (n : Int)) = .ok s0 ∧ s0.advects py dts = .ok s ∧
      Stores N s.f (dts.foldl (fun u dt => schemeStep N (upDir v) (changeTimeLast dt v L N) u) cornerField) ∧
      s.inds = s0.inds ∧ s.indsUp = s0.inds := by
  have hg : Grid31 N := ⟨hpos, hcells⟩
  obtain ⟨o, fl, e⟩ := CyUpwind.advects_eq (v := v) (L := L) hkind hg dts cornerField (List.replicate N.prod 0) (by simp)
    (List.replicate N.prod 0)
  exact ⟨_, _, CyUpwind.new_eq hdiv hcast hg hv hL, e, Stores.listOf hpos _, rfl, rfl⟩

/-- C63 with the same rules: `k` steps give bit for bit the field of upwind.py. -/
theorem C63_same_as_python_partial (py : NumpyRules) (hdiv : py.trueDivision = false) (hkind : py.sameKind = false)
    (N : List Nat) (hpos : ∀ n ∈ N, 0 < n) (hcells : N.prod < 2 ^ 31) (haxis : ∀ n ∈ N, n < 2 ^ 30) (v L : List R)
    (hv : v.length = N.length) (hL : L.length = N.length) (hcast : ∀ n : Nat, ((n : Int) : R) = (n : R)) (dt : R) (k : Nat) :
    ∃ (s0 s : CyUpwind R) (p0 p : PyUpwind R), CyUpwind.new py v L (N.map fun n : Nat => (n : Int)) = .ok s0 ∧
      s0.advects py (List.replicate k dt) = .ok s ∧ PyUpwind.new v L (N.map fun n : Nat => (n : Int)) = .ok p0 ∧
      p0.steps k dt = .ok p ∧ s.f = p.f := by
  obtain ⟨s0, s, h1, h2, h3, _⟩ := C63_field_partial py hdiv hkind N hpos hcells v L hv hL hcast (List.replicate k dt)
  obtain ⟨p0, p, g1, g2, g3⟩ := C54_python_field N hpos hcells haxis v L hv hL hcast dt k
  refine ⟨s0, s, p0, p, h1, h2, g1, g2, ?_⟩
  have hfold : ∀ (k : Nat) (u : List Nat → R),
      (List.replicate k dt).foldl (fun u dt => schemeStep N (upDir v) (changeTimeLast dt v L N) u) u =
        (schemeStep N (upDir v) (changeTimeLast dt v L N))^[k] u := by
    intro k
    induction k with
    | zero => intro u; rfl
    | succ k ih => intro u; rw [List.replicate_succ, List.foldl_cons, ih, Function.iterate_succ_apply]
  rw [hfold] at h3
  rw [Int.toNat_natCast] at g3
  rw [(stores_iff hpos).1 h3, (stores_iff hpos).1 g3]

/-- C63: on a grid with at least one axis the constructor and a step succeed exactly with the rules of Python 2 and of numpy
before 1.10, and fewer than 2^31 cells. -/
theorem C63_runs_iff (py : NumpyRules) (N : List Nat) (hN : N ≠ []) (hpos : ∀ n ∈ N, 0 < n) (v L : List R)
    (hv : v.length = N.length) (hL : L.length = N.length) (hcast : ∀ n : Nat, ((n : Int) : R) = (n : R)) (dt : R) :
    (∃ s0 s : CyUpwind R, CyUpwind.new py v L (N.map fun n : Nat => (n : Int)) = .ok s0 ∧ s0.advect py dt = .ok s) ↔
      py.trueDivision = false ∧ py.sameKind = false ∧ N.prod < 2 ^ 31 := by
  constructor
  · rintro ⟨s0, s, h1, h2⟩
    by_cases hc : N.prod < 2 ^ 31
    · have hg : Grid31 N := ⟨hpos, hc⟩
      cases hd : py.trueDivision with
      | true => exact nomatch (CyUpwind.new_trueDivision hd hcast hN hg hv hL).symm.trans h1
      | false =>
        cases hk : py.sameKind with
        | false => exact ⟨rfl, rfl, hc⟩
        | true =>
          have e := (CyUpwind.new_eq hd hcast hg hv hL).symm.trans h1
          injection e with e
          subst e
          exact nomatch (CyUpwind.advect_sameKind (v := v) (L := L) hk hN hg dt _ _ (by simp) _).symm.trans h2
    · exact nomatch (CyUpwind.new_big (py := py) (v := v) (L := L) hcast (by omega) hv hL).symm.trans h1
  · rintro ⟨hd, hk, hc⟩
    have hg : Grid31 N := ⟨hpos, hc⟩
    obtain ⟨fl, e⟩ := CyUpwind.advect_eq (v := v) (L := L) hk hg dt cornerField (List.replicate N.prod 0) (by simp)
      (List.replicate N.prod 0)
    exact ⟨_, _, CyUpwind.new_eq hd hcast hg hv hL, e⟩

/-- C63: what happens otherwise. Too many cells are refused by the constructor, and so is every grid where `/` of integers is the
true division; with the conversions of numpy since 1.10 the constructor succeeds, but the first step raises an exception. -/
theorem C63_runs_fails (py : NumpyRules) (N : List Nat) (hN : N ≠ []) (hpos : ∀ n ∈ N, 0 < n) (v L : List R)
    (hv : v.length = N.length) (hL : L.length = N.length) (hcast : ∀ n : Nat, ((n : Int) : R) = (n : R)) (dt : R) :
    (2 ^ 31 ≤ N.prod → CyUpwind.new py v L (N.map fun n : Nat => (n : Int)) = .error .signedOverflow) ∧
    (N.prod < 2 ^ 31 → py.trueDivision = true →
      CyUpwind.new py v L (N.map fun n : Nat => (n : Int)) = .error .badArgument) ∧
    (N.prod < 2 ^ 31 → py.trueDivision = false → py.sameKind = true → ∃ s0 : CyUpwind R,
      CyUpwind.new py v L (N.map fun n : Nat => (n : Int)) = .ok s0 ∧ s0.advect py dt = .error .badArgument) := by
  refine ⟨fun h => CyUpwind.new_big hcast h hv hL, fun h hd => CyUpwind.new_trueDivision hd hcast hN ⟨hpos, h⟩ hv hL,
    fun h hd hk => ⟨_, CyUpwind.new_eq hd hcast ⟨hpos, h⟩ hv hL, ?_⟩⟩
  exact CyUpwind.advect_sameKind hk hN ⟨hpos, h⟩ dt _ _ (by simp) _

end

section
variable {K : Type} [Field K] [LinearOrder K] [IsStrictOrderedRing K]

/-- C63 in exact arithmetic, with the rules of Python 2 and numpy before 1.10: whatever the velocity, the lengths and the time
steps, the check sum stays 1. -/
theorem C63_checksum_partial (py : NumpyRules) (hdiv : py.trueDivision = false) (hkind : py.sameKind = false)
    (N : List Nat) (hpos : ∀ n ∈ N, 0 < n) (hcells : N.prod < 2 ^ 31) (v L : List K) (hv : v.length = N.length)
    (hL : L.length = N.length) (dts : List K) :
    ∃ s0 s : CyUpwind K, CyUpwind.new py v L (N.map fun n : Nat => (n : Int)) = .ok s0 ∧ s0.advects py dts = .ok s ∧
      s.checksum List.sum = 1 := by
  obtain ⟨s0, s, h1, h2, h3, _⟩ := C63_field_partial py hdiv hkind N hpos hcells v L hv hL (fun n => Int.cast_natCast n) dts
  refine ⟨s0, s, h1, h2, ?_⟩
  have hp : 0 < N.prod := List.prod_pos hpos
  have hfold : ∀ (dts : List K) (u : List Nat → K),
      total N (dts.foldl (fun u dt => schemeStep N (upDir v) (changeTimeLast dt v L N) u) u) = total N u := by
    intro dts
    induction dts with
    | nil => intro u; rfl
    | cons dt dts ih =>
      intro u
      rw [List.foldl_cons, ih, schemeStep_eq_upwindStep N (upDir v) (upCoeff dt v L N) _ (changeTimeLast_eq dt v L N),
        total_step hpos]
  unfold CyUpwind.checksum
  rw [(stores_iff hpos).1 h3, sum_listOf, hfold, ← sum_listOf, ← CyUpwind.corner_list hpos]
  obtain ⟨k, hk⟩ : ∃ k, N.prod = k + 1 := ⟨N.prod - 1, by omega⟩
  rw [hk, List.replicate_succ, List.set_cons_zero, List.sum_cons, List.sum_replicate, smul_zero, add_zero]

end

/-! ### The hypotheses are met -/

/-- Python 2 with numpy 1.9. -/
def oldNumpy : NumpyRules := ⟨false, false⟩

/-- Two steps of different length on a 4 x 3 grid. -/
example : (CyUpwind.new oldNumpy [1, -1] [1, 1] [4, 3] >>= fun s : CyUpwind ℚ => s.advects oldNumpy [1 / 10, 1 / 20]).map
    (fun s => (s.f.take 4, s.checksum List.sum)) = .ok ([39 / 200, 9 / 200, 6 / 25, 8 / 25], 1) := by decide +kernel

/-- The same with Python 2 and numpy 1.10, and with Python 3. -/
example : (CyUpwind.new ⟨false, true⟩ [1, -1] [1, 1] [4, 3] >>= fun s : CyUpwind ℚ => s.advect ⟨false, true⟩ (1 / 10)).map
    (fun s => s.f) = .error .badArgument := by decide +kernel

example : (CyUpwind.new ⟨true, true⟩ [1, -1] [1, 1] [4, 3] : M (CyUpwind ℚ)).map (fun s => s.f) = .error .badArgument := by
  decide +kernel

/-- The hypotheses of `C63_field_partial` for rounded numbers. -/
example : ∃ s0 s : CyUpwind Dbl, CyUpwind.new oldNumpy [1, 1] [1, 1] [4, 3] = .ok s0 ∧
    s0.advects oldNumpy [dt7, dt7] = .ok s ∧ s.indsUp = s0.inds := by
  obtain ⟨s0, s, h1, h2, _, _, h3⟩ := C63_field_partial (R := Dbl) oldNumpy rfl rfl [4, 3] (by simp) (by simp) [1, 1] [1, 1] rfl rfl
    (fun _ => rfl) [dt7, dt7]
  exact ⟨s0, s, h1, h2, h3⟩

/-- A grid with too many cells. -/
example : 2 ^ 31 ≤ ([65536, 32768] : List Nat).prod := by decide

end Fidi
