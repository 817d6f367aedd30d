import Verif.Lemmas.UpwindJulia
import Verif.Model.Dbl
import Verif.Props.UpwindFortran

/-
Property C54, Python and Julia versions (upwind.py, upwind.jl, upwind3.jl), and the differences from rounding.

`hcast`: converting a number of cells gives the same floating-point number in both languages.
-/
set_option linter.unusedSectionVars false

namespace Fidi
open Spec Upwind

section
variable {R : Type} [Zero R] [One R] [Add R] [Sub R] [Mul R] [Div R] [NatCast R] [IntCast R] [LT R] [DecidableLT R]

/-- C54: the constructor of upwind.py and `k` calls of `advect` succeed and give the field of `k` steps of the scheme from the
field that is 1 in the low corner, bit for bit. -/
theorem C54_python_field (N : List Nat) (hpos : ∀ n ∈ N, 0 < n)
    (hcells : N.prod < 2 ^ 31) (haxis : ∀ n ∈ N, n < 2 ^ 30) (v L : List R) (hv : v.length = N.length)
    (hL : L.length = N.length) (hcast : ∀ n : Nat, ((n : Int) : R) = (n : R)) (dt : R) (k : Int) :
    ∃ s0 s : PyUpwind R, PyUpwind.new v L (N.map fun n : Nat => (n : Int)) = .ok s0 ∧ s0.steps k dt = .ok s ∧
      Stores N s.f ((schemeStep N (upDir v) (changeTimeLast dt v L N))^[k.toNat] cornerField) := by
  have hg : GoodGrid N := ⟨hpos, hcells, haxis⟩
  exact ⟨_, _, PyUpwind.new_eq hcast hg hv hL, PyUpwind.steps_eq hg k dt cornerField, Stores.listOf hpos _⟩

/-- C54: a step of upwind.py from any field. -/
theorem C54_python_step (N : List Nat) (hpos : ∀ n ∈ N, 0 < n)
    (hcells : N.prod < 2 ^ 31) (haxis : ∀ n ∈ N, n < 2 ^ 30) (v L : List R) (hv : v.length = N.length)
    (hL : L.length = N.length) (hcast : ∀ n : Nat, ((n : Int) : R) = (n : R)) (dt : R)
    (s0 : PyUpwind R) (hnew : PyUpwind.new v L (N.map fun n : Nat => (n : Int)) = .ok s0)
    (f0 : List R) (u : List Nat → R) (hf : Stores N f0 u) :
    ∃ s : PyUpwind R, { s0 with f := f0 }.advect dt = .ok s ∧
      Stores N s.f (schemeStep N (upDir v) (changeTimeLast dt v L N) u) := by
  have hg : GoodGrid N := ⟨hpos, hcells, haxis⟩
  have e := PyUpwind.new_eq hcast hg hv hL
  rw [e] at hnew
  injection hnew with hnew
  subst hnew
  have ef := (stores_iff hpos).1 hf
  subst ef
  exact ⟨_, PyUpwind.advect_eq hg dt u, Stores.listOf hpos _⟩

/-- C54: the constructor of upwind.jl and `k` calls of `advect!` succeed and give, with the first axis varying fastest, the
field of `k` steps of the scheme with the coefficients of upwind.cxx, bit for bit. -/
theorem C54_julia_field (N : List Nat) (hpos : ∀ n ∈ N, 0 < n) (hcells : N.prod + 1 < 2 ^ 63) (v L : List R)
    (hv : v.length = N.length) (hL : L.length = N.length) (hcast : ∀ n : Nat, ((n : Int) : R) = (n : R)) (dt : R) (k : Int) :
    ∃ s0 s : JlUpwind R, JlUpwind.new N.length v L (N.map fun n : Nat => (n : Int)) = .ok s0 ∧ s0.steps k dt = .ok s ∧
      StoresCol N s.f ((upwindStep N (upDir v) (upCoeff dt v L N))^[k.toNat] cornerField) := by
  have hg : JlUpwind.Grid64 N := ⟨hpos, by omega⟩
  exact ⟨_, _, JlUpwind.new_eq hcast hg hv hL, JlUpwind.steps_eq hg hv k dt cornerField, JlUpwind.listC_stores _⟩

/-- C54: the same for upwind3.jl, provided its floating-point index arithmetic is exact. -/
theorem C54_julia3_field (N : List Nat) (hpos : ∀ n ∈ N, 0 < n) (hcells : N.prod + 1 < 2 ^ 63)
    (haxis : ∀ n ∈ N, n ≤ 2 ^ 53) (v L : List R)
    (hv : v.length = N.length) (hL : L.length = N.length) (hcast : ∀ n : Nat, ((n : Int) : R) = (n : R)) (dt : R) (k : Int) :
    ∃ s : JlUpwind R, JlUpwind.run3 N.length v L (N.map fun n : Nat => (n : Int)) k dt = .ok s ∧
      StoresCol N s.f ((upwindStep N (upDir v) (upCoeff dt v L N))^[k.toNat] cornerField) := by
  have hg : JlUpwind.Grid64 N := ⟨hpos, by omega⟩
  exact ⟨_, JlUpwind.run3_eq hcast hg (fun n hn => by have := haxis n hn; omega) hv hL k dt, JlUpwind.listC_stores _⟩

/-- C54: upwind.jl, upwind3.jl and upwind.cxx give the same number in every cell, bit for bit. -/
theorem C54_julia_same_as_cpp (N : List Nat) (hN : N ≠ []) (hdim : N.length < 2 ^ 64) (hpos : ∀ n ∈ N, 0 < n)
    (hcells : N.prod < 2 ^ 31) (haxis : ∀ n ∈ N, n < 2 ^ 30) (v L : List R)
    (hv : v.length = N.length) (hL : L.length = N.length) (hcast : ∀ n : Nat, ((n : Int) : R) = (n : R)) (dt : R) (k : Int) :
    ∃ (s0 s s3 : JlUpwind R) (c c' : Upwind R),
      JlUpwind.new N.length v L (N.map fun n : Nat => (n : Int)) = .ok s0 ∧ s0.steps k dt = .ok s ∧
      JlUpwind.run3 N.length v L (N.map fun n : Nat => (n : Int)) k dt = .ok s3 ∧
      Upwind.new N.length v L N = .ok c ∧ c.advect k dt = .ok c' ∧
      s.f.length = N.prod ∧ s3.f = s.f ∧ c'.f.length = N.prod ∧
      ∀ g, InGrid N g → s.f[rankOf N.reverse g.reverse]? = c'.f[rankOf N g]? := by
  have hg : GoodGrid N := ⟨hpos, hcells, haxis⟩
  have hg2 : JlUpwind.Grid64 N := ⟨hpos, by omega⟩
  have hc := new_built (v := v) (L := L) hN hdim hg hv hL
  obtain ⟨o, _, ha⟩ := advect_spec hN hdim hg hv hL hc (built_stores (v := v) (L := L) hg) k dt
  have h1 := JlUpwind.listC_stores (N := N) ((upwindStep N (upDir v) (upCoeff dt v L N))^[k.toNat] cornerField)
  have h2 := Stores.listOf hpos ((upwindStep N (upDir v) (upCoeff dt v L N))^[k.toNat] cornerField)
  refine ⟨_, _, _, _, _, JlUpwind.new_eq hcast hg2 hv hL, JlUpwind.steps_eq hg2 hv k dt cornerField,
    JlUpwind.run3_eq hcast hg2 (fun n hn => by have := haxis n hn; omega) hv hL k dt, hc, ha, h1.1, rfl, h2.1,
    fun g h => ?_⟩
  exact (h1.2 g h).trans (h2.2 g h).symm

end

section
variable {K : Type} [Field K] [LinearOrder K]

theorem changeTimeLast_eq (dt : K) (v L : List K) (N : List Nat) (j : Nat) (a b : K) :
    changeTimeLast dt v L N j a b = upCoeff dt v L N j * (a - b) := by
  unfold changeTimeLast upCoeff
  ring

/-- C54: in exact arithmetic the field of upwind.py after `k` steps is that of upwind.cxx, element by element. -/
theorem C54_python_same_as_cpp_partial (N : List Nat) (hN : N ≠ []) (hdim : N.length < 2 ^ 64) (hpos : ∀ n ∈ N, 0 < n)
    (hcells : N.prod < 2 ^ 31) (haxis : ∀ n ∈ N, n < 2 ^ 30) (v L : List K) (hv : v.length = N.length)
    (hL : L.length = N.length) (dt : K) (k : Int) :
    ∃ (s0 s : PyUpwind K) (c c' : Upwind K), PyUpwind.new v L (N.map fun n : Nat => (n : Int)) = .ok s0 ∧
      s0.steps k dt = .ok s ∧ Upwind.new N.length v L N = .ok c ∧ c.advect k dt = .ok c' ∧ c'.f = s.f := by
  have hg : GoodGrid N := ⟨hpos, hcells, haxis⟩
  have hc := new_built (v := v) (L := L) hN (by omega) hg hv hL
  obtain ⟨o, _, ha⟩ := advect_spec hN (by omega) hg hv hL hc (built_stores (v := v) (L := L) hg) k dt
  refine ⟨_, _, _, _, PyUpwind.new_eq (fun n => Int.cast_natCast n) hg hv hL, PyUpwind.steps_eq hg k dt cornerField, hc, ha, ?_⟩
  rw [schemeStep_eq_upwindStep N (upDir v) (upCoeff dt v L N) _ (changeTimeLast_eq dt v L N)]
  rfl

/-- C54: upwind.py, upwind.jl and upwind3.jl take the time step of upwind.cxx, provided it is less than the largest `double`
that upwind.cxx starts from, where the others start from infinity. -/
theorem C54_python_julia_time_step [HasMax K] (courant inf : K) (N : List Nat) (hN : N ≠ []) (v L : List K)
    (hv : v.length = N.length) (hL : L.length = N.length)
    (hfirst : courant * (L.getD 0 0 / (N.getD 0 0 : K)) / v.getD 0 0 < HasMax.dblMax) (hinf : HasMax.dblMax ≤ inf) :
    ∃ dt, PyUpwind.mainDt courant inf v L (N.map fun n : Nat => (n : Int)) = .ok dt ∧
      JlUpwind.mainDt courant inf v L (N.map fun n : Nat => (n : Int)) = .ok dt ∧
      Upwind.mainDt courant v L N = .ok dt := by
  have hpos : 0 < v.length := by rw [hv]; exact List.length_pos_iff.2 hN
  let val := fun j : Nat => courant * (L.getD j 0 / (N.getD j 0 : K)) / v.getD j 0
  let step := fun (dt : K) (j : Nat) => if val j < dt then val j else dt
  let step' := fun (dt : K) (j : Nat) => if dt < val j then dt else val j
  have hstep : step = step' := by
    funext dt j
    simp only [step, step']
    split
    · next h1 => rw [if_neg (not_lt.2 h1.le)]
    · next h1 =>
      split
      · rfl
      · next h2 => exact le_antisymm (not_lt.1 h1) (not_lt.1 h2)
  have hfold : (List.range v.length).foldl step HasMax.dblMax = (List.range v.length).foldl step inf := by
    obtain ⟨n, hn⟩ : ∃ n, v.length = n + 1 := ⟨v.length - 1, by omega⟩
    rw [hn, List.range_succ_eq_map, List.foldl_cons, List.foldl_cons]
    have h1 : step HasMax.dblMax 0 = val 0 := if_pos hfirst
    have h2 : step inf 0 = val 0 := if_pos (lt_of_lt_of_le hfirst hinf)
    rw [h1, h2]
  refine ⟨(List.range v.length).foldl step inf, ?_, ?_, ?_⟩
  · unfold PyUpwind.mainDt
    obtain ⟨s, e, hs⟩ := forUp_inv (Nat.zero_le v.length) (fun i s => s = (List.range i).foldl step inf)
      (fun j dt => do
        let dx := (← rd L j) / ((← rd (N.map fun n : Nat => (n : Int)) j : Int) : K)
        let val := courant * dx / (← rd v j)
        pure (if dt < val then dt else val)) inf rfl
      (by
        intro i s _ hi hs
        refine ⟨_, ?_, by rw [List.range_succ, List.foldl_append, ← hs]⟩
        rw [rd_of_lt (v := L) (by omega), rd_of_lt (v := N.map _) (by simp; omega), rd_of_lt (v := v) hi, hstep]
        simp only [M.ok_bind, M.pure_eq, List.foldl_cons, List.foldl_nil, step', val, List.getElem_map, Int.cast_natCast]
        rw [getD_of_lt (l := L) (by omega), getD_of_lt hi, natGetD_of_lt (by omega : i < N.length)])
    rw [e, hs]
  · unfold JlUpwind.mainDt
    obtain ⟨s, e, hs⟩ := forUp_inv (Nat.zero_le v.length) (fun i s => s = (List.range i).foldl step inf)
      (fun j dt => do
        let dx := (← Fortran.rd1 L (j + 1)) / ((← Fortran.rd1 (N.map fun n : Nat => (n : Int)) (j + 1) : Int) : K)
        let val := courant * dx / (← Fortran.rd1 v (j + 1))
        pure (if dt < val then dt else val)) inf rfl
      (by
        intro i s _ hi hs
        refine ⟨_, ?_, by rw [List.range_succ, List.foldl_append, ← hs]⟩
        rw [Fortran.rd1_of_lt (v := L) (by omega), Fortran.rd1_of_lt (v := N.map _) (by simp; omega),
          Fortran.rd1_of_lt (v := v) hi, hstep]
        simp only [M.ok_bind, M.pure_eq, List.foldl_cons, List.foldl_nil, step', val, List.getElem_map, Int.cast_natCast]
        rw [getD_of_lt (l := L) (by omega), getD_of_lt hi, natGetD_of_lt (by omega : i < N.length)])
    rw [e, hs]
  · unfold Upwind.mainDt
    obtain ⟨s, e, hs⟩ := forUp_inv (Nat.zero_le v.length) (fun i s => s = (List.range i).foldl step HasMax.dblMax)
      (fun j dt => do
        let dx := (← rd L j) / ((← rd N j : Nat) : K)
        let val := courant * dx / (← rd v j)
        pure (if val < dt then val else dt)) HasMax.dblMax rfl
      (by
        intro i s _ hi hs
        refine ⟨_, ?_, by rw [List.range_succ, List.foldl_append, ← hs]⟩
        rw [rd_of_lt (v := L) (by omega), rd_of_lt (v := N) (by omega), rd_of_lt (v := v) hi]
        simp only [M.ok_bind, M.pure_eq, List.foldl_cons, List.foldl_nil, step, val]
        rw [getD_of_lt (l := L) (by omega), getD_of_lt hi, natGetD_of_lt (by omega : i < N.length)])
    rw [e, hs, hfold]

end

/-! ### What is false -/

/-- Seven cells of width 1/7, velocity 1, Courant number 0.1: the time step of the drivers. -/
def dt7 : Dbl := ⟨rnd (1 / 10)⟩ * (1 / ((7 : Nat) : Dbl)) / 1

/-- C54 is false bit for bit for the Fortran versions: with the rounding of `double` the field differs from that of
upwind.cxx after two steps on a grid of 7 cells, whatever the threads do. -/
theorem C54_fortran_bits_fails : ∃ (s0 : FUpwind Dbl) (c c' : Upwind Dbl),
    FUpwind.new [1] [1] [7] = .ok s0 ∧ Upwind.new 1 [1] [1] [7] = .ok c ∧ c.advect 2 dt7 = .ok c' ∧
    (∃ x, FUpwind.Advances dt7 2 s0 x) ∧ ∀ x, FUpwind.Advances dt7 2 s0 x → x.f ≠ c'.f := by
  have hg : GoodGrid [7] := ⟨by simp, by simp, by simp⟩
  obtain ⟨s0, h1, hex, h3⟩ := C54_fortran_field (R := Dbl) [7] (by simp) (by simp) (by simp) (by simp) (by simp)
    [1] [1] rfl rfl (fun n => rfl) dt7 2
  have hc := new_built (R := Dbl) (N := [7]) (v := [1]) (L := [1]) (by simp) (by simp) hg rfl rfl
  obtain ⟨o, _, ha⟩ := advect_spec (N := [7]) (by simp) (by simp) hg (by rfl) (by rfl) hc
    (built_stores (v := [1]) (L := [1]) hg) 2 dt7
  refine ⟨s0, _, _, h1, hc, ha, hex, fun x h2 h => ?_⟩
  have a := (h3 x h2).2 [1] (by simp [InGrid])
  have b := (Stores.listOf hg.pos ((upwindStep [7] (upDir [1]) (upCoeff dt7 [1] [1] [7]))^[2] cornerField)).2 [1]
    (by simp [InGrid])
  rw [h] at a
  have := Option.some.inj (a.symm.trans b)
  revert this
  decide +kernel

/-- C54 is false bit for bit for upwind.py, on the same grid. -/
theorem C54_python_bits_fails : ∃ (s0 x : PyUpwind Dbl) (c c' : Upwind Dbl),
    PyUpwind.new [1] [1] [7] = .ok s0 ∧ s0.steps 2 dt7 = .ok x ∧
    Upwind.new 1 [1] [1] [7] = .ok c ∧ c.advect 2 dt7 = .ok c' ∧ x.f ≠ c'.f := by
  have hg : GoodGrid [7] := ⟨by simp, by simp, by simp⟩
  obtain ⟨s0, x, h1, h2, h3⟩ := C54_python_field (R := Dbl) [7] (by simp) (by simp) (by simp)
    [1] [1] rfl rfl (fun n => rfl) dt7 2
  have hc := new_built (R := Dbl) (N := [7]) (v := [1]) (L := [1]) (by simp) (by simp) hg rfl rfl
  obtain ⟨o, _, ha⟩ := advect_spec (N := [7]) (by simp) (by simp) hg (by rfl) (by rfl) hc
    (built_stores (v := [1]) (L := [1]) hg) 2 dt7
  refine ⟨s0, x, _, _, h1, h2, hc, ha, fun h => ?_⟩
  have a := h3.2 [1] (by simp [InGrid])
  have b := (Stores.listOf hg.pos ((upwindStep [7] (upDir [1]) (upCoeff dt7 [1] [1] [7]))^[2] cornerField)).2 [1]
    (by simp [InGrid])
  rw [h] at a
  have := Option.some.inj (a.symm.trans b)
  revert this
  decide +kernel

/-- `advect!` of upwind.jl is right only for the object in the global variable `up`: with another object there, here one of a
3 x 2 grid, a step on a 2 x 3 grid ends with an index out of bounds. -/
theorem C54_julia_global_fails :
    (do
      let up ← JlUpwind.new 2 [1, 1] [1, 1] [3, 2]
      let this ← JlUpwind.new 2 [1, 1] [1, 1] [2, 3]
      let s ← JlUpwind.advect up this (1 / 10)
      pure s.f : M (List ℚ)) = .error .outOfBounds ∧
    (do
      let this ← JlUpwind.new 2 [1, 1] [1, 1] [2, 3]
      let s ← JlUpwind.advect this this (1 / 10)
      pure s.f : M (List ℚ)) = .ok [1 / 2, 1 / 5, 3 / 10, 0, 0, 0] := by
  constructor <;> decide +kernel

/-! ### The hypotheses are met -/

/-- upwind.py on a 4 x 3 grid. -/
example : (PyUpwind.new [1, -1] [1, 1] [4, 3] >>= fun s : PyUpwind ℚ => s.steps 2 (1 / 10)).map (fun s => s.f.take 4) =
    .ok [9 / 100, 9 / 100, 18 / 100, 24 / 100] := by decide +kernel

/-- The same grid in upwind.jl and upwind3.jl: the axes are exchanged. -/
example : ((JlUpwind.new 2 [1, -1] [1, 1] [4, 3] >>= fun s : JlUpwind ℚ => s.steps 2 (1 / 10)).map fun s => s.f) =
    .ok [9 / 100, 24 / 100, 16 / 100, 0, 9 / 100, 0, 0, 0, 18 / 100, 24 / 100, 0, 0] := by decide +kernel

example : ((JlUpwind.run3 2 [1, -1] [1, 1] [4, 3] 2 (1 / 10)).map fun s : JlUpwind ℚ => s.f) =
    .ok [9 / 100, 24 / 100, 16 / 100, 0, 9 / 100, 0, 0, 0, 18 / 100, 24 / 100, 0, 0] := by decide +kernel

/-- Rounded numbers meet the hypothesis on the conversions. -/
example : ∀ n : Nat, ((n : Int) : Dbl) = (n : Dbl) := fun _ => rfl

/-- The hypotheses of `C54_julia_same_as_cpp` for rounded numbers on a 4 x 3 grid. -/
example : ∃ (s : JlUpwind Dbl) (c' : Upwind Dbl), ∀ g, InGrid [4, 3] g → s.f[rankOf [3, 4] g.reverse]? = c'.f[rankOf [4, 3] g]? := by
  obtain ⟨_, s, _, _, c', _, _, _, _, _, _, _, _, h⟩ := C54_julia_same_as_cpp (R := Dbl) [4, 3] (by simp) (by simp) (by simp)
    (by simp) (by simp) [1, 1] [1, 1] rfl rfl (fun _ => rfl) dt7 3
  exact ⟨s, c', h⟩

/-- The hypotheses of the time step theorem: the drivers' numbers. -/
example : (1 / 10 : ℚ) * (([1, 1, 1] : List ℚ).getD 0 0 / (([4, 4, 4] : List Nat).getD 0 0 : ℚ)) /
    ([1, 1, 1] : List ℚ).getD 0 0 < HasMax.dblMax := by decide +kernel

end Fidi
