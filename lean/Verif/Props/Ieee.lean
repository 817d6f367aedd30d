import Verif.Lemmas.Ieee
import Verif.Props.Rounding

/-
Property C69: below the Courant limit the upwind solvers never overflow. `F64` is IEEE `double` with infinities and NaNs,
`Dbl` the same rounding without a largest number, for which C58 bounds the errors; `F64.fin` is the inclusion. The theorems
say that a run in `F64` gives, number by number, the finite numbers of the run in `Dbl`.
-/
set_option linter.unusedSectionVars false
set_option exponentiation.threshold 1100

namespace Fidi
open Spec Upwind Finset

theorem F64.cast_nat_int (n : Nat) : ((n : Int) : F64) = (n : F64) := by
  show F64.ofRat ((n : Int) : ℚ) = F64.ofRat (n : ℚ)
  rw [Int.cast_natCast]

theorem Dbl.cast_nat_int (n : Nat) : ((n : Int) : Dbl) = (n : Dbl) := by
  show (⟨rnd ((n : Int) : ℚ)⟩ : Dbl) = ⟨rnd (n : ℚ)⟩
  rw [Int.cast_natCast]

theorem corner_fin (g : List Nat) : (cornerField g : F64) = .fin (cornerField g) := by
  unfold cornerField
  split <;> rfl

/-- C69: upwind.cxx, any finite field bounded by `B` whose bound `grown` (C58) is far from the largest number. -/
theorem C69_upwind (N : List Nat) (hN : N ≠ []) (hdim : N.length < 2 ^ 64)
    (hpos : ∀ n ∈ N, 0 < n) (hcells : N.prod < 2 ^ 31) (haxis : ∀ n ∈ N, n < 2 ^ 30) (v L : List Dbl)
    (hv : v.length = N.length) (hL : L.length = N.length) (hLpos : ∀ x ∈ L, 0 < x.val) (hLmax : ∀ x ∈ L, x.val ≤ 2 ^ 400)
    (dt : Dbl) (hdt : 0 ≤ dt.val)
    (hc : courant dt.val (v.map Dbl.val) (L.map Dbl.val) N ≤ 1)
    (hn : NormalCoeffs (1 / 2 ^ 1022) dt.val (v.map Dbl.val) (L.map Dbl.val) N)
    (s0 : Upwind Dbl) (hs : Upwind.new N.length v L N = .ok s0)
    (t0 : Upwind F64) (ht : Upwind.new N.length (v.map .fin) (L.map .fin) N = .ok t0)
    (f0 : List Dbl) (hf : f0.length = N.prod) (B : ℚ) (hB : 0 ≤ B) (hb : ∀ x ∈ f0, |x.val| ≤ B) (k : Int)
    (hk : grown N.length (1 / 2 ^ 53 : ℚ) (4 / 2 ^ 1075) k.toNat B ≤ 2 ^ 500) :
    ∃ s' t', { s0 with f := f0 }.advect k dt = .ok s' ∧ { t0 with f := f0.map .fin }.advect k (.fin dt) = .ok t' ∧
      t'.f = s'.f.map .fin ∧ t'.checksum = .fin s'.checksum := by
  have hg : GoodGrid N := ⟨hpos, hcells, haxis⟩
  have hfit : FitCoeffs dt v L N := ⟨hdt, hLpos, hL, hc, hn, fun n h => ⟨hpos n h, haxis n h⟩, hLmax⟩
  have u0 := exists_field hf
  obtain ⟨_, _, e1⟩ := advect_spec hN hdim hg hv hL hs u0 k dt
  have u1 : Stores N (f0.map F64.fin) fun g => F64.fin (f0.getD (rankOf N g) 0) := by
    refine ⟨by simpa using u0.1, fun g hgr => ?_⟩
    rw [List.getElem?_map, u0.2 g hgr]
    rfl
  obtain ⟨_, _, e2⟩ := advect_spec hN hdim hg (by simpa using hv) (by simpa using hL) ht u1 k (.fin dt)
  refine ⟨_, _, e1, e2, ?_⟩
  rw [upwindStep_is_scheme, upwindStep_is_scheme, upDir_fin]
  have h1 := change_cpp Dbl.rounded hn (coeff_le_one hdt hLpos hc)
  have hz : (0 : ℚ) ≤ 3 * (1 / 2 ^ 1075) := by positivity
  have ez : (3 * (1 / 2 ^ 1075) + 1 / 2 ^ 1075 : ℚ) = 4 / 2 ^ 1075 := by ring
  have hbu : ∀ g, InGrid N g → |(f0.getD (rankOf N g) 0).val| ≤ B := fun g hgr =>
    hb _ (List.mem_iff_getElem?.2 ⟨_, u0.2 g hgr⟩)
  have h2 := iter_fin hdt hLpos hc hz h1 hfit.change_cpp (u := fun g => f0.getD (rankOf N g) 0) (fun g _ => rfl) hB hbu k.toNat
    (by rw [ez]; exact hk)
  have h3 := listOf_fin hpos h2
  refine ⟨h3, ?_⟩
  show (listOf N _).foldl (· + ·) 0 = F64.fin ((listOf N _).foldl (· + ·) 0)
  rw [h3]
  refine sum_fin _ (by rw [length_listOf]; omega) fun x hx => ?_
  unfold listOf at hx
  obtain ⟨i, _, rfl⟩ := List.mem_map.1 hx
  have h4 := (scheme_error Dbl.rounded (maxNorm N) hdt hLpos hc hz h1 _ hB hbu k.toNat).1 (cellAt N i) (cellAt_inGrid hpos i)
  rw [mul_one, ez] at h4
  exact (h4.trans hk).trans (by norm_num)

/-- C69: the Fortran versions, whatever the schedule. -/
theorem C69_fortran (N : List Nat) (hN : N ≠ []) (hdim : N.length + 1 < 2 ^ 31)
    (hpos : ∀ n ∈ N, 0 < n) (hcells : N.prod < 2 ^ 31) (haxis : ∀ n ∈ N, n < 2 ^ 30) (v L : List Dbl)
    (hv : v.length = N.length) (hL : L.length = N.length) (hLpos : ∀ x ∈ L, 0 < x.val) (hLmax : ∀ x ∈ L, x.val ≤ 2 ^ 400)
    (dt : Dbl) (hdt : 0 ≤ dt.val)
    (hc : courant dt.val (v.map Dbl.val) (L.map Dbl.val) N ≤ 1)
    (hn : NormalCoeffs (1 / 2 ^ 1022) dt.val (v.map Dbl.val) (L.map Dbl.val) N)
    (z : ℚ) (hz0 : 0 ≤ z) (hz1 : z ≤ 1)
    (hz : ∀ j, j < N.length → (3 + 2 / |cellWidth (L.map Dbl.val) N j|) * (1 / 2 ^ 1075) ≤ z) (k : Nat)
    (hk : grown N.length (1 / 2 ^ 53 : ℚ) (z + 1 / 2 ^ 1075) k 1 ≤ 2 ^ 500) :
    ∃ (s0 : FUpwind Dbl) (t0 : FUpwind F64), FUpwind.new v L (N.map fun n : Nat => (n : Int)) = .ok s0 ∧
      FUpwind.new (v.map .fin) (L.map .fin) (N.map fun n : Nat => (n : Int)) = .ok t0 ∧
      (∃ x, FUpwind.Advances dt k s0 x) ∧ (∃ y, FUpwind.Advances (.fin dt) k t0 y) ∧
      ∀ x y, FUpwind.Advances dt k s0 x → FUpwind.Advances (.fin dt) k t0 y → y.f = x.f.map .fin := by
  have hfit : FitCoeffs dt v L N := ⟨hdt, hLpos, hL, hc, hn, fun n h => ⟨hpos n h, haxis n h⟩, hLmax⟩
  obtain ⟨s0, e1, x1, h1⟩ := C54_fortran_field N hN hdim hpos hcells haxis v L hv hL Dbl.cast_nat_int dt k
  obtain ⟨t0, e2, x2, h2⟩ := C54_fortran_field N hN hdim hpos hcells haxis (v.map F64.fin) (L.map F64.fin) (by simpa using hv)
    (by simpa using hL) F64.cast_nat_int (.fin dt) k
  refine ⟨s0, t0, e1, e2, x1, x2, fun x y hx hy => ?_⟩
  rw [(stores_iff hpos).1 (h1 x hx), (stores_iff hpos).1 (h2 y hy), upDir_fin]
  exact listOf_fin hpos (iter_fin hdt hLpos hc hz0 (change_fortran Dbl.rounded hn (coeff_le_one hdt hLpos hc) hz)
    (hfit.change_fortran hz hz1) (fun g _ => corner_fin g) zero_le_one (fun g _ => abs_corner Dbl.rounded g) k hk)

/-- C69: upwind.py, which divides the velocity by the cell width first. -/
theorem C69_python (N : List Nat) (hpos : ∀ n ∈ N, 0 < n) (hcells : N.prod < 2 ^ 31) (haxis : ∀ n ∈ N, n < 2 ^ 30)
    (v L : List Dbl)
    (hv : v.length = N.length) (hL : L.length = N.length) (hLpos : ∀ x ∈ L, 0 < x.val) (hLmax : ∀ x ∈ L, x.val ≤ 2 ^ 400)
    (dt : Dbl) (hdt : 0 ≤ dt.val)
    (hc : courant dt.val (v.map Dbl.val) (L.map Dbl.val) N ≤ 1)
    (hn : NormalCoeffs (1 / 2 ^ 1022) dt.val (v.map Dbl.val) (L.map Dbl.val) N)
    (hr : ∀ j, j < N.length → |(v.map Dbl.val).getD j 0 / cellWidth (L.map Dbl.val) N j| ≤ 2 ^ 500) (k : Int)
    (hk : grown N.length (1 / 2 ^ 53 : ℚ) (4 / 2 ^ 1075) k.toNat 1 ≤ 2 ^ 500) :
    ∃ (s0 s : PyUpwind Dbl) (t0 t : PyUpwind F64), PyUpwind.new v L (N.map fun n : Nat => (n : Int)) = .ok s0 ∧
      s0.steps k dt = .ok s ∧
      PyUpwind.new (v.map .fin) (L.map .fin) (N.map fun n : Nat => (n : Int)) = .ok t0 ∧ t0.steps k (.fin dt) = .ok t ∧
      t.f = s.f.map .fin := by
  have hfit : FitCoeffs dt v L N := ⟨hdt, hLpos, hL, hc, hn, fun n h => ⟨hpos n h, haxis n h⟩, hLmax⟩
  obtain ⟨s0, s, e1, x1, h1⟩ := C54_python_field N hpos hcells haxis v L hv hL Dbl.cast_nat_int dt k
  obtain ⟨t0, t, e2, x2, h2⟩ := C54_python_field N hpos hcells haxis (v.map F64.fin) (L.map F64.fin) (by simpa using hv)
    (by simpa using hL) F64.cast_nat_int (.fin dt) k
  refine ⟨s0, s, t0, t, e1, x1, e2, x2, ?_⟩
  rw [(stores_iff hpos).1 h1, (stores_iff hpos).1 h2, upDir_fin]
  exact listOf_fin hpos (iter_fin hdt hLpos hc (by positivity) (change_python Dbl.rounded hn (coeff_le_one hdt hLpos hc))
    (hfit.change_python hr) (fun g _ => corner_fin g) zero_le_one (fun g _ => abs_corner Dbl.rounded g) k.toNat
    (by rw [show (3 * (1 / 2 ^ 1075) + 1 / 2 ^ 1075 : ℚ) = 4 / 2 ^ 1075 by ring]; exact hk))

/-- C69: upwind.jl. -/
theorem C69_julia (N : List Nat) (hpos : ∀ n ∈ N, 0 < n) (hcells : N.prod + 1 < 2 ^ 63) (haxis : ∀ n ∈ N, n < 2 ^ 30)
    (v L : List Dbl)
    (hv : v.length = N.length) (hL : L.length = N.length) (hLpos : ∀ x ∈ L, 0 < x.val) (hLmax : ∀ x ∈ L, x.val ≤ 2 ^ 400)
    (dt : Dbl) (hdt : 0 ≤ dt.val)
    (hc : courant dt.val (v.map Dbl.val) (L.map Dbl.val) N ≤ 1)
    (hn : NormalCoeffs (1 / 2 ^ 1022) dt.val (v.map Dbl.val) (L.map Dbl.val) N) (k : Int)
    (hk : grown N.length (1 / 2 ^ 53 : ℚ) (4 / 2 ^ 1075) k.toNat 1 ≤ 2 ^ 500) :
    ∃ (s0 s : JlUpwind Dbl) (t0 t : JlUpwind F64), JlUpwind.new N.length v L (N.map fun n : Nat => (n : Int)) = .ok s0 ∧
      s0.steps k dt = .ok s ∧
      JlUpwind.new N.length (v.map .fin) (L.map .fin) (N.map fun n : Nat => (n : Int)) = .ok t0 ∧
      t0.steps k (.fin dt) = .ok t ∧ t.f.length = N.prod ∧ t.f = s.f.map .fin := by
  have hfit : FitCoeffs dt v L N := ⟨hdt, hLpos, hL, hc, hn, fun n h => ⟨hpos n h, haxis n h⟩, hLmax⟩
  obtain ⟨s0, s, e1, x1, h1⟩ := C54_julia_field N hpos hcells v L hv hL Dbl.cast_nat_int dt k
  obtain ⟨t0, t, e2, x2, h2⟩ := C54_julia_field N hpos hcells (v.map F64.fin) (L.map F64.fin) (by simpa using hv)
    (by simpa using hL) F64.cast_nat_int (.fin dt) k
  refine ⟨s0, s, t0, t, e1, x1, e2, x2, h2.1, ?_⟩
  rw [upwindStep_is_scheme] at h1 h2
  rw [upDir_fin] at h2
  have h3 := iter_fin hdt hLpos hc (by positivity) (change_cpp Dbl.rounded hn (coeff_le_one hdt hLpos hc))
    hfit.change_cpp (fun g _ => corner_fin g) zero_le_one (fun g _ => abs_corner Dbl.rounded g) k.toNat
    (by rw [show (3 * (1 / 2 ^ 1075) + 1 / 2 ^ 1075 : ℚ) = 4 / 2 ^ 1075 by ring]; exact hk)
  have hpr : ∀ n ∈ N.reverse, 0 < n := fun n h => hpos n (List.mem_reverse.1 h)
  apply List.ext_getElem? 
  intro i
  by_cases hi : i < N.prod
  · have hi' : i < N.reverse.prod := by rw [List.prod_reverse]; exact hi
    have hgr : InGrid N (cellAt N.reverse i).reverse := by
      rw [← inGrid_reverse, List.reverse_reverse]
      exact cellAt_inGrid hpr i
    have a1 := h1.2 _ hgr
    have a2 := h2.2 _ hgr
    rw [List.reverse_reverse, rankOf_cellAt hpr hi'] at a1 a2
    rw [List.getElem?_map, a1, a2, h3 _ hgr]
    rfl
  · rw [List.getElem?_eq_none (by rw [h2.1]; omega), List.getElem?_eq_none (by rw [List.length_map, h1.1]; omega)]

/-- C69: the OpenACC versions, whatever the schedule. -/
theorem C69_acc (a b c : Nat) (ha : 0 < a) (hb : 0 < b) (hc0 : 0 < c) (hcells : a * (b * c) < 2 ^ 31)
    (haxis : a < 2 ^ 30 ∧ b < 2 ^ 30 ∧ c < 2 ^ 30) (v L : List Dbl)
    (hv : v.length = 3) (hL : L.length = 3) (hLpos : ∀ x ∈ L, 0 < x.val) (hLmax : ∀ x ∈ L, x.val ≤ 2 ^ 400)
    (dt : Dbl) (hdt : 0 ≤ dt.val)
    (hc : courant dt.val (v.map Dbl.val) (L.map Dbl.val) [a, b, c] ≤ 1)
    (hn : NormalCoeffs (1 / 2 ^ 1022) dt.val (v.map Dbl.val) (L.map Dbl.val) [a, b, c])
    (hr : ∀ j, j < 3 → |(v.map Dbl.val).getD j 0 / cellWidth (L.map Dbl.val) [a, b, c] j| ≤ 2 ^ 500)
    (s0 : UpwindAcc Dbl) (hs : UpwindAcc.new 3 v L [(a : Int), b, c] = .ok s0)
    (t0 : UpwindAcc F64) (ht : UpwindAcc.new 3 (v.map .fin) (L.map .fin) [(a : Int), b, c] = .ok t0)
    (f0 old0 : List Dbl) (hf : f0.length = a * (b * c)) (hold : old0.length = a * (b * c)) (B : ℚ) (hB : 0 ≤ B)
    (hB0 : ∀ x ∈ f0, |x.val| ≤ B) (T : Nat) (hT : 0 < T) (may : Nat → Nat → Nat → Prop) (k : Nat)
    (hk : grown 3 (1 / 2 ^ 53 : ℚ) (4 / 2 ^ 1075) k B ≤ 2 ^ 500) :
    (∀ f' g', s0.Advect1s T may dt k f0 f' → t0.Advect1s T may (.fin dt) k (f0.map .fin) g' → g' = f'.map .fin) ∧
    (∀ s t, Covers (s0.region2 k dt) T may → PReach (s0.region2 k dt) T may (UpwindAcc.memory f0 old0) s →
      s.Final (s0.region2 k dt) T → Covers (t0.region2 k (.fin dt)) T may →
      PReach (t0.region2 k (.fin dt)) T may (UpwindAcc.memory (f0.map .fin) (old0.map .fin)) t →
      t.Final (t0.region2 k (.fin dt)) T → ∀ i, i < a * (b * c) → t.mem (.f, i) = .fin (s.mem (.f, i))) := by
  have hpos : ∀ n ∈ [a, b, c], 0 < n := by simp [ha, hb, hc0]
  have hax : ∀ n ∈ [a, b, c], n < 2 ^ 30 := by simpa using haxis
  have hprod : [a, b, c].prod = a * (b * c) := by simp
  have hfit : FitCoeffs dt v L [a, b, c] := ⟨hdt, hLpos, by simpa using hL, hc, hn, fun n h => ⟨hpos n h, hax n h⟩, hLmax⟩
  have u0 : Stores [a, b, c] f0 _ := exists_field (by rw [hprod]; exact hf)
  have u1 : Stores [a, b, c] (f0.map F64.fin) fun g => F64.fin (f0.getD (rankOf [a, b, c] g) 0) := by
    refine ⟨by simpa using u0.1, fun g hgr => ?_⟩
    rw [List.getElem?_map, u0.2 g hgr]
    rfl
  have hbu : ∀ g, InGrid [a, b, c] g → |(f0.getD (rankOf [a, b, c] g) 0).val| ≤ B := fun g hgr =>
    hB0 _ (List.mem_iff_getElem?.2 ⟨_, u0.2 g hgr⟩)
  have hfin : ChangeFin [a, b, c].length
      (fun j x y => dt * (v.getD j 0 * (upDir v j : Dbl) / (L.getD j 0 / (([a, b, c].getD j 0 : Int) : Dbl))) * (x - y))
      (fun j x y => F64.fin dt * ((v.map F64.fin).getD j 0 * (upDir (v.map F64.fin) j : F64) /
        ((L.map F64.fin).getD j 0 / (([a, b, c].getD j 0 : Int) : F64))) * (x - y)) := by
    intro j hj x y hx hy
    obtain ⟨e, h⟩ := hfit.rate_fin hj (hr j hj)
    have e1 : (L.map F64.fin).getD j 0 / (([a, b, c].getD j 0 : Int) : F64) = .fin (cellWidth L [a, b, c] j) := by
      rw [← hfit.width_fin hj, F64.cast_nat_int]
      rfl
    have e2 : L.getD j 0 / (([a, b, c].getD j 0 : Int) : Dbl) = cellWidth L [a, b, c] j := by
      rw [Dbl.cast_nat_int]
      rfl
    show F64.fin dt * ((v.map F64.fin).getD j 0 * (upDir (v.map F64.fin) j : F64) /
        ((L.map F64.fin).getD j 0 / (([a, b, c].getD j 0 : Int) : F64))) * (F64.fin x - F64.fin y) =
      .fin (dt * (v.getD j 0 * (upDir v j : Dbl) / (L.getD j 0 / (([a, b, c].getD j 0 : Int) : Dbl))) * (x - y))
    rw [upDir_fin, getD_map_fin, e1, e2, e, diff_fin hx hy]
    exact prod_fin h (diff_le hx hy) (by norm_num) (by norm_num)
  have ez : (3 * (1 / 2 ^ 1075) + 1 / 2 ^ 1075 : ℚ) = 4 / 2 ^ 1075 := by ring
  have key := iter_fin hdt hLpos hc (by positivity) (change_acc Dbl.rounded hn (coeff_le_one hdt hLpos hc)) hfin
    (u := fun g => f0.getD (rankOf [a, b, c] g) 0) (fun g _ => rfl) hB hbu k (by rw [ez]; exact hk)
  refine ⟨fun f' g' h1 h2 => ?_, fun s t m1 r1 x1 m2 r2 x2 i hi => ?_⟩
  · have a1 := C37_acc_result a b c ha hb hc0 hcells haxis v L hv hL s0 hs f0 _ u0 dt T hT may k f' h1
    have a2 := C37_acc_result a b c ha hb hc0 hcells haxis (v.map F64.fin) (L.map F64.fin) (by simpa using hv)
      (by simpa using hL) t0 ht _ _ u1 (.fin dt) T hT may k g' h2
    rw [upwindStep_is_scheme] at a1 a2
    rw [(stores_iff hpos).1 a1, (stores_iff hpos).1 a2]
    refine listOf_fin hpos fun g hg => ?_
    rw [← key g hg, upDir_fin]
  · have a1 := (C37_acc2_executions a b c ha hb hc0 hcells haxis v L hv hL s0 hs f0 old0 _ u0 hold k dt T hT may m1 s r1).2.2 x1
    have a2 := (C37_acc2_executions a b c ha hb hc0 hcells haxis (v.map F64.fin) (L.map F64.fin) (by simpa using hv)
      (by simpa using hL) t0 ht _ (old0.map F64.fin) _ u1 (by simpa using hold) k (.fin dt) T hT may m2 t r2).2.2 x2
    rw [upwindStep_is_scheme, Int.toNat_natCast] at a1 a2
    have hi' : i < [a, b, c].prod := by rw [hprod]; exact hi
    have hg := cellAt_inGrid hpos i
    have b1 := a1.2 _ hg
    have b2 := a2.2 _ hg
    rw [rankOf_cellAt hpos hi', List.getElem?_map, List.getElem?_range hi, Option.map_some] at b1 b2
    injection b1 with b1
    injection b2 with b2
    rw [b1, b2, ← key _ hg, upDir_fin]

/-- The time step of the driver does not overflow. -/
theorem driver_dt_fin {n : Nat} (hn : 0 < n) (hn2 : n ≤ 1290) :
    F64.fin ⟨rnd (1 / 10)⟩ * (1 / (n : F64)) / 1 = .fin ((⟨rnd (1 / 10)⟩ : Dbl) * (1 / (n : Dbl)) / 1) ∧
      |((⟨rnd (1 / 10)⟩ : Dbl) * (1 / (n : Dbl)) / 1).val| < maxFinite := by
  have hq1 : (1 : ℚ) ≤ n := by exact_mod_cast hn
  have hnq : (n : ℚ) ≤ 1290 := by exact_mod_cast hn2
  have b0 := abs_dbl_nat n
  have f0 : ((n : Nat) : F64) = .fin (n : Dbl) := F64.fin_nat (le_max (by
    linarith [(by norm_num : (2 : ℚ) * 1290 ≤ 2 ^ 1020)]))
  have c0 := Dbl.rounded.nat n
  rw [abs_of_nonneg (Nat.cast_nonneg n : (0 : ℚ) ≤ n), abs_le] at c0
  have c1 : 1 / 2 ≤ (n : Dbl).val := by
    have : 1 / 2 ^ 53 * (n : ℚ) ≤ 1 / 2 * n := mul_le_mul_of_nonneg_right (by norm_num) (by linarith)
    linarith [c0.1]
  have b1 := RoundsTo.abs_le (Dbl.rounded.div 1 (n : Dbl))
  have c2 : |(1 : Dbl).val / (n : Dbl).val| ≤ 2 := by
    rw [Dbl.rounded.one, abs_of_pos (by positivity), div_le_iff₀ (by linarith)]
    linarith
  have f1 : (1 : F64) / .fin (n : Dbl) = .fin (1 / (n : Dbl)) :=
    F64.fin_div (dbl_nat_ne hn) (le_max (by linarith [(by norm_num : (2 : ℚ) * 2 + 1 ≤ 2 ^ 1020)]))
  have b2 := RoundsTo.abs_le (Dbl.rounded.mul ⟨rnd (1 / 10)⟩ (1 / (n : Dbl)))
  have c3 : |rnd (1 / 10)| ≤ 1 := by decide +kernel
  have c4 : |(⟨rnd (1 / 10)⟩ : Dbl).val * (1 / (n : Dbl)).val| ≤ 1 * 5 := by
    rw [abs_mul]
    exact mul_le_mul c3 (by linarith) (abs_nonneg _) zero_le_one
  have f2 : F64.fin ⟨rnd (1 / 10)⟩ * .fin (1 / (n : Dbl)) = .fin (⟨rnd (1 / 10)⟩ * (1 / (n : Dbl))) :=
    F64.fin_mul (le_max (by linarith [(by norm_num : (2 : ℚ) * (1 * 5) + 1 ≤ 2 ^ 1020)]))
  have b3 := RoundsTo.abs_le (Dbl.rounded.div (⟨rnd (1 / 10)⟩ * (1 / (n : Dbl))) 1)
  rw [Dbl.rounded.one, div_one] at b3
  have c5 : |((⟨rnd (1 / 10)⟩ : Dbl) * (1 / (n : Dbl)) / 1).val| ≤ 23 := by linarith
  have c6 : (23 : ℚ) < 2 ^ 1020 := by norm_num
  refine ⟨?_, lt_of_lt_of_le (lt_of_le_of_lt c5 c6) max_ge⟩
  rw [f0, f1, f2]
  exact F64.fin_div (by rw [Dbl.rounded.one]; exact one_ne_zero) (le_max (c5.trans c6.le))

/-- Neither do its values. -/
theorem driver_grown (k : Int) (hk : k < 2 ^ 31) : grown 3 (1 / 2 ^ 53) (4 / 2 ^ 1075) k.toNat 1 ≤ (2 : ℚ) ^ 500 := by
  have hkn : (k.toNat : ℚ) ≤ 2 ^ 31 := by
    have : k.toNat ≤ 2 ^ 31 := by omega
    exact_mod_cast this
  have hb : (k.toNat : ℚ) * (22 / 2 ^ 53) ≤ 1 / 2 := by
    refine (mul_le_mul_of_nonneg_right hkn (by norm_num)).trans (by norm_num)
  have h1 := (grown_double (η := 4 / 2 ^ 1075) (by positivity) (by norm_num) k.toNat).resolve_right (by linarith)
  have h0 : (0 : ℚ) ≤ grown 3 (1 / 2 ^ 53) (4 / 2 ^ 1075) k.toNat 1 := mul_nonneg (pow_nonneg (by
    linarith [stepError_nonneg (r := (1 / 2 ^ 53 : ℚ)) (by positivity) 3]) _)
    (add_nonneg zero_le_one (mul_nonneg (Nat.cast_nonneg _) (stepUnderflow_nonneg (by positivity) (by positivity) _)))
  have h2 := mul_le_mul_of_nonneg_left hb h0
  linarith [(by norm_num : (2 : ℚ) ≤ 2 ^ 500)]

/-- C69: the program upwind.cxx with IEEE `double`: for every number of cells it supports and every `int` number of steps the
field and the check sum are finite, and they are the ones that C58 bounds. -/
theorem C69_driver (n : Nat) (hn : 0 < n) (hn2 : n ≤ 1290) (k : Int) (hk : k < 2 ^ 31) :
    ∃ (s' : Upwind Dbl) (t' : Upwind F64), Upwind.mainRun (⟨rnd (1 / 10)⟩ : Dbl) n k = .ok s' ∧
      Upwind.mainRun (F64.fin ⟨rnd (1 / 10)⟩) n k = .ok t' ∧ t'.f = s'.f.map .fin ∧ t'.checksum = .fin s'.checksum := by
  have hmax : (1 : ℚ) ≤ (HasMax.dblMax : Dbl).val := by decide +kernel
  have htiny : (2 : ℚ) ^ 20 * (1 / 2 ^ 1022) ≤ 1 := by norm_num
  have hq1 : (1 : ℚ) ≤ n := by exact_mod_cast hn
  obtain ⟨edt, hdt, hnorm, hcour⟩ := driver_hyps Dbl.rounded hmax htiny ⟨rnd (1 / 10)⟩
    ((rnd_roundsTo (1 / 10)).2 (Or.inr (by norm_num [abs_of_pos]))) n hn hn2
  have hp : ∀ m ∈ List.replicate 3 n, 0 < m := by intro m hm; rw [(List.mem_replicate.1 hm).2]; exact hn
  have hcells : (List.replicate 3 n).prod < 2 ^ 31 := by
    have : n * (n * n) ≤ 1290 * (1290 * 1290) := Nat.mul_le_mul hn2 (Nat.mul_le_mul hn2 hn2)
    simp only [List.prod_replicate]
    have e : n ^ 3 = n * (n * n) := by ring
    rw [e]; omega
  have haxis : ∀ m ∈ List.replicate 3 n, m < 2 ^ 30 := by
    intro m hm; rw [(List.mem_replicate.1 hm).2]; omega
  have hg : GoodGrid (List.replicate 3 n) := ⟨hp, hcells, haxis⟩
  have hLpos : ∀ x ∈ List.replicate 3 (1 : Dbl), 0 < x.val := by
    intro x hx; rw [(List.mem_replicate.1 hx).2, Dbl.rounded.one]; exact zero_lt_one
  have hLmax : ∀ x ∈ List.replicate 3 (1 : Dbl), x.val ≤ 2 ^ 400 := by
    intro x hx; rw [(List.mem_replicate.1 hx).2, Dbl.rounded.one]; exact one_le_pow₀ (by norm_num)
  -- the time step
  have eF := driver_dt_fin hn hn2
  have edtF : Upwind.mainDt (F64.fin ⟨rnd (1 / 10)⟩) (List.replicate 3 1) (List.replicate 3 1) (List.replicate 3 n) =
      .ok (F64.fin ((⟨rnd (1 / 10)⟩ : Dbl) * (1 / (n : Dbl)) / 1)) := by
    rw [← eF.1]
    apply mainDt_equal
    · rw [eF.1]
      exact lt_of_le_of_lt (le_abs_self _) eF.2
    · rw [eF.1]
      exact lt_irrefl (_ : ℚ)
  generalize (⟨rnd (1 / 10)⟩ : Dbl) * (1 / (n : Dbl)) / 1 = dt at edt hdt hnorm hcour edtF
  -- the objects
  have hs := new_built (N := List.replicate 3 n) (v := List.replicate 3 (1 : Dbl)) (L := List.replicate 3 (1 : Dbl)) (by simp)
    (by simp) hg (by simp) (by simp)
  have ht := new_built (N := List.replicate 3 n) (v := (List.replicate 3 (1 : Dbl)).map F64.fin)
    (L := (List.replicate 3 (1 : Dbl)).map F64.fin) (by simp) (by simp) hg (by simp) (by simp)
  have hW : (List.replicate 3 n).prod % W = (List.replicate 3 n).prod := Nat.mod_eq_of_lt (by unfold W; omega)
  have hlen : (built (List.replicate 3 (1 : Dbl)) (List.replicate 3 (1 : Dbl)) (List.replicate 3 n)).f.length =
      (List.replicate 3 n).prod := by simp only [built, List.length_set, List.length_replicate]; exact hW
  have hmem : ∀ x ∈ (built (List.replicate 3 (1 : Dbl)) (List.replicate 3 (1 : Dbl)) (List.replicate 3 n)).f,
      |x.val| ≤ 1 := by
    intro x hx
    simp only [built] at hx
    rcases List.mem_or_eq_of_mem_set hx with h | h
    · rw [(List.mem_replicate.1 h).2, Dbl.rounded.zero, abs_zero]; exact zero_le_one
    · rw [h, Dbl.rounded.one, abs_one]
  have hgrown := driver_grown k hk
  have hfF : (built (List.replicate 3 (1 : Dbl)) (List.replicate 3 (1 : Dbl)) (List.replicate 3 n)).f.map F64.fin =
      (built ((List.replicate 3 (1 : Dbl)).map F64.fin) ((List.replicate 3 (1 : Dbl)).map F64.fin) (List.replicate 3 n)).f := by
    simp only [built]
    rw [List.map_set, List.map_replicate]
    rfl
  obtain ⟨s', t', e1, e2, h1, h2⟩ := C69_upwind (List.replicate 3 n) (by simp) (by simp) hp hcells haxis
    (List.replicate 3 1) (List.replicate 3 1) (by simp) (by simp) hLpos hLmax dt hdt.le hcour hnorm _ hs _ ht _ hlen 1
    zero_le_one hmem k (by rw [List.length_replicate]; exact hgrown)
  rw [hfF] at e2
  rw [List.length_replicate] at hs ht
  refine ⟨s', t', ?_, ?_, h1, h2⟩
  · unfold Upwind.mainRun
    rw [szOfInt_ofNat (by unfold W; omega)]
    simp only [List.length_replicate]
    rw [edt]
    simp only [M.ok_bind]
    rw [hs]
    exact e1
  · unfold Upwind.mainRun
    rw [szOfInt_ofNat (by unfold W; omega)]
    simp only [List.length_replicate]
    rw [edtF]
    simp only [M.ok_bind]
    rw [List.map_replicate] at ht e2
    rw [show (1 : F64) = F64.fin 1 from rfl, ht]
    exact e2

/-- C69: the Courant limit is needed: with 3 cells of width 1/3, velocity 1 and the time step 2^600 the field is infinite
after 2 steps and not a number after 3. -/
theorem C69_unstable_overflow :
    (do let s ← Upwind.new 1 [F64.fin 1] [F64.fin 1] [3]; let t ← s.advect 2 (F64.fin ⟨2 ^ 600⟩); pure t.f) =
      .ok [.inf false, .inf true, .inf false] ∧
    (do let s ← Upwind.new 1 [F64.fin 1] [F64.fin 1] [3]; let t ← s.advect 3 (F64.fin ⟨2 ^ 600⟩); pure t.f) =
      .ok [.nan, .nan, .nan] := by
  decide +kernel

/-! ### The hypotheses are met -/

/-- `double` numbers on a 2 x 3 grid, velocities of both signs, total Courant number 1/2, a thousand million steps: the
hypotheses of the general theorems of C69 (`z` for the Fortran versions). -/
example : (∀ x ∈ ([1, ⟨3⟩] : List Dbl), 0 < x.val ∧ x.val ≤ 2 ^ 400) ∧
    courant (1 / 8 : ℚ) (([1, ⟨-2⟩] : List Dbl).map Dbl.val) (([1, ⟨3⟩] : List Dbl).map Dbl.val) [2, 3] = 1 / 2 ∧
    NormalCoeffs (1 / 2 ^ 1022) (1 / 8 : ℚ) (([1, ⟨-2⟩] : List Dbl).map Dbl.val) (([1, ⟨3⟩] : List Dbl).map Dbl.val) [2, 3] ∧
    (∀ j, j < 2 → (3 + 2 / |cellWidth (([1, ⟨3⟩] : List Dbl).map Dbl.val) [2, 3] j|) * (1 / 2 ^ 1075) ≤ (1 / 2 ^ 1072 : ℚ)) ∧
    (∀ j, j < 2 → |(([1, ⟨-2⟩] : List Dbl).map Dbl.val).getD j 0 / cellWidth (([1, ⟨3⟩] : List Dbl).map Dbl.val) [2, 3] j| ≤
      2 ^ 500) ∧
    grown 2 (1 / 2 ^ 53 : ℚ) (1 / 2 ^ 1072 + 1 / 2 ^ 1075) 1000000000 1 ≤ 2 ^ 500 := by
  refine ⟨by decide +kernel, by decide +kernel, ?_, by decide +kernel, by decide +kernel, ?_⟩
  · have h2 : ([2, 3] : List Nat).length = 2 := rfl
    constructor <;> intro j hj <;> rw [h2] at hj <;> unfold Normal <;> revert j <;> decide +kernel
  · have hk : ((1000000000 : Nat) : ℚ) ≤ 1000000000 := by norm_num
    generalize (1000000000 : Nat) = k at hk ⊢
    have hE : stepError 2 (1 / 2 ^ 53 : ℚ) ≤ 1 / 2 ^ 40 := by unfold stepError; norm_num
    have hE0 : 0 ≤ stepError 2 (1 / 2 ^ 53 : ℚ) := stepError_nonneg (by positivity) 2
    have hU : stepUnderflow 2 (1 / 2 ^ 53 : ℚ) (1 / 2 ^ 1072 + 1 / 2 ^ 1075) ≤ 1 / 2 ^ 40 := by unfold stepUnderflow; norm_num
    have hU0 : 0 ≤ stepUnderflow 2 (1 / 2 ^ 53 : ℚ) (1 / 2 ^ 1072 + 1 / 2 ^ 1075) :=
      stepUnderflow_nonneg (by positivity) (by positivity) 2
    unfold grown
    generalize stepError 2 (1 / 2 ^ 53 : ℚ) = E at *
    generalize stepUnderflow 2 (1 / 2 ^ 53 : ℚ) (1 / 2 ^ 1072 + 1 / 2 ^ 1075) = U at *
    have hk0 : (0 : ℚ) ≤ k := Nat.cast_nonneg k
    have h1 := pow_mul_le_one (x := E) (y := 1 / 2) (n := k) hE0 (hE.trans (by norm_num))
      ((mul_le_mul hk hE hE0 (by norm_num)).trans (by norm_num))
    have h2 : 1 + (k : ℚ) * U ≤ 2 := by
      have := (mul_le_mul hk hU hU0 (by norm_num)).trans (by norm_num : (1000000000 : ℚ) * (1 / 2 ^ 40) ≤ 1)
      linarith
    have h3 : (0 : ℚ) ≤ (1 + E) ^ k := pow_nonneg (by linarith) _
    have h4 := mul_le_mul_of_nonneg_left h2 h3
    linarith [(by norm_num : (4 : ℚ) ≤ 2 ^ 500)]

/-- With the default arguments of the program the check sum that it prints is a finite number within 10^-9 of 1. -/
example : ∃ (t' : Upwind F64) (x : Dbl), Upwind.mainRun (F64.fin ⟨rnd (1 / 10)⟩) (128 : Nat) 10 = .ok t' ∧
    t'.checksum = .fin x ∧ |x.val - 1| ≤ 1 / 10 ^ 9 := by
  obtain ⟨s', t', e, e', _, h⟩ := C69_driver 128 (by norm_num) (by norm_num) 10 (by norm_num)
  obtain ⟨s2, e2, h2, _⟩ := C58_driver_double 128 (by norm_num) (by norm_num) 10 (by norm_num)
  rw [e] at e2
  injection e2 with e2
  subst e2
  refine ⟨t', _, e', h, h2.trans ?_⟩
  rw [show Int.toNat 10 = 10 from rfl]
  norm_num

end Fidi
