import Verif.Model.Ieee
import Verif.Lemmas.Dbl
import Verif.Lemmas.Rounding

/-
Where no result leaves the range of `double`, arithmetic with overflow is arithmetic without.
-/
set_option linter.unusedSectionVars false
set_option exponentiation.threshold 1100

namespace Fidi
open Fidi.Spec Finset

namespace F64

theorem fin_add {x y : Dbl} (h : |(x + y).val| ≤ maxFinite) : F64.fin x + F64.fin y = F64.fin (x + y) := if_pos h

theorem fin_sub {x y : Dbl} (h : |(x - y).val| ≤ maxFinite) : F64.fin x - F64.fin y = F64.fin (x - y) := if_pos h

theorem fin_mul {x y : Dbl} (h : |(x * y).val| ≤ maxFinite) : F64.fin x * F64.fin y = F64.fin (x * y) := if_pos h

theorem fin_div {x y : Dbl} (hy : y.val ≠ 0) (h : |(x / y).val| ≤ maxFinite) : F64.fin x / F64.fin y = F64.fin (x / y) := by
  show (if y.val = 0 then _ else F64.ofRat (x.val / y.val)) = _
  rw [if_neg hy]
  exact if_pos h

theorem fin_nat {n : Nat} (h : |(n : Dbl).val| ≤ maxFinite) : (n : F64) = F64.fin (n : Dbl) := if_pos h

theorem fin_int {n : Int} (h : |(n : Dbl).val| ≤ maxFinite) : (n : F64) = F64.fin (n : Dbl) := if_pos h

theorem fin_lt {x y : Dbl} : F64.fin x < F64.fin y ↔ x < y := Iff.rfl

end F64

/-- `1 / 2^53`, the relative error of an operation. -/
local notation "ρ₀" => (1 / 2 ^ 53 : ℚ)
/-- `1 / 2^1075`, the absolute error of an operation under underflow. -/
local notation "η₀" => (1 / 2 ^ 1075 : ℚ)
local notation "tiny₀" => (1 / 2 ^ 1022 : ℚ)

theorem max_ge : (2 : ℚ) ^ 1020 ≤ maxFinite := by unfold maxFinite; norm_num

theorem eta_le : η₀ ≤ 1 := by
  rw [div_le_one (by positivity)]
  exact one_le_pow₀ (by norm_num)

theorem le_max {x : ℚ} (h : x ≤ 2 ^ 1020) : x ≤ maxFinite := h.trans max_ge

theorem RoundsTo.abs_le {x y : ℚ} (h : RoundsTo ρ₀ η₀ tiny₀ x y) : |x| ≤ 2 * |y| + 1 := by
  have h1 := h.1
  have h2 : |x| ≤ |x - y| + |y| := by
    have := abs_add_le (x - y) y
    rwa [sub_add_cancel] at this
  have h3 : ρ₀ * |y| ≤ |y| := mul_le_of_le_one_left (abs_nonneg _) (by norm_num)
  have := eta_le
  linarith

theorem Rel.le_two {e x y : ℚ} (h : Rel e x y) (he : e ≤ 1) : |x| ≤ 2 * |y| := by
  refine h.abs_le.trans ?_
  exact mul_le_mul_of_nonneg_right (by linarith) (abs_nonneg _)

theorem abs_le_of_near {x y e : ℚ} (h : |x - y| ≤ e) : |x| ≤ |y| + e := by
  have := abs_add_le (x - y) y
  rw [sub_add_cancel] at this
  linarith

/-! ### Bounds on what the scheme computes -/

section bounds
variable {R K : Type} [Zero R] [One R] [Add R] [Sub R] [Mul R] [Div R] [NatCast R] [IntCast R] [LT R] [DecidableLT R]
  [Field K] [LinearOrder K] [IsStrictOrderedRing K] {val : R → K} {ρ θ small z : K} {N : List Nat}

/-- Within a step no value exceeds the bound for the whole step. -/
theorem partial_bound (H : Rounded R K val ρ θ small) (s : Nat → Int) {chg : Nat → R → R → R}
    {w : Nat → K} (hw : ∀ j, 0 ≤ w j) (hs : ∑ j ∈ range N.length, w j ≤ 1) (hz : 0 ≤ z)
    (hchg : ChangeOk val ρ z (fun j => -w j) N.length chg)
    (u : List Nat → R) {b : K} (hb : 0 ≤ b) (hu : ∀ g, InGrid N g → |val (u g)| ≤ b) (n : Nat) (hn : n ≤ N.length)
    (g : List Nat) (hg : InGrid N g) :
    |val (partialScheme N s chg u n g)| ≤ (1 + stepError N.length ρ) * b + stepUnderflow N.length ρ (z + θ) := by
  have h0 := H.r_nonneg
  have hη := H.η_nonneg
  have hs' : ∀ n, n ≤ N.length → ∑ j ∈ range n, w j ≤ 1 := fun n hn =>
    (sum_le_sum_of_subset_of_nonneg (range_subset_range.2 hn) fun j _ _ => hw j).trans hs
  have h := partial_error H (maxNorm N) s hw hs' hz hchg u hb hu n hn g hg
  have h2 := (maxNorm N).partialStep s hw hu n (hs' n hn) g hg
  have h3 : |val (partialScheme N s chg u n g)| ≤
      |val (partialScheme N s chg u n g) - partialStep N s w (fun g => val (u g)) n g| +
        |partialStep N s w (fun g => val (u g)) n g| := by
    have := abs_add_le (val (partialScheme N s chg u n g) - partialStep N s w (fun g => val (u g)) n g)
      (partialStep N s w (fun g => val (u g)) n g)
    rwa [sub_add_cancel] at this
  have hpow : (1 + ρ) ^ n ≤ (1 + ρ) ^ N.length := pow_le_pow_right₀ (by linarith) hn
  have hp0 : (0 : K) ≤ (1 + ρ) ^ n := pow_nonneg (by linarith) _
  have hnN : (n : K) ≤ N.length := by exact_mod_cast hn
  have hn0 : (0 : K) ≤ n := Nat.cast_nonneg _
  have hb' : 0 ≤ ρ * b := mul_nonneg h0 hb
  have hzz : 0 ≤ z + θ := by linarith
  have h4 : (18 * (∑ j ∈ range n, w j) + n) * ρ * b + n * (z + θ) * 1 ≤
      ((N.length : K) + 18) * ρ * b + N.length * (z + θ) := by
    have a1 : (18 * (∑ j ∈ range n, w j) + n) * (ρ * b) ≤ ((N.length : K) + 18) * (ρ * b) :=
      mul_le_mul_of_nonneg_right (by linarith [hs' n hn]) hb'
    have a2 : (n : K) * (z + θ) ≤ N.length * (z + θ) := mul_le_mul_of_nonneg_right hnN hzz
    rw [mul_one, mul_assoc _ ρ b, mul_assoc _ ρ b]
    linarith
  have h5 : 0 ≤ ((N.length : K) + 18) * ρ * b + N.length * (z + θ) := by
    have : (0 : K) ≤ N.length := Nat.cast_nonneg _
    have : 0 ≤ ((N.length : K) + 18) * ρ := mul_nonneg (by linarith) h0
    have := mul_nonneg this hb
    have := mul_nonneg (Nat.cast_nonneg (α := K) N.length) hzz
    linarith
  have h6 := (mul_le_mul_of_nonneg_left h4 hp0).trans (mul_le_mul_of_nonneg_right hpow h5)
  unfold stepError stepUnderflow
  have e : (1 + (1 + ρ) ^ N.length * ((N.length : K) + 18) * ρ) * b + (1 + ρ) ^ N.length * (N.length : K) * (z + θ) =
      b + (1 + ρ) ^ N.length * (((N.length : K) + 18) * ρ * b + N.length * (z + θ)) := by ring
  rw [e]
  linarith

theorem grown_mono (h0 : 0 ≤ ρ) (hz : 0 ≤ z) (d : Nat) {b : K} (hb : 0 ≤ b) {i k : Nat} (h : i ≤ k) :
    grown d ρ z i b ≤ grown d ρ z k b := by
  induction h with
  | refl => exact le_refl _
  | step _ ih =>
    refine ih.trans (le_trans ?_ (grown_succ h0 hz d _ b))
    have he := stepError_nonneg h0 d
    have hu := stepUnderflow_nonneg h0 hz d
    have : 0 ≤ grown d ρ z ‹Nat› b := mul_nonneg (pow_nonneg (by linarith) _) (add_nonneg hb (mul_nonneg (Nat.cast_nonneg _) hu))
    nlinarith

end bounds

/-! ### The scheme with overflow -/

/-- The change of an axis does not overflow on numbers that are not too large. -/
def ChangeFin (d : Nat) (chg : Nat → Dbl → Dbl → Dbl) (chg' : Nat → F64 → F64 → F64) : Prop :=
  ∀ j, j < d → ∀ a b : Dbl, |a.val| ≤ 2 ^ 500 → |b.val| ≤ 2 ^ 500 → chg' j (.fin a) (.fin b) = .fin (chg j a b)

variable {N : List Nat} {s : Nat → Int} {chg : Nat → Dbl → Dbl → Dbl} {chg' : Nat → F64 → F64 → F64}

/-- One step. -/
theorem step_fin (hc : ChangeFin N.length chg chg') {u : List Nat → Dbl} {u' : List Nat → F64}
    (hu : ∀ g, InGrid N g → u' g = .fin (u g)) (hb : ∀ g, InGrid N g → |(u g).val| ≤ 2 ^ 500)
    (hacc : ∀ n, n ≤ N.length → ∀ g, InGrid N g → |(partialScheme N s chg u n g).val| ≤ maxFinite) :
    ∀ g, InGrid N g → schemeStep N s chg' u' g = .fin (schemeStep N s chg u g) := by
  intro g hg
  have key : ∀ n, n ≤ N.length → (List.range n).foldl (fun acc j => acc - chg' j (u' (neighbour N j (s j) g)) (u' g)) (u' g) =
      .fin (partialScheme N s chg u n g) := by
    intro n
    induction n with
    | zero => intro _; rw [List.range_zero, List.foldl_nil, hu g hg]; rfl
    | succ n ih =>
      intro hn
      have hnb := neighbour_inGrid hg n (s n)
      rw [List.range_succ, List.foldl_append, ih (by omega), List.foldl_cons, List.foldl_nil, hu g hg, hu _ hnb,
        hc n (by omega) _ _ (hb _ hnb) (hb g hg), partialScheme_succ]
      apply F64.fin_sub
      rw [← partialScheme_succ]
      exact hacc (n + 1) hn g hg
  exact key N.length (le_refl _)

/-- Any number of steps below the Courant limit. -/
theorem iter_fin {dt : Dbl} {v L : List Dbl} (hdt : 0 ≤ dt.val) (hL : ∀ x ∈ L, 0 < x.val)
    (hcour : courant dt.val (v.map Dbl.val) (L.map Dbl.val) N ≤ 1) {z : ℚ} (hz : 0 ≤ z)
    (hok : ChangeOk Dbl.val ρ₀ z (upCoeff dt.val (v.map Dbl.val) (L.map Dbl.val) N) N.length chg)
    (hc : ChangeFin N.length chg chg') {u : List Nat → Dbl} {u' : List Nat → F64}
    (hu : ∀ g, InGrid N g → u' g = .fin (u g)) {B : ℚ} (hB : 0 ≤ B) (hb : ∀ g, InGrid N g → |(u g).val| ≤ B) (k : Nat)
    (hgrown : grown N.length ρ₀ (z + η₀) k B ≤ 2 ^ 500) :
    ∀ g, InGrid N g → (schemeStep N (upDir v) chg')^[k] u' g = .fin ((schemeStep N (upDir v) chg)^[k] u g) := by
  have H := Dbl.rounded
  have hzη : 0 ≤ z + η₀ := add_nonneg hz (by positivity)
  have hstep : ∀ i, ∀ g, InGrid N g → |((schemeStep N (upDir v) chg)^[i] u g).val| ≤ grown N.length ρ₀ (z + η₀) i B := by
    intro i
    have h := (scheme_error H (maxNorm N) hdt hL hcour hz hok u hB hb i).1
    rwa [mul_one] at h
  have hcoef : upCoeff dt.val (v.map Dbl.val) (L.map Dbl.val) N =
      fun j => -(dt.val * |(v.map Dbl.val).getD j 0| / cellWidth (L.map Dbl.val) N j) := by
    funext j; exact upCoeff_eq _ _ _ _ j
  rw [courant_eq] at hcour
  rw [hcoef] at hok
  have hw := fun j => weight_nonneg (v := v.map Dbl.val) (N := N) hdt (val_pos_of hL) j
  induction k with
  | zero => exact hu
  | succ k ih =>
    have hle : grown N.length ρ₀ (z + η₀) k B ≤ 2 ^ 500 := (grown_mono (by positivity) hzη _ hB (Nat.le_succ k)).trans hgrown
    have hg0 : 0 ≤ grown N.length ρ₀ (z + η₀) k B := mul_nonneg (pow_nonneg (by
      linarith [stepError_nonneg (r := ρ₀) (by positivity) N.length]) _)
      (add_nonneg hB (mul_nonneg (Nat.cast_nonneg _) (stepUnderflow_nonneg (by positivity) hzη _)))
    intro g hg
    rw [Function.iterate_succ', Function.comp_apply, Function.iterate_succ', Function.comp_apply]
    refine step_fin hc (ih hle) (fun g hg => (hstep k g hg).trans hle) (fun n hn g hg => ?_) g hg
    have h1 := partial_bound H (upDir v) hw hcour hz hok _ hg0 (hstep k) n hn g hg
    have h2 := grown_succ (r := ρ₀) (by positivity) hzη N.length k B
    refine le_max ((h1.trans h2).trans (hgrown.trans ?_))
    exact pow_le_pow_right₀ (by norm_num) (by norm_num)

/-! ### The coefficients -/

section coeffs
variable {dt : Dbl} {v L : List Dbl}

theorem getD_map_fin (l : List Dbl) (j : Nat) : (l.map F64.fin).getD j 0 = F64.fin (l.getD j 0) := by
  rw [List.getD_eq_getElem?_getD, List.getD_eq_getElem?_getD, List.getElem?_map]
  cases l[j]? <;> rfl

theorem upDir_fin : upDir (v.map F64.fin) = upDir v := by
  funext j
  unfold upDir
  rw [getD_map_fin]
  rfl

theorem abs_dbl_nat (n : Nat) : |(n : Dbl).val| ≤ 2 * n := by
  have := Rel.le_two (e := ρ₀) (x := (n : Dbl).val) (y := (n : ℚ)) (Dbl.rounded.nat n) (by norm_num)
  rwa [abs_of_nonneg (Nat.cast_nonneg n : (0 : ℚ) ≤ n)] at this

theorem dbl_nat_ne {n : Nat} (h : 0 < n) : (n : Dbl).val ≠ 0 := by
  have h1 := Dbl.rounded.nat n
  intro h0
  have hn : (1 : ℚ) ≤ n := by exact_mod_cast h
  rw [h0, zero_sub, abs_neg, abs_of_nonneg (by linarith)] at h1
  nlinarith [(by norm_num : ρ₀ < 1)]

theorem pow_facts : (2 : ℚ) ^ 40 * 2 ^ 500 * 2 ^ 400 ≤ 2 ^ 1020 := by norm_num

/-- Sizes for which nothing overflows. -/
structure FitCoeffs (dt : Dbl) (v L : List Dbl) (N : List Nat) : Prop where
  dt_nonneg : 0 ≤ dt.val
  pos : ∀ x ∈ L, 0 < x.val
  len : L.length = N.length
  courant : courant dt.val (v.map Dbl.val) (L.map Dbl.val) N ≤ 1
  normal : NormalCoeffs tiny₀ dt.val (v.map Dbl.val) (L.map Dbl.val) N
  cells : ∀ n ∈ N, 0 < n ∧ n < 2 ^ 30
  lengths : ∀ x ∈ L, x.val ≤ 2 ^ 400

variable (hf : FitCoeffs dt v L N) {j : Nat} (hj : j < N.length)
include hf hj

theorem FitCoeffs.cell : 0 < N.getD j 0 ∧ N.getD j 0 < 2 ^ 30 := by
  have : N.getD j 0 ∈ N := by simp [List.getD_eq_getElem?_getD, List.getElem?_eq_getElem hj]
  exact hf.cells _ this

theorem FitCoeffs.length_pos : 0 < (L.getD j 0).val ∧ (L.getD j 0).val ≤ 2 ^ 400 := by
  have hj' : j < L.length := by rw [hf.len]; exact hj
  have : L.getD j 0 ∈ L := by simp [List.getD_eq_getElem?_getD, List.getElem?_eq_getElem hj']
  exact ⟨hf.pos _ this, hf.lengths _ this⟩

/-- Exact width. -/
theorem FitCoeffs.width_pos : 0 < cellWidth (L.map Dbl.val) N j ∧ cellWidth (L.map Dbl.val) N j ≤ 2 ^ 400 := by
  obtain ⟨h1, h2⟩ := hf.length_pos hj
  obtain ⟨h3, _⟩ := hf.cell hj
  have h3' : (1 : ℚ) ≤ (N.getD j 0 : ℚ) := by exact_mod_cast h3
  unfold cellWidth
  rw [getD_map_val Dbl.rounded]
  exact ⟨div_pos h1 (by linarith), (div_le_self h1.le h3').trans h2⟩

theorem FitCoeffs.cast_nat : ((N.getD j 0 : Nat) : F64) = .fin ((N.getD j 0 : Nat) : Dbl) := by
  apply F64.fin_nat
  have h1 := abs_dbl_nat (N.getD j 0)
  have h2 : ((N.getD j 0 : Nat) : ℚ) ≤ 2 ^ 30 := by exact_mod_cast (hf.cell hj).2.le
  exact le_max (by linarith [pow_facts, (by norm_num : (2 : ℚ) * 2 ^ 30 ≤ 2 ^ 40 * 2 ^ 500 * 2 ^ 400)])

theorem FitCoeffs.width_rel : Rel (21 / 10 * ρ₀) (cellWidth L N j).val (cellWidth (L.map Dbl.val) N j) :=
  cellWidth_rel Dbl.rounded j (hf.normal.width j hj)

theorem FitCoeffs.width_le : |(cellWidth L N j).val| ≤ 2 * 2 ^ 400 := by
  have h := (hf.width_rel hj).le_two (by norm_num)
  obtain ⟨h1, h2⟩ := hf.width_pos hj
  rw [abs_of_pos h1] at h
  linarith

theorem FitCoeffs.width_ne : (cellWidth L N j).val ≠ 0 := by
  have h := hf.width_rel hj
  obtain ⟨h1, _⟩ := hf.width_pos hj
  unfold Rel at h
  intro h0
  rw [h0, zero_sub, abs_neg, abs_of_pos h1] at h
  nlinarith [(by norm_num : 21 / 10 * ρ₀ < 1)]

theorem FitCoeffs.width_fin : cellWidth (L.map F64.fin) N j = .fin (cellWidth L N j) := by
  have h := hf.width_le hj
  unfold cellWidth at h ⊢
  rw [getD_map_fin, hf.cast_nat hj]
  exact F64.fin_div (dbl_nat_ne (hf.cell hj).1) (le_max (h.trans (by norm_num)))

theorem dir_fin (j : Nat) : ((upDir v j : Int) : F64) = .fin ((upDir v j : Int) : Dbl) := by
  apply F64.fin_int
  have := Rel.le_two (e := ρ₀) (Dbl.rounded.int (upDir v j)) (by norm_num)
  rw [abs_upDir] at this
  exact le_max (this.trans (by norm_num))

/-- `dt*v` is at most a cell width. -/
theorem FitCoeffs.dist_le : |dt.val * (v.getD j 0).val| ≤ 2 ^ 400 := by
  have h := coeff_le_one hf.dt_nonneg hf.pos hf.courant j hj
  obtain ⟨h1, h2⟩ := hf.width_pos hj
  unfold upCoeff at h
  rw [getD_map_val Dbl.rounded, abs_div, abs_mul (_ * _) ((upDir _ j : Int) : ℚ), abs_upDir, mul_one, abs_of_pos h1,
    div_le_one h1] at h
  exact h.trans h2

theorem FitCoeffs.dist_fin : F64.fin dt * F64.fin (v.getD j 0) = .fin (dt * v.getD j 0) := by
  apply F64.fin_mul
  have h1 := RoundsTo.abs_le (Dbl.rounded.mul dt (v.getD j 0))
  have h2 := hf.dist_le hj
  exact le_max (by linarith [pow_facts, (by norm_num : (2 : ℚ) * 2 ^ 400 + 1 ≤ 2 ^ 40 * 2 ^ 500 * 2 ^ 400)])

theorem FitCoeffs.dvs_le : |(dt * v.getD j 0 * ((upDir v j : Int) : Dbl)).val| ≤ 2 * 2 ^ 400 := by
  have hdist := hf.normal.distance j hj
  rw [getD_map_val Dbl.rounded] at hdist
  have h := (dtvs_rel Dbl.rounded dt (v.getD j 0) (upDir v j) (abs_upDir j) hdist).le_two (by norm_num)
  rw [abs_mul (_ * _) ((upDir _ j : Int) : ℚ), abs_upDir, mul_one] at h
  linarith [hf.dist_le hj]

theorem FitCoeffs.dvs_fin : F64.fin dt * F64.fin (v.getD j 0) * ((upDir v j : Int) : F64) =
    .fin (dt * v.getD j 0 * ((upDir v j : Int) : Dbl)) := by
  rw [hf.dist_fin hj, dir_fin hf hj]
  exact F64.fin_mul (le_max ((hf.dvs_le hj).trans (by norm_num)))

theorem FitCoeffs.coeff_le : |(upCoeff dt v L N j).val| ≤ 2 := by
  have h := (coeff_cpp_rel Dbl.rounded hf.normal hj).le_two (by norm_num)
  linarith [coeff_le_one hf.dt_nonneg hf.pos hf.courant j hj]

theorem FitCoeffs.coeff_fin : upCoeff (.fin dt) (v.map F64.fin) (L.map F64.fin) N j = .fin (upCoeff dt v L N j) := by
  have h := hf.coeff_le hj
  unfold upCoeff at h ⊢
  rw [upDir_fin, getD_map_fin, hf.dvs_fin hj, hf.width_fin hj]
  exact F64.fin_div (hf.width_ne hj) (le_max (h.trans (by norm_num)))

omit hf hj in
theorem diff_le {a b : Dbl} (ha : |a.val| ≤ 2 ^ 500) (hb : |b.val| ≤ 2 ^ 500) : |(a - b).val| ≤ 5 * 2 ^ 500 := by
  have h1 := RoundsTo.abs_le (Dbl.rounded.sub a b)
  have h2 : |a.val - b.val| ≤ |a.val| + |b.val| := abs_sub _ _
  linarith [(by norm_num : (1 : ℚ) ≤ 2 ^ 500)]

omit hf hj in
theorem diff_fin {a b : Dbl} (ha : |a.val| ≤ 2 ^ 500) (hb : |b.val| ≤ 2 ^ 500) : F64.fin a - F64.fin b = .fin (a - b) :=
  F64.fin_sub (le_max ((diff_le ha hb).trans (by norm_num)))

omit hf hj in
theorem prod_fin {x y : Dbl} {p q : ℚ} (hx : |x.val| ≤ p) (hy : |y.val| ≤ q) (hp : 0 ≤ p) (h : 2 * (p * q) + 1 ≤ 2 ^ 1020) :
    F64.fin x * F64.fin y = .fin (x * y) := by
  apply F64.fin_mul
  have h1 := RoundsTo.abs_le (Dbl.rounded.mul x y)
  rw [abs_mul] at h1
  have h2 : |x.val| * |y.val| ≤ p * q := mul_le_mul hx hy (abs_nonneg _) hp
  exact le_max (by linarith)

omit hj in
/-- C++. -/
theorem FitCoeffs.change_cpp : ChangeFin N.length (fun j a b => upCoeff dt v L N j * (a - b))
    (fun j a b => upCoeff (.fin dt) (v.map F64.fin) (L.map F64.fin) N j * (a - b)) := by
  intro j hj a b ha hb
  show upCoeff (.fin dt) (v.map F64.fin) (L.map F64.fin) N j * (F64.fin a - F64.fin b) = _
  rw [hf.coeff_fin hj, diff_fin ha hb]
  exact prod_fin (hf.coeff_le hj) (diff_le ha hb) (by norm_num) (by norm_num)

/-- The coefficient of Python and of the OpenACC versions, if the velocity over the width is not too large. -/
theorem FitCoeffs.rate_fin (hr : |(v.map Dbl.val).getD j 0 / cellWidth (L.map Dbl.val) N j| ≤ 2 ^ 500) :
    F64.fin dt * (F64.fin (v.getD j 0) * ((upDir v j : Int) : F64) / .fin (cellWidth L N j)) =
      .fin (dt * (v.getD j 0 * ((upDir v j : Int) : Dbl) / cellWidth L N j)) ∧
    |(dt * (v.getD j 0 * ((upDir v j : Int) : Dbl) / cellWidth L N j)).val| ≤ 2 := by
  have H := Dbl.rounded
  have h1 := hf.normal.velocity j hj
  have h2 := hf.normal.rate j hj
  rw [getD_map_val H] at h1 h2 hr
  have hs : |((upDir v j : Int) : ℚ)| = 1 := abs_upDir j
  obtain ⟨w1, w2⟩ := hf.width_pos hj
  -- the velocity
  have a1 : Rel (205 / 100 * ρ₀) (v.getD j 0 * ((upDir v j : Int) : Dbl)).val ((v.getD j 0).val * ((upDir v j : Int) : ℚ)) :=
    mul_rel H (le_refl 0) zero_le_one (self_rel _) (dir_rel H _) (h1.congr_abs (by rw [abs_mul, hs, mul_one])) (by norm_num)
      (by norm_num)
  have b1 := a1.le_two (by norm_num)
  have hv : |(v.getD j 0).val| ≤ 2 ^ 900 := by
    rw [abs_div, abs_of_pos w1, div_le_iff₀ w1] at hr
    have : (2 : ℚ) ^ 500 * cellWidth (L.map Dbl.val) N j ≤ 2 ^ 500 * 2 ^ 400 := mul_le_mul_of_nonneg_left w2 (by positivity)
    refine (hr.trans this).trans (by norm_num)
  rw [abs_mul, hs, mul_one] at b1
  have f1 : F64.fin (v.getD j 0) * ((upDir v j : Int) : F64) = .fin (v.getD j 0 * ((upDir v j : Int) : Dbl)) := by
    rw [dir_fin hf hj]
    exact F64.fin_mul (le_max (b1.trans ((mul_le_mul_of_nonneg_left hv (by norm_num)).trans (by norm_num))))
  -- the rate
  have a2 : Rel (54 / 10 * ρ₀) (v.getD j 0 * ((upDir v j : Int) : Dbl) / cellWidth L N j).val
      ((v.getD j 0).val * ((upDir v j : Int) : ℚ) / cellWidth (L.map Dbl.val) N j) :=
    div_rel H (p := 205 / 100) (q := 21 / 10) (m := 43 / 10) (by norm_num) (by norm_num) a1 (hf.width_rel hj)
      (h2.congr_abs (by rw [abs_div, abs_div, abs_mul, hs, mul_one])) (by norm_num) (by norm_num) (by norm_num) (by norm_num)
  have b2 := a2.le_two (by norm_num)
  have e2 : |(v.getD j 0).val * ((upDir v j : Int) : ℚ) / cellWidth (L.map Dbl.val) N j| =
      |(v.getD j 0).val / cellWidth (L.map Dbl.val) N j| := by rw [abs_div, abs_mul, hs, mul_one, ← abs_div]
  rw [e2] at b2
  have f2 : F64.fin (v.getD j 0 * ((upDir v j : Int) : Dbl)) / .fin (cellWidth L N j) =
      .fin (v.getD j 0 * ((upDir v j : Int) : Dbl) / cellWidth L N j) :=
    F64.fin_div (hf.width_ne hj) (le_max (b2.trans ((mul_le_mul_of_nonneg_left hr (by norm_num)).trans (by norm_num))))
  have b3 := (coeff_python_rel H hf.normal hj (hf.width_rel hj)).le_two (by norm_num)
  have b4 : |(dt * (v.getD j 0 * ((upDir v j : Int) : Dbl) / cellWidth L N j)).val| ≤ 2 := by
    linarith [coeff_le_one hf.dt_nonneg hf.pos hf.courant j hj]
  refine ⟨?_, b4⟩
  rw [f1, f2]
  exact F64.fin_mul (le_max (b4.trans (by norm_num)))

omit hj in
/-- Python and Julia. -/
theorem FitCoeffs.change_python
    (hr : ∀ j, j < N.length → |(v.map Dbl.val).getD j 0 / cellWidth (L.map Dbl.val) N j| ≤ 2 ^ 500) :
    ChangeFin N.length (changeTimeLast dt v L N) (changeTimeLast (.fin dt) (v.map F64.fin) (L.map F64.fin) N) := by
  intro j hj a b ha hb
  obtain ⟨e, h⟩ := hf.rate_fin hj (hr j hj)
  unfold changeTimeLast
  rw [upDir_fin, getD_map_fin, hf.width_fin hj, e, diff_fin ha hb]
  exact prod_fin h (diff_le ha hb) (by norm_num) (by norm_num)

omit hj in
/-- Fortran. -/
theorem FitCoeffs.change_fortran {z : ℚ} (hz : ∀ j, j < N.length → (3 + 2 / |cellWidth (L.map Dbl.val) N j|) * η₀ ≤ z)
    (hz1 : z ≤ 1) :
    ChangeFin N.length (changeDivLast dt v L N) (changeDivLast (.fin dt) (v.map F64.fin) (L.map F64.fin) N) := by
  intro j hj a b ha hb
  have hcl := coeff_le_one hf.dt_nonneg hf.pos hf.courant
  have h1 := Fidi.change_fortran Dbl.rounded hf.normal hcl hz j hj a b
  have h2 := abs_le_of_near h1
  have hd : |a.val - b.val| ≤ |a.val| + |b.val| := abs_sub _ _
  have h3 : |upCoeff dt.val (v.map Dbl.val) (L.map Dbl.val) N j * (a.val - b.val)| ≤ 2 * 2 ^ 500 := by
    rw [abs_mul]
    refine (mul_le_of_le_one_left (abs_nonneg _) (hcl j hj)).trans ?_
    linarith
  have h4 : |(changeDivLast dt v L N j a b).val| ≤ 5 * 2 ^ 500 := by
    have : 9 * ρ₀ * |upCoeff dt.val (v.map Dbl.val) (L.map Dbl.val) N j * (a.val - b.val)| ≤
      1 * |upCoeff dt.val (v.map Dbl.val) (L.map Dbl.val) N j * (a.val - b.val)| :=
      mul_le_mul_of_nonneg_right (by norm_num) (abs_nonneg _)
    linarith [(by norm_num : (1 : ℚ) ≤ 2 ^ 500)]
  unfold changeDivLast at h4 ⊢
  rw [upDir_fin, getD_map_fin, hf.dvs_fin hj, hf.width_fin hj, diff_fin ha hb,
    prod_fin (hf.dvs_le hj) (diff_le ha hb) (by positivity) (by norm_num)]
  exact F64.fin_div (hf.width_ne hj) (le_max (h4.trans (by norm_num)))

end coeffs

/-! ### Lists -/

theorem listOf_fin (hp : ∀ n ∈ N, 0 < n) {u : List Nat → Dbl} {u' : List Nat → F64}
    (hu : ∀ g, InGrid N g → u' g = .fin (u g)) : listOf N u' = (listOf N u).map F64.fin := by
  unfold listOf
  rw [List.map_map]
  apply List.map_congr_left
  intro i _
  exact hu _ (cellAt_inGrid hp i)

/-- Powers of the rounding factor. -/
theorem pow_le_two {n : Nat} (h : n ≤ 2 ^ 31) : (1 + ρ₀) ^ n ≤ 2 := by
  have h1 : 1 + (n : ℚ) * (-ρ₀) ≤ (1 + -ρ₀) ^ n := one_add_mul_le_pow (by norm_num) n
  have h2 : (1 + ρ₀) ^ n * (1 + -ρ₀) ^ n ≤ 1 := by
    rw [← mul_pow]
    exact pow_le_one₀ (by norm_num) (by norm_num)
  have hn : (n : ℚ) ≤ 2 ^ 31 := by exact_mod_cast h
  have h3 : (1 : ℚ) / 2 ≤ 1 + (n : ℚ) * (-ρ₀) := by
    have := mul_le_mul_of_nonneg_right hn (by norm_num : (0 : ℚ) ≤ ρ₀)
    linarith [(by norm_num : (2 : ℚ) ^ 31 * ρ₀ ≤ 1 / 2)]
  have hp : 0 ≤ (1 + ρ₀) ^ n := by positivity
  nlinarith [mul_le_mul_of_nonneg_left (h3.trans h1) hp]

/-- Sums of not too many numbers of moderate size. -/
theorem sum_fin (l : List Dbl) (hl : l.length ≤ 2 ^ 31) (hb : ∀ x ∈ l, |x.val| ≤ 2 ^ 900) :
    (l.map F64.fin).foldl (· + ·) 0 = .fin (l.foldl (· + ·) 0) := by
  have hsum : ∀ l : List Dbl, (∀ x ∈ l, |x.val| ≤ 2 ^ 900) → (l.map fun x => |x.val|).sum ≤ l.length * 2 ^ 900 := by
    intro l
    induction l with
    | nil => intro _; simp
    | cons x l ih =>
      intro h
      rw [List.map_cons, List.sum_cons, List.length_cons]
      have h1 := h x List.mem_cons_self
      have h2 := ih fun y hy => h y (List.mem_cons_of_mem _ hy)
      push_cast
      linarith
  have hpre : ∀ n, n ≤ l.length → |((l.take n).foldl (· + ·) 0 : Dbl).val| ≤ maxFinite := by
    intro n hn
    have h1 := foldl_add_error Dbl.rounded (l.take n) 0
    rw [Dbl.rounded.zero, abs_zero, zero_add, zero_add, List.length_take, Nat.min_eq_left hn] at h1
    have h2 := hsum (l.take n) fun x hx => hb x (List.mem_of_mem_take hx)
    rw [List.length_take, Nat.min_eq_left hn] at h2
    set S := ((l.take n).map fun x => |x.val|).sum
    have hS : |((l.take n).map Dbl.val).sum| ≤ S := by
      rw [show S = (((l.take n).map Dbl.val).map fun x => |x|).sum by rw [List.map_map]; rfl]
      generalize (l.take n).map Dbl.val = q
      induction q with
      | nil => simp
      | cons x q ih =>
        rw [List.sum_cons, List.map_cons, List.sum_cons]
        exact (abs_add_le _ _).trans (by linarith)
    have h3 := abs_le_of_near h1
    have hn31 : n ≤ 2 ^ 31 := hn.trans hl
    have hnq : (n : ℚ) ≤ 2 ^ 31 := by exact_mod_cast hn31
    have hS0 : 0 ≤ S := (abs_nonneg _).trans hS
    have h4 : (1 + ρ₀) ^ n * (S + n * η₀) ≤ 2 * (S + n * η₀) :=
      mul_le_mul_of_nonneg_right (pow_le_two hn31) (by positivity)
    have h5 : (n : ℚ) * η₀ ≤ 2 ^ 31 * 1 := mul_le_mul hnq eta_le (by positivity) (by positivity)
    have h6 : (n : ℚ) * 2 ^ 900 ≤ 2 ^ 31 * 2 ^ 900 := mul_le_mul_of_nonneg_right hnq (by positivity)
    refine le_max ?_
    linarith [(by norm_num : 2 * ((2 : ℚ) ^ 31 * 2 ^ 900 + 2 ^ 31 * 1) ≤ 2 ^ 1020)]
  have key : ∀ n, n ≤ l.length → ((l.take n).map F64.fin).foldl (· + ·) 0 = .fin ((l.take n).foldl (· + ·) 0) := by
    intro n
    induction n with
    | zero => intro _; rfl
    | succ n ih =>
      intro hn
      have hp := hpre (n + 1) hn
      rw [List.take_succ_eq_append_getElem (by omega)] at hp ⊢
      rw [List.map_append, List.foldl_append, ih (by omega), List.map_cons, List.map_nil, List.foldl_cons, List.foldl_nil]
      rw [List.foldl_append, List.foldl_cons, List.foldl_nil] at hp ⊢
      exact F64.fin_add hp
  have := key l.length (le_refl _)
  rwa [List.take_length] at this

end Fidi
