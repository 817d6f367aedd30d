import Verif.Lemmas.UpwindStable
import Mathlib.Algebra.MvPolynomial.Basic
import Mathlib.LinearAlgebra.Basis.Basic
import Mathlib.RingTheory.MvPolynomial.Basic
import Mathlib.Algebra.Order.Antidiag.Pi
import Mathlib.Data.Nat.Choose.Multinomial

/-
The closed form of the upwind scheme (helper lemmas of C81): a step is the product with a polynomial in the displacements by one cell.
-/
set_option linter.unusedSectionVars false

namespace Fidi
open Spec Upwind Finset

variable {K : Type} [Field K] [LinearOrder K] [IsStrictOrderedRing K]

/-- The value of `u` in the cell displaced `m i` times along each axis `i`. -/
def displaced (N : List Nat) (s : Nat → Int) (u : List Nat → K) (g : List Nat) (m : Nat → Nat) : K :=
  u (shiftMod N g ((List.range N.length).map fun i => s i * (m i : Int)))

theorem displaced_congr {N : List Nat} {s : Nat → Int} {u : List Nat → K} {g : List Nat} {m m' : Nat → Nat}
    (h : ∀ i, i < N.length → m i = m' i) : displaced N s u g m = displaced N s u g m' := by
  unfold displaced
  congr 2
  apply List.map_congr_left
  intro i hi
  rw [h i (List.mem_range.1 hi)]

/-- Polynomials act on fields: the variable `i` displaces by one cell along axis `i`. -/
noncomputable def polyAct (N : List Nat) (s : Nat → Int) (u : List Nat → K) (g : List Nat) : MvPolynomial ℕ K →ₗ[K] K :=
  (MvPolynomial.basisMonomials ℕ K).constr K fun m => displaced N s u g m

theorem polyAct_monomial {N : List Nat} {s : Nat → Int} {u : List Nat → K} {g : List Nat} (m : ℕ →₀ ℕ) :
    polyAct N s u g (MvPolynomial.monomial m 1) = displaced N s u g m := by
  have := (MvPolynomial.basisMonomials ℕ K).constr_basis K (fun m => displaced N s u g m) m
  simpa [polyAct] using this

theorem polyAct_X {N : List Nat} {s : Nat → Int} {u : List Nat → K} {g : List Nat} (hg : InGrid N g) {j : Nat} (hj : j < N.length)
    (p : MvPolynomial ℕ K) : polyAct N s u g (MvPolynomial.X j * p) = polyAct N s u (neighbour N j (s j) g) p := by
  have h : (polyAct N s u g) ∘ₗ (LinearMap.mulLeft K (MvPolynomial.X j)) = polyAct N s u (neighbour N j (s j) g) := by
    apply (MvPolynomial.basisMonomials ℕ K).ext
    intro m
    rw [MvPolynomial.coe_basisMonomials, LinearMap.comp_apply, LinearMap.mulLeft_apply, MvPolynomial.X,
      MvPolynomial.monomial_mul, one_mul, polyAct_monomial, polyAct_monomial]
    unfold displaced
    rw [shift_neighbour hg s m hj]
    congr 2
    apply List.map_congr_left
    intro i _
    congr 2
    simp only [Finsupp.add_apply, Finsupp.single_apply, eq_comm (a := j)]
    split <;> omega
  exact LinearMap.congr_fun h p

theorem polyAct_stay {N : List Nat} {s : Nat → Int} {u : List Nat → K} {g : List Nat}
    (p : MvPolynomial ℕ K) : polyAct N s u g (MvPolynomial.X N.length * p) = polyAct N s u g p := by
  have h : (polyAct N s u g) ∘ₗ (LinearMap.mulLeft K (MvPolynomial.X N.length)) = polyAct N s u g := by
    apply (MvPolynomial.basisMonomials ℕ K).ext
    intro m
    rw [MvPolynomial.coe_basisMonomials, LinearMap.comp_apply, LinearMap.mulLeft_apply, MvPolynomial.X,
      MvPolynomial.monomial_mul, one_mul, polyAct_monomial, polyAct_monomial]
    apply displaced_congr
    intro i hi
    simp only [Finsupp.add_apply, Finsupp.single_apply]
    rw [if_neg (by omega)]
    omega
  exact LinearMap.congr_fun h p

/-- The polynomial of a step: the weights of the axes, and what is left for the cell itself. -/
noncomputable def stepPoly (d : Nat) (w : Nat → K) : MvPolynomial ℕ K :=
  ∑ i ∈ range (d + 1), MvPolynomial.C (if i < d then w i else 1 - ∑ j ∈ range d, w j) * MvPolynomial.X i

theorem polyAct_C {N : List Nat} {s : Nat → Int} {u : List Nat → K} {g : List Nat} (a : K) (p : MvPolynomial ℕ K) :
    polyAct N s u g (MvPolynomial.C a * p) = a * polyAct N s u g p := by
  rw [MvPolynomial.C_mul', map_smul, smul_eq_mul]

theorem iter_polyAct {N : List Nat} (s : Nat → Int) (w : Nat → K) (u : List Nat → K) (k : Nat) : ∀ g, InGrid N g →
    (upwindStep N s (fun j => -w j))^[k] u g = polyAct N s u g (stepPoly N.length w ^ k) := by
  induction k with
  | zero =>
    intro g hg
    rw [pow_zero, Function.iterate_zero, id, show (1 : MvPolynomial ℕ K) = MvPolynomial.monomial 0 1 from rfl, polyAct_monomial]
    unfold displaced
    simp only [Finsupp.coe_zero, Pi.zero_apply]
    rw [shift_none hg s]
  | succ k ih =>
    intro g hg
    rw [Function.iterate_succ_apply', upwindStep_mean, pow_succ', ih g hg]
    generalize hq : stepPoly N.length w ^ k = q at ih ⊢
    rw [stepPoly, sum_mul, map_sum, sum_range_succ]
    rw [if_neg (lt_irrefl _), mul_assoc, polyAct_C, polyAct_stay, add_comm]
    congr 1
    apply sum_congr rfl
    intro j hj
    rw [if_pos (mem_range.1 hj), mul_assoc, polyAct_C, polyAct_X hg (mem_range.1 hj), ih _ (neighbour_inGrid hg j (s j))]

theorem stepPoly_pow (d : Nat) (w : Nat → K) (k : Nat) :
    stepPoly d w ^ k = ∑ m ∈ (range (d + 1)).piAntidiag k, MvPolynomial.C ((Nat.multinomial (range (d + 1)) m : K) *
      ((1 - ∑ j ∈ range d, w j) ^ m d * ∏ j ∈ range d, w j ^ m j)) *
        MvPolynomial.monomial (∑ i ∈ range (d + 1), Finsupp.single i (m i)) 1 := by
  rw [stepPoly, sum_pow_eq_sum_piAntidiag]
  apply sum_congr rfl
  intro m _
  simp only [mul_pow, prod_mul_distrib]
  have h1 : ∏ i ∈ range (d + 1), MvPolynomial.C (σ := ℕ) (if i < d then w i else 1 - ∑ j ∈ range d, w j) ^ m i =
      MvPolynomial.C ((1 - ∑ j ∈ range d, w j) ^ m d * ∏ j ∈ range d, w j ^ m j) := by
    rw [prod_range_succ, if_neg (lt_irrefl _), mul_comm, map_mul, map_pow, map_prod]
    congr 1
    apply prod_congr rfl
    intro j hj
    rw [if_pos (mem_range.1 hj), map_pow]
  have h2 : ∏ i ∈ range (d + 1), (MvPolynomial.X i : MvPolynomial ℕ K) ^ m i =
      MvPolynomial.monomial (∑ i ∈ range (d + 1), Finsupp.single i (m i)) 1 := by
    rw [MvPolynomial.monomial_sum_one]
    apply prod_congr rfl
    intro i _
    rw [MvPolynomial.X_pow_eq_monomial]
  rw [h1, h2, map_mul MvPolynomial.C (Nat.multinomial (range (d + 1)) m : K), map_natCast, mul_assoc]

/-- The scheme after `k` steps. -/
theorem iter_closed {N : List Nat} (s : Nat → Int) (w : Nat → K) (u : List Nat → K) (k : Nat) (g : List Nat) (hg : InGrid N g) :
    (upwindStep N s (fun j => -w j))^[k] u g = ∑ m ∈ (range (N.length + 1)).piAntidiag k,
      (Nat.multinomial (range (N.length + 1)) m : K) *
        ((1 - ∑ j ∈ range N.length, w j) ^ m N.length * ∏ j ∈ range N.length, w j ^ m j) * displaced N s u g m := by
  rw [iter_polyAct s w u k g hg, stepPoly_pow, map_sum]
  apply sum_congr rfl
  intro m _
  rw [polyAct_C, polyAct_monomial]
  congr 1
  apply displaced_congr
  intro i hi
  rw [Finsupp.finset_sum_apply, sum_eq_single i]
  · simp
  · intro b _ hb; simp [hb]
  · intro h; exact absurd (mem_range.2 (by omega)) h

/-- A source in the low corner, displaced. -/
theorem displaced_corner {N g : List Nat} (hg : InGrid N g) {s : Nat → Int} (hs : ∀ j, j < N.length → s j = -1) {m : Nat → Nat}
    (hm : ∀ j, j < N.length → m j < N.getD j 0) :
    displaced N s (cornerField : List Nat → K) g m = if ∀ j, j < N.length → m j = g.getD j 0 then 1 else 0 := by
  obtain ⟨hl, hlt⟩ := inGrid_iff_getElem.1 hg
  have hin := shiftMod_inGrid hg (dir := (List.range N.length).map fun i => s i * (m i : Int)) (by simp)
  have hl2 := hin.length_eq
  have hiff : (∀ x ∈ shiftMod N g ((List.range N.length).map fun i => s i * (m i : Int)), x = 0) ↔
      ∀ j, j < N.length → m j = g.getD j 0 := by
    have hget : ∀ j (hj : j < N.length), (shiftMod N g ((List.range N.length).map fun i => s i * (m i : Int)))[j]? =
        some ((((g.getD j 0 : Int) - (m j : Int)) % (N.getD j 0 : Int)).toNat) := by
      intro j hj
      rw [shiftMod_getElem j hj (by omega) (by simpa using hj)]
      simp only [List.getElem_map, List.getElem_range]
      rw [hs j hj, natGetD_of_lt hj, natGetD_of_lt (by omega : j < g.length)]
      congr 3
      ring
    have hzero : ∀ j, j < N.length → ((((g.getD j 0 : Int) - (m j : Int)) % (N.getD j 0 : Int)).toNat = 0 ↔ m j = g.getD j 0) := by
      intro j hj
      have h1 := hm j hj
      have h2 : g.getD j 0 < N.getD j 0 := by
        rw [natGetD_of_lt hj, natGetD_of_lt (by omega : j < g.length)]
        exact hlt j hj (by omega)
      have h3 := Int.emod_nonneg ((g.getD j 0 : Int) - (m j : Int)) (by omega : (N.getD j 0 : Int) ≠ 0)
      constructor
      · intro h
        have h0 : ((g.getD j 0 : Int) - (m j : Int)) % (N.getD j 0 : Int) = 0 := by omega
        obtain ⟨q, hq⟩ := Int.dvd_of_emod_eq_zero h0
        have : q = 0 := by
          by_contra hne
          have h4 : (N.getD j 0 : Int) ≤ |(N.getD j 0 : Int) * q| := by
            rw [abs_mul, abs_of_nonneg (by omega : (0 : Int) ≤ (N.getD j 0 : Int))]
            exact le_mul_of_one_le_right (by omega) (Int.one_le_abs hne)
          rw [← hq] at h4
          have h5 : |(g.getD j 0 : Int) - (m j : Int)| < (N.getD j 0 : Int) := by
            rw [abs_lt]; omega
          omega
        rw [this, mul_zero] at hq
        omega
      · intro h
        rw [h, sub_self, Int.zero_emod]
        rfl
    constructor
    · intro h j hj
      exact (hzero j hj).1 (h _ (List.mem_of_getElem? (hget j hj)))
    · intro h x hx
      obtain ⟨j, hj, rfl⟩ := List.mem_iff_getElem.1 hx
      have := hget j (by omega)
      rw [List.getElem?_eq_getElem hj, Option.some_inj] at this
      rw [this]
      exact (hzero j (by omega)).2 (h j (by omega))
  unfold displaced cornerField
  simp only [hiff]

/-- The scheme from 1 in the low corner, as long as nothing has gone round. -/
theorem iter_corner {N : List Nat} {s : Nat → Int} (hs : ∀ j, j < N.length → s j = -1) (w : Nat → K) (k : Nat)
    (hk : ∀ n ∈ N, k < n) (g : List Nat) (hg : InGrid N g) :
    (upwindStep N s (fun j => -w j))^[k] cornerField g =
      if ∑ j ∈ range N.length, g.getD j 0 ≤ k then
        (k.factorial : K) / (((k - ∑ j ∈ range N.length, g.getD j 0).factorial : K) *
            ∏ j ∈ range N.length, ((g.getD j 0).factorial : K)) *
          ((1 - ∑ j ∈ range N.length, w j) ^ (k - ∑ j ∈ range N.length, g.getD j 0) * ∏ j ∈ range N.length, w j ^ g.getD j 0)
      else 0 := by
  rw [iter_closed s w _ k g hg]
  have hmem : ∀ m ∈ (range (N.length + 1)).piAntidiag k, ∑ j ∈ range N.length, m j + m N.length = k ∧
      (∀ i, N.length < i → m i = 0) ∧ ∀ j, j < N.length → m j < N.getD j 0 := by
    intro m hm
    rw [mem_piAntidiag, sum_range_succ] at hm
    refine ⟨hm.1, fun i hi => ?_, fun j hj => ?_⟩
    · by_contra hne
      have := mem_range.1 (hm.2 i hne)
      omega
    · have h1 : m j ≤ ∑ j ∈ range N.length, m j := single_le_sum (fun _ _ => Nat.zero_le _) (mem_range.2 hj)
      have h2 := hk _ (List.getElem_mem hj)
      rw [natGetD_of_lt hj]
      omega
  by_cases hle : ∑ j ∈ range N.length, g.getD j 0 ≤ k
  · rw [if_pos hle]
    have hsum : ∑ j ∈ range N.length, (fun i => if i < N.length then g.getD i 0 else if i = N.length then
        k - ∑ j ∈ range N.length, g.getD j 0 else 0) j = ∑ j ∈ range N.length, g.getD j 0 :=
      sum_congr rfl fun j hj => if_pos (mem_range.1 hj)
    have hin : (fun i => if i < N.length then g.getD i 0 else if i = N.length then
        k - ∑ j ∈ range N.length, g.getD j 0 else 0) ∈ (range (N.length + 1)).piAntidiag k := by
      rw [mem_piAntidiag, sum_range_succ, hsum]
      refine ⟨by rw [if_neg (lt_irrefl _), if_pos rfl]; exact Nat.add_sub_cancel' hle, fun i hi => ?_⟩
      rw [mem_range]
      by_contra h
      rw [if_neg (by omega), if_neg (by omega)] at hi
      exact hi rfl
    rw [sum_eq_single_of_mem _ hin]
    · rw [displaced_corner hg hs (hmem _ hin).2.2, if_pos (fun j hj => if_pos hj), mul_one]
      have hspec := Nat.multinomial_spec (range (N.length + 1)) (fun i => if i < N.length then g.getD i 0 else
        if i = N.length then k - ∑ j ∈ range N.length, g.getD j 0 else 0)
      rw [sum_range_succ, hsum, prod_range_succ] at hspec
      simp only [lt_irrefl, if_false, if_true] at hspec
      rw [prod_congr rfl fun j hj => by rw [if_pos (mem_range.1 hj)], Nat.add_sub_cancel' hle] at hspec
      congr 1
      · rw [eq_div_iff]
        · rw [← hspec]
          push_cast
          ring
        · refine mul_ne_zero (by exact_mod_cast Nat.factorial_ne_zero _) (prod_ne_zero_iff.2 fun j _ => ?_)
          exact_mod_cast Nat.factorial_ne_zero _
      · simp only [lt_irrefl, if_false, if_true]
        congr 1
        exact prod_congr rfl fun j hj => by rw [if_pos (mem_range.1 hj)]
    · intro m hm hne
      obtain ⟨h1, h2, h3⟩ := hmem m hm
      rw [displaced_corner hg hs h3, if_neg, mul_zero]
      intro h
      apply hne
      funext i
      rcases Nat.lt_trichotomy i N.length with hi | hi | hi
      · rw [if_pos hi, h i hi]
      · rw [if_neg (by omega), if_pos hi, hi]
        have : ∑ j ∈ range N.length, m j = ∑ j ∈ range N.length, g.getD j 0 :=
          sum_congr rfl fun j hj => h j (mem_range.1 hj)
        omega
      · rw [if_neg (by omega), if_neg (by omega), h2 i hi]
  · rw [if_neg hle]
    apply sum_eq_zero
    intro m hm
    obtain ⟨h1, h2, h3⟩ := hmem m hm
    rw [displaced_corner hg hs h3, if_neg, mul_zero]
    intro h
    have : ∑ j ∈ range N.length, m j = ∑ j ∈ range N.length, g.getD j 0 :=
      sum_congr rfl fun j hj => h j (mem_range.1 hj)
    omega

end Fidi
