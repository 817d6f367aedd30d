import Verif.Lemmas.LapDouble
import Verif.Lemmas.LaplaceExact
import Mathlib.Analysis.Real.Pi.Bounds
import Mathlib.Analysis.SpecialFunctions.Trigonometric.Bounds

/-
The initial field of laplacian with IEEE numbers against the product of sines, and how the discrete Laplacian carries the error.
-/
set_option linter.unusedSectionVars false
set_option exponentiation.threshold 1100

namespace Fidi
open Spec Finset

local notation "ρ₀" => (1 / 2 ^ 53 : ℚ)
local notation "η₀" => (1 / 2 ^ 1075 : ℚ)
local notation "tiny₀" => (1 / 2 ^ 1022 : ℚ)

theorem normal_of_ge {x : ℚ} (h : 1 / 2 ^ 100 ≤ |x|) : Normal tiny₀ x := by
  right
  have h1 := tiny_le 1022 (by norm_num)
  have h2 : 2 * ((1 : ℚ) / 2 ^ 200) ≤ 1 / 2 ^ 100 := by norm_num
  generalize tiny₀ = t at h1 ⊢
  linarith

/-- The argument of the sine. -/
theorem lapArg_rel {p : Dbl} (hp1 : 1 ≤ p.val) {N i : Nat} (hN2 : N < 2 ^ 31) (hi : i < N) :
    Rel (9 * ρ₀) (⟨2⟩ * p * (0 + ((i : Dbl) + ⟨1 / 2⟩) * (1 / (N : Dbl))) : Dbl).val
      (2 * p.val * (((i : ℚ) + 1 / 2) * (1 / N))) := by
  have hNq : (N : ℚ) ≤ 2147483648 := by exact_mod_cast (by omega : N ≤ 2147483648)
  have hN1 : (1 : ℚ) ≤ N := by exact_mod_cast (by omega : 1 ≤ N)
  have hi0 : (0 : ℚ) ≤ i := Nat.cast_nonneg i
  have hN' : (1 : ℚ) / 2147483648 ≤ 1 / N := by
    apply one_div_le_one_div_of_le <;> linarith
  have hx0 : 0 < (i : ℚ) + 1 / 2 := by linarith
  have a1 : Rel (21 / 10 * ρ₀) ((i : Dbl) + ⟨1 / 2⟩ : Dbl).val ((i : ℚ) + 1 / 2) := by
    have c0 : |(i : Dbl).val - i| ≤ ρ₀ * |(i : ℚ)| := Dbl.rounded.nat i
    have c1 : Rel ρ₀ ((i : Dbl).val + 1 / 2) ((i : ℚ) + 1 / 2) := by
      unfold Rel
      rw [add_sub_add_right_eq_sub, abs_of_pos hx0]
      rw [abs_of_nonneg hi0] at c0
      linarith [(by norm_num : 0 ≤ ρ₀ * (1 / 2))]
    have c2 := (Dbl.rounded.add (i : Dbl) ⟨1 / 2⟩).2 (Spec.Normal.of_rel c1 (by norm_num) (normal_of_ge (by
      rw [abs_of_pos hx0]
      linarith [(by norm_num : (1 : ℚ) / 2 ^ 100 ≤ 1 / 2)])))
    exact (Rel.trans (by norm_num) c2 c1).mono (by norm_num)
  have a2 : Rel (21 / 10 * ρ₀) (1 / (N : Dbl) : Dbl).val (1 / (N : ℚ)) := by
    have hnat : Rel (1 * ρ₀) (N : Dbl).val (N : ℚ) := by rw [one_mul]; exact Dbl.rounded.nat N
    have h := width_rel Dbl.rounded hnat 1 (normal_of_ge (by
      rw [Dbl.rounded.one, abs_of_pos (by positivity)]
      exact le_trans (by norm_num) hN'))
    rwa [Dbl.rounded.one] at h
  have hy : (1 : ℚ) / 2 ^ 32 ≤ ((i : ℚ) + 1 / 2) * (1 / N) := by
    have := mul_le_mul (by linarith : (1 : ℚ) / 2 ≤ i + 1 / 2) hN' (by norm_num) hx0.le
    exact le_trans (by norm_num) this
  set y : ℚ := ((i : ℚ) + 1 / 2) * (1 / N) with hyd
  have hy0 : 0 < y := lt_of_lt_of_le (by norm_num) hy
  have hyn : Normal tiny₀ y := normal_of_ge (by rw [abs_of_pos hy0]; exact le_trans (by norm_num) hy)
  have a3 : Rel (54 / 10 * ρ₀) (((i : Dbl) + ⟨1 / 2⟩) * (1 / (N : Dbl)) : Dbl).val y :=
    mul_rel Dbl.rounded (by norm_num) (by norm_num) a1 a2 hyn (by norm_num) (by norm_num)
  have a4 : Rel (65 / 10 * ρ₀) (0 + ((i : Dbl) + ⟨1 / 2⟩) * (1 / (N : Dbl)) : Dbl).val y := by
    generalize ((i : Dbl) + ⟨1 / 2⟩) * (1 / (N : Dbl)) = z at a3
    have h := Dbl.rounded.add 0 z
    rw [Dbl.rounded.zero, zero_add] at h
    exact (Rel.trans (by norm_num) (h.2 (Spec.Normal.of_rel a3 (by norm_num) hyn)) a3).mono (by norm_num)
  have a5 : Rel (1 * ρ₀) (⟨2⟩ * p : Dbl).val (2 * p.val) :=
    mul_rel Dbl.rounded (le_refl 0) (le_refl 0) (self_rel (⟨2⟩ : Dbl)) (self_rel p) (normal_of_ge (by
      show _ ≤ |2 * p.val|
      rw [abs_of_pos (by linarith)]
      linarith [(by norm_num : (1 : ℚ) / 2 ^ 100 ≤ 1)])) (by norm_num) (by norm_num)
  refine mul_rel Dbl.rounded (by norm_num) (by norm_num) a5 a4 (normal_of_ge ?_) (by norm_num) (by norm_num)
  rw [abs_of_pos (by positivity)]
  have : 1 * ((1 : ℚ) / 2 ^ 32) ≤ 2 * p.val * y := mul_le_mul (by linarith) hy (by norm_num) (by linarith)
  exact le_trans (by norm_num) this

/-- The argument of the sine and its exact value. -/
theorem lapArg_near {p : Dbl} (hp : |(p.val : ℝ) - Real.pi| ≤ 1 / 2 ^ 52) {N i : Nat} (hN2 : N < 2 ^ 31) (hi : i < N) :
    |((⟨2⟩ * p * (0 + ((i : Dbl) + ⟨1 / 2⟩) * (1 / (N : Dbl))) : Dbl).val : ℝ) -
      2 * Real.pi * (((i : ℝ) + 1 / 2) / (N : ℝ))| ≤ 38 / 2 ^ 52 := by
  have hb := abs_le.1 hp
  have h3 := Real.pi_gt_three
  have h4 := Real.pi_lt_d2
  have hp1 : 1 ≤ p.val := by
    have : (1 : ℝ) ≤ p.val := by norm_num at hb; linarith
    exact_mod_cast this
  have hp4 : p.val ≤ 4 := by
    have : (p.val : ℝ) ≤ 4 := by norm_num at hb h4; linarith
    exact_mod_cast this
  have h := lapArg_rel hp1 hN2 hi
  generalize (⟨2⟩ * p * (0 + ((i : Dbl) + ⟨1 / 2⟩) * (1 / (N : Dbl))) : Dbl) = x at h
  have hN1 : (1 : ℝ) ≤ N := by exact_mod_cast (by omega : 1 ≤ N)
  have hiN : (i : ℝ) + 1 ≤ N := by exact_mod_cast (by omega : i + 1 ≤ N)
  have hi0 : (0 : ℝ) ≤ i := Nat.cast_nonneg i
  unfold Rel at h
  have h' := (Rat.cast_le (K := ℝ)).2 h
  push_cast at h'
  have e : ((i : ℝ) + 1 / 2) * (1 / N) = ((i : ℝ) + 1 / 2) / N := by ring
  rw [e] at h'
  have hy0 : 0 ≤ ((i : ℝ) + 1 / 2) / N := by positivity
  have hy1 : ((i : ℝ) + 1 / 2) / N ≤ 1 := by rw [div_le_one (by linarith)]; linarith
  generalize ((i : ℝ) + 1 / 2) / (N : ℝ) = y at h' hy0 hy1
  have hp1' : (1 : ℝ) ≤ p.val := by exact_mod_cast hp1
  have hp4' : (p.val : ℝ) ≤ 4 := by exact_mod_cast hp4
  generalize (p.val : ℝ) = q at *
  generalize (x.val : ℝ) = z at *
  have c1 : |2 * q * y| ≤ 8 := by
    rw [abs_of_nonneg (by positivity)]
    nlinarith
  have c2 : |2 * q * y - 2 * Real.pi * y| ≤ 2 * (1 / 2 ^ 52) := by
    rw [show 2 * q * y - 2 * Real.pi * y = 2 * (q - Real.pi) * y by ring, abs_mul, abs_mul, abs_of_nonneg hy0,
      abs_of_pos (by norm_num : (0 : ℝ) < 2)]
    have := abs_nonneg (q - Real.pi)
    nlinarith
  have c3 := abs_sub_le z (2 * q * y) (2 * Real.pi * y)
  have c4 : 9 * (1 / 2 ^ 53 : ℝ) * |2 * q * y| ≤ 9 * (1 / 2 ^ 53) * 8 := mul_le_mul_of_nonneg_left c1 (by norm_num)
  norm_num at c4 c2 h' ⊢
  linarith

theorem wave_abs_le (N i : Nat) : |wave N i| ≤ 1 := Real.abs_sin_le_one _

/-- The initial field is the product of sines up to rounding. -/
theorem lapInit_near {sin : F64 → F64} {pi : F64}
    (hsin : ∀ x : Dbl, ∃ y : Dbl, sin (.fin x) = .fin y ∧ |(y.val : ℝ) - Real.sin x.val| ≤ 1 / 2 ^ 52)
    (hpi : ∃ p : Dbl, pi = .fin p ∧ |(p.val : ℝ) - Real.pi| ≤ 1 / 2 ^ 52) {N : Nat} (hN2 : N < 2 ^ 31) {n : Nat} (hn : n < 32)
    {g : List Nat} (hg : InGrid (List.replicate n N) g) :
    ∃ y : Dbl, lapInit sin pi N g = .fin y ∧ |(y.val : ℝ) - (g.map (wave N)).prod| ≤ n * (41 / 2 ^ 52) := by
  obtain ⟨p, rfl, hp⟩ := hpi
  have hlen : g.length = n := by rw [hg.length_eq, List.length_replicate]
  have hmem : ∀ i ∈ g, i < N := by
    intro i hi
    obtain ⟨k, hk, rfl⟩ := List.mem_iff_getElem.1 hi
    have h1 := inGrid_getElem hg k (by rw [← hg.length_eq]; exact hk) hk
    rwa [List.getElem_replicate] at h1
  have hp4 : |p.val| ≤ 4 := by
    have hb := abs_le.1 hp
    have h3 := Real.pi_gt_three
    have h4 := Real.pi_lt_d2
    have : |(p.val : ℝ)| ≤ 4 := by
      rw [abs_le]
      norm_num at hb h4
      constructor <;> linarith
    exact_mod_cast this
  have key : ∀ (l : List Nat) (a : Dbl) (P : ℝ) (m : Nat), (∀ i ∈ l, i < N) → |P| ≤ 1 → |(a.val : ℝ) - P| ≤ m * (41 / 2 ^ 52) →
      m + l.length ≤ n → ∃ y : Dbl, l.foldl (fun (res : F64) (i : Nat) => res * sin (((2 : Nat) : F64) * .fin p *
        (0 + ((i : F64) + 1 / ((2 : Nat) : F64)) * ((1 - 0) / (N : F64))))) (.fin a) = .fin y ∧
        |(y.val : ℝ) - P * (l.map (wave N)).prod| ≤ ((m + l.length : Nat) : ℝ) * (41 / 2 ^ 52) := by
    intro l
    induction l with
    | nil => intro a P m _ _ ha _; exact ⟨a, rfl, by simpa using ha⟩
    | cons i l ih =>
      intro a P m hl hP ha hm
      have hi := hl i List.mem_cons_self
      have hx := lapArg_fin hp4 (by omega) hN2 hi
      have hx' := lapArg_near hp hN2 hi
      rw [List.length_cons] at hm ⊢
      generalize (⟨2⟩ * p * (0 + ((i : Dbl) + ⟨1 / 2⟩) * (1 / (N : Dbl))) : Dbl) = x at hx hx'
      obtain ⟨z, hz, hz1⟩ := hsin x
      have hzw : |(z.val : ℝ) - wave N i| ≤ 39 / 2 ^ 52 := by
        have h1 := Real.abs_sin_sub_sin_le x.val (2 * Real.pi * (((i : ℝ) + 1 / 2) / (N : ℝ)))
        have h2 := abs_sub_le (z.val : ℝ) (Real.sin x.val) (wave N i)
        have h3 : |Real.sin x.val - wave N i| ≤ 38 / 2 ^ 52 := h1.trans hx'
        norm_num at h2 h3 hz1 ⊢
        linarith
      have hw := wave_abs_le N i
      have hm31 : (m : ℝ) ≤ 31 := by exact_mod_cast (by omega : m ≤ 31)
      have haR : |(a.val : ℝ)| ≤ 1 + 1 / 100 := by
        have h1 := abs_sub_abs_le_abs_sub (a.val : ℝ) P
        have h2 : (m : ℝ) * (41 / 2 ^ 52) ≤ 31 * (41 / 2 ^ 52) := mul_le_mul_of_nonneg_right hm31 (by norm_num)
        norm_num at h2 ha ⊢
        linarith
      have hzR : |(z.val : ℝ)| ≤ 1 + 1 / 100 := by
        have h1 := abs_sub_abs_le_abs_sub (z.val : ℝ) (wave N i)
        norm_num at h1 hzw ⊢
        linarith
      have hr := (Dbl.rounded.mul a z).1
      have hη : η₀ ≤ 1 / 2 ^ 200 := tiny_le 1075 (by norm_num)
      have hr' : |(a * z).val - a.val * z.val| ≤ ρ₀ * |a.val * z.val| + 1 / 2 ^ 200 := by
        generalize η₀ = t at hr hη
        linarith
      have hrR := (Rat.cast_le (K := ℝ)).2 hr'
      push_cast at hrR
      have haz : |(a.val : ℝ) * z.val| ≤ (1 + 1 / 100) * (1 + 1 / 100) := by
        rw [abs_mul]
        exact mul_le_mul haR hzR (abs_nonneg _) (by norm_num)
      have hstep : |((a * z).val : ℝ) - P * wave N i| ≤ ((m + 1 : Nat) : ℝ) * (41 / 2 ^ 52) := by
        have e : ((a * z).val : ℝ) - P * wave N i =
            (((a * z).val : ℝ) - a.val * z.val) + (a.val * (z.val - wave N i) + (a.val - P) * wave N i) := by ring
        rw [e]
        refine (abs_add_le _ _).trans ?_
        have h1 := abs_add_le ((a.val : ℝ) * (z.val - wave N i)) ((a.val - P) * wave N i)
        rw [abs_mul, abs_mul] at h1
        have h2 := mul_le_mul haR hzw (abs_nonneg _) (by norm_num)
        have h3 : |(a.val : ℝ) - P| * |wave N i| ≤ |(a.val : ℝ) - P| := mul_le_of_le_one_right (abs_nonneg _) hw
        have h4 : (1 / 2 ^ 53 : ℝ) * |(a.val : ℝ) * z.val| ≤ 1 / 2 ^ 53 * ((1 + 1 / 100) * (1 + 1 / 100)) :=
          mul_le_mul_of_nonneg_left haz (by norm_num)
        have h5 : (1 / 2 ^ 53 : ℝ) * ((1 + 1 / 100) * (1 + 1 / 100)) + 1 / 2 ^ 200 + (1 + 1 / 100) * (39 / 2 ^ 52) ≤ 41 / 2 ^ 52 := by
          norm_num
        push_cast
        rw [add_mul, one_mul]
        linarith
      have hfin : |(a * z).val| ≤ 2 ^ 200 := by
        have h1 := RoundsTo.abs_le (Dbl.rounded.mul a z)
        have h2 : |a.val * z.val| ≤ 2 := by
          have : |(a.val : ℝ) * z.val| ≤ 2 := haz.trans (by norm_num)
          exact_mod_cast this
        linarith [(by norm_num : (5 : ℚ) ≤ 2 ^ 200)]
      have hPw : |P * wave N i| ≤ 1 := by
        rw [abs_mul]
        exact mul_le_one₀ hP (abs_nonneg _) hw
      obtain ⟨y, e, hy⟩ := ih (a * z) (P * wave N i) (m + 1) (fun j hj => hl j (List.mem_cons_of_mem _ hj)) hPw hstep (by omega)
      refine ⟨y, ?_, ?_⟩
      · rw [List.foldl_cons, hx, hz, F64.fin_mul (max_ge_200 hfin), e]
      · rw [List.map_cons, List.prod_cons, ← mul_assoc]
        rwa [Nat.add_right_comm, Nat.add_assoc m l.length 1] at hy
  obtain ⟨y, h1, h2⟩ := key g 1 1 0 hmem (by simp) (by rw [Dbl.rounded.one]; simp) (by omega)
  exact ⟨y, h1, by rwa [one_mul, Nat.zero_add, hlen] at h2⟩

/-! ### The discrete Laplacian and errors -/

theorem laplace_iter_cast (N : List Nat) (u : List Nat → ℚ) (k : Nat) (g : List Nat) :
    (((laplace N)^[k] u g : ℚ) : ℝ) = (laplace N)^[k] (fun g => (u g : ℝ)) g := by
  induction k generalizing g with
  | zero => rfl
  | succ k ih =>
    rw [Function.iterate_succ_apply', Function.iterate_succ_apply', laplace_eq, laplace_eq]
    push_cast
    simp only [ih]

theorem laplace_iter_near {N : List Nat} {u w : List Nat → ℝ} {b : ℝ} (h : ∀ g, InGrid N g → |u g - w g| ≤ b) (k : Nat) :
    ∀ g, InGrid N g → |(laplace N)^[k] u g - (laplace N)^[k] w g| ≤ (4 * N.length) ^ k * b := by
  induction k with
  | zero => intro g hg; simpa using h g hg
  | succ k ih =>
    intro g hg
    rw [Function.iterate_succ_apply', Function.iterate_succ_apply', laplace_eq, laplace_eq, ← sum_sub_distrib]
    refine (abs_sum_le_sum_abs _ _).trans ?_
    refine (sum_le_card_nsmul _ _ (4 * ((4 * (N.length : ℝ)) ^ k * b)) ?_).trans ?_
    · intro j _
      have h1 := abs_le.1 (ih g hg)
      have h2 := abs_le.1 (ih _ (neighbour_inGrid hg j 1))
      have h3 := abs_le.1 (ih _ (neighbour_inGrid hg j (-1)))
      exact abs_le.2 ⟨by linarith [h1.1, h1.2, h2.1, h3.1], by linarith [h1.1, h1.2, h2.2, h3.2]⟩
    · rw [card_range, nsmul_eq_mul, pow_succ]
      exact le_of_eq (by ring)

end Fidi
