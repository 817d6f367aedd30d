import Verif.Lemmas.Dbl
import Verif.Lemmas.Ieee
import Verif.Spec.Matmult

/-
Rounding of whole numbers of up to 53 bits, and counting with doubles.
-/
namespace Fidi
open Spec

theorem rndInt_nat (n : Nat) : rndInt (n : ℚ) = n := by
  unfold rndInt
  simp [Nat.mod_one]

theorem rnd_nat {n : Nat} (h : n < 2 ^ 53) : rnd (n : ℚ) = n := by
  by_cases h0 : n = 0
  · subst h0; simp [rnd]
  have hpos : (0 : ℚ) < n := by exact_mod_cast Nat.pos_of_ne_zero h0
  unfold rnd
  rw [if_neg hpos.ne', if_pos hpos]
  unfold rndPos
  have hl : n.log2 < 53 := (Nat.log2_lt h0).2 h
  have hle : 2 ^ n.log2 ≤ n := Nat.log2_self_le h0
  have h1 : (Nat.log2 (n : ℚ).num.toNat : Int) - (Nat.log2 (n : ℚ).den : Int) - 52 = (n.log2 : Int) - 52 := by
    simp
    decide
  rw [h1]
  have hs : scale (n : ℚ) (-((n.log2 : Int) - 52)) = ((n * 2 ^ (52 - n.log2) : Nat) : ℚ) := by
    unfold scale
    rw [if_pos (by omega), show (-((n.log2 : Int) - 52)).toNat = 52 - n.log2 by omega]
    push_cast
    rfl
  have hge : ¬ scale (n : ℚ) (-((n.log2 : Int) - 52)) < ((2 ^ 52 : Nat) : ℚ) := by
    rw [hs, not_lt]
    have : 2 ^ 52 ≤ n * 2 ^ (52 - n.log2) := by
      calc 2 ^ 52 = 2 ^ n.log2 * 2 ^ (52 - n.log2) := by rw [← pow_add]; congr 1; omega
        _ ≤ n * 2 ^ (52 - n.log2) := Nat.mul_le_mul_right _ hle
    exact_mod_cast this
  dsimp only
  rw [if_neg hge, max_eq_left (by omega), hs, rndInt_nat]
  unfold scale
  by_cases h52 : n.log2 = 52
  · rw [if_pos (by omega), h52]
    simp
  · rw [if_neg (by omega), show (-((n.log2 : Int) - 52)).toNat = 52 - n.log2 by omega]
    push_cast
    rw [mul_div_assoc, div_self (by positivity), mul_one]

/-- Counting with doubles stops at 2^53. -/
theorem countUp_double (t : Nat) : (countUp t : F64) = .fin ⟨(min (t + 1) (2 ^ 53) : Nat)⟩ := by
  have hr : rnd (((2 ^ 53 : Nat) : ℚ) + 1) = ((2 ^ 53 : Nat) : ℚ) := by decide +kernel
  have hr' : rnd ((2 ^ 53 : Nat) : ℚ) = ((2 ^ 53 : Nat) : ℚ) := by decide +kernel
  have hmax : ((2 ^ 53 : Nat) : ℚ) ≤ maxFinite := by decide +kernel
  induction t with
  | zero =>
    show F64.fin ⟨1⟩ = _
    norm_num
  | succ t ih =>
    show F64.add (countUp t) (F64.fin ⟨1⟩) = _
    rw [ih]
    show F64.ofRat (((min (t + 1) (2 ^ 53) : Nat) : ℚ) + 1) = _
    have key : rnd (((min (t + 1) (2 ^ 53) : Nat) : ℚ) + 1) = ((min (t + 1 + 1) (2 ^ 53) : Nat) : ℚ) := by
      rcases Nat.lt_or_ge (t + 1) (2 ^ 53) with h | h
      · rw [Nat.min_eq_left h.le, Nat.min_eq_left (by omega : t + 1 + 1 ≤ 2 ^ 53)]
        have e : ((t + 1 : Nat) : ℚ) + 1 = ((t + 1 + 1 : Nat) : ℚ) := by push_cast; ring
        rw [e]
        rcases Nat.lt_or_ge (t + 1 + 1) (2 ^ 53) with h' | h'
        · exact rnd_nat h'
        · rw [show t + 1 + 1 = 2 ^ 53 by omega]
          exact hr'
      · rw [Nat.min_eq_right h, Nat.min_eq_right (by omega : 2 ^ 53 ≤ t + 1 + 1)]
        exact hr
    unfold F64.ofRat
    rw [key, if_pos]
    have hle : ((min (t + 1 + 1) (2 ^ 53) : Nat) : ℚ) ≤ ((2 ^ 53 : Nat) : ℚ) := by exact_mod_cast Nat.min_le_right _ _
    rw [abs_of_nonneg (by exact_mod_cast Nat.zero_le _)]
    exact hle.trans hmax

theorem countUp_le (t : Nat) : ∃ x : Dbl, (countUp t : F64) = .fin x ∧ |x.val| ≤ 2 ^ 53 := by
  refine ⟨_, countUp_double t, ?_⟩
  dsimp only
  rw [abs_of_nonneg (by exact_mod_cast Nat.zero_le _)]
  exact_mod_cast Nat.min_le_right _ _

theorem max_ge_200 {x : ℚ} (h : x ≤ 2 ^ 200) : x ≤ maxFinite :=
  le_max (h.trans (pow_le_pow_right₀ (by norm_num) (by norm_num)))

theorem mul_fin_le {x y : Dbl} (hx : |x.val| ≤ 2 ^ 53) (hy : |y.val| ≤ 2 ^ 53) :
    F64.fin x * F64.fin y = .fin (x * y) ∧ |(x * y).val| ≤ 2 ^ 108 := by
  have h : |(x * y).val| ≤ 2 ^ 108 := by
    have h1 : |(x * y).val| ≤ 2 * |x.val * y.val| + 1 := RoundsTo.abs_le (rnd_roundsTo (x.val * y.val))
    have h2 : |x.val * y.val| ≤ 2 ^ 53 * 2 ^ 53 := by
      rw [abs_mul]
      exact mul_le_mul hx hy (abs_nonneg _) (by positivity)
    refine h1.trans ?_
    norm_num at h2 ⊢
    linarith
  exact ⟨F64.fin_mul (max_ge_200 (h.trans (by norm_num))), h⟩

theorem add_fin_le {x y : Dbl} {k : Nat} (hk : k < 2 ^ 31) (hx : |x.val| ≤ k * 2 ^ 109) (hy : |y.val| ≤ 2 ^ 108) :
    F64.fin x + F64.fin y = .fin (x + y) ∧ |(x + y).val| ≤ ((k + 1 : Nat) : ℚ) * 2 ^ 109 := by
  have hk' : (k : ℚ) ≤ 2147483648 := by exact_mod_cast hk.le
  have hs : |x.val + y.val| ≤ k * 2 ^ 109 + 2 ^ 108 := (abs_add_le _ _).trans (add_le_add hx hy)
  have h : |(x + y).val| ≤ ((k + 1 : Nat) : ℚ) * 2 ^ 109 := by
    have h1 : |(x + y).val - (x.val + y.val)| ≤ 1 / 2 ^ 53 * |x.val + y.val| + 1 / 2 ^ 1075 := (rnd_roundsTo _).1
    have h2 : |(x + y).val| ≤ |(x + y).val - (x.val + y.val)| + |x.val + y.val| := by
      have := abs_add_le ((x + y).val - (x.val + y.val)) (x.val + y.val)
      rwa [sub_add_cancel] at this
    have h3 := eta_le
    generalize (1 / 2 ^ 1075 : ℚ) = eta at h1 h3
    push_cast
    norm_num at h1 hs ⊢
    linarith
  refine ⟨F64.fin_add (max_ge_200 (h.trans ?_)), h⟩
  push_cast
  norm_num
  linarith

/-- Rows times columns of numbers counted up are finite. -/
theorem dot_fin (X Y : Nat → Nat) : ∀ (l : List Nat), l.length < 2 ^ 31 → ∃ x : Dbl,
    l.foldl (fun acc j => acc + (countUp (X j) : F64) * countUp (Y j)) 0 = .fin x ∧ |x.val| ≤ (l.length : ℚ) * 2 ^ 109 := by
  intro l
  induction l using List.reverseRecOn with
  | nil => intro _; exact ⟨0, rfl, by simp; rfl⟩
  | append_singleton l a ih =>
    intro h
    rw [List.length_append, List.length_singleton] at h ⊢
    obtain ⟨x, hx, hb⟩ := ih (by omega)
    obtain ⟨p, hp, hp'⟩ := countUp_le (X a)
    obtain ⟨q, hq, hq'⟩ := countUp_le (Y a)
    obtain ⟨e1, b1⟩ := mul_fin_le hp' hq'
    obtain ⟨e2, b2⟩ := add_fin_le (by omega) hb b1
    refine ⟨x + p * q, ?_, b2⟩
    rw [List.foldl_append, hx, List.foldl_cons, List.foldl_nil, hp, hq, e1, e2]

theorem F64.sub_self {x : Dbl} : F64.fin x - F64.fin x = 0 := by
  show F64.ofRat (x.val - x.val) = .fin 0
  rw [_root_.sub_self]
  decide +kernel

end Fidi
