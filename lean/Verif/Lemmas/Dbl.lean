import Verif.Model.Dbl
import Verif.Spec.Rounding
import Mathlib.Data.Nat.Log
import Mathlib.Algebra.Order.Field.Power
import Mathlib.Tactic.NormNum
import Mathlib.Tactic.Linarith
import Mathlib.Tactic.FieldSimp
import Mathlib.Tactic.Ring
import Mathlib.Tactic.Positivity

/-
The numbers `Dbl` satisfy the standard model of floating-point arithmetic.
-/
namespace Fidi
open Spec

theorem rndInt_error {x : ℚ} (hx : 0 ≤ x) : |((rndInt x : Nat) : ℚ) - x| ≤ 1 / 2 := by
  have hd : (0 : ℚ) < x.den := by exact_mod_cast x.den_pos
  have hn : ((x.num.toNat : Nat) : ℚ) = (x.num : ℚ) := by
    have : ((x.num.toNat : Nat) : Int) = x.num := Int.toNat_of_nonneg (Rat.num_nonneg.2 hx)
    exact_mod_cast this
  have hdm : x.num.toNat = x.den * (x.num.toNat / x.den) + x.num.toNat % x.den := (Nat.div_add_mod _ _).symm
  set q := x.num.toNat / x.den with hq
  set m := x.num.toNat % x.den with hm
  have hml : m < x.den := Nat.mod_lt _ x.den_pos
  have hxe : x = (q : ℚ) + (m : ℚ) / x.den := by
    have h1 : (x.num : ℚ) = x.den * q + m := by rw [← hn]; exact_mod_cast hdm
    have h2 : x = (x.num : ℚ) / x.den := (Rat.num_div_den x).symm
    rw [h1] at h2
    rw [add_div, mul_div_cancel_left₀ _ hd.ne'] at h2
    exact h2
  have hm0 : (0 : ℚ) ≤ (m : ℚ) / x.den := by positivity
  have hup : 2 * m ≤ x.den → (m : ℚ) / x.den ≤ 1 / 2 := by
    intro h
    rw [div_le_iff₀ hd]
    have : ((2 * m : Nat) : ℚ) ≤ x.den := by exact_mod_cast h
    push_cast at this
    linarith
  have hlo : x.den ≤ 2 * m → 1 / 2 ≤ (m : ℚ) / x.den := by
    intro h
    rw [le_div_iff₀ hd]
    have : (x.den : ℚ) ≤ ((2 * m : Nat) : ℚ) := by exact_mod_cast h
    push_cast at this
    linarith
  have hlt1 : (m : ℚ) / x.den < 1 := by
    rw [div_lt_one hd]; exact_mod_cast hml
  have key : ((rndInt x : Nat) : ℚ) = q ∧ (m : ℚ) / x.den ≤ 1 / 2 ∨
      ((rndInt x : Nat) : ℚ) = q + 1 ∧ 1 / 2 ≤ (m : ℚ) / x.den := by
    have e : rndInt x = if 2 * m < x.den then q else if x.den < 2 * m then q + 1 else if q % 2 = 0 then q else q + 1 := rfl
    rw [e]
    by_cases h1 : 2 * m < x.den
    · rw [if_pos h1]; left; exact ⟨rfl, hup h1.le⟩
    · rw [if_neg h1]
      by_cases h2 : x.den < 2 * m
      · rw [if_pos h2]; right; exact ⟨by push_cast; rfl, hlo h2.le⟩
      · rw [if_neg h2]
        split
        · left; exact ⟨rfl, hup (by omega)⟩
        · right; exact ⟨by push_cast; rfl, hlo (by omega)⟩
  rw [abs_le]
  rcases key with ⟨k1, k2⟩ | ⟨k1, k2⟩ <;> rw [k1] <;> constructor <;> linarith

theorem scale_eq (x : ℚ) (e : Int) : scale x e = x * (2 : ℚ) ^ e := by
  unfold scale
  split
  · next h =>
    obtain ⟨n, rfl⟩ := Int.eq_ofNat_of_zero_le h
    simp
  · next h =>
    obtain ⟨n, hn⟩ := Int.eq_ofNat_of_zero_le (a := -e) (by omega)
    have : e = -(n : Int) := by omega
    subst this
    simp [zpow_neg, div_eq_mul_inv]

/-- The scaled number has at least 53 bits. -/
theorem scale_log {x : ℚ} (hx : 0 < x) :
    (2 : ℚ) ^ 51 ≤ x * 2 ^ (-((Nat.log2 x.num.toNat : Int) - (Nat.log2 x.den : Int) - 52)) := by
  have hnum : 0 < x.num := Rat.num_pos.2 hx
  have hd : (0 : ℚ) < x.den := by exact_mod_cast x.den_pos
  set a := Nat.log2 x.num.toNat
  set b := Nat.log2 x.den
  have h1 : ((2 ^ a : Nat) : ℚ) ≤ (x.num : ℚ) := by
    have : 2 ^ a ≤ x.num.toNat := Nat.log2_self_le (by omega)
    have h2 : ((2 ^ a : Nat) : Int) ≤ x.num := by omega
    exact_mod_cast h2
  have h2 : (x.den : ℚ) ≤ ((2 ^ (b + 1) : Nat) : ℚ) := by
    have : x.den < 2 ^ (b + 1) := Nat.lt_log2_self
    exact_mod_cast this.le
  have h3 : x = (x.num : ℚ) / x.den := (Rat.num_div_den x).symm
  have h4 : (2 : ℚ) ^ ((a : Int) - b - 1) ≤ x := by
    rw [h3, le_div_iff₀ hd]
    have e : (2 : ℚ) ^ ((a : Int) - b - 1) * ((2 ^ (b + 1) : Nat) : ℚ) = ((2 ^ a : Nat) : ℚ) := by
      push_cast
      rw [← zpow_natCast, ← zpow_natCast, ← zpow_add₀ (by norm_num)]
      congr 1
      push_cast
      ring
    calc (2 : ℚ) ^ ((a : Int) - b - 1) * x.den ≤ (2 : ℚ) ^ ((a : Int) - b - 1) * ((2 ^ (b + 1) : Nat) : ℚ) :=
          mul_le_mul_of_nonneg_left h2 (by positivity)
      _ = ((2 ^ a : Nat) : ℚ) := e
      _ ≤ _ := h1
  have e2 : (2 : ℚ) ^ 51 = (2 : ℚ) ^ ((a : Int) - b - 1) * 2 ^ (-((a : Int) - (b : Int) - 52)) := by
    rw [← zpow_natCast, ← zpow_add₀ (by norm_num)]
    congr 1
    push_cast
    ring
  rw [e2]
  exact mul_le_mul_of_nonneg_right h4 (by positivity)

theorem two_mul_scale (x : ℚ) (e : Int) : x * (2 : ℚ) ^ (-(e - 1)) = 2 * (x * 2 ^ (-e)) := by
  have : -(e - 1) = -e + 1 := by ring
  rw [this, zpow_add₀ (by norm_num), zpow_one]
  ring

/-- Rounding `x 2^-e` to an integer. -/
theorem round_at {x : ℚ} (hx : 0 < x) (e : Int) :
    |scale ((rndInt (scale x (-e)) : Nat) : ℚ) e - x| ≤ 2 ^ e / 2 ∧
    ((2 : ℚ) ^ 52 ≤ x * 2 ^ (-e) → |scale ((rndInt (scale x (-e)) : Nat) : ℚ) e - x| ≤ 1 / 2 ^ 53 * x) := by
  have hp : (0 : ℚ) < 2 ^ e := by positivity
  rw [scale_eq, scale_eq]
  set s := x * (2 : ℚ) ^ (-e) with hs
  have hxs : x = s * 2 ^ e := by
    rw [hs, mul_assoc, ← zpow_add₀ (by norm_num)]; simp
  have h := rndInt_error (x := s) (by positivity)
  have h1 : |((rndInt s : Nat) : ℚ) * 2 ^ e - x| ≤ 2 ^ e / 2 := by
    have e1 : ((rndInt s : Nat) : ℚ) * 2 ^ e - x = (((rndInt s : Nat) : ℚ) - s) * 2 ^ e := by rw [sub_mul, ← hxs]
    rw [e1, abs_mul, abs_of_pos hp]
    linarith [mul_le_mul_of_nonneg_right h hp.le]
  refine ⟨h1, fun hb => h1.trans ?_⟩
  have h2 := mul_le_mul_of_nonneg_right hb hp.le
  rw [← hxs] at h2
  have h3 : (0 : ℚ) < 2 ^ 53 := by norm_num
  rw [div_mul_eq_mul_div, one_mul, div_le_div_iff₀ (by norm_num) h3]
  have e53 : (2 : ℚ) ^ 53 = 2 * 2 ^ 52 := by norm_num
  rw [e53]
  linarith

theorem half_pow (n : Nat) : (2 : ℚ) ^ (-(n : Int)) / 2 = 1 / 2 ^ (n + 1) := by
  rw [zpow_neg, zpow_natCast, pow_succ]
  field_simp

theorem pow_scale (n m : Nat) : (2 : ℚ) ^ m = 1 / 2 ^ n * 2 ^ (-(-((n + m : Nat) : Int))) := by
  rw [neg_neg, zpow_natCast, pow_add]
  field_simp

theorem rndPos_error {x : ℚ} (hx : 0 < x) :
    |rndPos x - x| ≤ 1 / 2 ^ 53 * x + 1 / 2 ^ 1075 ∧
      (1 / 2 ^ 1022 ≤ x → |rndPos x - x| ≤ 1 / 2 ^ 53 * x) := by
  set e0 : Int := (Nat.log2 x.num.toNat : Int) - (Nat.log2 x.den : Int) - 52 with he0
  set e1 : Int := if scale x (-e0) < ((2 ^ 52 : Nat) : ℚ) then e0 - 1 else e0 with he1
  have hdef : rndPos x = scale ((rndInt (scale x (-(max e1 (-1074)))) : Nat) : ℚ) (max e1 (-1074)) := rfl
  have hbig : (2 : ℚ) ^ 52 ≤ x * 2 ^ (-e1) := by
    have h := scale_log hx
    rw [← he0] at h
    rw [he1, scale_eq]
    split
    · rw [two_mul_scale]
      have : (2 : ℚ) ^ 52 = 2 * 2 ^ 51 := by norm_num
      linarith
    · next h2 => exact_mod_cast not_lt.1 h2
  rw [hdef]
  have hnn : (0 : ℚ) ≤ 1 / 2 ^ 53 * x := by positivity
  have hp : (0 : ℚ) ≤ 1 / 2 ^ 1075 := by positivity
  rcases le_total (-1074) e1 with h | h
  · rw [max_eq_left h]
    have := (round_at hx e1).2 hbig
    exact ⟨le_add_of_le_of_nonneg this hp, fun _ => this⟩
  · rw [max_eq_right h]
    obtain ⟨r1, r2⟩ := round_at hx (-1074)
    have e2 : (2 : ℚ) ^ (-1074 : Int) / 2 = 1 / 2 ^ 1075 := half_pow 1074
    rw [e2] at r1
    refine ⟨le_add_of_nonneg_of_le hnn r1, fun hn => r2 ?_⟩
    have e3 : (2 : ℚ) ^ 52 = 1 / 2 ^ 1022 * 2 ^ (-(-1074) : Int) := pow_scale 1022 52
    rw [e3]
    exact mul_le_mul_of_nonneg_right hn (by positivity)

theorem rnd_roundsTo (x : ℚ) : RoundsTo (1 / 2 ^ 53) (1 / 2 ^ 1075) (1 / 2 ^ 1022) (rnd x) x := by
  unfold RoundsTo rnd
  have hp : (0 : ℚ) ≤ 1 / 2 ^ 1075 := by positivity
  by_cases h0 : x = 0
  · subst h0
    simp only [if_true, sub_self, abs_zero, mul_zero, zero_add]
    exact ⟨hp, fun _ => le_refl _⟩
  · rw [if_neg h0]
    by_cases h1 : 0 < x
    · rw [if_pos h1, abs_of_pos h1]
      obtain ⟨a, b⟩ := rndPos_error h1
      exact ⟨a, fun h => b (h.resolve_left h0)⟩
    · have h2 : 0 < -x := by
        rcases lt_trichotomy x 0 with h | h | h
        · linarith
        · exact absurd h h0
        · exact absurd h h1
      rw [if_neg h1]
      have e : |-rndPos (-x) - x| = |rndPos (-x) - -x| := by rw [← abs_neg]; congr 1; ring
      rw [e, abs_of_neg (by linarith : x < 0)]
      obtain ⟨a, b⟩ := rndPos_error h2
      exact ⟨a, fun h => b (h.resolve_left h0)⟩

theorem rnd_int (n : Int) : |rnd (n : ℚ) - (n : ℚ)| ≤ 1 / 2 ^ 53 * |(n : ℚ)| := by
  refine (rnd_roundsTo n).2 ?_
  by_cases h : n = 0
  · left; exact_mod_cast h
  · right
    have h1 : (1 : ℚ) ≤ |(n : ℚ)| := by
      have : (1 : Int) ≤ |n| := Int.one_le_abs h
      exact_mod_cast this
    refine le_trans ?_ h1
    rw [div_le_one (by positivity)]
    exact one_le_pow₀ (by norm_num)

/-- The standard model holds. -/
theorem Dbl.rounded : Rounded Dbl ℚ Dbl.val (1 / 2 ^ 53) (1 / 2 ^ 1075) (1 / 2 ^ 1022) where
  r_nonneg := by positivity
  r_le := by norm_num
  η_nonneg := by positivity
  tiny_nonneg := by positivity
  zero := rfl
  one := rfl
  lt _ _ := Iff.rfl
  add _ _ := rnd_roundsTo _
  sub _ _ := rnd_roundsTo _
  mul _ _ := rnd_roundsTo _
  div _ _ := rnd_roundsTo _
  nat n := by have := rnd_int (n : Int); rwa [Int.cast_natCast] at this
  int n := rnd_int n

end Fidi
