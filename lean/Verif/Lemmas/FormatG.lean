import Verif.Model.FormatG
import Verif.Spec.Decimal
import Verif.Spec.Vtk
import Verif.Lemmas.Dbl
import Verif.Lemmas.CmdLine
import Mathlib.Tactic.Linarith
import Mathlib.Tactic.Positivity
import Mathlib.Tactic.Ring
import Mathlib.Tactic.NormNum
import Mathlib.Tactic.FieldSimp

/-
Six significant digits: what is written is the nearest such number, and can be read.
-/
namespace Fidi
open Spec

theorem scale10_eq (x : ℚ) (e : Int) : scale10 x e = x * (10 : ℚ) ^ e := by
  unfold scale10
  split
  · rename_i h
    obtain ⟨n, rfl⟩ := Int.eq_ofNat_of_zero_le h
    simp
  · rename_i h
    obtain ⟨n, rfl⟩ : ∃ n : Nat, e = -(n : Int) := ⟨(-e).toNat, by omega⟩
    simp [div_eq_mul_inv]

/-! ### The digits -/

/-- The integer chosen is a nearest one. -/
theorem rndInt_nearest {x : ℚ} (hx : 0 ≤ x) (n : ℤ) : |((rndInt x : Nat) : ℚ) - x| ≤ |(n : ℚ) - x| := by
  have h := rndInt_error hx
  by_cases e : n = (rndInt x : Int)
  · rw [e]; simp
  · have h1 : (1 : ℚ) ≤ |(n : ℚ) - ((rndInt x : Nat) : ℚ)| := by
      have : (1 : ℤ) ≤ |n - (rndInt x : Int)| := Int.one_le_abs (by omega)
      exact_mod_cast this
    have h2 := abs_sub_le (n : ℚ) x ((rndInt x : Nat) : ℚ)
    rw [abs_sub_comm x] at h2
    linarith

structure Six (x : ℚ) (m : Nat) (e : Int) : Prop where
  lo : 10 ^ 5 ≤ m
  hi : m < 10 ^ 6
  near : ∀ n j : ℤ, |n| < 10 ^ 6 → |(m : ℚ) * 10 ^ (e - 5) - x| ≤ |(n : ℚ) * 10 ^ j - x|
  err : |(m : ℚ) * 10 ^ (e - 5) - x| ≤ x / 200000

theorem sixDigits_spec {x : ℚ} (hx : 0 < x) : Six x (sixDigits x).1 (sixDigits x).2 := by
  set e := Int.log 10 x with he
  have h10 : (0 : ℚ) < 10 := by norm_num
  have hlo : (10 : ℚ) ^ e ≤ x := by simpa using Int.zpow_log_le_self (b := 10) (by norm_num) hx
  have hhi : x < (10 : ℚ) ^ (e + 1) := by simpa using Int.lt_zpow_succ_log_self (b := 10) (by norm_num) x
  set s := scale10 x (5 - e) with hs
  have hs' : s = x * 10 ^ (5 - e) := scale10_eq x _
  set u : ℚ := 10 ^ (e - 5) with hu
  have hu0 : 0 < u := zpow_pos h10 _
  have hinv : (10 : ℚ) ^ (5 - e) * u = 1 := by
    rw [hu, ← zpow_add₀ (by norm_num)]; simp
  have hxs : x = s * u := by rw [hs', mul_assoc, hinv, mul_one]
  have hs0 : 0 ≤ s := by rw [hs']; positivity
  have h5 : (10 : ℚ) ^ e = 100000 * u := by
    have : (10 : ℚ) ^ e = 10 ^ (5 : ℤ) * 10 ^ (e - 5) := by rw [← zpow_add₀ (by norm_num)]; congr 1; ring
    rw [this]; norm_num [hu]
  have h6 : (10 : ℚ) ^ (e + 1) = 1000000 * u := by
    rw [zpow_add₀ (by norm_num), h5]; norm_num; ring
  have hslo : (100000 : ℚ) ≤ s := by
    rw [h5, hxs] at hlo; exact le_of_mul_le_mul_right hlo hu0
  have hshi : s < 1000000 := by
    rw [h6, hxs] at hhi; exact lt_of_mul_lt_mul_right hhi hu0.le
  set m := rndInt s with hm
  have herr := rndInt_error hs0
  rw [← hm] at herr
  have hmlo : 10 ^ 5 ≤ m := by
    by_contra hc
    have h1 : (m : ℚ) ≤ 99999 := by
      have : m ≤ 99999 := by omega
      exact_mod_cast this
    rw [abs_le] at herr
    linarith [herr.1]
  have hmhi : m ≤ 10 ^ 6 := by
    by_contra hc
    have h1 : (1000001 : ℚ) ≤ m := by
      have : 1000001 ≤ m := by omega
      exact_mod_cast this
    rw [abs_le] at herr
    linarith [herr.2]
  have hdist : ∀ y : ℚ, |y * u - x| = |y - s| * u := by
    intro y
    rw [hxs, ← sub_mul, abs_mul, abs_of_pos hu0]
  have hnear : ∀ n j : ℤ, |n| < 10 ^ 6 → |(m : ℚ) * u - x| ≤ |(n : ℚ) * 10 ^ j - x| := by
    intro n j hn
    by_cases hj : e - 5 ≤ j
    · obtain ⟨k, hk⟩ : ∃ k : Nat, j = k + (e - 5) := ⟨(j - (e - 5)).toNat, by omega⟩
      have : (n : ℚ) * 10 ^ j = ((n * 10 ^ k : ℤ) : ℚ) * u := by
        rw [hk, zpow_add₀ (by norm_num)]; push_cast; rw [zpow_natCast, ← hu]; ring
      rw [this, hdist, hdist]
      exact mul_le_mul_of_nonneg_right (rndInt_nearest hs0 _) hu0.le
    · have h1 : (n : ℚ) * 10 ^ j ≤ 100000 * u := by
        have hn1 : (n : ℚ) ≤ 10 ^ 6 := by
          have : n ≤ 10 ^ 6 := (le_abs_self n).trans hn.le
          exact_mod_cast this
        have hj1 : (10 : ℚ) ^ j ≤ 10 ^ (e - 6) := zpow_le_zpow_right₀ (by norm_num) (by omega)
        have hj2 : (10 : ℚ) ^ (e - 6) * 10 = u := by
          rw [hu, show e - 5 = (e - 6) + 1 by ring, zpow_add₀ (by norm_num)]; norm_num
        have hp : (0 : ℚ) < 10 ^ j := zpow_pos h10 _
        nlinarith
      have h2 : |(m : ℚ) * u - x| ≤ |100000 * u - x| := by
        rw [hdist, hdist]
        refine mul_le_mul_of_nonneg_right ?_ hu0.le
        have := rndInt_nearest hs0 100000
        push_cast at this
        exact this
      refine h2.trans ?_
      rw [h5] at hlo
      rw [abs_of_nonpos (by linarith), abs_of_nonpos (by linarith)]
      linarith
  have hx5 : |(m : ℚ) * u - x| ≤ x / 200000 := by
    rw [hdist]
    have : |(m : ℚ) - s| * u ≤ 1 / 2 * u := mul_le_mul_of_nonneg_right herr hu0.le
    rw [h5] at hlo
    linarith
  have hdef : sixDigits x = if m = 10 ^ 6 then (10 ^ 5, e + 1) else (m, e) := rfl
  rw [hdef]
  split
  · rename_i h6'
    have hval : ((10 ^ 5 : Nat) : ℚ) * 10 ^ (e + 1 - 5) = (m : ℚ) * u := by
      rw [h6', show e + 1 - 5 = (e - 5) + 1 by ring, zpow_add₀ (by norm_num), ← hu]; norm_num; ring
    refine ⟨le_refl _, by norm_num, ?_, ?_⟩
    · intro n j hn; dsimp only; rw [hval]; exact hnear n j hn
    · dsimp only; rw [hval]; exact hx5
  · rename_i h6'
    exact ⟨hmlo, by dsimp only; omega, hnear, hx5⟩

/-! ### The text -/

theorem natOf_foldl (s : List Char) (n : Nat) :
    s.foldl (fun n c => 10 * n + (c.toNat - '0'.toNat)) n = n * 10 ^ s.length + natOf s := by
  unfold natOf
  induction s generalizing n with
  | nil => simp
  | cons c s ih =>
    rw [List.foldl_cons, List.foldl_cons, ih, ih (10 * 0 + _), List.length_cons, pow_succ]
    ring

theorem natOf_append (s t : List Char) : natOf (s ++ t) = natOf s * 10 ^ t.length + natOf t := by
  conv_lhs => unfold natOf
  rw [List.foldl_append, natOf_foldl]
  rfl

theorem natOf_zeros (k : Nat) : natOf (List.replicate k '0') = 0 := by
  induction k with
  | zero => rfl
  | succ k ih => rw [List.replicate_succ, ← List.singleton_append, natOf_append, ih]; simp [natOf]

theorem strip_append (s : Str) : ∃ k, s = stripZeros s ++ List.replicate k '0' := by
  unfold stripZeros
  refine ⟨(s.reverse.takeWhile (· == '0')).length, ?_⟩
  have h : s.reverse.takeWhile (· == '0') = List.replicate (s.reverse.takeWhile (· == '0')).length '0' := by
    rw [List.eq_replicate_iff]
    refine ⟨rfl, fun c hc => ?_⟩
    have := List.all_eq_true.1 (List.all_takeWhile (p := (· == '0')) (l := s.reverse)) c hc
    simpa using this
  have h2 := List.takeWhile_append_dropWhile (p := (· == '0')) (l := s.reverse)
  rw [h] at h2
  have h3 := congrArg List.reverse h2
  rw [List.reverse_append, List.reverse_replicate, List.reverse_reverse] at h3
  exact h3.symm

theorem toDigits_dec (n : Nat) : ∀ c ∈ Nat.toDigits 10 n, isDec c = true := toDigits_ok n

theorem natOf_toDigits (n : Nat) : natOf (Nat.toDigits 10 n) = n := by
  have e := digits_value (Nat.toDigits 10 n) 0
  rw [Nat.ofDigitChars_ten_toDigits] at e
  refine Eq.trans ?_ e
  unfold natOf
  congr 1
  funext a c
  rw [Nat.mul_comm]

/-- Texts that end the digits. -/
def EndsDigits (t : Str) : Prop := ∀ c, t.head? = some c → isDec c = false ∧ c ≠ '.'

theorem takeWhile_end {s t : Str} (hs : ∀ c ∈ s, isDec c = true) (ht : ∀ c, t.head? = some c → isDec c = false) :
    (s ++ t).takeWhile isDec = s ∧ (s ++ t).dropWhile isDec = t := by
  induction s with
  | nil =>
    cases t with
    | nil => exact ⟨rfl, rfl⟩
    | cons c t =>
      have := ht c rfl
      simp [this]
  | cons c s ih =>
    have hc := hs c (by simp)
    obtain ⟨h1, h2⟩ := ih fun d hd => hs d (by simp [hd])
    simp [hc, h1, h2]

theorem read_withPoint {ip fr t : Str} (hip : ∀ c ∈ ip, isDec c = true) (hne : ip ≠ []) (hfr : ∀ c ∈ fr, isDec c = true)
    (ht : EndsDigits t) {e : Int} (hread : readExponent t = some e) :
    readUnsigned (withPoint ip fr ++ t) = some ((natOf (ip ++ fr) : ℚ) * (10 : ℚ) ^ (e - (fr.length : Int))) := by
  obtain ⟨k, hk⟩ := strip_append fr
  set st := stripZeros fr with hst
  have hstd : ∀ c ∈ st, isDec c = true := fun c hc => hfr c (by rw [hk]; simp [hc])
  have hval : (natOf (ip ++ fr) : ℚ) * (10 : ℚ) ^ (e - (fr.length : Int)) =
      (natOf (ip ++ st) : ℚ) * (10 : ℚ) ^ (e - (st.length : Int)) := by
    rw [hk, ← List.append_assoc, natOf_append (ip ++ st), natOf_zeros, List.length_append, List.length_replicate]
    push_cast
    rw [add_zero, mul_assoc, ← zpow_natCast, ← zpow_add₀ (by norm_num)]
    congr 2
    ring
  rw [hval]
  by_cases h : st = []
  · have hw : withPoint ip fr = ip := by unfold withPoint; rw [← hst, if_pos h]
    obtain ⟨h1, h2⟩ := takeWhile_end hip (fun c hc => (ht c hc).1)
    have hf : fraction t = ([], t) := by
      unfold fraction
      split
      · rename_i s
        exact absurd rfl (ht '.' rfl).2
      · rfl
    unfold readUnsigned
    rw [hw, h1, h2, hf, if_neg hne]
    dsimp only
    rw [hread, h]
    rfl
  · have hw : withPoint ip fr = ip ++ '.' :: st := by unfold withPoint; rw [← hst, if_neg h]
    have e1 : withPoint ip fr ++ t = ip ++ ('.' :: (st ++ t)) := by rw [hw]; simp
    obtain ⟨h1, h2⟩ := takeWhile_end (t := '.' :: (st ++ t)) hip (fun c hc => by
      obtain rfl : '.' = c := by simpa using hc
      decide)
    obtain ⟨h3, h4⟩ := takeWhile_end hstd (fun c hc => (ht c hc).1)
    unfold readUnsigned
    have hf : fraction ('.' :: (st ++ t)) = (st, t) := by
      show (_, _) = _
      rw [h3, h4]
    rw [e1, h1, h2, if_neg hne, hf]
    dsimp only
    rw [hread]
    rfl

theorem read_exponent (e : Int) : readExponent (showExponent e) = some e ∧ EndsDigits (showExponent e) := by
  constructor
  · unfold showExponent
    set ds := (if e.natAbs < 10 then ['0'] else []) ++ Nat.toDigits 10 e.natAbs with hds
    have h1 : ds ≠ [] ∧ ds.all isDec = true := by
      refine ⟨?_, ?_⟩
      · rw [hds]; simp [Nat.toDigits_ne_nil]
      · rw [List.all_eq_true, hds]
        intro c hc
        rcases List.mem_append.1 hc with hc | hc
        · split at hc
          · obtain rfl := List.mem_singleton.1 hc; decide
          · cases hc
        · exact toDigits_dec _ c hc
    have h2 : natOf ds = e.natAbs := by
      rw [hds, natOf_append, natOf_toDigits]
      split <;> simp [natOf]
    split
    · show (if ds ≠ [] ∧ ds.all isDec = true then some (-(natOf ds : Int)) else none) = _
      rw [if_pos h1, h2]; congr 1; omega
    · show (if ds ≠ [] ∧ ds.all isDec = true then some ((natOf ds : Nat) : Int) else none) = _
      rw [if_pos h1, h2]; congr 1; omega
  · intro c hc
    obtain rfl : 'e' = c := by simpa [showExponent] using hc
    decide

theorem digits_length {m : Nat} (h1 : 10 ^ 5 ≤ m) (h2 : m < 10 ^ 6) : (Nat.toDigits 10 m).length = 6 := by
  have a := (Nat.length_toDigits_le_iff (b := 10) (n := m) (k := 6) (by norm_num) (by norm_num)).2 h2
  have b := mt (Nat.length_toDigits_le_iff (b := 10) (n := m) (k := 5) (by norm_num) (by norm_num)).1 (by omega)
  omega

theorem read_showDigits {m : Nat} (h1 : 10 ^ 5 ≤ m) (h2 : m < 10 ^ 6) (e : Int) :
    readUnsigned (showDigits m e) = some ((m : ℚ) * 10 ^ (e - 5)) := by
  have hl := digits_length h1 h2
  have hd := toDigits_dec m
  have hv := natOf_toDigits m
  unfold showDigits
  generalize Nat.toDigits 10 m = ds at hl hd hv
  dsimp only
  have htake : ∀ k, ∀ c ∈ ds.take k, isDec c = true := fun k c hc => hd c (List.mem_of_mem_take hc)
  have hdrop : ∀ k, ∀ c ∈ ds.drop k, isDec c = true := fun k c hc => hd c (List.mem_of_mem_drop hc)
  have hne : ∀ k, 0 < k → ds.take k ≠ [] := by
    intro k hk h
    have := congrArg List.length h
    rw [List.length_take, hl] at this
    simp at this; omega
  split
  · obtain ⟨r1, r2⟩ := read_exponent e
    rw [read_withPoint (htake 1) (hne 1 (by norm_num)) (hdrop 1) r2 r1, List.take_append_drop, hv, List.length_drop, hl]
    norm_num
  · split
    · have hend : EndsDigits [] := fun c hc => by simp at hc
      rename_i h3 h4
      have := read_withPoint (htake (e.toNat + 1)) (hne _ (by omega)) (hdrop (e.toNat + 1)) hend (e := 0) rfl
      rw [List.append_nil, List.take_append_drop, hv, List.length_drop, hl] at this
      rw [this]
      congr 3
      omega
    · have hend : EndsDigits [] := fun c hc => by simp at hc
      rename_i h3 h4
      have := read_withPoint (ip := ['0']) (fr := List.replicate ((-e).toNat - 1) '0' ++ ds) (t := []) (by decide) (by simp) (by
        intro c hc
        rcases List.mem_append.1 hc with hc | hc
        · rw [List.eq_of_mem_replicate hc]; decide
        · exact hd c hc) hend (e := 0) rfl
      rw [List.append_nil, ← List.append_assoc, natOf_append, hv, List.length_append, List.length_replicate, hl,
        show ['0'] ++ List.replicate ((-e).toNat - 1) '0' = List.replicate ((-e).toNat - 1 + 1) '0' by
          rw [List.replicate_succ]; rfl, natOf_zeros] at this
      rw [this, zero_mul, zero_add]
      congr 3
      push_cast
      omega

/-- Characters of the texts. -/
def plainChar (c : Char) : Bool := isDec c || c == '.' || c == 'e' || c == '+' || c == '-'

theorem showDigits_chars {m : Nat} (h1 : 10 ^ 5 ≤ m) (h2 : m < 10 ^ 6) (e : Int) :
    (∀ c ∈ showDigits m e, plainChar c = true) ∧ ∃ c s, showDigits m e = c :: s ∧ isDec c = true := by
  have hl := digits_length h1 h2
  have hd := toDigits_dec m
  have hdec : ∀ c, isDec c = true → plainChar c = true := by
    intro c h; unfold plainChar; rw [h]; rfl
  have hw : ∀ ip fr : Str, (∀ c ∈ ip, isDec c = true) → (∀ c ∈ fr, isDec c = true) → ip ≠ [] →
      (∀ c ∈ withPoint ip fr, plainChar c = true) ∧ ∃ c s, withPoint ip fr = c :: s ∧ isDec c = true := by
    intro ip fr hip hfr hne
    obtain ⟨k, hk⟩ := strip_append fr
    have hst : ∀ c ∈ stripZeros fr, isDec c = true := fun c hc => hfr c (by rw [hk]; simp [hc])
    obtain ⟨a, r, rfl⟩ := List.exists_cons_of_ne_nil hne
    unfold withPoint
    split
    · exact ⟨fun c hc => hdec c (hip c hc), a, r, rfl, hip a (by simp)⟩
    · refine ⟨fun c hc => ?_, a, _, rfl, hip a (by simp)⟩
      rcases List.mem_append.1 hc with hc | hc
      · exact hdec c (hip c hc)
      · rcases List.mem_cons.1 hc with rfl | hc
        · decide
        · exact hdec c (hst c hc)
  unfold showDigits
  generalize Nat.toDigits 10 m = ds at hl hd
  dsimp only
  have htake : ∀ k, ∀ c ∈ ds.take k, isDec c = true := fun k c hc => hd c (List.mem_of_mem_take hc)
  have hdrop : ∀ k, ∀ c ∈ ds.drop k, isDec c = true := fun k c hc => hd c (List.mem_of_mem_drop hc)
  have hne : ∀ k, 0 < k → ds.take k ≠ [] := by
    intro k hk h
    have := congrArg List.length h
    rw [List.length_take, hl] at this
    simp at this; omega
  split
  · obtain ⟨g1, c, s, g2, g3⟩ := hw _ _ (htake 1) (hdrop 1) (hne 1 (by norm_num))
    refine ⟨fun c hc => ?_, c, s ++ showExponent e, by rw [g2]; rfl, g3⟩
    rcases List.mem_append.1 hc with hc | hc
    · exact g1 c hc
    · unfold showExponent at hc
      rcases List.mem_cons.1 hc with rfl | hc
      · decide
      · rcases List.mem_cons.1 hc with rfl | hc
        · split <;> decide
        · rcases List.mem_append.1 hc with hc | hc
          · split at hc
            · obtain rfl := List.mem_singleton.1 hc; decide
            · cases hc
          · exact hdec c (toDigits_dec _ c hc)
  · split
    · exact hw _ _ (htake _) (hdrop _) (hne _ (by omega))
    · exact hw _ _ (by decide) (by
        intro c hc
        rcases List.mem_append.1 hc with hc | hc
        · rw [List.eq_of_mem_replicate hc]; decide
        · exact hd c hc) (by simp)

theorem readDecimal_digit {c : Char} {s : Str} (h : isDec c = true) : readDecimal (c :: s) = readUnsigned (c :: s) := by
  unfold readDecimal
  split
  · rename_i h2
    injection h2 with h2 _
    subst h2
    exact absurd h (by decide)
  · rfl

/-- What is written for a positive number. -/
theorem showPos_spec {x : ℚ} (hx : 0 < x) : ∃ q, readDecimal (showPos x) = some q ∧ readUnsigned (showPos x) = some q ∧ SixDigit q ∧
    (∀ n j : ℤ, |n| < 10 ^ 6 → |q - x| ≤ |(n : ℚ) * 10 ^ j - x|) ∧ |q - x| ≤ x / 200000 ∧ 0 < q ∧
    (∀ c ∈ showPos x, plainChar c = true) ∧ showPos x ≠ [] := by
  have h := sixDigits_spec hx
  obtain ⟨c1, c, s, c2, c3⟩ := showDigits_chars h.lo h.hi (sixDigits x).2
  have hr := read_showDigits h.lo h.hi (sixDigits x).2
  refine ⟨_, ?_, hr, ⟨(sixDigits x).1, (sixDigits x).2 - 5, ?_, by push_cast; rfl⟩, h.near, h.err, ?_, c1, ?_⟩
  · unfold showPos
    rw [c2, readDecimal_digit c3, ← c2, hr]
  · have := h.hi
    rw [abs_of_nonneg (by omega)]; exact_mod_cast this
  · have := h.lo
    have : (0 : ℚ) < (sixDigits x).1 := by
      have : 0 < (sixDigits x).1 := by omega
      exact_mod_cast this
    positivity
  · unfold showPos; rw [c2]; simp

end Fidi
