import Verif.Lemmas.FormatG
import Verif.Props.Ieee
import Verif.Props.CTest

/-
C80: what the C++ programs write of a `double`, and what that means for the check sum, the registered tests and the files.
-/
namespace Fidi
open Spec CTest

theorem sixDigit_neg {q : ℚ} : SixDigit (-q) ↔ SixDigit q := by
  constructor
  · rintro ⟨n, j, h, e⟩
    exact ⟨-n, j, by rwa [abs_neg], by push_cast; rw [neg_mul, ← e, neg_neg]⟩
  · rintro ⟨n, j, h, e⟩
    exact ⟨-n, j, by rwa [abs_neg], by push_cast; rw [neg_mul, ← e]⟩

/-- C80: the text of a finite number can be read, and the number read is one of six significant digits to which no other such
number is nearer; the relative error is at most 5 parts in a million. -/
theorem C80_six_digits (x : Dbl) : ∃ q, readDecimal (F64.fin x).text = some q ∧ SixDigit q ∧
    (∀ d, SixDigit d → |q - x.val| ≤ |d - x.val|) ∧ |q - x.val| ≤ |x.val| / 200000 := by
  show ∃ q, readDecimal (showG x.val) = some q ∧ _
  generalize x.val = x
  unfold showG
  split
  · rename_i h
    subst h
    refine ⟨0, by decide +kernel, ⟨0, 0, by norm_num, by norm_num⟩, fun d _ => by simp, by simp⟩
  · rename_i h0
    split
    · rename_i hx
      obtain ⟨q, h1, _, h2, h3, h4, _⟩ := showPos_spec hx
      exact ⟨q, h1, h2, fun d ⟨n, j, hn, e⟩ => by rw [e]; exact h3 n j hn, by rwa [abs_of_pos hx]⟩
    · rename_i hx
      have hx' : 0 < -x := by
        rcases lt_trichotomy x 0 with h | h | h
        · linarith
        · exact absurd h h0
        · exact absurd h hx
      obtain ⟨q, _, h1, h2, h3, h4, _⟩ := showPos_spec hx'
      refine ⟨-q, ?_, sixDigit_neg.2 h2, ?_, ?_⟩
      · show (readUnsigned (showPos (-x))).map (fun q => -q) = _
        rw [h1]; rfl
      · rintro d hd
        obtain ⟨n, j, hn, e⟩ := sixDigit_neg.2 hd
        have := h3 n j hn
        rw [← e] at this
        have e1 : |(-q) - x| = |q - -x| := by rw [← abs_neg]; congr 1; ring
        have e2 : |d - x| = |-d - -x| := by rw [← abs_neg]; congr 1; ring
        rw [e1, e2]; exact this
      · have e1 : |(-q) - x| = |q - -x| := by rw [← abs_neg]; congr 1; ring
        rw [e1, ← abs_neg x, abs_of_pos hx']; exact h4

/-- C80: a number is written exactly if and only if it has six significant digits. -/
theorem C80_exact_iff (x : Dbl) : readDecimal (F64.fin x).text = some x.val ↔ SixDigit x.val := by
  obtain ⟨q, h1, h2, h3, _⟩ := C80_six_digits x
  rw [h1]
  constructor
  · intro h
    rw [← Option.some.inj h]; exact h2
  · intro h
    have := h3 _ h
    rw [sub_self, abs_zero] at this
    have := abs_eq_zero.1 (le_antisymm this (abs_nonneg _))
    rw [sub_eq_zero.1 this]

/-- C80: the order of numbers is kept, though not strictly. -/
theorem C80_order (x y : Dbl) (h : x.val ≤ y.val) : ∃ p q, readDecimal (F64.fin x).text = some p ∧
    readDecimal (F64.fin y).text = some q ∧ p ≤ q := by
  obtain ⟨p, p1, p2, p3, _⟩ := C80_six_digits x
  obtain ⟨q, q1, q2, q3, _⟩ := C80_six_digits y
  refine ⟨p, q, p1, q1, ?_⟩
  rcases eq_or_lt_of_le h with he | hlt
  · have : x = y := by cases x; cases y; simpa using he
    subst this
    rw [p1] at q1
    exact (Option.some.inj q1).le
  · by_contra hc
    push Not at hc
    have a := p3 q q2
    have b := q3 p p2
    have a2 := abs_le.1 a
    rcases abs_cases (p - x.val) with ⟨e1, g1⟩ | ⟨e1, g1⟩ <;> rcases abs_cases (q - x.val) with ⟨e2, g2⟩ | ⟨e2, g2⟩ <;>
      rcases abs_cases (p - y.val) with ⟨e3, g3⟩ | ⟨e3, g3⟩ <;> rcases abs_cases (q - y.val) with ⟨e4, g4⟩ | ⟨e4, g4⟩ <;>
      rw [e1, e2] at a <;> rw [e3, e4] at b <;> linarith

/-- C80: a text is a word without the letter k, whatever the number. -/
theorem C80_word (x : F64) : IsWord x.text ∧ 'k' ∉ x.text := by
  have hp : ∀ c, plainChar c = true → isBlank c = false ∧ c ≠ 'k' := by
    intro c h
    unfold plainChar at h
    simp only [Bool.or_eq_true, beq_iff_eq] at h
    rcases h with (((h | rfl) | rfl) | rfl) | rfl
    · refine ⟨(digits_not_special h).1, ?_⟩
      rintro rfl
      exact absurd h (by decide)
    all_goals exact ⟨by decide, by decide⟩
  have hpos : ∀ q : ℚ, 0 < q → IsWord (showPos q) ∧ 'k' ∉ showPos q := by
    intro q hq
    obtain ⟨_, _, _, _, _, _, _, h1, h2⟩ := showPos_spec hq
    exact ⟨⟨h2, fun c hc => (hp c (h1 c hc)).1⟩, fun hc => (hp 'k' (h1 _ hc)).2 rfl⟩
  cases x with
  | fin x =>
    show IsWord (showG x.val) ∧ 'k' ∉ showG x.val
    unfold showG
    split
    · exact ⟨⟨by decide, by decide⟩, by decide⟩
    · rename_i h0
      split
      · rename_i h; exact hpos _ h
      · rename_i h
        obtain ⟨⟨h1, h2⟩, h3⟩ := hpos (-x.val) (by
          rcases lt_trichotomy x.val 0 with g | g | g
          · linarith
          · exact absurd g h0
          · exact absurd g h)
        refine ⟨⟨by simp, fun c hc => ?_⟩, fun hc => ?_⟩
        · rcases List.mem_cons.1 hc with rfl | hc
          · decide
          · exact h2 c hc
        · rcases List.mem_cons.1 hc with h | hc
          · exact absurd h (by decide)
          · exact h3 hc
  | inf neg => cases neg <;> exact ⟨⟨by decide, by decide⟩, by decide⟩
  | nan => exact ⟨⟨by decide, by decide⟩, by decide⟩

theorem log_eq {x : ℚ} (hx : 0 < x) {e : Int} (h1 : (10 : ℚ) ^ e ≤ x) (h2 : x < (10 : ℚ) ^ (e + 1)) : Int.log 10 x = e := by
  have a := (Int.zpow_le_iff_le_log (b := 10) (by norm_num) hx).1 (by simpa using h1)
  have b := (Int.lt_zpow_iff_log_lt (b := 10) (by norm_num) hx).1 (by simpa using h2)
  omega

theorem rndInt_of_lt {x : ℚ} (hx : 0 ≤ x) {n : Nat} (h : |(n : ℚ) - x| < 1 / 2) : rndInt x = n := by
  have h1 := rndInt_error hx
  have h2 := abs_sub_le ((rndInt x : Nat) : ℚ) x (n : ℚ)
  rw [abs_sub_comm x] at h2
  have h3 : |((rndInt x : Int) : ℚ) - ((n : Int) : ℚ)| < 1 := by push_cast; linarith
  have h4 : |(rndInt x : Int) - (n : Int)| < 1 := by exact_mod_cast h3
  rw [Int.abs_lt_one_iff] at h4
  omega

/-- C80: "1" is written exactly for the numbers from 0.9999995 to 1.000005. -/
theorem C80_one_iff (x : Dbl) : (F64.fin x).text = "1".toList ↔ 1 - 5 / 10 ^ 7 ≤ x.val ∧ x.val ≤ 1 + 5 / 10 ^ 6 := by
  constructor
  · intro h
    obtain ⟨q, h1, _, h3, h4⟩ := C80_six_digits x
    rw [h] at h1
    obtain rfl : 1 = q := Option.some.inj ((show readDecimal "1".toList = some 1 by decide +kernel).symm.trans h1)
    have a := h3 (100001 / 10 ^ 5) ⟨100001, -5, by norm_num, by norm_num⟩
    have b := h3 (999999 / 10 ^ 6) ⟨999999, -6, by norm_num, by norm_num⟩
    constructor
    · rcases abs_cases (1 - x.val) with ⟨e1, g1⟩ | ⟨e1, g1⟩ <;>
        rcases abs_cases (999999 / 10 ^ 6 - x.val) with ⟨e2, g2⟩ | ⟨e2, g2⟩ <;> rw [e1, e2] at b <;> norm_num at * <;> linarith
    · rcases abs_cases (1 - x.val) with ⟨e1, g1⟩ | ⟨e1, g1⟩ <;>
        rcases abs_cases (100001 / 10 ^ 5 - x.val) with ⟨e2, g2⟩ | ⟨e2, g2⟩ <;> rw [e1, e2] at a <;> norm_num at * <;> linarith
  · rintro ⟨h1, h2⟩
    show showG x.val = _
    generalize x.val = x at h1 h2
    have hx : 0 < x := by norm_num at h1; linarith
    rcases eq_or_lt_of_le h1 with e1 | h1
    · rw [← e1]; decide +kernel
    rcases eq_or_lt_of_le h2 with e2 | h2
    · rw [e2]; decide +kernel
    unfold showG
    rw [if_neg hx.ne', if_pos hx]
    have key : sixDigits x = (10 ^ 5, 0) := by
      by_cases h : 1 ≤ x
      · have hl := log_eq hx (e := 0) (by simpa using h) (by norm_num; norm_num at h2; linarith)
        have hr : rndInt (scale10 x 5) = 10 ^ 5 := by
          rw [scale10_eq]
          refine rndInt_of_lt (by positivity) ?_
          norm_num
          norm_num at h2
          rw [abs_lt]; constructor <;> linarith
        show (if rndInt (scale10 x (5 - Int.log 10 x)) = 10 ^ 6 then (10 ^ 5, Int.log 10 x + 1)
          else (rndInt (scale10 x (5 - Int.log 10 x)), Int.log 10 x)) = _
        rw [hl, sub_zero, hr]
        rfl
      · push Not at h
        have hl := log_eq hx (e := -1) (by norm_num; norm_num at h1; linarith) (by simpa using h)
        have hr : rndInt (scale10 x 6) = 10 ^ 6 := by
          rw [scale10_eq]
          refine rndInt_of_lt (by positivity) ?_
          norm_num
          norm_num at h1
          rw [abs_lt]; constructor <;> linarith
        show (if rndInt (scale10 x (5 - Int.log 10 x)) = 10 ^ 6 then (10 ^ 5, Int.log 10 x + 1)
          else (rndInt (scale10 x (5 - Int.log 10 x)), Int.log 10 x)) = _
        rw [hl, show (5 : Int) - -1 = 6 by norm_num, hr]
        rfl
    unfold showPos
    rw [key]
    decide +kernel

/-- C80 is false as to keeping the value: different `double` numbers have the same text, so neither the files nor the check sums
printed determine the values computed. -/
theorem C80_lossless_fails : ¬ ∀ x y : Dbl, rnd x.val = x.val → rnd y.val = y.val → (F64.fin x).text = (F64.fin y).text → x = y := by
  intro h
  have := h ⟨1⟩ ⟨1 + 1 / 2 ^ 52⟩ (by decide +kernel) (by decide +kernel) (by decide +kernel)
  exact absurd this (by decide +kernel)

/-! ### The programs -/

/-- The field of the driver is that of its run. -/
theorem driver_field {R : Type} [Zero R] [One R] [Add R] [Sub R] [Mul R] [Div R] [NatCast R] [IntCast R] [LT R] [DecidableLT R]
    [HasMax R] {c : R} {n : Nat} (hn : 0 < n) (hn2 : n ≤ 1290) {steps : Int} {s : Upwind R}
    (hs : Upwind.mainRun c n steps = .ok s) {f : List R} (hst : Stores [n, n, n] f (driverField n
      (upCoeff (driverStep HasMax.dblMax c (1 / (n : R))) [1, 1, 1] [1, 1, 1] [n, n, n]) steps)) : s.f = f := by
  obtain ⟨hpos, hcells, haxis, _⟩ := grid_of hn hn2
  have hg : Upwind.GoodGrid [n, n, n] := ⟨hpos, hcells, haxis⟩
  have hnew := Upwind.new_built (R := R) (N := [n, n, n]) (v := [1, 1, 1]) (L := [1, 1, 1]) (by simp) (by simp) hg rfl rfl
  obtain ⟨o, _, hadv⟩ := Upwind.advect_spec (v := [(1 : R), 1, 1]) (L := [1, 1, 1]) (by simp) (by simp) hg rfl rfl hnew
    (Upwind.built_stores (v := [(1 : R), 1, 1]) (L := [1, 1, 1]) hg) steps (driverStep HasMax.dblMax c (1 / (n : R)))
  rw [stores_iff hpos] at hst
  change Upwind.advect (Upwind.built [1, 1, 1] [1, 1, 1] [n, n, n]) steps _ = .ok (Upwind.withF [1, 1, 1] [1, 1, 1] [n, n, n]
    (listOf [n, n, n] (driverField n (upCoeff _ [1, 1, 1] [1, 1, 1] [n, n, n]) steps)) o) at hadv
  rw [← hst] at hadv
  unfold Upwind.mainRun at hs
  rw [szOfInt_ofNat (by unfold W; omega)] at hs
  simp only [List.length_replicate] at hs
  rw [show Upwind.mainDt c (List.replicate 3 1) (List.replicate 3 1) (List.replicate 3 n) =
      .ok (driverStep HasMax.dblMax c (1 / (n : R))) from rfl, M.ok_bind,
    show Upwind.new 3 (List.replicate 3 (1 : R)) (List.replicate 3 1) (List.replicate 3 n) = _ from hnew, M.ok_bind,
    hadv] at hs
  rw [← Except.ok.inj hs]

section
variable [DoubleText F64]

theorem words_of (htext : ∀ x : F64, DoubleText.showDouble x = x.text) :
    (∀ x : F64, IsWord (DoubleText.showDouble x)) ∧ ∀ x : F64, 'k' ∉ DoubleText.showDouble x :=
  ⟨fun x => by rw [htext]; exact (C80_word x).1, fun x => by rw [htext]; exact (C80_word x).2⟩

variable [Upwind.HasSqrt F64]

/-- C80: upwind.cxx and upwindOMPTasks.cxx with IEEE numbers print the check sum 1, exactly this text, for every command line,
number of cells and number of steps with `n^3 + 22 steps < 2251799813` (for instance 1290 cells and 4 million steps). -/
theorem C80_upwind_check_sum (htext : ∀ x : F64, DoubleText.showDouble x = x.text) (omp : Option (Int × Int)) (exec : Str)
    (args : List Str) (h : AllKnown (upwindNames true) args) (n : Nat) (steps : Int)
    (h1 : IntValue Reads args "-numCells".toList 128 n) (h2 : IntValue Reads args "-numSteps".toList 10 steps)
    (hh : flagValue args "-h".toList = false) (hn : 0 < n) (hn2 : n ≤ 1290)
    (hsmall : n ^ 3 + 22 * steps.toNat < 2251799813) :
    ∃ (e : Exit) (f : List F64), Upwind.main (F64.fin ⟨rnd (1 / 10)⟩) omp (exec :: args) = .ok e ∧ e.status = 0 ∧
      e.out = threadsText omp ++ resultText F64.text Upwind.HasSqrt.sqrt n steps (flagValue args "-std".toList) f ∧
      F64.text (f.foldl (· + ·) 0) = "1".toList := by
  obtain ⟨f, text0, text1, hst, _, _, e⟩ := C56_upwind_run (F64.fin ⟨rnd (1 / 10)⟩) omp exec args h n steps h1 h2 hh hn hn2
    (words_of htext).1
  refine ⟨_, f, e, rfl, ?_, ?_⟩
  · rw [show (DoubleText.showDouble : F64 → Str) = F64.text from funext htext]
  · have hk : steps < 2 ^ 31 := by omega
    obtain ⟨s, t, hs, ht, _, hc⟩ := C69_driver n hn hn2 steps hk
    obtain ⟨s', hs', hb, _⟩ := C58_driver_double n hn hn2 steps hk
    rw [hs] at hs'
    obtain rfl := Except.ok.inj hs'
    have hf := driver_field hn hn2 ht hst
    have : f.foldl (· + ·) 0 = .fin s.checksum := by rw [← hf, ← hc]; rfl
    rw [this, C80_one_iff]
    have hq : (n : ℚ) ^ 3 + 22 * (steps.toNat : ℚ) + 1 ≤ 2251799813 := by
      have : n ^ 3 + 22 * steps.toNat + 1 ≤ 2251799813 := hsmall
      exact_mod_cast this
    have hb' : |s.checksum.val - 1| ≤ 2251799813 / 2 ^ 52 := hb.trans (by
      rw [div_le_div_iff_of_pos_right (by positivity)]; exact hq)
    rw [abs_le] at hb'
    norm_num at hb' ⊢
    constructor <;> linarith [hb'.1, hb'.2]

/-- C79: with IEEE numbers the tests upwindCxx* pass. -/
theorem C79_upwind_passes_double (htext : ∀ x : F64, DoubleText.showDouble x = x.text) (omp : Option (Int × Int))
    (exec a b : Str) (ha : ¬ LooksLikeOption a) (hb : ¬ LooksLikeOption b) :
    ∃ e, Upwind.main (F64.fin ⟨rnd (1 / 10)⟩) omp (exec :: upwindArgs a b) = .ok e ∧ ∀ v, Verdict upwindTest e v ↔ v = true := by
  obtain ⟨e', f', he', hst, hv⟩ := C79_upwind_verdict (F64.fin ⟨rnd (1 / 10)⟩) omp exec a b ha hb (words_of htext).1
    (words_of htext).2
  refine ⟨e', he', fun v => ?_⟩
  obtain ⟨s, t, hs, ht', _, hc⟩ := C69_driver 128 (by decide) (by decide) 10 (by decide)
  obtain ⟨s', hs', hbd, _⟩ := C58_driver_double 128 (by decide) (by decide) 10 (by decide)
  rw [hs] at hs'
  obtain rfl := Except.ok.inj hs'
  have hf := driver_field (by decide) (by decide) ht' hst
  have hsum : f'.foldl (· + ·) 0 = .fin s.checksum := by rw [← hf, ← hc]; rfl
  have hone : DoubleText.showDouble (f'.foldl (· + ·) 0) = "1".toList := by
    rw [htext, hsum, C80_one_iff]
    have hb' : |s.checksum.val - 1| ≤ 1 / 10 ^ 7 := hbd.trans (by
      rw [show (10 : Int).toNat = 10 from rfl]; norm_num)
    rw [abs_le] at hb'
    constructor <;> linarith [hb'.1, hb'.2]
  rw [hv, hone]
  have : ∃ c ∈ accepted, [c] <+: "1".toList := ⟨'1', by decide, [], rfl⟩
  exact ⟨fun h => h.2 this, fun h => ⟨fun _ => this, fun _ => h⟩⟩

end

/-! ### The files -/

theorem rnd_rel {y : ℚ} (h : y = 0 ∨ 1 / 2 ^ 100 ≤ |y|) : Rel (1 / 10 ^ 15) (rnd y) y := by
  have ht : (1 : ℚ) / 2 ^ 1022 ≤ 1 / 2 ^ 100 :=
    one_div_le_one_div_of_le (by positivity) (pow_le_pow_right₀ (by norm_num) (by norm_num))
  exact Rel.mono (e := 1 / 2 ^ 53) ((rnd_roundsTo y).2 (h.imp id fun h => ht.trans h)) (by norm_num)

theorem rel_abs {e x y a : ℚ} (h : Rel e x y) (he : e ≤ 1 / 2) (ha : a ≤ |y|) : a / 2 ≤ |x| := by
  have h1 : |y| ≤ |x| + |x - y| := by
    have := abs_sub_le y x 0
    rw [sub_zero, sub_zero, abs_sub_comm] at this
    linarith
  have h2 : e * |y| ≤ 1 / 2 * |y| := mul_le_mul_of_nonneg_right he (abs_nonneg _)
  have h3 : |x - y| ≤ e * |y| := h
  linarith

/-- A coordinate that saveVTK writes. -/
theorem coordinate {n : Nat} (hn : 0 < n) (hn2 : n ≤ 1290) {i : Nat} (hi : i ≤ n) :
    ∃ x : Dbl, (0 : F64) + 1 / (n : F64) * (i : F64) = .fin x ∧ Rel (1 / 10 ^ 14) x.val ((i : ℚ) / n) := by
  have hq1 : (1 : ℚ) ≤ n := by exact_mod_cast hn
  have hq2 : (n : ℚ) ≤ 1290 := by exact_mod_cast hn2
  have hiq : (i : ℚ) ≤ n := by exact_mod_cast hi
  have hi0 : (0 : ℚ) ≤ i := Nat.cast_nonneg i
  have hnat : ∀ m : Nat, Rel (1 / 10 ^ 15) (m : Dbl).val (m : ℚ) := by
    intro m
    refine rnd_rel ?_
    rcases Nat.eq_zero_or_pos m with rfl | hm
    · exact Or.inl (by simp)
    · refine Or.inr ?_
      have : (1 : ℚ) ≤ m := by exact_mod_cast hm
      rw [abs_of_pos (by linarith)]
      exact le_trans (by norm_num) this
  have hfin : ∀ {x : ℚ} {e y : ℚ}, Rel e x y → e ≤ 1 → |y| ≤ 1290 → |x| ≤ maxFinite := by
    intro x e y h he hy
    refine le_max ((h.le_two he).trans ?_)
    have : (2 : ℚ) * 1290 ≤ 2 ^ 1020 := le_trans (b := 2 ^ 20) (by norm_num) (pow_le_pow_right₀ (by norm_num) (by norm_num))
    exact le_trans (mul_le_mul_of_nonneg_left hy (by norm_num)) this
  have a1 := hnat n
  have a2 := hnat i
  have hn0 : (n : Dbl).val ≠ 0 := by
    have := rel_abs (a := 1) a1 (by norm_num) (by rw [abs_of_pos (by linarith)]; exact hq1)
    intro h
    rw [h, abs_zero] at this
    norm_num at this
  -- the width
  have b0 : Rel (2 / 10 ^ 15) (1 / (n : Dbl).val) (1 / (n : ℚ)) :=
    (Rel.div (by norm_num) (Rel.refl 1) a1).mono (by norm_num)
  have b1 : Rel (31 / 10 ^ 16) (1 / (n : Dbl)).val (1 / (n : ℚ)) := by
    refine (Rel.trans (by norm_num) (rnd_rel (Or.inr ?_)) b0).mono (by norm_num)
    have hw : (1 : ℚ) / 1290 ≤ |1 / (n : ℚ)| := by
      rw [abs_of_pos (by positivity)]
      exact one_div_le_one_div_of_le (by linarith) hq2
    exact le_trans (by norm_num) (rel_abs b0 (by norm_num) hw)
  -- the product
  have c0 : Rel (42 / 10 ^ 16) ((1 / (n : Dbl)).val * (i : Dbl).val) ((i : ℚ) / n) := by
    have := (Rel.mul (by norm_num) b1 a2).mono (e' := 42 / 10 ^ 16) (by norm_num)
    rwa [one_div_mul_eq_div] at this
  have hi1 : i = 0 ∨ (1 : ℚ) / 1290 ≤ |(i : ℚ) / n| := by
    rcases Nat.eq_zero_or_pos i with h | h
    · exact Or.inl h
    · refine Or.inr ?_
      have : (1 : ℚ) ≤ i := by exact_mod_cast h
      rw [abs_of_nonneg (by positivity)]
      exact div_le_div₀ hi0 this (by linarith) hq2
  have near : ∀ {x e : ℚ}, e ≤ 1 / 2 → Rel e x ((i : ℚ) / n) → x = 0 ∨ 1 / 2 ^ 100 ≤ |x| := by
    intro x e he h
    rcases hi1 with h0 | h1
    · left
      rw [h0] at h
      simpa [Rel] using h
    · exact Or.inr (le_trans (by norm_num) (rel_abs h he h1))
  have c1 : Rel (53 / 10 ^ 16) (1 / (n : Dbl) * (i : Dbl)).val ((i : ℚ) / n) :=
    (Rel.trans (by norm_num) (rnd_rel (near (by norm_num) c0)) c0).mono (by norm_num)
  -- the sum
  have d0 : Rel (53 / 10 ^ 16) ((0 : Dbl).val + (1 / (n : Dbl) * (i : Dbl)).val) ((i : ℚ) / n) := by
    rw [show (0 : Dbl).val = 0 from rfl, zero_add]; exact c1
  have d1 : Rel (1 / 10 ^ 14) (0 + 1 / (n : Dbl) * (i : Dbl)).val ((i : ℚ) / n) :=
    (Rel.trans (by norm_num) (rnd_rel (near (by norm_num) d0)) d0).mono (by norm_num)
  have hle : |(i : ℚ) / n| ≤ 1290 := by
    rw [abs_of_nonneg (by positivity)]
    exact ((div_le_one (by linarith)).2 hiq).trans (by norm_num)
  have hle1 : |(1 : ℚ) / n| ≤ 1290 := by
    rw [abs_of_nonneg (by positivity)]
    exact ((div_le_one (by linarith)).2 hq1).trans (by norm_num)
  refine ⟨0 + 1 / (n : Dbl) * (i : Dbl), ?_, d1⟩
  rw [F64.fin_nat (hfin a1 (by norm_num) (by rw [abs_of_nonneg (by linarith)]; exact hq2)),
    F64.fin_nat (hfin a2 (by norm_num) (by rw [abs_of_nonneg hi0]; linarith)),
    show (1 : F64) = .fin 1 from rfl, F64.fin_div hn0 (hfin b1 (by norm_num) hle1),
    F64.fin_mul (hfin c1 (by norm_num) hle), show (0 : F64) = .fin 0 from rfl, F64.fin_add (hfin d1 (by norm_num) hle)]

theorem unit_axis {n : Nat} (hn : 0 < n) (hn2 : n ≤ 1290) : UnitAxis n
    ((List.range (n + 1)).map fun i : Nat => F64.text (0 + 1 / (n : F64) * (i : F64))) := by
  have hq1 : (1 : ℚ) ≤ n := by exact_mod_cast hn
  have hq2 : (n : ℚ) ≤ 1290 := by exact_mod_cast hn2
  have hw : (1 : ℚ) / 1290 ≤ 1 / n := one_div_le_one_div_of_le (by linarith) hq2
  have key : ∀ i : Nat, ∃ q : ℚ, i ≤ n → readDecimal (F64.text (0 + 1 / (n : F64) * (i : F64))) = some q ∧
      |q - (i : ℚ) / n| ≤ (i : ℚ) / n / 190000 ∧ (i = n → q = 1) := by
    intro i
    by_cases hi : i ≤ n
    · obtain ⟨x, hx, hr⟩ := coordinate hn hn2 hi
      obtain ⟨q, h1, _, _, h4⟩ := C80_six_digits x
      refine ⟨q, fun _ => ⟨by rw [hx]; exact h1, ?_, ?_⟩⟩
      · have h0 : (0 : ℚ) ≤ (i : ℚ) / n := by positivity
        have hx' : |x.val| ≤ (1 + 1 / 10 ^ 14) * ((i : ℚ) / n) := by
          have := hr.abs_le
          rwa [abs_of_nonneg h0] at this
        have hr' : |x.val - (i : ℚ) / n| ≤ 1 / 10 ^ 14 * ((i : ℚ) / n) := by
          have : |x.val - (i : ℚ) / n| ≤ _ := hr
          rwa [abs_of_nonneg h0] at this
        have := abs_sub_le q x.val ((i : ℚ) / n)
        linarith
      · intro h
        subst h
        rw [div_self (by linarith)] at hr
        have : |x.val - 1| ≤ 1 / 10 ^ 14 * |1| := hr
        rw [abs_one, abs_le] at this
        rw [(C80_one_iff x).2 (by constructor <;> linarith [this.1, this.2])] at h1
        exact (Option.some.inj ((show readDecimal "1".toList = some 1 by decide +kernel).symm.trans h1)).symm
    · exact ⟨0, fun h => absurd h hi⟩
  choose c hc using key
  refine ⟨by simp, c, fun i hi => ?_, ?_, (hc n le_rfl).2.2 rfl, fun i hi => ?_, fun i hi => (hc i hi).2.1⟩
  · rw [List.getElem?_map, List.getElem?_range (by omega)]
    exact (hc i hi).1
  · have := (hc 0 (Nat.zero_le n)).2.1
    simpa using this
  · have h1 := (hc i hi.le).2.1
    have h2 := (hc (i + 1) hi).2.1
    have hi1 : ((i : ℚ) + 1) / n ≤ 1 := (div_le_one (by linarith)).2 (by exact_mod_cast hi)
    rw [abs_le] at h1 h2
    push_cast at h2
    have e : ((i : ℚ) + 1) / n = i / n + 1 / n := by ring
    rw [e] at h2 hi1
    have h0 : (0 : ℚ) ≤ (i : ℚ) / n := by positivity
    linarith [h1.2, h2.1]

section
variable [DoubleText F64] [Upwind.HasSqrt F64]

/-- C80: the files that upwind.cxx and upwindOMPTasks.cxx write with `-vtk` and IEEE numbers, for every number of cells and of
steps: every axis has coordinates that increase strictly from 0 to 1, up0.vtk holds the initial field exactly, and every value in
up1.vtk denotes the number with six digits nearest to the value computed. -/
theorem C80_upwind_files (htext : ∀ x : F64, DoubleText.showDouble x = x.text) (omp : Option (Int × Int)) (exec : Str)
    (args : List Str) (h : AllKnown (upwindNames true) args) (n : Nat) (steps : Int)
    (h1 : IntValue Reads args "-numCells".toList 128 n) (h2 : IntValue Reads args "-numSteps".toList 10 steps)
    (hh : flagValue args "-h".toList = false) (hv : flagValue args "-vtk".toList = true) (hn : 0 < n) (hn2 : n ≤ 1290)
    (hk : steps < 2 ^ 31) :
    ∃ (e : Exit) (text0 text1 : Str) (grid0 grid1 : RectGrid), Upwind.main (F64.fin ⟨rnd (1 / 10)⟩) omp (exec :: args) = .ok e ∧
      e.files = [("up0.vtk".toList, text0), ("up1.vtk".toList, text1)] ∧
      readRect text0 = some grid0 ∧ readRect text1 = some grid1 ∧
      (∀ ts ∈ [grid0.x, grid0.y, grid0.z, grid1.x, grid1.y, grid1.z], UnitAxis n ts) ∧
      ∀ g, InGrid [n, n, n] g →
        (grid0.value (g.getD 2 0) (g.getD 1 0) (g.getD 0 0)).bind readDecimal = some (cornerField g) ∧
        ∃ (x : Dbl) (q : ℚ), driverField n
            (upCoeff (driverStep HasMax.dblMax (F64.fin ⟨rnd (1 / 10)⟩) (1 / (n : F64))) [1, 1, 1] [1, 1, 1] [n, n, n]) steps g =
              .fin x ∧
          (grid1.value (g.getD 2 0) (g.getD 1 0) (g.getD 0 0)).bind readDecimal = some q ∧
          SixDigit q ∧ (∀ d, SixDigit d → |q - x.val| ≤ |d - x.val|) ∧ |q - x.val| ≤ |x.val| / 200000 := by
  obtain ⟨f, text0, text1, hst, r0, r1, e⟩ := C56_upwind_run (F64.fin ⟨rnd (1 / 10)⟩) omp exec args h n steps h1 h2 hh hn hn2
    (words_of htext).1
  obtain ⟨s, t, _, ht, hf, _⟩ := C69_driver n hn hn2 steps hk
  have hft := driver_field hn hn2 ht hst
  rw [show (DoubleText.showDouble : F64 → Str) = F64.text from funext htext] at r0 r1
  obtain ⟨grid0, p1, p2, _, _, p5⟩ := r0
  obtain ⟨grid1, q1, q2, _, _, q5⟩ := r1
  refine ⟨_, text0, text1, grid0, grid1, e, by simp only [hv, if_true], p1, q1, ?_, fun g hg => ⟨?_, ?_⟩⟩
  · have hax := unit_axis hn hn2
    simp only [List.map_cons, List.map_nil, List.cons.injEq, and_true] at p2 q2
    intro ts hts
    simp only [List.mem_cons, List.not_mem_nil, or_false] at hts
    rcases hts with rfl | rfl | rfl | rfl | rfl | rfl
    · rw [p2.1]; exact hax
    · rw [p2.2.1]; exact hax
    · rw [p2.2.2]; exact hax
    · rw [q2.1]; exact hax
    · rw [q2.2.1]; exact hax
    · rw [q2.2.2]; exact hax
  · rw [p5 g hg, Option.bind_some]
    unfold cornerField
    split
    · exact show readDecimal (F64.fin ⟨1⟩).text = some 1 by decide +kernel
    · exact show readDecimal (F64.fin ⟨0⟩).text = some 0 by decide +kernel
  · have hm := List.mem_of_getElem? (hst.2 g hg)
    rw [← hft, hf] at hm
    obtain ⟨x, _, hx⟩ := List.mem_map.1 hm
    obtain ⟨q, a1, a2, a3, a4⟩ := C80_six_digits x
    refine ⟨x, q, hx.symm, ?_, a2, a3, a4⟩
    rw [q5 g hg, Option.bind_some, ← hx]
    exact a1

end

/-! ### Non-vacuity -/

/-- Values that are written exactly and values that are not: 0.1 is not the double nearest to it, 1 / 8192 has too many digits. -/
example : SixDigit (5 / 2) ∧ readDecimal (F64.fin ⟨5 / 2⟩).text = some (5 / 2) ∧
    readDecimal (F64.fin ⟨rnd (1 / 10)⟩).text = some (1 / 10) ∧ rnd (1 / 10) ≠ 1 / 10 ∧
    readDecimal (F64.fin ⟨1 / 8192⟩).text = some (12207 / 10 ^ 8) := by
  refine ⟨⟨25, -1, by norm_num, by norm_num⟩, by decide +kernel, by decide +kernel, by decide +kernel, by decide +kernel⟩

/-- The bounds of `C80_one_iff` tell neighbours apart. -/
example : (F64.fin ⟨9999995 / 10 ^ 7⟩).text = "1".toList ∧ (F64.fin ⟨1000005 / 10 ^ 6⟩).text = "1".toList ∧
    (F64.fin ⟨99999949 / 10 ^ 8⟩).text = "0.999999".toList ∧ (F64.fin ⟨10000051 / 10 ^ 7⟩).text = "1.00001".toList := by
  decide +kernel

/-- `C80_upwind_check_sum` and `C80_upwind_files` apply to the command line `-vtk`: 128 cells and 10 steps. -/
example (sqrt : F64 → F64) (atof : Str → F64) :
    letI : Upwind.HasSqrt F64 := ⟨sqrt⟩
    letI := F64.textWith atof
    ∃ e : Exit, Upwind.main (F64.fin ⟨rnd (1 / 10)⟩) none ["upwind".toList, "-vtk".toList] = .ok e ∧ e.files.length = 2 ∧
      e.out = "number of cells:  128 128 128\nnumber of time steps: 10\ncheck sum: 1\n".toList := by
  letI : Upwind.HasSqrt F64 := ⟨sqrt⟩
  letI := F64.textWith atof
  have key : ∀ (name : Str) (i : Nat), name ≠ "-vtk".toList → ["-vtk".toList][i]? = some name → False := by
    intro name i hn h
    match i with
    | 0 => exact hn (Option.some.inj h).symm
    | i + 1 => cases h
  have hk : AllKnown (upwindNames true) ["-vtk".toList] := by intro a ha _; rw [List.mem_singleton.1 ha]; decide
  have h1 : IntValue Reads ["-vtk".toList] "-numCells".toList 128 (128 : Nat) :=
    ⟨fun v ⟨i, h, _⟩ => (key _ i (by decide) h).elim, .inl ⟨fun i h => (key _ i (by decide) h).elim, rfl⟩⟩
  have h2 : IntValue Reads ["-vtk".toList] "-numSteps".toList 10 10 :=
    ⟨fun v ⟨i, h, _⟩ => (key _ i (by decide) h).elim, .inl ⟨fun i h => (key _ i (by decide) h).elim, rfl⟩⟩
  obtain ⟨e, f, he, _, ho, ht⟩ := C80_upwind_check_sum (fun _ => rfl) none "upwind".toList ["-vtk".toList] hk 128 10 h1 h2
    (by decide) (by decide) (by decide) (by decide)
  obtain ⟨e', _, _, _, _, he', hf, _⟩ := C80_upwind_files (fun _ => rfl) none "upwind".toList ["-vtk".toList] hk 128 10 h1 h2
    (by decide) (by decide) (by decide) (by decide) (by decide)
  rw [he] at he'
  obtain rfl := Except.ok.inj he'
  refine ⟨e, he, by rw [hf]; rfl, ?_⟩
  rw [ho]
  unfold resultText
  rw [ht, if_neg (by decide)]
  decide

/-- The test of `C79_upwind_passes_double`. -/
example (sqrt : F64 → F64) (atof : Str → F64) :
    letI : Upwind.HasSqrt F64 := ⟨sqrt⟩
    letI := F64.textWith atof
    ∃ e, Upwind.main (F64.fin ⟨rnd (1 / 10)⟩) none ("upwindCxx".toList :: upwindArgs (toString 32).toList "10".toList) = .ok e ∧
      ∀ v, Verdict upwindTest e v ↔ v = true := by
  let _ : Upwind.HasSqrt F64 := ⟨sqrt⟩
  let _ := F64.textWith atof
  exact C79_upwind_passes_double (fun _ => rfl) none _ _ _ (plain_of_head (c := '3') (s := ['2']) (by decide))
    (plain_of_head (c := '1') (s := ['0']) (by decide))

end Fidi
