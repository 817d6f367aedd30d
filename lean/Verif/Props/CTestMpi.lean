import Verif.Lemmas.CTestMerge
import Verif.Props.CTest
import Verif.Props.UpwindMpiPy

/-
Property C79: the verdict of the test upwindPythonMpiN. The processes all write to the standard output, which the test reads as one
text. `R` is any type with the operations used; `MpiNum.Good` says what is assumed of the decompositions of mpinum; `time` is the
text of the measured time.
-/
set_option linter.unusedSectionVars false

namespace Fidi
open Spec CTest

theorem no_h_nat (n : Nat) : 'h' ∉ (toString n).toList := by
  intro h
  have h' : 'h' ∈ Nat.toDigits 10 n := by simpa [toString, Nat.repr] using h
  exact absurd (toDigits_ok n _ h') (by decide)

theorem no_h_right {w : Nat} {s : List Char} (h : 'h' ∉ s) : 'h' ∉ atRight w s := by
  unfold atRight
  rw [List.mem_append, not_or]
  exact ⟨fun h => absurd (List.eq_of_mem_replicate h) (by decide), h⟩

theorem no_h_local (rk : Nat) (box : Nat × Nat × Nat) : 'h' ∉ localText rk box := by
  unfold localText
  simp only [String.toList_append, List.mem_append, not_or]
  exact ⟨⟨⟨⟨⟨⟨⟨⟨by decide, no_h_nat _⟩, by decide⟩, no_h_right (no_h_nat _)⟩, by decide⟩, no_h_right (no_h_nat _)⟩, by decide⟩,
    no_h_right (no_h_nat _)⟩, by decide⟩

theorem no_h_mpi (n : Nat) {time : List Char} (h : 'h' ∉ time) : 'h' ∉ mpiText n time := by
  unfold mpiText
  simp only [String.toList_append, List.mem_append, not_or]
  exact ⟨⟨⟨⟨⟨⟨⟨⟨by decide, no_h_nat _⟩, by decide⟩, no_h_nat _⟩, by decide⟩, no_h_nat _⟩, by decide⟩, h⟩, by decide⟩

theorem count_sumLine {s : List Char} (h : 'h' ∉ s) : (sumLine s).count 'h' = 1 := by
  unfold sumLine
  rw [List.count_append, List.count_append, List.count_eq_zero_of_not_mem h]
  decide

section
variable {R : Type}

/-- What the processes of upwindMPI.py leave behind. -/
def pyMpiExit (size n : Nat) (box : Nat × Nat × Nat) (time sum : Str) (files : List (Str × Str)) : MpiExit :=
  ⟨(List.range size).map fun rk =>
    if rk = 0 then { out := localText 0 box ++ mpiText n time ++ sumLine sum, err := [], files, status := 0 }
    else { out := localText rk box, err := [], files := [], status := 0 }⟩

theorem pyMpi_count (size n : Nat) (hsize : 0 < size) (box : Nat × Nat × Nat) {time sum : Str} (files : List (Str × Str))
    (ht : 'h' ∉ time) (hs : 'h' ∉ sum) {text : Str}
    (h : Merge ((pyMpiExit size n box time sum files).ranks.flatMap fun r => [r.out, r.err]) text) : text.count 'h' = 1 := by
  obtain ⟨k, rfl⟩ : ∃ k, size = k + 1 := ⟨size - 1, by omega⟩
  rw [merge_count h]
  unfold pyMpiExit
  rw [List.range_succ_eq_map]
  simp only [List.map_cons, List.map_map, List.flatMap_cons, if_true, List.map_append, List.sum_append, List.map_nil, List.count_nil,
    List.sum_cons, List.sum_nil, List.count_append, List.count_eq_zero_of_not_mem (no_h_local 0 box),
    List.count_eq_zero_of_not_mem (no_h_mpi n ht), count_sumLine hs]
  rw [List.sum_eq_zero]
  · rfl
  · intro x hx
    obtain ⟨s, hs, rfl⟩ := List.mem_map.1 hx
    obtain ⟨r, hr, hs⟩ := List.mem_flatMap.1 hs
    obtain ⟨i, _, rfl⟩ := List.mem_map.1 hr
    simp only [Function.comp, Nat.succ_ne_zero, if_false, List.mem_cons, List.not_mem_nil, or_false] at hs
    rcases hs with rfl | rfl
    · exact List.count_eq_zero_of_not_mem (no_h_local _ box)
    · rfl

theorem pyMpi_status (size n : Nat) (box : Nat × Nat × Nat) (time sum : Str) (files : List (Str × Str)) :
    ∀ r ∈ (pyMpiExit size n box time sum files).ranks, r.status = 0 := by
  intro r hr
  obtain ⟨i, _, rfl⟩ := List.mem_map.1 hr
  split <;> rfl

variable [Zero R] [One R] [Add R] [Sub R] [Mul R] [Div R] [NatCast R] [IntCast R] [LT R] [DecidableLT R] [DoubleText R]

/-- The text around the last line of process 0. -/
theorem sumLine_verdict {w a b : Str} (hw : IsWord w) (h : (a ++ sumLine w ++ b).count 'h' = 1) (status : Int) :
    scriptTest.passes (a ++ sumLine w ++ b) status = true ↔ ∃ c ∈ accepted, [c] <+: w := by
  have e : a ++ sumLine w ++ b = a ++ 'c' :: ("heck sum:".toList ++ (List.replicate 1 ' ' ++ (w ++ ("\n".toList ++ b)))) := by
    unfold sumLine
    have : "check sum: ".toList = 'c' :: ("heck sum:".toList ++ List.replicate 1 ' ') := by decide +kernel
    rw [this]
    simp only [List.append_assoc, List.cons_append]
  rw [(C79_expression_iff _ status).2.1, e, labelled_once_h (.inr rfl) (by rw [← e]; exact h)]
  exact beginsWith_word 1 (by decide) hw.1 fun h => absurd (hw.2 _ h) (by decide)

/-- C79: upwindPythonMpiN runs the asked numbers of cells and steps. The verdict on every text in which the line with the check sum
is in one piece is that the sum of the computed field begins with one of the accepted characters; on one process there are no other
texts. -/
theorem C79_python_mpi_verdict (decomp : Nat → Nat → Option (MpiNum × (Nat × Nat × Nat))) (readInt : Str → Option Int)
    (time : Str) (courant inf : R) (sum : List R → R) (size : Nat) (hsize : 0 < size) (prog a b : Str) (n : Nat) (steps : Int)
    (ha : readInt a = some (n : Int)) (hb : readInt b = some steps) (hn : 0 < n) (dc : MpiNum) (box : Nat × Nat × Nat)
    (hd : decomp size n = some (dc, box)) (hdc : dc.Good size box (n, n, n)) (hcast : ∀ n : Nat, ((n : Int) : R) = (n : R))
    (h01 : ¬ (1 : R) < 0) (hw : ∀ x : R, IsWord (DoubleText.showDouble x)) (hh : ∀ x : R, 'h' ∉ DoubleText.showDouble x)
    (ht : 'h' ∉ time) :
    ∃ (e : MpiExit) (f : Nat → Arr3 R) (s : R),
      (∀ rk, rk < size → ∀ x y z, x < box.1 → y < box.2.1 → z < box.2.2 →
        f rk x y z = (boxStep sum (programStep inf courant (1 / (n : R))) [1, 1, 1] [1, 1, 1] [n, n, n]
            [box.1, box.2.1, box.2.2])^[steps.toNat] cornerField
          [(dc.coords rk).1 * box.1 + x, (dc.coords rk).2.1 * box.2.1 + y, (dc.coords rk).2.2 * box.2.2 + z]) ∧
      s = ((List.range size).flatMap fun rk => (List.range box.1).flatMap fun x => (List.range box.2.1).flatMap fun y =>
        (List.range box.2.2).map fun z => f rk x y z).foldl (· + ·) 0 ∧
      PyMpi.main decomp readInt time courant inf sum size (prog :: upwindArgs a b) = .ok e ∧
      (∀ text status, Merge (e.ranks.flatMap fun r => [r.out, r.err]) text → sumLine (DoubleText.showDouble s) <:+: text →
        (scriptTest.passes text status = true ↔ ∃ c ∈ accepted, [c] <+: DoubleText.showDouble s)) ∧
      (size = 1 → ∀ v, MpiVerdict scriptTest e v ↔ (v = true ↔ ∃ c ∈ accepted, [c] <+: DoubleText.showDouble s)) := by
  obtain ⟨f, s, text, grid, hf, hs, -, -, -, -, -, hm⟩ := C62_run_partial decomp readInt time courant inf sum size prog
    (upwindArgs a b) n steps false (C78_other_sizes_partial _ 100 a b n steps ha hb) hn dc box hd hdc hcast h01 hw
  have hm : PyMpi.main decomp readInt time courant inf sum size (prog :: upwindArgs a b) =
    .ok (pyMpiExit size n box time (DoubleText.showDouble s) []) := hm
  refine ⟨_, f, s, hf, hs, hm, ?_, ?_⟩
  · rintro text status hmerge ⟨p, q, rfl⟩
    exact sumLine_verdict (hw s) (pyMpi_count size n hsize box [] ht (hh s) hmerge) status
  · rintro rfl v
    have hout : ∀ text, Merge ((pyMpiExit 1 n box time (DoubleText.showDouble s) []).ranks.flatMap fun r => [r.out, r.err]) text ↔
        text = localText 0 box ++ mpiText n time ++ sumLine (DoubleText.showDouble s) := by
      apply merge_single (i := 0) rfl
      intro j hj s' hs'
      match j, hj with
      | 1, _ => exact (Option.some.inj hs').symm
      | j + 2, _ => simp [pyMpiExit] at hs'
    have hv : ∀ status, scriptTest.passes (localText 0 box ++ mpiText n time ++ sumLine (DoubleText.showDouble s)) status = true ↔
        ∃ c ∈ accepted, [c] <+: DoubleText.showDouble s := by
      intro status
      have := sumLine_verdict (a := localText 0 box ++ mpiText n time) (b := []) (hw s) (by
        rw [List.append_nil]
        exact pyMpi_count 1 n hsize box [] ht (hh s) ((hout _).2 rfl)) status
      rwa [List.append_nil] at this
    unfold MpiVerdict
    constructor
    · rintro ⟨text, status, hmerge, _, hp⟩
      rw [(hout text).1 hmerge] at hp
      rw [← hv status, hp]
    · intro h
      refine ⟨_, 0, (hout _).2 rfl, ⟨fun _ => pyMpi_status _ _ _ _ _ _, fun _ => rfl⟩, ?_⟩
      rw [← hv 0] at h
      cases v
      · simpa using h
      · simpa using h

theorem range_two (k : Nat) : List.range (k + 2) = 0 :: 1 :: (List.range k).map (· + 2) := by
  rw [List.range_succ_eq_map, List.range_succ_eq_map]
  simp [Function.comp_def]

theorem local_one (box : Nat × Nat × Nat) : ∃ t, localText 1 box = '[' :: '1' :: t := by
  unfold localText
  exact ⟨_, rfl⟩

/-- C79 is false of upwindPythonMpiN: on two processes or more nothing keeps the text of the other processes out of the line with
the check sum, so that the test may pass or fail whatever the check sum is. -/
theorem C79_python_mpi_interleaved_fails (decomp : Nat → Nat → Option (MpiNum × (Nat × Nat × Nat)))
    (readInt : Str → Option Int) (time : Str) (courant inf : R) (sum : List R → R) (size : Nat) (hsize : 2 ≤ size)
    (prog a b : Str) (n : Nat) (steps : Int) (ha : readInt a = some (n : Int)) (hb : readInt b = some steps) (hn : 0 < n)
    (dc : MpiNum) (box : Nat × Nat × Nat) (hd : decomp size n = some (dc, box)) (hdc : dc.Good size box (n, n, n))
    (hcast : ∀ n : Nat, ((n : Int) : R) = (n : R)) (h01 : ¬ (1 : R) < 0) (hw : ∀ x : R, IsWord (DoubleText.showDouble x))
    (hh : ∀ x : R, 'h' ∉ DoubleText.showDouble x) (ht : 'h' ∉ time) :
    ∃ e, PyMpi.main decomp readInt time courant inf sum size (prog :: upwindArgs a b) = .ok e ∧
      ∀ v, MpiVerdict scriptTest e v := by
  obtain ⟨f, s, text, grid, -, -, -, -, -, -, -, hm⟩ := C62_run_partial decomp readInt time courant inf sum size prog
    (upwindArgs a b) n steps false (C78_other_sizes_partial _ 100 a b n steps ha hb) hn dc box hd hdc hcast h01 hw
  have hm : PyMpi.main decomp readInt time courant inf sum size (prog :: upwindArgs a b) =
    .ok (pyMpiExit size n box time (DoubleText.showDouble s) []) := hm
  refine ⟨_, hm, fun v => ?_⟩
  have hst : ((0 : Int) = 0) ↔ ∀ r ∈ (pyMpiExit size n box time (DoubleText.showDouble s) []).ranks, r.status = 0 :=
    ⟨fun _ => pyMpi_status _ _ _ _ _ _, fun _ => rfl⟩
  obtain ⟨t, ht1⟩ := local_one box
  have hstreams : ∃ rest, ((pyMpiExit size n box time (DoubleText.showDouble s) []).ranks.flatMap fun r => [r.out, r.err]) =
      (localText 0 box ++ mpiText n time ++ sumLine (DoubleText.showDouble s)) :: [] :: ('[' :: '1' :: t) :: rest := by
    obtain ⟨k, rfl⟩ : ∃ k, size = k + 2 := ⟨size - 2, by omega⟩
    unfold pyMpiExit
    rw [range_two]
    simp only [List.map_cons, List.flatMap_cons, if_true, Nat.one_ne_zero, if_false, ht1]
    exact ⟨_, rfl⟩
  obtain ⟨rest, hstreams⟩ := hstreams
  cases v
  · -- a bracket in the label
    have hl : sumLine (DoubleText.showDouble s) = "ch".toList ++ ("eck sum: ".toList ++ DoubleText.showDouble s ++ "\n".toList) := by
      unfold sumLine
      rw [show "check sum: ".toList = "ch".toList ++ "eck sum: ".toList by decide +kernel]
      simp only [List.append_assoc]
    obtain ⟨u, hu⟩ := merge_exists (("eck sum: ".toList ++ DoubleText.showDouble s ++ "\n".toList) :: [] :: ('1' :: t) :: rest)
    have hmerge : Merge ((pyMpiExit size n box time (DoubleText.showDouble s) []).ranks.flatMap fun r => [r.out, r.err])
        ((localText 0 box ++ mpiText n time ++ "ch".toList) ++ '[' :: u) := by
      rw [hstreams, hl, ← List.append_assoc]
      exact merge_prefix (i := 0) rfl (.next _ 2 '[' ('1' :: t) u rfl hu)
    refine ⟨_, 0, hmerge, hst, ?_⟩
    rw [Bool.eq_false_iff, ne_eq, (C79_expression_iff _ 0).2.1]
    rintro ⟨pre, c, rest', e, _, _⟩
    have hc := pyMpi_count size n (by omega) box [] ht (hh s) hmerge
    have e0 : localText 0 box ++ mpiText n time ++ "ch".toList ++ '[' :: u =
        (localText 0 box ++ mpiText n time ++ ['c']) ++ 'h' :: ('[' :: u) := by
      rw [show "ch".toList = ['c', 'h'] by decide +kernel]
      simp only [List.append_assoc, List.cons_append, List.nil_append]
    have e1 : pre ++ c :: ("heck sum:".toList ++ rest') = (pre ++ [c]) ++ 'h' :: ("eck sum:".toList ++ rest') := by
      rw [show "heck sum:".toList = 'h' :: "eck sum:".toList by decide +kernel]
      simp only [List.append_assoc, List.cons_append, List.nil_append]
    rw [e0] at hc e
    rw [e1] at e
    have := (split_once hc e).2
    rw [show "eck sum:".toList = 'e' :: "ck sum:".toList by decide +kernel] at this
    injection this with h _
    exact absurd h (by decide)
  · -- the rank of process 1 after the label
    have hl : sumLine (DoubleText.showDouble s) = "check sum: ".toList ++ (DoubleText.showDouble s ++ "\n".toList) := by
      unfold sumLine
      simp only [List.append_assoc]
    obtain ⟨u, hu⟩ := merge_exists ((DoubleText.showDouble s ++ "\n".toList) :: [] :: t :: rest)
    have hmerge : Merge ((pyMpiExit size n box time (DoubleText.showDouble s) []).ranks.flatMap fun r => [r.out, r.err])
        ('[' :: ((localText 0 box ++ mpiText n time ++ "check sum: ".toList) ++ '1' :: u)) := by
      rw [hstreams, hl, ← List.append_assoc]
      exact .next _ 2 '[' ('1' :: t) _ rfl (merge_prefix (i := 0) rfl (.next _ 2 '1' t u rfl hu))
    refine ⟨_, 0, hmerge, hst, ?_⟩
    rw [(C79_expression_iff _ 0).2.1]
    refine ⟨'[' :: (localText 0 box ++ mpiText n time), 'c', ' ' :: '1' :: u, ?_, .inr rfl, 1, '1', u, rfl, by decide⟩
    rw [show "check sum: ".toList = 'c' :: ("heck sum:".toList ++ [' ']) by decide +kernel]
    simp only [List.append_assoc, List.cons_append, List.nil_append]

/-- A text that has no `k` in any stream. -/
theorem verdict_no_k {e : MpiExit} (hk : ∀ r ∈ e.ranks, 'k' ∉ r.out ∧ r.err = []) (v : Bool) :
    MpiVerdict scriptTest e v ↔ v = false := by
  have hp : ∀ text status, Merge (e.ranks.flatMap fun r => [r.out, r.err]) text → scriptTest.passes text status = false := by
    intro text status h
    rw [Bool.eq_false_iff, ne_eq, (C79_expression_iff _ status).2.1]
    rintro ⟨pre, c, rest, rfl, _, _⟩
    have hc := merge_count h 'k'
    rw [List.sum_eq_zero] at hc
    · have := List.count_eq_zero.1 hc
      apply this
      rw [show "heck sum:".toList = 'h' :: 'e' :: 'c' :: 'k' :: " sum:".toList by decide +kernel]
      simp
    · intro x hx
      obtain ⟨s, hs, rfl⟩ := List.mem_map.1 hx
      obtain ⟨r, hr, hs⟩ := List.mem_flatMap.1 hs
      simp only [List.mem_cons, List.not_mem_nil, or_false] at hs
      rcases hs with rfl | rfl
      · exact List.count_eq_zero_of_not_mem (hk r hr).1
      · rw [(hk r hr).2]; rfl
  unfold MpiVerdict
  constructor
  · rintro ⟨text, status, h, _, hv⟩
    rw [← hv, hp text status h]
  · rintro rfl
    obtain ⟨text, h⟩ := merge_exists (e.ranks.flatMap fun r => [r.out, r.err])
    by_cases hz : ∀ r ∈ e.ranks, r.status = 0
    · exact ⟨text, 0, h, ⟨fun _ => hz, fun _ => rfl⟩, hp text 0 h⟩
    · exact ⟨text, 1, h, ⟨fun h => absurd h (by decide), fun h => absurd h hz⟩, hp text 1 h⟩

/-- C79: if there is no decomposition for the number of processes, upwindPythonMpiN fails, however the texts are interleaved. -/
theorem C79_python_mpi_no_decomposition (decomp : Nat → Nat → Option (MpiNum × (Nat × Nat × Nat)))
    (readInt : Str → Option Int) (time : Str) (courant inf : R) (sum : List R → R) (size : Nat) (prog a b : Str) (n : Nat)
    (steps : Int) (ha : readInt a = some (n : Int)) (hb : readInt b = some steps) (hn : 0 < n) (hd : decomp size n = none) :
    ∃ e, PyMpi.main decomp readInt time courant inf sum size (prog :: upwindArgs a b) = .ok e ∧
      ∀ v, MpiVerdict scriptTest e v ↔ v = false := by
  refine ⟨_, (C62_refuses decomp readInt time courant inf sum size prog).2 (upwindArgs a b) n steps false
    (C78_other_sizes_partial _ 100 a b n steps ha hb) hn hd, verdict_no_k ?_⟩
  intro r hr
  rw [List.eq_of_mem_replicate hr]
  refine ⟨?_, rfl⟩
  simp only [String.toList_append, List.mem_append, not_or]
  exact ⟨⟨⟨⟨⟨⟨⟨⟨by decide, no_k_nat _⟩, by decide⟩, no_k_nat _⟩, by decide⟩, no_k_nat _⟩, by decide⟩, no_k_nat _⟩, by decide⟩

end

/-- A text for every number. -/
local instance pyMpiText : DoubleText ℚ := ⟨fun _ => 0, fun x => if x = 0 then ['0'] else if x = 1 then ['1'] else ['q']⟩

theorem pyMpi_words : (∀ x : ℚ, IsWord (DoubleText.showDouble x)) ∧ ∀ x : ℚ, 'h' ∉ DoubleText.showDouble x := by
  refine ⟨fun x => ?_, fun x => ?_⟩
  · show IsWord (if x = 0 then ['0'] else if x = 1 then ['1'] else ['q'])
    split
    · exact ⟨by decide, by decide⟩
    · split <;> exact ⟨by decide, by decide⟩
  · show 'h' ∉ (if x = 0 then ['0'] else if x = 1 then ['1'] else ['q'])
    split
    · decide
    · split <;> decide

/-- Six processes, four steps on 6 x 6 x 6 cells: both verdicts. One process: the verdict of the check sum. No decomposition: no. -/
example :
    (∃ e : MpiExit, PyMpi.main (R := ℚ) (fun _ _ => some (rowMajor 2 3 1, (3, 2, 6)))
      (fun a => if a = "6".toList then some 6 else some 4) "0.125".toList 0.1 1000 List.sum 6
      ("upwindMPI.py".toList :: upwindArgs "6".toList "4".toList) = .ok e ∧ ∀ v, MpiVerdict scriptTest e v) ∧
    (∃ e : MpiExit, PyMpi.main (R := ℚ) (fun _ _ => some (rowMajor 1 1 1, (6, 6, 6)))
      (fun a => if a = "6".toList then some 6 else some 4) "0.125".toList 0.1 1000 List.sum 1
      ("upwindMPI.py".toList :: upwindArgs "6".toList "4".toList) = .ok e ∧ ∃ s : ℚ,
      ∀ v, MpiVerdict scriptTest e v ↔ (v = true ↔ ∃ c ∈ accepted, [c] <+: DoubleText.showDouble s)) ∧
    ∃ e : MpiExit, PyMpi.main (R := ℚ) (fun _ _ => none) (fun a => if a = "6".toList then some 6 else some 4) "0.125".toList 0.1 1000
      List.sum 5 ("upwindMPI.py".toList :: upwindArgs "6".toList "4".toList) = .ok e ∧
      ∀ v, MpiVerdict scriptTest e v ↔ v = false := by
  refine ⟨C79_python_mpi_interleaved_fails _ _ _ _ _ _ 6 (by decide) _ _ _ 6 4 (by decide +kernel) (by decide +kernel) (by decide)
    (rowMajor 2 3 1) (3, 2, 6) rfl (rowMajor_good 2 3 1 (3, 2, 6) (by decide) (by decide) (by decide))
    (fun n => Int.cast_natCast n) (by decide) pyMpi_words.1 pyMpi_words.2 (by decide), ?_,
    C79_python_mpi_no_decomposition _ _ _ _ _ _ 5 _ _ _ 6 4 (by decide +kernel) (by decide +kernel) (by decide) rfl⟩
  obtain ⟨e, f, s, -, -, hm, -, hv⟩ := C79_python_mpi_verdict (R := ℚ) (fun _ _ => some (rowMajor 1 1 1, (6, 6, 6)))
    (fun a => if a = "6".toList then some 6 else some 4) "0.125".toList 0.1 1000 List.sum 1 (by decide) "upwindMPI.py".toList
    "6".toList "4".toList 6 4 (by decide +kernel) (by decide +kernel) (by decide) (rowMajor 1 1 1) (6, 6, 6) rfl
    (rowMajor_good 1 1 1 (6, 6, 6) (by decide) (by decide) (by decide)) (fun n => Int.cast_natCast n) (by decide)
    pyMpi_words.1 pyMpi_words.2 (by decide)
  exact ⟨e, hm, s, hv rfl⟩

end Fidi
