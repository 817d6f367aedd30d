import Verif.Lemmas.CTest
import Verif.Props.Mains
import Verif.Props.MainsMpi
import Verif.Props.MainsOther
import Verif.Props.Stencil2d
import Verif.Props.DriversWrap
import Verif.Props.DriversProcs

/-
Properties C78 and C79: what the tests registered with CTest run and what they check.
`R` is any type with the operations used and stands for `double`; `K` is a field (exact arithmetic).
-/
set_option linter.unusedSectionVars false

namespace Fidi
open Spec CmdLineArgParser CTest

/-! ### C78 -/

section
variable {R : Type} [Zero R] [One R] [Add R] [Sub R] [Mul R] [Div R] [NatCast R] [IntCast R] [LT R] [DecidableLT R]
  [HasMax R] [Upwind.HasSqrt R] [DoubleText R]

theorem opt_numCells : LooksLikeOption "-numCells".toList := ⟨'n', "umCells".toList, rfl, by decide⟩
theorem opt_numSteps : LooksLikeOption "-numSteps".toList := ⟨'n', "umSteps".toList, rfl, by decide⟩
theorem opt_numDims : LooksLikeOption "-numDims".toList := ⟨'n', "umDims".toList, rfl, by decide⟩
theorem opt_h : LooksLikeOption "-h".toList := ⟨'h', [], rfl, by decide⟩
theorem opt_std : LooksLikeOption "-std".toList := ⟨'s', "td".toList, rfl, by decide⟩
theorem opt_vtk : LooksLikeOption "-vtk".toList := ⟨'v', "tk".toList, rfl, by decide⟩

/-- C78: the C++ upwind programs do not look at arguments that are not options: with any of them they do what they do without
arguments. -/
theorem C78_arguments_ignored (courant : R) (omp : Option (Int × Int)) (exec : Str) (args : List Str)
    (h : ∀ a ∈ args, ¬ LooksLikeOption a) :
    Upwind.main courant omp (exec :: args) = Upwind.main courant omp [exec] ∧
    ∀ (l : UpwindAcc.Loop) (T : Nat) (may : Nat → Nat → Nat → Prop) (x : M Exit),
      UpwindAcc.Main l courant T may (exec :: args) x ↔ UpwindAcc.Main l courant T may [exec] x := by
  have key : ∀ std : Bool, (if std then withStd upwindOptions else upwindOptions : CmdLineArgParser R).parse (exec :: args) =
      (if std then withStd upwindOptions else upwindOptions : CmdLineArgParser R).parse [exec] := by
    intro std
    have h0 : ∀ a ∈ ([] : List Str), ¬ LooksLikeOption a := by simp
    rw [upwind_known std exec (plain_args h _ _ opt_numCells 128).1 (plain_args h [] _ opt_numCells 128).2.1
      (plain_args h [] _ opt_numSteps 10).2.1,
      upwind_known std exec (plain_args h0 _ _ opt_numCells 128).1 (plain_args h0 [] _ opt_numCells 128).2.1
      (plain_args h0 [] _ opt_numSteps 10).2.1,
      (plain_args h [] _ opt_h 0).2.2, (plain_args h [] _ opt_std 0).2.2, (plain_args h [] _ opt_vtk 0).2.2]
    rfl
  constructor
  · unfold Upwind.main
    rw [show withStd (upwindOptions (R := R)) = if true then withStd upwindOptions else upwindOptions from rfl, key true]
  · intro l T may x
    have : UpwindAcc.mainStart (R := R) l.options (exec :: args) = UpwindAcc.mainStart (R := R) l.options [exec] := by
      unfold UpwindAcc.mainStart
      rw [options_eq (R := R), key]
    unfold UpwindAcc.Main
    rw [this]

/-- C78: whatever the values of NUM_CELLS and NUM_TIME_STEPS, the tests upwindCxx* run 10 steps on 128 x 128 x 128 cells. -/
theorem C78_cxx_size (courant : R) (omp : Option (Int × Int)) (exec a b : Str) (ha : ¬ LooksLikeOption a)
    (hb : ¬ LooksLikeOption b) (hw : ∀ x : R, IsWord (DoubleText.showDouble x)) :
    ∃ f, Stores [128, 128, 128] f (driverField 128
        (upCoeff (driverStep HasMax.dblMax courant (1 / ((128 : Nat) : R))) [1, 1, 1] [1, 1, 1] [128, 128, 128]) 10) ∧
      Upwind.main courant omp (exec :: upwindArgs a b) = .ok {
        out := threadsText omp ++ resultText DoubleText.showDouble Upwind.HasSqrt.sqrt 128 10 false f
        err := [], files := [], status := 0 } := by
  have h : ∀ x ∈ upwindArgs a b, ¬ LooksLikeOption x := by
    intro x hx
    rcases List.mem_cons.1 hx with rfl | hx
    · exact ha
    · rw [List.mem_singleton.1 hx]; exact hb
  obtain ⟨f, _, _, hst, _, _, e⟩ := C56_upwind_run courant omp exec (upwindArgs a b) (plain_args h _ _ opt_numCells 128).1 128 10
    (plain_args h [] _ opt_numCells 128).2.1 (plain_args h [] _ opt_numSteps 10).2.1 (plain_args h [] _ opt_h 0).2.2
    (by decide) (by decide) hw
  rw [(plain_args h [] _ opt_std 0).2.2, (plain_args h [] _ opt_vtk 0).2.2] at e
  exact ⟨f, hst, e⟩

/-- C78: the same for every execution of upwindAccCxx and upwindAcc2Cxx, on any number of threads. -/
theorem C78_acc_size (l : UpwindAcc.Loop) (hl : l ≠ .omp5) (courant : R) (T : Nat) (hT : 0 < T) (may : Nat → Nat → Nat → Prop)
    (hmay : ∀ k i, ∃ t, t < T ∧ may k i t) (exec a b : Str) (ha : ¬ LooksLikeOption a) (hb : ¬ LooksLikeOption b)
    (hw : ∀ x : R, IsWord (DoubleText.showDouble x)) :
    (∃ x, UpwindAcc.Main l courant T may (exec :: upwindArgs a b) x) ∧
    ∀ x, UpwindAcc.Main l courant T may (exec :: upwindArgs a b) x → ∃ f,
      Stores [128, 128, 128] f (driverField 128 (fun _ => driverStep HasMax.dblMax courant (1 / (((128 : Nat) : Int) : R)) *
        (1 * ((upDir [(1 : R)] 0 : Int) : R) / (1 / (((128 : Nat) : Int) : R)))) 10) ∧
      x = .ok {
        out := resultText DoubleText.showDouble Upwind.HasSqrt.sqrt 128 10 false f, err := [], files := [], status := 0 } := by
  have h : ∀ x ∈ upwindArgs a b, ¬ LooksLikeOption x := by
    intro x hx
    rcases List.mem_cons.1 hx with rfl | hx
    · exact ha
    · rw [List.mem_singleton.1 hx]; exact hb
  obtain ⟨hex, hall⟩ := C56_acc_run_partial l courant T hT may hmay exec (upwindArgs a b) (plain_args h _ _ opt_numCells 128).1
    128 10 (plain_args h [] _ opt_numCells 128).2.1 (plain_args h [] _ opt_numSteps 10).2.1 (plain_args h [] _ opt_h 0).2.2
    (by decide) (by decide) (fun e => absurd e hl) hw
  refine ⟨hex, fun x hx => ?_⟩
  obtain ⟨f, _, hst, _, e⟩ := hall x hx
  rw [(plain_args h [] _ opt_std 0).2.2, (plain_args h [] _ opt_vtk 0).2.2, Bool.and_false] at e
  exact ⟨f, hst, e⟩

/-- C78 is false for the C++ programs: if NUM_CELLS asks for another number than 128, the output of the test is not that of a
run of the asked size, whatever the field and the number of steps. -/
theorem C78_cxx_size_fails (courant : R) (omp : Option (Int × Int)) (exec b : Str) (n : Nat) (hn : n ≠ 128)
    (ha : ¬ LooksLikeOption (toString n).toList) (hb : ¬ LooksLikeOption b)
    (hw : ∀ x : R, IsWord (DoubleText.showDouble x)) (e : Exit)
    (he : Upwind.main courant omp (exec :: upwindArgs (toString n).toList b) = .ok e) (steps : Int) (std : Bool) (f : List R) :
    e.out ≠ threadsText omp ++ resultText DoubleText.showDouble Upwind.HasSqrt.sqrt n steps std f := by
  obtain ⟨g, _, e'⟩ := C78_cxx_size courant omp exec _ b ha hb hw
  rw [e'] at he
  obtain rfl := Except.ok.inj he
  dsimp only
  rw [ne_eq, List.append_right_inj]
  intro h
  have hsp : ∀ m : Nat, ∀ c ∈ (toString m).toList, (c != ' ') = true := by
    intro m c hc
    have hc' : c ∈ Nat.toDigits 10 m := by simpa [toString, Nat.repr] using hc
    rw [bne_iff_ne]
    rintro rfl
    exact absurd (toDigits_ok m _ hc') (by decide)
  have hcut : ∀ (m : Nat) (s : Int) (d : Bool) (u : List R),
      (((resultText DoubleText.showDouble Upwind.HasSqrt.sqrt m s d u).drop 18).takeWhile (· != ' ')) = (toString m).toList := by
    intro m s d u
    have e1 : resultText DoubleText.showDouble Upwind.HasSqrt.sqrt m s d u = "number of cells:  ".toList ++
        ((toString m).toList ++ ' ' :: ((toString m ++ " " ++ toString m ++ "\nnumber of time steps: " ++
          toString s ++ "\ncheck sum: ").toList ++ DoubleText.showDouble (u.foldl (· + ·) 0) ++ "\n".toList ++
          if d then "std      : ".toList ++ DoubleText.showDouble (spread Upwind.HasSqrt.sqrt u) ++ "\n".toList else [])) := by
      unfold resultText
      simp only [String.toList_append, List.append_assoc]
      rfl
    rw [e1, List.drop_left' (by rfl), List.takeWhile_append_of_pos (hsp m), List.takeWhile_cons_of_neg (by simp), List.append_nil]
  have := hcut 128 10 false g
  rw [h, hcut n steps std f] at this
  have h2 : Nat.toDigits 10 n = Nat.toDigits 10 128 := by simpa [toString, Nat.repr] using this
  have h3 := congrArg (Nat.ofDigitChars 10 · 0) h2
  simp only [Nat.ofDigitChars_ten_toDigits] at h3
  exact hn h3

/-- C78 (part): the other programs take NUM_CELLS and NUM_TIME_STEPS as what they are. (C60 says what they do with them; the size
of the field appears also in `C79_python_verdict`, `C79_julia_verdict` and `C79_fortran_verdict`.)
Missing: the C++ programs (`C78_cxx_size_fails`). -/
theorem C78_other_sizes_partial (denotes : List Char → Int → Prop) (default : Int) (a b : Str) (n steps : Int) (ha : denotes a n)
    (hb : denotes b steps) : Asks denotes default (upwindArgs a b) n steps false :=
  ⟨⟨a, rfl, ha⟩, .inr ⟨b, rfl, hb⟩, by simp [upwindArgs]⟩

theorem laplacianArgs_ok {d a : Str} (hd : ¬ LooksLikeOption d) (ha : ¬ LooksLikeOption a) {n N : Int}
    (hn : Reads d n) (hN : Reads a N) :
    AllKnown laplacianNames (laplacianArgs d a) ∧ IntValue Reads (laplacianArgs d a) "-numCells".toList 8000 N ∧
      IntValue Reads (laplacianArgs d a) "-numDims".toList 2 n ∧ flagValue (laplacianArgs d a) "-h".toList = false ∧
      flagValue (laplacianArgs d a) "-vtk".toList = false := by
  have hne : ∀ {x y : Str}, ¬ LooksLikeOption x → LooksLikeOption y → x ≠ y := by
    rintro x y h1 h2 rfl
    exact h1 h2
  refine ⟨?_, intValue_only 2 rfl rfl hN ?_, intValue_only 0 rfl rfl hn ?_, ?_, ?_⟩
  · intro x hx hl
    simp only [laplacianArgs, List.mem_cons, List.not_mem_nil, or_false] at hx
    rcases hx with rfl | rfl | rfl | rfl
    · decide
    · exact absurd hl hd
    · decide
    · exact absurd hl ha
  · intro j hj h
    match j, hj with
    | 0, _ => exact absurd (Option.some.inj h) (by decide)
    | 1, _ => exact absurd (Option.some.inj h) (hne hd opt_numCells)
    | 2, _ => rfl
    | 3, _ => exact absurd (Option.some.inj h) (hne ha opt_numCells)
    | j + 4, hj => simp [laplacianArgs] at hj
  · intro j hj h
    match j, hj with
    | 0, _ => rfl
    | 1, _ => exact absurd (Option.some.inj h) (hne hd opt_numDims)
    | 2, _ => exact absurd (Option.some.inj h) (by decide)
    | 3, _ => exact absurd (Option.some.inj h) (hne ha opt_numDims)
    | j + 4, hj => simp [laplacianArgs] at hj
  · unfold flagValue
    rw [List.count_eq_zero.2]
    · rfl
    · intro hm
      simp only [laplacianArgs, List.mem_cons, List.not_mem_nil, or_false] at hm
      rcases hm with h | h | h | h
      · exact absurd h (by decide)
      · exact absurd h.symm (hne hd opt_h)
      · exact absurd h (by decide)
      · exact absurd h.symm (hne ha opt_h)
  · unfold flagValue
    rw [List.count_eq_zero.2]
    · rfl
    · intro hm
      simp only [laplacianArgs, List.mem_cons, List.not_mem_nil, or_false] at hm
      rcases hm with h | h | h | h
      · exact absurd h (by decide)
      · exact absurd h.symm (hne hd opt_vtk)
      · exact absurd h (by decide)
      · exact absurd h.symm (hne ha opt_vtk)

omit [Upwind.HasSqrt R] [IntCast R] in
/-- C78: laplacian2D and laplacian3D run the program on the asked number of cells and axes. -/
theorem C78_laplacian_size [Neg R] [HasSin R] (times : Str) (sz : Nat) (exec d a : Str) (hd : ¬ LooksLikeOption d)
    (ha : ¬ LooksLikeOption a) (n N : Int) (hn : Reads d n) (hN : Reads a N) (x : M MpiExit) :
    Laplacian.Main (R := R) times sz (exec :: laplacianArgs d a) x ↔
      match Laplacian.start (R := R) sz N n with
      | .error e => x = .error e
      | .ok w => IfDecompValid sz w (Laplacian.Body times false) x := by
  obtain ⟨h, h1, h2, hh, hv⟩ := laplacianArgs_ok hd ha hn hN
  unfold Laplacian.Main
  rw [laplacian_known exec h h1 h2]
  dsimp only
  obtain ⟨g1, g2, g3, g4⟩ := laplacianParser_get (R := R) exec N n (flagValue (laplacianArgs d a) "-h".toList)
    (flagValue (laplacianArgs d a) "-vtk".toList)
  rw [g1, g2, g3, g4, hh, hv, if_pos (show (true && !false) = true from rfl)]
  exact Iff.rfl

end

/-! ### C79: the expressions -/

/-- C79: what the tests look for, for all texts and states of exit. -/
theorem C79_expression_iff (text : Str) (status : Int) :
    (upwindTest.passes text status = true ↔ Labelled "heck sum:" (BeginsWith accepted) text) ∧
    (scriptTest.passes text status = true ↔ Labelled "heck sum:" (BeginsWith accepted) text) ∧
    (laplacianTest.passes text status = true ↔ Labelled "heck sums:" (fun _ => True) text) ∧
    (stencilTest.passes text status = true ↔ status = 0) ∧
    (matmultTest.passes text status = true ↔ ¬ "ERROR".toList <:+: text ∧ status = 0) := by
  refine ⟨?_, ?_, ?_, ?_, ?_⟩
  · unfold upwindTest
    rw [passes_pass, found_upwind]
  · unfold scriptTest
    rw [passes_pass, found_script]
  · unfold laplacianTest
    rw [passes_pass, found_laplacian]
  · simp [stencilTest, Test.passes]
  · rw [← found_error]
    simp [matmultTest, Test.passes]

/-- C79 (part): a test of an upwind program passes if a check sum that is spelled like 1 or 0.999 is printed.
Missing: it passes for others as well (`C79_near_one_fails`). -/
theorem C79_near_one_partial (text : Str) (status : Int) (h : Labelled "heck sum:" NearOne text) :
    upwindTest.passes text status = true ∧ scriptTest.passes text status = true := by
  have : Labelled "heck sum:" (BeginsWith accepted) text := by
    obtain ⟨pre, c, rest, rfl, hc, k, s, rfl, h⟩ := h
    refine ⟨pre, c, _, rfl, hc, ?_⟩
    rcases h with ⟨t, rfl⟩ | ⟨t, rfl⟩
    · exact ⟨k, '1', t, rfl, by decide⟩
    · exact ⟨k, '0', ".999".toList ++ t, rfl, by decide⟩
  exact ⟨(C79_expression_iff text status).1.2 this, (C79_expression_iff text status).2.1.2 this⟩

/-- C79 is false: the brackets of the expression make a set of characters of what was meant as alternatives, so that the tests
pass for every check sum that begins with 0, 1 or 9, for instance 0, or 0.5, and whatever the status. -/
theorem C79_near_one_fails :
    (∀ (s : String) (status : Int), s ∈ ["0", "0.5", "1e+20", "9"] →
      upwindTest.passes ("check sum: " ++ s).toList status = true ∧ scriptTest.passes ("check sum: " ++ s).toList status = true) ∧
    ¬ (∀ (text : Str) (status : Int), upwindTest.passes text status = true → Labelled "heck sum:" NearOne text) ∧
    ¬ ∀ (text : Str) (status : Int), scriptTest.passes text status = true → Labelled "heck sum:" NearOne text := by
  have key : ∀ (s : String) (status : Int), s ∈ ["0", "0.5", "1e+20", "9"] →
      upwindTest.passes ("check sum: " ++ s).toList status = true ∧
        scriptTest.passes ("check sum: " ++ s).toList status = true := by
    intro s status hs
    have : Labelled "heck sum:" (BeginsWith accepted) ("check sum: " ++ s).toList := by
      simp only [List.mem_cons, List.not_mem_nil, or_false] at hs
      rcases hs with rfl | rfl | rfl | rfl
      · exact ⟨[], 'c', " 0".toList, by decide, .inr rfl, 1, '0', [], rfl, by decide⟩
      · exact ⟨[], 'c', " 0.5".toList, by decide, .inr rfl, 1, '0', ".5".toList, rfl, by decide⟩
      · exact ⟨[], 'c', " 1e+20".toList, by decide, .inr rfl, 1, '1', "e+20".toList, rfl, by decide⟩
      · exact ⟨[], 'c', " 9".toList, by decide, .inr rfl, 1, '9', [], rfl, by decide⟩
    exact ⟨(C79_expression_iff _ status).1.2 this, (C79_expression_iff _ status).2.1.2 this⟩
  have hno : ¬ Labelled "heck sum:" NearOne ("check sum: " ++ "0").toList := by
    intro h
    have e : ("check sum: " ++ "0").toList = [] ++ 'c' :: ("heck sum:".toList ++ " 0".toList) := by decide
    rw [e, labelled_once (.inr rfl) (by simp) (by decide)] at h
    obtain ⟨k, rest, e, h⟩ := h
    have hl := congrArg List.length e
    simp only [List.length_append, List.length_replicate] at hl
    have hlen : 1 ≤ rest.length ∧ (5 ≤ rest.length ∨ ∃ t, rest = '1' :: t) := by
      rcases h with ⟨t, rfl⟩ | ⟨t, rfl⟩
      · exact ⟨by simp, .inr ⟨t, rfl⟩⟩
      · exact ⟨by simp, .inl (by simp)⟩
    obtain ⟨_, h5 | ⟨t, rfl⟩⟩ := hlen
    · have : " 0".toList.length = 2 := rfl
      omega
    · have : '1' ∈ " 0".toList := by rw [e]; simp
      exact absurd this (by decide)
  refine ⟨key, fun h => ?_, fun h => ?_⟩
  · exact hno (h _ 0 (key "0" 0 (by decide)).1)
  · exact hno (h _ 0 (key "0" 0 (by decide)).2)

/-! ### C79: the upwind programs -/

section
variable {R : Type} [Zero R] [One R] [Add R] [Sub R] [Mul R] [Div R] [NatCast R] [IntCast R] [LT R] [DecidableLT R]
  [HasMax R] [Upwind.HasSqrt R] [DoubleText R]

theorem threads_no_k (omp : Option (Int × Int)) : 'k' ∉ threadsText omp := by
  cases omp with
  | none => simp [threadsText]
  | some p =>
    obtain ⟨n, m⟩ := p
    unfold threadsText
    simp only [String.toList_append, List.mem_append, not_or]
    exact ⟨⟨⟨⟨by decide, no_k_int n⟩, by decide⟩, no_k_int m⟩, by decide⟩

/-- The label in the text of a C++ program. -/
theorem result_verdict (pre : Str) (hpre : 'k' ∉ pre) (hw : ∀ x : R, IsWord (DoubleText.showDouble x))
    (hk : ∀ x : R, 'k' ∉ DoubleText.showDouble x) (n : Nat) (steps : Int) (std : Bool) (f : List R) (status : Int) :
    upwindTest.passes (pre ++ resultText DoubleText.showDouble Upwind.HasSqrt.sqrt n steps std f) status = true ↔
      ∃ c ∈ accepted, [c] <+: DoubleText.showDouble (f.foldl (· + ·) 0) := by
  rw [(C79_expression_iff _ status).1]
  have hsp : ∀ x : R, ' ' ∉ DoubleText.showDouble x := fun x h => absurd ((hw x).2 _ h) (by decide)
  have e : pre ++ resultText DoubleText.showDouble Upwind.HasSqrt.sqrt n steps std f =
      (pre ++ ("number of cells:  " ++ toString n ++ " " ++ toString n ++ " " ++ toString n ++ "\nnumber of time steps: " ++
        toString steps ++ "\n").toList) ++ 'c' :: ("heck sum:".toList ++ (List.replicate 1 ' ' ++
        (DoubleText.showDouble (f.foldl (· + ·) 0) ++ ('\n' ::
          if std then "std      : ".toList ++ DoubleText.showDouble (spread Upwind.HasSqrt.sqrt f) ++ "\n".toList else [])))) := by
    unfold resultText
    simp only [String.toList_append, List.append_assoc]
    rfl
  rw [e, labelled_once (.inr rfl), beginsWith_word 1 (by decide) (hw _).1 (hsp _)]
  · simp only [String.toList_append, List.mem_append, not_or]
    exact ⟨hpre, ⟨⟨⟨⟨⟨⟨⟨⟨by decide, no_k_nat n⟩, by decide⟩, no_k_nat n⟩, by decide⟩, no_k_nat n⟩, by decide⟩, no_k_int steps⟩,
      by decide⟩⟩
  · simp only [List.mem_append, List.mem_cons, not_or]
    refine ⟨by decide, hk _, by decide, ?_⟩
    split
    · simp only [List.mem_append, not_or]
      exact ⟨⟨by decide, hk _⟩, by decide⟩
    · simp

/-- C79: the verdict of the tests upwindCxx*: passed exactly if the text of the sum of the field computed begins with one of
the characters. -/
theorem C79_upwind_verdict (courant : R) (omp : Option (Int × Int)) (exec a b : Str) (ha : ¬ LooksLikeOption a)
    (hb : ¬ LooksLikeOption b) (hw : ∀ x : R, IsWord (DoubleText.showDouble x))
    (hk : ∀ x : R, 'k' ∉ DoubleText.showDouble x) :
    ∃ e f, Upwind.main courant omp (exec :: upwindArgs a b) = .ok e ∧
      Stores [128, 128, 128] f (driverField 128
        (upCoeff (driverStep HasMax.dblMax courant (1 / ((128 : Nat) : R))) [1, 1, 1] [1, 1, 1] [128, 128, 128]) 10) ∧
      ∀ v, Verdict upwindTest e v ↔ (v = true ↔ ∃ c ∈ accepted, [c] <+: DoubleText.showDouble (f.foldl (· + ·) 0)) := by
  obtain ⟨f, hst, e⟩ := C78_cxx_size courant omp exec a b ha hb hw
  refine ⟨_, f, e, hst, fun v => ?_⟩
  rw [verdict_out, ← result_verdict (threadsText omp) (threads_no_k omp) hw hk 128 10 false f 0]
  cases v <;> simp

/-- C79: the same for every execution of upwindAccCxx and upwindAcc2Cxx. -/
theorem C79_acc_verdict (l : UpwindAcc.Loop) (hl : l ≠ .omp5) (courant : R) (T : Nat) (hT : 0 < T)
    (may : Nat → Nat → Nat → Prop) (hmay : ∀ k i, ∃ t, t < T ∧ may k i t) (exec a b : Str) (ha : ¬ LooksLikeOption a)
    (hb : ¬ LooksLikeOption b) (hw : ∀ x : R, IsWord (DoubleText.showDouble x))
    (hk : ∀ x : R, 'k' ∉ DoubleText.showDouble x) (x : M Exit) (hx : UpwindAcc.Main l courant T may (exec :: upwindArgs a b) x) :
    ∃ e f, x = .ok e ∧
      Stores [128, 128, 128] f (driverField 128 (fun _ => driverStep HasMax.dblMax courant (1 / (((128 : Nat) : Int) : R)) *
        (1 * ((upDir [(1 : R)] 0 : Int) : R) / (1 / (((128 : Nat) : Int) : R)))) 10) ∧
      ∀ v, Verdict upwindTest e v ↔ (v = true ↔ ∃ c ∈ accepted, [c] <+: DoubleText.showDouble (f.foldl (· + ·) 0)) := by
  obtain ⟨f, hst, e⟩ := (C78_acc_size l hl courant T hT may hmay exec a b ha hb hw).2 x hx
  refine ⟨_, f, e, hst, fun v => ?_⟩
  rw [verdict_out, ← result_verdict [] (by simp) hw hk 128 10 false f 0, List.nil_append]
  cases v <;> simp

end

/-- C79: with exact arithmetic the tests upwindCxx* pass, provided 1 is printed with a 1 in front. -/
theorem C79_upwind_passes [Upwind.HasSqrt ℚ] [DoubleText ℚ] (omp : Option (Int × Int)) (exec a b : Str) (ha : ¬ LooksLikeOption a)
    (hb : ¬ LooksLikeOption b) (hw : ∀ x : ℚ, IsWord (DoubleText.showDouble x)) (hk : ∀ x : ℚ, 'k' ∉ DoubleText.showDouble x)
    (hone : ['1'] <+: DoubleText.showDouble (1 : ℚ)) :
    ∃ e, Upwind.main (0.1 : ℚ) omp (exec :: upwindArgs a b) = .ok e ∧ ∀ v, Verdict upwindTest e v ↔ v = true := by
  obtain ⟨e, f, he, hst, hv⟩ := C79_upwind_verdict (0.1 : ℚ) omp exec a b ha hb hw hk
  refine ⟨e, he, fun v => ?_⟩
  rw [hv, (driverField_exact (by decide) (by decide) hst).1]
  have : ∃ c ∈ accepted, [c] <+: DoubleText.showDouble (1 : ℚ) := ⟨'1', by decide, hone⟩
  simp [this]

section
variable {R : Type} [Zero R] [One R] [Add R] [Sub R] [Mul R] [Div R] [NatCast R] [IntCast R] [LT R] [DecidableLT R]
  [HasMax R] [DoubleText R]

/-- The label in the text of a script. -/
theorem script_verdict (sep : String) (k : Nat) (hsep : sep.toList = List.replicate k ' ')
    (hw : ∀ x : R, IsWord (DoubleText.showDouble x)) (hk : ∀ x : R, 'k' ∉ DoubleText.showDouble x) (n : Nat) (steps : Int)
    (s : R) (status : Int) :
    scriptTest.passes (scriptText sep n steps (DoubleText.showDouble s)) status = true ↔
      ∃ c ∈ accepted, [c] <+: DoubleText.showDouble s := by
  rw [(C79_expression_iff _ status).2.1]
  have hsp : ∀ x : R, ' ' ∉ DoubleText.showDouble x := fun x h => absurd ((hw x).2 _ h) (by decide)
  have hks : 'k' ∉ sep.toList := by rw [hsep]; intro h; exact absurd (List.eq_of_mem_replicate h) (by decide)
  have e : scriptText sep n steps (DoubleText.showDouble s) =
      ("number of cells:" ++ sep ++ "[" ++ toString n ++ ", " ++ toString n ++ ", " ++ toString n ++ "]\nnumber of time steps:" ++
        sep ++ toString steps ++ "\n").toList ++ 'c' :: ("heck sum:".toList ++ (List.replicate k ' ' ++
        (DoubleText.showDouble s ++ "\n".toList))) := by
    unfold scriptText
    rw [← hsep]
    simp only [String.toList_append, List.append_assoc]
    rfl
  rw [e, labelled_once (.inr rfl), beginsWith_word k (by decide) (hw _).1 (hsp _)]
  · simp only [String.toList_append, List.mem_append, not_or]
    refine ⟨⟨⟨⟨⟨⟨⟨⟨⟨⟨⟨by decide, hks⟩, by decide⟩, no_k_nat n⟩, by decide⟩, no_k_nat n⟩, by decide⟩, no_k_nat n⟩, by decide⟩,
      hks⟩, no_k_int steps⟩, by decide⟩
  · rw [← hsep]
    simp only [List.mem_append, not_or]
    exact ⟨hks, hk _, by decide⟩

/-- C79: the verdict of the test upwindPython, for numbers of cells from 1 to 1290. -/
theorem C79_python_verdict (readInt : Str → Option Int) (courant inf : R) (sum : List R → R) (prog a b : Str) (n : Nat)
    (steps : Int) (ha : readInt a = some (n : Int)) (hb : readInt b = some steps) (hn : 0 < n) (hn2 : n ≤ 1290)
    (hcast : ∀ n : Nat, ((n : Int) : R) = (n : R)) (hw : ∀ x : R, IsWord (DoubleText.showDouble x))
    (hk : ∀ x : R, 'k' ∉ DoubleText.showDouble x) :
    ∃ e f, PyUpwind.main readInt courant inf sum (prog :: upwindArgs a b) = .ok e ∧
      Stores [n, n, n] f (programField n (changeTimeLast (programStep inf courant (1 / (n : R))) [1, 1, 1] [1, 1, 1]
        [n, n, n]) steps) ∧
      ∀ v, Verdict scriptTest e v ↔ (v = true ↔ ∃ c ∈ accepted, [c] <+: DoubleText.showDouble (sum f)) := by
  obtain ⟨f, _, _, hst, _, _, _, _, e⟩ := C60_python_run_partial readInt courant inf sum prog (upwindArgs a b) n steps false
    (C78_other_sizes_partial _ 100 a b n steps ha hb) hn hn2 hcast hw
  refine ⟨_, f, e, hst, fun v => ?_⟩
  rw [verdict_out, ← script_verdict "  " 2 rfl hw hk n steps (sum f) 0]
  cases v <;> simp

theorem storesCol_unique {n : Nat} (hn : 0 < n) {f f' : List R} {u : List Nat → R} (h : StoresCol [n, n, n] f u)
    (h' : StoresCol [n, n, n] f' u) : f = f' := by
  have key : ∀ {f : List R}, StoresCol [n, n, n] f u → Stores [n, n, n] f (fun g => u g.reverse) := by
    intro f h
    refine ⟨h.1, fun g hg => ?_⟩
    have hrev : InGrid [n, n, n] g.reverse := by
      match g, hg with
      | [a, b, c], hg => exact ⟨hg.2.2.1, hg.2.1, hg.1, trivial⟩
    have := h.2 g.reverse hrev
    rwa [List.reverse_reverse] at this
  have hpos : ∀ m ∈ [n, n, n], 0 < m := by simpa using hn
  rw [(stores_iff hpos).1 (key h), (stores_iff hpos).1 (key h')]

/-- C79: the verdicts of the tests upwindJulia and upwindJulia3. -/
theorem C79_julia_verdict (readInt : Str → Option Int) (courant inf : R) (sum : List R → R) (script a b : Str) (n : Nat)
    (steps : Int) (ha : readInt a = some (n : Int)) (hb : readInt b = some steps) (hn : 0 < n) (hn2 : n * n * n + 1 < 2 ^ 63)
    (hcast : ∀ n : Nat, ((n : Int) : R) = (n : R)) (hw : ∀ x : R, IsWord (DoubleText.showDouble x))
    (hk : ∀ x : R, 'k' ∉ DoubleText.showDouble x) :
    ∃ e e3 f, JlUpwind.main readInt courant inf sum script (upwindArgs a b) = .ok e ∧
      JlUpwind.main3 readInt courant inf sum (upwindArgs a b) = .ok e3 ∧
      StoresCol [n, n, n] f ((upwindStep [n, n, n] (upDir [(1 : R), 1, 1]) (upCoeff (programStep inf courant (1 / (n : R)))
        [1, 1, 1] [1, 1, 1] [n, n, n]))^[steps.toNat] cornerField) ∧
      ∀ v, (Verdict scriptTest e v ↔ (v = true ↔ ∃ c ∈ accepted, [c] <+: DoubleText.showDouble (sum f))) ∧
        (Verdict scriptTest e3 v ↔ Verdict scriptTest e v) := by
  obtain ⟨f, hst, e⟩ := C60_julia_run_partial readInt courant inf sum script (upwindArgs a b) n steps
    (C78_other_sizes_partial _ 100 a b n steps ha hb) hn hn2 hcast
  obtain ⟨f3, hst3, e3⟩ := C60_julia3_run_partial readInt courant inf sum (upwindArgs a b) n steps
    (.inr (C78_other_sizes_partial _ 2 a b n steps ha hb)) hn hn2 hcast
  obtain rfl := storesCol_unique hn hst3 hst
  refine ⟨_, _, _, e, e3, hst, fun v => ?_⟩
  rw [verdict_out, ← script_verdict " " 1 rfl hw hk n steps _ 0]
  refine ⟨?_, Iff.rfl⟩
  cases v <;> simp

/-- C79: the verdict of the tests of the Fortran programs, for numbers of cells from 1 to 1290, on every execution; a text of
the sum that does not fit in its 15 columns is printed as asterisks, and the test fails. -/
theorem C79_fortran_verdict (readInt : Str → Option Int) (courant big : R) (sum : List R → R) (threads rest prog a b : Str)
    (n : Nat) (steps : Int) (hprog : ∃ c ∈ prog.take 32, c ≠ ' ') (hfa : FitsIn 32 a) (hfb : FitsIn 32 b)
    (ha : readInt (filled 32 a) = some (n : Int)) (hb : readInt (filled 32 b) = some steps) (hn : 0 < n) (hn2 : n ≤ 1290)
    (hsteps : steps + 1 < 2 ^ 31) (hcast : ∀ n : Nat, ((n : Int) : R) = (n : R))
    (hw : ∀ x : R, IsWord (DoubleText.showDouble x)) (hl : ∀ x : R, (DoubleText.showDouble x).length ≤ 20)
    (hk : ∀ x : R, 'k' ∉ DoubleText.showDouble x) (ht : 'k' ∉ threads) (hr : 'k' ∉ rest) :
    ∃ f, Stores [n, n, n] f (programField n (changeDivLast (programStep big courant (1 / (n : R))) [1, 1, 1] [1, 1, 1]
        [n, n, n]) steps) ∧
      (∃ x, FUpwind.Main readInt courant big sum threads rest (prog :: upwindArgs a b) x) ∧
      ∀ x, FUpwind.Main readInt courant big sum threads rest (prog :: upwindArgs a b) x → ∃ e, x = .ok e ∧
        ∀ v, Verdict upwindTest e v ↔ (v = true ↔ (DoubleText.showDouble (sum f)).length ≤ 15 ∧
          ∃ c ∈ accepted, [c] <+: DoubleText.showDouble (sum f)) := by
  obtain ⟨f, _, hst, _, hex, hall⟩ := C60_fortran_run_partial readInt courant big sum threads rest prog (upwindArgs a b) n steps
    false hprog (by
      intro x hx
      rcases List.mem_cons.1 hx with rfl | hx
      · exact hfa
      · rw [List.mem_singleton.1 hx]; exact hfb) (C78_other_sizes_partial _ 100 a b n steps ha hb) hn hn2 hsteps hcast hw hl
  refine ⟨f, hst, hex, fun x hx => ⟨_, hall x hx, fun v => ?_⟩⟩
  have hsp : ' ' ∉ DoubleText.showDouble (sum f) := fun h => absurd ((hw _).2 _ h) (by decide)
  have hwid : ∀ (w : Nat) (s : Str), 'k' ∉ s → 'k' ∉ inWidth w s := by
    intro w s hs h
    unfold inWidth at h
    split at h
    · rcases List.mem_append.1 h with h | h
      · exact absurd (List.eq_of_mem_replicate h) (by decide)
      · exact hs h
    · exact absurd (List.eq_of_mem_replicate h) (by decide)
  have key : upwindTest.passes (threads ++ fortranText rest n steps (DoubleText.showDouble (sum f))) 0 = true ↔
      (DoubleText.showDouble (sum f)).length ≤ 15 ∧ ∃ c ∈ accepted, [c] <+: DoubleText.showDouble (sum f) := by
    rw [(C79_expression_iff _ 0).1]
    have e : threads ++ fortranText rest n steps (DoubleText.showDouble (sum f)) =
        (threads ++ ("number of cells: ".toList ++ inWidth 10 (toString n).toList ++ " ".toList ++
          inWidth 10 (toString n).toList ++ " ".toList ++ inWidth 10 (toString n).toList ++ " ".toList ++ rest ++
          "\nnumber of time steps: ".toList ++ inWidth 10 (toString steps).toList ++ "\n".toList)) ++ 'c' :: ("heck sum:".toList ++
          (" ".toList ++ (inWidth 15 (DoubleText.showDouble (sum f)) ++ "\n".toList))) := by
      unfold fortranText
      simp only [List.append_assoc]
      rfl
    rw [e, labelled_once (.inr rfl)]
    · unfold inWidth
      split
      · next hlen =>
        have e2 : " ".toList ++ (List.replicate (15 - (DoubleText.showDouble (sum f)).length) ' ' ++
            DoubleText.showDouble (sum f) ++ "\n".toList) = List.replicate (15 - (DoubleText.showDouble (sum f)).length + 1) ' ' ++
              (DoubleText.showDouble (sum f) ++ "\n".toList) := by
          rw [List.replicate_succ]
          simp
        rw [e2, beginsWith_word _ (by decide) (hw _).1 hsp]
        simp [hlen]
      · next hlen =>
        have e2 : " ".toList ++ (List.replicate 15 '*' ++ "\n".toList) = List.replicate 1 ' ' ++ (List.replicate 15 '*' ++ "\n".toList) :=
          rfl
        rw [e2, beginsWith_word _ (by decide) (by decide) (by decide)]
        constructor
        · rintro ⟨c, hc, t, h⟩
          injection h with h _
          subst h
          exact absurd hc (by decide)
        · rintro ⟨h, _⟩
          exact absurd h hlen
    · simp only [List.mem_append, not_or]
      exact ⟨ht, ⟨⟨⟨⟨⟨⟨⟨⟨⟨⟨by decide, hwid _ _ (no_k_nat n)⟩, by decide⟩, hwid _ _ (no_k_nat n)⟩, by decide⟩, hwid _ _ (no_k_nat n)⟩,
        by decide⟩, hr⟩, by decide⟩, hwid _ _ (no_k_int steps)⟩, by decide⟩⟩
    · simp only [List.mem_append, not_or]
      exact ⟨by decide, hwid _ _ (hk _), by decide⟩
  rw [verdict_out, ← key]
  cases v <;> simp

end

/-! ### C79: the Laplacian and testStencil2d -/

section
variable {R : Type} [Zero R] [One R] [Add R] [Sub R] [Mul R] [Div R] [Neg R] [NatCast R] [LT R] [DecidableLT R] [HasMax R]
  [HasSin R] [DoubleText R]

/-- C79: the tests laplacian2D and laplacian3D tell whether there is a decomposition, and nothing else: for all sizes, process
counts and outcomes that are not undefined behaviour, they pass exactly if the grid can be decomposed, whatever the sums and
in any arithmetic. -/
theorem C79_laplacian_verdict_iff (times : Str) (sz : Nat) (exec d a : Str) (hd : ¬ LooksLikeOption d)
    (ha : ¬ LooksLikeOption a) (n N : Nat) (hn : Reads d n) (hN : Reads a N) (hr : InRange sz (List.replicate n N))
    (e : MpiExit) (he : Laplacian.Main (R := R) times sz (exec :: laplacianArgs d a) (.ok e)) (v : Bool) :
    MpiVerdict laplacianTest e v ↔ (v = true ↔ ∃ dc, ValidDecomp sz (List.replicate n N) dc) := by
  rw [C78_laplacian_size times sz exec d a hd ha n N hn hN] at he
  obtain ⟨st, est, hperm⟩ := laplacian_stencil (R := R) n
  have hax := hr.axes
  rw [List.length_replicate] at hax
  have hN31 : N < 2 ^ 31 := hr.ext N (List.mem_replicate.2 ⟨fun e => hr.ne (by rw [e]; rfl), rfl⟩)
  have hstart : Laplacian.start (R := R) sz N n = World.new sz (List.replicate n N) (List.replicate n 0) (List.replicate n 1) st := by
    unfold Laplacian.start
    dsimp only
    rw [if_neg (by omega), szOfInt_ofNat (by unfold W; omega), est, M.ok_bind, szOfInt_ofNat (by unfold W; omega)]
  by_cases hex : ∃ dc, ValidDecomp sz (List.replicate n N) dc
  · have haxis : ∀ kv ∈ st, AxisOffset (List.replicate n N).length kv.1 := by
      intro kv hkv
      rw [List.length_replicate]
      rcases mem_lapEntries (hperm.mem_iff.1 hkv) with h | ⟨i, _, h | h⟩
      · rw [h]; exact zeroOff_axis n
      · rw [h]; exact axisOff_axis (.inr (.inr rfl))
      · rw [h]; exact axisOff_axis (.inl rfl)
    obtain ⟨dc, hf, _, hb⟩ := axis_of_range hr hex (List.replicate n (0 : R)) (List.replicate n 1) st haxis
    obtain ⟨w, ew, h0⟩ := world_new hf.toGood hb
    rw [hstart, ew] at he
    dsimp only at he
    rw [ifValid_iff (fun f hf' => by
      obtain ⟨x, _, _, hs⟩ := h0.mem hf.toGood hf'
      exact hs.1.valid)] at he
    obtain ⟨y, hy, e1⟩ := he
    unfold Laplacian.Body at hy
    split at hy
    · rw [hy] at e1; cases e1
    · next out files w' hrun =>
      have hout : out = [] := by
        obtain ⟨w2, _, hrun⟩ := (M.bind_ok_iff _ _ _).1 hrun
        obtain ⟨w3, _, hrun⟩ := (M.bind_ok_iff _ _ _).1 hrun
        injection hrun with hrun
        injection hrun with hrun _
        exact hrun.symm
      obtain ⟨inSums, w1, outSums, w2, _, _, rfl⟩ := hy
      cases h1 : rd inSums 0 with
      | error u => rw [h1] at e1; cases e1
      | ok s1 =>
        cases h2 : rd outSums 0 with
        | error u => rw [h1, h2] at e1; cases e1
        | ok s2 =>
          rw [h1, h2] at e1
          have e1 : Except.ok e = Except.ok (fromRoot sz _) := e1
          obtain rfl := Except.ok.inj e1
          rw [mpiVerdict_root _ hr.procs1 _ (.inl rfl) rfl]
          have hp : laplacianTest.passes (out ++ "Laplace times min/max/avg: ".toList ++ times ++ " [seconds]\n".toList
                  ++ "Check sums: input = ".toList ++ DoubleText.showDouble s1 ++ " output = ".toList
                  ++ DoubleText.showDouble s2 ++ "\n".toList ++ []) 0 = true := by
            rw [(C79_expression_iff _ 0).2.2.1]
            refine ⟨out ++ "Laplace times min/max/avg: ".toList ++ times ++ " [seconds]\n".toList, 'C',
              " input = ".toList ++ DoubleText.showDouble s1 ++ " output = ".toList ++ DoubleText.showDouble s2 ++ "\n".toList, ?_,
              .inl rfl, trivial⟩
            simp
          dsimp only
          rw [hp]
          simp only [hex, iff_true]
          exact eq_comm
  · obtain ⟨w, ew, hl, hw⟩ := world_invalid hr hex (List.replicate n (0 : R)) (List.replicate n 1) st
    have hp1 := hr.procs1
    rw [hstart, ew] at he
    dsimp only at he
    rw [ifInvalid_iff (by rintro rfl; simp at hl; omega) (fun f hf => (hw f hf).1)] at he
    obtain rfl := Except.ok.inj he
    rw [mpiVerdict_root _ hr.procs1 _ (.inr rfl) rfl]
    have hp : laplacianTest.passes ([] ++ "Decomposition is invalid\n".toList) 0 = false := by decide
    dsimp only
    rw [hp]
    simp only [hex, iff_false, Bool.not_eq_true]
    exact eq_comm

end

section
variable {K : Type} [Field K] [LinearOrder K] [IsStrictOrderedRing K] [HasMax K] [DoubleText K] [HasSin K]

/-- On one process the program ends normally, whatever the number of cells. -/
theorem laplacian_one_outcome (times : Str) (exec d a : Str) (hd : ¬ LooksLikeOption d) (ha : ¬ LooksLikeOption a) (n N : Nat)
    (hn : Reads d n) (hN : Reads a N) (hr : InRange 1 (List.replicate n N)) :
    ∃ e, Laplacian.Main (R := K) times 1 (exec :: laplacianArgs d a) (.ok e) := by
  obtain ⟨dc, st, w, _, hf, hstart, h0⟩ := lap_one (K := K) N n hr
  have hg := hf.toGood
  obtain ⟨w1, e1, h1⟩ := world_setInData hg (by simp) (by simp) h0 Laplacian.func
  obtain ⟨w2, e2, h2⟩ := world_iterate64 hf (fun x hx => one_cells hf rfl hx) 10 h1
  have hsh : Ranks _ (fun x f => Shape _ x (Cfg.tab _) f) w2 := ⟨h2.1, fun x f hx hf => (h2.2 x f hx hf).shape⟩
  obtain ⟨⟨rs, w3, c1⟩, k1⟩ := check_sum_of hg (Nat.le_refl 1) hsh true
  obtain ⟨w3', ec, h3⟩ := localSum_call hg (Q := fun _ _ => True) ⟨h2.1, fun x f hx hf => ⟨h2.2 x f hx hf, trivial⟩⟩ true
  rw [checkSum_world c1] at ec
  obtain rfl := Except.ok.inj ec
  have hsh3 : Ranks _ (fun x f => Shape _ x (Cfg.tab _) f) w3 := ⟨h3.1, fun x f hx hf => (h3.2 x f hx hf).1.shape⟩
  obtain ⟨⟨rs', w4, c2⟩, k2⟩ := check_sum_of hg (Nat.le_refl 1) hsh3 false
  have l1 := (k1 rs w3 c1).1
  have l2 := (k2 rs' w4 c2).1
  obtain ⟨s1, hs1⟩ : ∃ s, rs[0]? = some s := ⟨_, List.getElem?_eq_getElem (by rw [l1]; exact Nat.one_pos)⟩
  obtain ⟨s2, hs2⟩ : ∃ s, rs'[0]? = some s := ⟨_, List.getElem?_eq_getElem (by rw [l2]; exact Nat.one_pos)⟩
  refine ⟨fromRoot 1 { out := [] ++ "Laplace times min/max/avg: ".toList ++ times ++ " [seconds]\n".toList
                  ++ "Check sums: input = ".toList ++ DoubleText.showDouble s1 ++ " output = ".toList
                  ++ DoubleText.showDouble s2 ++ "\n".toList, err := [], files := [], status := 0 }, ?_⟩
  rw [C78_laplacian_size times 1 exec d a hd ha n N hn hN, hstart]
  dsimp only
  rw [ifValid_iff (fun f hf' => by
      obtain ⟨x, _, _, hs⟩ := h0.mem hg hf'
      exact hs.1.valid)]
  refine ⟨.ok _, ?_, rfl⟩
  unfold Laplacian.Body
  rw [e1, M.ok_bind, e2, M.ok_bind]
  refine ⟨rs, w3, rs', w4, c1, c2, ?_⟩
  unfold rd
  rw [hs1, hs2]
  rfl

/-- C79 is false for the Laplacian: on one process the tests pass for every number of cells, also for those (all but the powers
of two) for which the program does not compute the Laplacian. -/
theorem C79_laplacian_wrong_passes_fails (times exec d a : Str) (hd : ¬ LooksLikeOption d) (ha : ¬ LooksLikeOption a) (n N : Nat)
    (hn : Reads d n) (hN : Reads a N) (hr : InRange 1 (List.replicate n N)) (hpow : ¬ N ∣ 2 ^ 64) :
    (∃ e, Laplacian.Main (R := K) times 1 (exec :: laplacianArgs d a) (.ok e) ∧ ∀ v, MpiVerdict laplacianTest e v ↔ v = true) ∧
    ∃ u : List Nat → K, ¬ ∃ w w1 w2, Laplacian.start 1 N n = .ok w ∧ w.setInDataByIndices u = .ok w1 ∧
      w1.applyFilter = .ok w2 ∧ OutputIs w2 (laplace (List.replicate n N) u) := by
  constructor
  · obtain ⟨e, he⟩ := laplacian_one_outcome (K := K) times exec d a hd ha n N hn hN hr
    refine ⟨e, he, fun v => ?_⟩
    rw [C79_laplacian_verdict_iff times 1 exec d a hd ha n N hn hN hr e he v]
    simp [valid_one]
  · by_contra h
    push Not at h
    apply hpow
    rw [← C29_operator_iff (K := K) N n hr]
    intro u
    obtain ⟨w, w1, w2, h1, h2, h3, h4⟩ := h u
    exact ⟨w, w1, w2, h1, h2, h3, h4⟩

omit [HasSin K] in
theorem stencilArgs_ok {a : Str} (ha : ¬ LooksLikeOption a) {N : Int} (hN : Reads a N) :
    AllKnown stencil2dNames (stencilArgs a) ∧ IntValue Reads (stencilArgs a) "-numCells".toList 8 N ∧
      flagValue (stencilArgs a) "-h".toList = false := by
  have hne : ∀ {x y : Str}, ¬ LooksLikeOption x → LooksLikeOption y → x ≠ y := by
    rintro x y h1 h2 rfl
    exact h1 h2
  refine ⟨?_, intValue_only 0 rfl rfl hN ?_, ?_⟩
  · intro x hx hl
    simp only [stencilArgs, List.mem_cons, List.not_mem_nil, or_false] at hx
    rcases hx with rfl | rfl
    · decide
    · exact absurd hl ha
  · intro j hj h
    match j, hj with
    | 0, _ => rfl
    | 1, _ => exact absurd (Option.some.inj h) (hne ha opt_numCells)
    | j + 2, hj => simp [stencilArgs] at hj
  · unfold flagValue
    rw [List.count_eq_zero.2]
    · rfl
    · intro hm
      simp only [stencilArgs, List.mem_cons, List.not_mem_nil, or_false] at hm
      rcases hm with h | h
      · exact absurd h (by decide)
      · exact absurd h.symm (hne ha opt_h)

omit [HasSin K] in
/-- C79: the test testStencil2d passes whenever the program ends normally, whatever the values it lists. -/
theorem C79_stencil_passes (sz : Nat) (exec a : Str) (ha : ¬ LooksLikeOption a) (N : Nat) (hN : Reads a N)
    (hr : InRange sz [N, N]) (hcells : N * N ≤ 2 ^ 31) (hw : ∀ x : K, IsWord (DoubleText.showDouble x)) (e : MpiExit)
    (he : Stencil2d.main (R := K) sz (exec :: stencilArgs a) = .ok e) (v : Bool) : MpiVerdict stencilTest e v ↔ v = true := by
  obtain ⟨h, h1, hh⟩ := stencilArgs_ok ha hN
  have hst : ∀ r ∈ e.ranks, r.status = 0 := by
    by_cases hex : ∃ d, ValidDecomp sz [N, N] d
    · obtain ⟨d, _, hyes, hno⟩ := C65_every_size (R := K) sz exec (stencilArgs a) h N h1 hh hr hex hcells hw
      by_cases hl : WrapLocal [N, N] d [0, -1]
      · obtain ⟨boxes, files, _, _, _, _, _, _, hmain⟩ := hyes hl
        rw [he] at hmain
        obtain rfl := Except.ok.inj hmain
        intro r hr'
        obtain ⟨p, _, rfl⟩ := List.mem_map.1 hr'
        rfl
      · rw [hno hl] at he
        cases he
    · rw [C65_no_decomposition sz exec (stencilArgs a) h N h1 hh hr hex] at he
      cases he
  unfold MpiVerdict
  constructor
  · rintro ⟨text, status, _, hs, hp⟩
    rw [← hp, (C79_expression_iff text status).2.2.2.1]
    exact hs.2 hst
  · rintro rfl
    obtain ⟨text, hm⟩ := merge_exists (e.ranks.flatMap fun r => [r.out, r.err])
    exact ⟨text, 0, hm, ⟨fun _ => hst, fun _ => rfl⟩, (C79_expression_iff text 0).2.2.2.1.2 rfl⟩

omit [HasSin K] in
/-- C79 is false for testStencil2d: on one process the test passes also for the numbers of cells (3, 5, 15, 17, ...) for which
the values listed are wrong. -/
theorem C79_stencil_wrong_passes_fails (exec a : Str) (ha : ¬ LooksLikeOption a) (N : Nat) (hN : Reads a N)
    (hr : InRange 1 [N, N]) (hcells : N * N ≤ 2 ^ 31) (hw : ∀ x : K, IsWord (DoubleText.showDouble x)) (h1 : N ≠ 1)
    (hdiv : N ∣ 2 ^ 64 - 1) :
    (∃ e, Stencil2d.main (R := K) 1 (exec :: stencilArgs a) = .ok e ∧ (∀ v, MpiVerdict stencilTest e v ↔ v = true) ∧
      ∃ b : List Nat × List Nat, (e.ranks.map (·.err)) = ["[0] outData: \n".toList ++
        listing DoubleText.showDouble 0 "outData" b.1 b.2 (stencilStep64 [N, N] (stencil2d : List (List Int × K)) edgeField)]) ∧
    ¬ ∀ g, InGrid [N, N] g → stencilStep64 [N, N] (stencil2d : List (List Int × K)) edgeField g =
      crossDifference N edgeField g := by
  obtain ⟨h, hv, hh⟩ := stencilArgs_ok ha hN
  have hpos : 0 < N := hr.pos N (by simp)
  constructor
  · obtain ⟨d, hd, hyes, _⟩ := C65_every_size (R := K) 1 exec (stencilArgs a) h N hv hh hr (valid_one _) hcells hw
    have hl : WrapLocal [N, N] d [0, -1] := by
      intro i hi
      right
      match i, hi with
      | 0, hi => simp at hi
      | i + 2, hi => simp at hi
      | 1, _ =>
        match d, hd with
        | [x, y], ⟨_, hp⟩ =>
          have hp : x * y = 1 := by simpa using hp
          obtain rfl := Nat.eq_one_of_mul_eq_one_right hp
          obtain rfl : y = 1 := by omega
          show (2 ^ 64 - 1) % N < N / 1
          rw [Nat.div_one]
          exact Nat.mod_lt _ hpos
        | [], ⟨hf, _⟩ => cases hf
        | [x], ⟨hf, _⟩ => cases hf with | cons _ hf => cases hf
        | x :: y :: z :: r, ⟨hf, _⟩ => cases hf with | cons _ hf => cases hf with | cons _ hf => cases hf
    obtain ⟨boxes, files, hlen, _, _, _, _, _, hmain⟩ := hyes hl
    refine ⟨_, hmain, C79_stencil_passes 1 exec a ha N hN hr hcells hw _ hmain, ?_⟩
    match boxes, hlen with
    | [b], _ => exact ⟨b, rfl⟩
  · rw [C65_values_iff N hpos (hr.ext N (by simp))]
    rintro (h | h)
    · exact h1 h
    · exact h hdiv

end

/-! ### Concrete cases -/

local instance ctestText : DoubleText ℚ := ⟨fun _ => 0, fun q => if q = 0 then ['0'] else if q = 1 then ['1'] else ['q']⟩
local instance ctestSqrt : Upwind.HasSqrt ℚ := ⟨id⟩
local instance ctestSin : HasSin ℚ := ⟨id, 0⟩

theorem ctest_words : (∀ x : ℚ, IsWord (DoubleText.showDouble x)) ∧ (∀ x : ℚ, 'k' ∉ DoubleText.showDouble x) ∧
    (∀ x : ℚ, (DoubleText.showDouble x).length ≤ 20) := by
  refine ⟨fun x => ?_, fun x => ?_, fun x => ?_⟩
  · show IsWord (if x = 0 then ['0'] else if x = 1 then ['1'] else ['q'])
    split
    · exact ⟨by decide, by decide⟩
    · split <;> exact ⟨by decide, by decide⟩
  · show 'k' ∉ (if x = 0 then ['0'] else if x = 1 then ['1'] else ['q'])
    split
    · decide
    · split <;> decide
  · show (if x = 0 then ['0'] else if x = 1 then ['1'] else ['q']).length ≤ 20
    split
    · decide
    · split <;> decide

theorem plain_of_head {c : Char} {s : Str} (h : c ≠ '-') : ¬ LooksLikeOption (c :: s) := by
  rintro ⟨d, r, e, _⟩
  injection e with e _
  exact h e

/-- Non-vacuity of `C78_cxx_size`, `C78_cxx_size_fails`, `C79_upwind_verdict` and `C79_upwind_passes`: the values of the build
file, 32 cells and 10 steps, are no options, and 32 is not 128; the test passes. -/
example : ¬ LooksLikeOption (toString 32).toList ∧ ¬ LooksLikeOption "10".toList ∧ 32 ≠ 128 ∧
    ∃ e, Upwind.main (0.1 : ℚ) none ("upwindCxx".toList :: upwindArgs (toString 32).toList "10".toList) = .ok e ∧
      ∀ v, Verdict upwindTest e v ↔ v = true := by
  have h1 : ¬ LooksLikeOption (toString 32).toList := plain_of_head (c := '3') (s := ['2']) (by decide)
  have h2 : ¬ LooksLikeOption "10".toList := plain_of_head (c := '1') (s := ['0']) (by decide)
  exact ⟨h1, h2, by decide, C79_upwind_passes none _ _ _ h1 h2 ctest_words.1 ctest_words.2.1 ⟨[], rfl⟩⟩

/-- Non-vacuity of `C78_acc_size` and `C79_acc_verdict`: two threads that share the iterations. -/
example : ∃ x, UpwindAcc.Main .acc (0.1 : ℚ) 2 (fun _ i t => t = i % 2) ("upwindAccCxx".toList ::
    upwindArgs "32".toList "10".toList) x :=
  (C78_acc_size .acc (by decide) (0.1 : ℚ) 2 (by decide) (fun _ i t => t = i % 2)
    (fun _ i => ⟨i % 2, Nat.mod_lt _ (by decide), rfl⟩) _ _ _ (plain_of_head (c := '3') (s := ['2']) (by decide))
    (plain_of_head (c := '1') (s := ['0']) (by decide)) ctest_words.1).1

/-- Non-vacuity of `C78_laplacian_size`, `C79_laplacian_verdict_iff` and `C79_laplacian_wrong_passes_fails`: laplacian2D with 3
cells. -/
example : ¬ LooksLikeOption "2".toList ∧ ¬ LooksLikeOption "3".toList ∧ Reads "2".toList (2 : Nat) ∧ Reads "3".toList (3 : Nat) ∧
    InRange 1 (List.replicate 2 3) ∧ ¬ 3 ∣ 2 ^ 64 ∧
    ∃ e, Laplacian.Main (R := ℚ) "t".toList 1 ("laplacian".toList :: laplacianArgs "2".toList "3".toList) (.ok e) ∧
      ∀ v, MpiVerdict laplacianTest e v ↔ v = true := by
  have h1 : ¬ LooksLikeOption "2".toList := plain_of_head (c := '2') (s := []) (by decide)
  have h2 : ¬ LooksLikeOption "3".toList := plain_of_head (c := '3') (s := []) (by decide)
  have hr : InRange 1 (List.replicate 2 3) := ⟨by decide, by decide, by decide, by decide, by decide, by decide, by decide, by decide⟩
  have hp : ¬ 3 ∣ 2 ^ 64 := by decide
  exact ⟨h1, h2, rfl, rfl, hr, hp, (C79_laplacian_wrong_passes_fails (K := ℚ) _ _ _ _ h1 h2 2 3 rfl rfl hr hp).1⟩

/-- Non-vacuity of `C79_stencil_passes` and `C79_stencil_wrong_passes_fails`: testStencil2d with 3 cells. -/
example : InRange 1 [3, 3] ∧ 3 ∣ 2 ^ 64 - 1 ∧ ∃ e, Stencil2d.main (R := ℚ) 1 ("testStencil2d".toList :: stencilArgs "3".toList) = .ok e ∧
    ∀ v, MpiVerdict stencilTest e v ↔ v = true := by
  have hr : InRange 1 [3, 3] := ⟨by decide, by decide, by decide, by decide, by decide, by decide, by decide, by decide⟩
  obtain ⟨⟨e, he, hv, _⟩, _⟩ := C79_stencil_wrong_passes_fails (K := ℚ) "testStencil2d".toList "3".toList
    (plain_of_head (c := '3') (s := []) (by decide)) 3 rfl hr (by decide) ctest_words.1 (by decide) (by decide)
  exact ⟨hr, by decide, e, he, hv⟩

/-- Non-vacuity of `C79_python_verdict`, `C79_julia_verdict` and `C79_fortran_verdict`: a way to read numbers, arguments and a
program name that fit. -/
example : ∃ readInt : Str → Option Int, readInt "32".toList = some ((32 : Nat) : Int) ∧ readInt "10".toList = some 10 ∧
    readInt (filled 32 "32".toList) = some ((32 : Nat) : Int) ∧ readInt (filled 32 "10".toList) = some 10 ∧
    FitsIn 32 "32".toList ∧ FitsIn 32 "10".toList ∧ (∃ c ∈ "upwindF03".toList.take 32, c ≠ ' ') ∧ 32 * 32 * 32 + 1 < 2 ^ 63 ∧
    (∀ n : Nat, ((n : Int) : ℚ) = (n : ℚ)) ∧ (∀ x : ℚ, (DoubleText.showDouble x).length ≤ 20) :=
  ⟨fun s => if s.take 2 = "32".toList then some 32 else some 10, by decide, by decide, by decide, by decide,
    ⟨by decide, '2', by decide, by decide⟩, ⟨by decide, '0', by decide, by decide⟩, ⟨'u', by decide, by decide⟩, by decide,
    fun n => Int.cast_natCast n, ctest_words.2.2⟩

/-- The verdicts on some texts: no check sum, a check sum that is not a number, one below 1, one that has become 2. -/
example : upwindTest.passes "number of cells: 32".toList 0 = false ∧ upwindTest.passes "check sum: nan".toList 0 = false ∧
    upwindTest.passes "Check sum:   0.99999".toList 3 = true ∧ upwindTest.passes "check sum: 2".toList 0 = false ∧
    scriptTest.passes "check sum:  1.0".toList 0 = true ∧ laplacianTest.passes "Check sums: input = nan".toList 1 = true ∧
    matmultTest.passes "ERROR: wrong".toList 0 = false ∧ matmultTest.passes "check sum: 1".toList 0 = true ∧
    Labelled "heck sum:" NearOne "check sum: 0.99999\n".toList := by
  refine ⟨by decide, by decide, by decide, by decide, by decide, by decide, by decide, by decide, ?_⟩
  exact ⟨[], 'c', " 0.99999\n".toList, by decide, .inr rfl, 1, "0.99999\n".toList, by decide, .inr ⟨"99\n".toList, by decide⟩⟩

end Fidi
