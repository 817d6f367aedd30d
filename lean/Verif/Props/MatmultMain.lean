import Verif.Model.MatmultMain
import Verif.Props.Matmult
import Verif.Props.CTest
import Verif.Lemmas.ScheduleEnd
import Verif.Lemmas.DblInt

/-
Properties C55, C78 and C79 of the main program of matmult.F90: what it writes, for every execution and in any arithmetic, and the
verdict of its test. `num` and `real` are the texts of numbers in `print *`.
-/
set_option linter.unusedSectionVars false

namespace Fidi
open Spec Matmult CTest

section
variable {R : Type} [Zero R] [One R] [Add R] [Sub R] [Mul R] [Neg R] [LT R] [DecidableLT R]

theorem diff_self {n el : Nat} {c : Mat R} {F : Nat → Nat → R} (h : Is n el c F) (X : Matrix (Fin n) (Fin el) R)
    (hX : ∀ (i : Fin n) (k : Fin el), F (i.val + 1) (k.val + 1) = X i k) : diff c c = selfDifference X := by
  have hdata : c.data = (List.finRange el).flatMap fun k => (List.finRange n).map fun i => X i k := by
    apply List.ext_getElem?
    intro p
    by_cases hp : p < n * el
    · have hn : 0 < n := Nat.pos_of_ne_zero (by rintro rfl; simp at hp)
      have h1 : p % n < n := Nat.mod_lt _ hn
      have h2 : p / n < el := (Nat.div_lt_iff_lt_mul hn).2 (by rw [Nat.mul_comm]; exact hp)
      have e := h.get (p % n + 1) (p / n + 1) (Nat.succ_pos _) h1 (Nat.succ_pos _) h2
      have hpos : (p / n + 1 - 1) * n + (p % n + 1 - 1) = p := by
        simp only [Nat.add_sub_cancel]
        rw [Nat.mul_comm, Nat.div_add_mod]
      rw [hpos, hX ⟨p % n, h1⟩ ⟨p / n, h2⟩] at e
      rw [e]
      symm
      have key : ∀ (l : List (Fin el)) (q r : Nat) (k : Fin el) (hr : r < n), l[q]? = some k →
          (l.flatMap fun k => (List.finRange n).map fun i => X i k)[q * n + r]? = some (X ⟨r, hr⟩ k) := by
        intro l
        induction l with
        | nil => intro q r k hr hk; simp at hk
        | cons a l ih =>
          intro q r k hr hk
          rw [List.flatMap_cons]
          cases q with
          | zero =>
            rw [List.getElem?_cons_zero, Option.some_inj] at hk
            subst hk
            rw [Nat.zero_mul, Nat.zero_add, List.getElem?_append_left (by simpa using hr)]
            simp [hr]
          | succ q =>
            rw [List.getElem?_cons_succ] at hk
            rw [List.getElem?_append_right (by simp; rw [Nat.succ_mul]; omega)]
            have : (q + 1) * n + r - ((List.finRange n).map fun i => X i a).length = q * n + r := by
              simp only [List.length_map, List.length_finRange, Nat.succ_mul]
              omega
            rw [this]
            exact ih q r k hr hk
      have := key (List.finRange el) (p / n) (p % n) ⟨p / n, h2⟩ h1 (by simp [h2])
      rw [Nat.mul_comm, Nat.div_add_mod] at this
      exact this
    · rw [List.getElem?_eq_none (by rw [h.len]; omega), List.getElem?_eq_none]
      have : ((List.finRange el).flatMap fun k => (List.finRange n).map fun i => X i k).length = n * el := by
        rw [List.length_flatMap]
        simp [Nat.mul_comm]
      rw [this]
      omega
  unfold diff selfDifference
  rw [hdata]
  congr 1
  have hz : ∀ l : List R, List.zipWith (fun x y => if x - y < 0 then -(x - y) else x - y) l l =
      l.map fun x => if x - x < 0 then -(x - x) else x - x := by
    intro l
    induction l with
    | nil => rfl
    | cons a l ih => simp only [List.zipWith_cons_cons, List.map_cons, ih]
  rw [hz, List.map_flatMap]
  simp only [List.map_map]
  rfl

/-- The differences vanish if the numbers do not differ from themselves. -/
theorem selfDifference_zero {n el : Nat} (X : Matrix (Fin n) (Fin el) R) (h0 : ∀ i k, X i k - X i k = 0) (hlt : ¬ (0 : R) < 0)
    (hadd : (0 : R) + 0 = 0) : selfDifference X = 0 := by
  unfold selfDifference
  simp only [h0, if_neg hlt]
  have : ∀ l : List R, (∀ x ∈ l, x = 0) → l.foldl (· + ·) 0 = 0 := by
    intro l
    induction l with
    | nil => intro _; rfl
    | cons a l ih =>
      intro h
      rw [List.foldl_cons, h a (by simp), hadd]
      exact ih fun x hx => h x (by simp [hx])
  apply this
  intro x hx
  obtain ⟨k, _, hx⟩ := List.mem_flatMap.1 hx
  obtain ⟨i, _, rfl⟩ := List.mem_map.1 hx
  rfl

/-- C55: what the main program can do once the sizes are known, in any arithmetic, for any contents of the memory, on any number of
threads in any order: there is an execution, and every one ends, computes both products as rows times columns in the order of the
index, compares each element with itself, and writes `SUCCESS.` unless the differences of the elements from themselves add up to more
than the tolerance (infinities). -/
theorem C55_main_outcomes (readInt : Str → Option Int) (ier : Option Int) (num : Int → Str) (real : R → Str) (tol : R) (T : Nat)
    (hT : 0 < T) (may : Nat → Nat → Nat → Prop) (hmay : ∀ k i, ∃ t, t < T ∧ may k i t) (args : List Str) (n' m' el' : Int)
    (hargs : parse readInt ier args 1 (3, 4, 5) = .ok (n', m', el')) (hn' : n' + 1 < 2 ^ 31)
    (hm' : m' + 1 < 2 ^ 31) (he' : el' + 1 < 2 ^ 31) (x : M Exit) :
    Main readInt ier num real tol T may args x ↔ x = .ok {
      out := matmultText num real n' m' el'
        (let d := selfDifference (rowTimesColumn (firstMatrix n'.toNat m'.toNat) (secondMatrix n'.toNat m'.toNat el'.toNat) :
          Matrix (Fin n'.toNat) (Fin el'.toNat) R)
          if tol < d then some d else none)
      err := [], files := [], status := 0 } := by
  have hn : n'.toNat + 1 < 2 ^ 31 := by omega
  have hm : m'.toNat + 1 < 2 ^ 31 := by omega
  have he : el'.toNat + 1 < 2 ^ 31 := by omega
  have hal : ∀ (j : List R) (p q : Int), allocate j p q = allocate j (p.toNat : Int) (q.toNat : Int) := fun _ _ _ => rfl
  have hpre : ∀ j1 j2 j3 : List R, prepare n' m' el' j1 j2 j3 = prepare (n'.toNat : Int) m'.toNat el'.toNat j1 j2 j3 :=
    fun _ _ _ => rfl
  have hlen : ∀ (j : List R) (p q : Nat), (allocate j p q).data.length = p * q := by
    intro j p q; simp [allocate]; omega
  simp only [Main, hargs, hpre, fun j => hal j n' el']
  generalize n'.toNat = n at *
  generalize m'.toNat = m at *
  generalize el'.toNat = el at *
  clear hal hpre
  -- what an execution does for given contents of the memory
  have key : ∀ j1 j2 j3 j4 : List R, ∃ a b c0, prepare (n : Int) m el j1 j2 j3 = .ok (a, b, c0) ∧
      RaceFree (matmult1 a b (allocate j4 n el)) (allocated a b (allocate j4 n el)) owners ∧
      (∀ k i, k < (matmult1 a b (allocate j4 n el)).phases → i < (matmult1 a b (allocate j4 n el)).count k →
        ((matmult1 a b (allocate j4 n el)).prog k i).LenLe (n * (4 * m + 1))) ∧
      ∀ s, PReach (matmult1 a b (allocate j4 n el)) T may (memory a b (allocate j4 n el)) s →
        s.Final (matmult1 a b (allocate j4 n el)) T →
        finish num real tol n' m' el' c0 (result (allocate j4 n el) s) = {
          out := matmultText num real n' m' el'
            (let d := selfDifference (rowTimesColumn (firstMatrix n m) (secondMatrix n m el) : Matrix (Fin n) (Fin el) R)
              if tol < d then some d else none)
          err := [], files := [], status := 0 } := by
    intro j1 j2 j3 j4
    obtain ⟨X, hX⟩ := exists_stores (hlen j1 n m)
    obtain ⟨Y, hY⟩ := exists_stores (hlen j2 m el)
    obtain ⟨Z, hZ⟩ := exists_stores (hlen j3 n el)
    obtain ⟨V, hV⟩ := exists_stores (hlen j4 n el)
    obtain ⟨a, b, e1, ha, hb⟩ := initmat_any (N := fun t => (countUp t : R)) (fun t => rfl) 0 rfl hn hm he
      (is_of_stores hX) (is_of_stores hY)
    obtain ⟨c0, e2, h0⟩ := matmult0_eq hn hm he ha hb (is_of_stores hZ)
    have hrf := matmult1_raceFree hn hm ha hb (is_of_stores hV)
    refine ⟨a, b, c0, ?_, hrf, ?_, ?_⟩
    · unfold prepare
      rw [show initmat (allocate j1 (n : Int) m) (allocate j2 (m : Int) el) = .ok (a, b) from e1, M.ok_bind]
      dsimp only
      rw [show matmult0 a b (allocate j3 (n : Int) el) = .ok c0 from e2]
      rfl
    · intro k i _ _
      simp only [matmult1, columnProg, ha.rows, hb.rows]
      rw [endDo_eq hn]
      exact rowsProg_len hm n 1
    · intro s hs hf
      have h1 : Is n el (result (allocate j4 n el) s) fun i k => partialDot
          (fun i j => countUp (0 + (j - 1) * n + (i - 1))) (fun j k => countUp (0 + n * m + (k - 1) * m + (j - 1))) i k m := by
        refine ⟨rfl, rfl, by simp [result, allocate], fun i k q1 q2 q3 q4 => ?_⟩
        have hmem : s.mem (.c, i, k) = _ := (congrFun (hs.final_mem hrf hT hf) (.c, i, k)).trans
          (matmult1_final hn hm ha hb (is_of_stores hV) q1 q2 q3 q4)
        rw [← hmem]
        have hlt := pos_lt q1 q2 q3 q4
        simp only [result, allocate, Int.toNat_natCast]
        rw [List.getElem?_map, List.getElem?_range hlt]
        simp only [Option.map_some]
        rw [Nat.mul_comm, Nat.mul_add_mod, Nat.mod_eq_of_lt (by omega), Nat.mul_add_div (by omega),
          Nat.div_eq_of_lt (by omega : i - 1 < n), Nat.add_zero, Nat.sub_add_cancel q1, Nat.sub_add_cancel q3]
      have hc : c0 = result (allocate j4 n el) s := h0.ext h1
      have hd := diff_self h0 (rowTimesColumn (firstMatrix n m) (secondMatrix n m el) : Matrix (Fin n) (Fin el) R) (by
        intro i k
        rw [← dot_eq]
        unfold partialDot
        apply List.foldl_ext
        intro acc j hj
        obtain ⟨hj1, hj2⟩ := List.mem_range'_1.1 hj
        dsimp only
        rw [dif_pos ⟨by simp, by omega⟩, dif_pos ⟨by omega, by simp⟩]
        simp [firstMatrix, secondMatrix])
      unfold finish
      rw [← hc, hd]
      dsimp only
      unfold matmultText
      split
      · simp only [List.append_assoc]
      · rfl
  constructor
  · rintro ⟨j1, j2, j3, j4, h⟩
    obtain ⟨a, b, c0, e, hrf, _, hfin⟩ := key j1 j2 j3 j4
    rw [e] at h
    obtain ⟨s, hs, ⟨hf, _⟩ | ⟨hf, rfl⟩⟩ := h
    · exact absurd hf (hs.not_faulty hrf hT)
    · rw [hfin s hs hf]
  · rintro rfl
    obtain ⟨a, b, c0, e, hrf, hB, hfin⟩ := key [] [] [] []
    refine ⟨[], [], [], [], ?_⟩
    rw [e]
    obtain ⟨s, hs, hf⟩ := exists_final (may := may) (T := T) hB (memory a b (allocate [] n el)) fun s hs hf =>
      hs.progress hrf hT (fun k i _ _ => hmay k i) hf
    exact ⟨s, hs, .inr ⟨hf, by rw [hfin s hs hf]⟩⟩

/-- C78: the arguments of the test of matmult are the sizes that the program has without arguments, so that the sizes are those
asked for whatever value the unassigned variable `ier` holds. -/
theorem C78_matmult_size (readInt : Str → Option Int) (h3 : readInt "3".toList = some 3) (h4 : readInt "4".toList = some 4)
    (h5 : readInt "5".toList = some 5) (ier : Int) :
    parse readInt (some ier) ["3".toList, "4".toList, "5".toList] 1 (3, 4, 5) = .ok (3, 4, 5) := by
  have n3 : ¬ ("3".toList.all (· = ' ')) = true := by decide
  have n4 : ¬ ("4".toList.all (· = ' ')) = true := by decide
  have n5 : ¬ ("5".toList.all (· = ' ')) = true := by decide
  unfold parse
  rw [if_neg n3, h3]
  dsimp only
  unfold parse
  rw [if_neg n4, h4]
  dsimp only
  unfold parse
  rw [if_neg n5, h5]
  dsimp only
  unfold parse
  by_cases h : ier = 0 <;> simp [h]

/-- C79: the verdict of the test of matmult, whatever value `ier` holds, for every execution: it passes exactly if the differences of
the elements from themselves do not exceed the tolerance. (If using `ier` is undefined behaviour there is no verdict:
`C57_arguments_fails`.) -/
theorem C79_matmult_verdict (readInt : Str → Option Int) (h3 : readInt "3".toList = some 3) (h4 : readInt "4".toList = some 4)
    (h5 : readInt "5".toList = some 5) (ier : Int) (num : Int → Str) (real : R → Str) (hnum : ∀ z, 'R' ∉ num z) (tol : R)
    (T : Nat) (hT : 0 < T) (may : Nat → Nat → Nat → Prop) (hmay : ∀ k i, ∃ t, t < T ∧ may k i t) :
    ∃ e, (∀ x, Main readInt (some ier) num real tol T may ["3".toList, "4".toList, "5".toList] x ↔ x = .ok e) ∧
      ∀ v, Verdict matmultTest e v ↔ (v = true ↔
        ¬ tol < selfDifference (rowTimesColumn (firstMatrix 3 4) (secondMatrix 3 4 5) : Matrix (Fin 3) (Fin 5) R)) := by
  refine ⟨_, fun x => C55_main_outcomes readInt (some ier) num real tol T hT may hmay _ 3 4 5
    (C78_matmult_size readInt h3 h4 h5 ier) (by decide) (by decide) (by decide) x, fun v => ?_⟩
  rw [verdict_out]
  have hp : matmultTest.passes (matmultText num real (3 : Nat) (4 : Nat) (5 : Nat)
      (let d := selfDifference (rowTimesColumn (firstMatrix 3 4) (secondMatrix 3 4 5) : Matrix (Fin 3) (Fin 5) R)
        if tol < d then some d else none)) 0 = true ↔
      ¬ tol < selfDifference (rowTimesColumn (firstMatrix 3 4) (secondMatrix 3 4 5) : Matrix (Fin 3) (Fin 5) R) := by
    rw [(C79_expression_iff _ 0).2.2.2.2]
    dsimp only
    split
    · next h =>
      simp only [h, not_true, iff_false, and_true, not_not]
      refine ⟨" matrix sizes: ".toList ++ num (3 : Nat) ++ " x".toList ++ num (4 : Nat) ++ " x".toList ++ num (5 : Nat) ++
        "\n".toList ++ " ".toList, ": signifiant difference diff=".toList ++ real
        (selfDifference (rowTimesColumn (firstMatrix 3 4) (secondMatrix 3 4 5) : Matrix (Fin 3) (Fin 5) R)) ++ "\n".toList, ?_⟩
      unfold matmultText
      rw [show " ERROR: signifiant difference diff=".toList = " ".toList ++ "ERROR".toList ++
        ": signifiant difference diff=".toList by decide +kernel]
      simp only [List.append_assoc]
    · next h =>
      simp only [h, not_false_eq_true, iff_true, and_true]
      rintro hin
      have : 'R' ∈ matmultText num real (3 : Nat) (4 : Nat) (5 : Nat) (none : Option R) :=
        hin.subset (by decide)
      unfold matmultText at this
      simp only [List.mem_append] at this
      rcases this with ((((((h | h) | h) | h) | h) | h) | h) | h
      · exact absurd h (by decide)
      · exact hnum _ h
      · exact absurd h (by decide)
      · exact hnum _ h
      · exact absurd h (by decide)
      · exact hnum _ h
      · exact absurd h (by decide)
      · exact absurd h (by decide)
  rw [← hp]
  cases v <;> simp

end

/-- The products of the program are finite IEEE numbers. -/
theorem product_finite (n m el : Nat) (hm : m + 1 < 2 ^ 31) (i : Fin n) (k : Fin el) : ∃ x : Dbl,
    (rowTimesColumn (firstMatrix n m) (secondMatrix n m el) : Matrix (Fin n) (Fin el) F64) i k = .fin x := by
  obtain ⟨x, hx, _⟩ := dot_fin (fun j => j * n + i.val) (fun j => n * m + k.val * m + j) ((List.finRange m).map Fin.val)
    (by simp; omega)
  refine ⟨x, ?_⟩
  rw [List.foldl_map] at hx
  exact hx

theorem selfDifference_double (n m el : Nat) (hm : m + 1 < 2 ^ 31) :
    selfDifference (rowTimesColumn (firstMatrix n m) (secondMatrix n m el) : Matrix (Fin n) (Fin el) F64) = 0 :=
  selfDifference_zero _ (fun i k => by
    obtain ⟨x, hx⟩ := product_finite n m el hm i k
    rw [hx, F64.sub_self]) (by decide +kernel) (by decide +kernel)

theorem not_lt_zero_double {t : Dbl} (ht : 0 ≤ t.val) : ¬ F64.fin t < 0 := not_lt.2 ht

/-- C55: with IEEE numbers, overflow and rounding included, the program writes the sizes and `SUCCESS.`, and nothing else, for all
sizes that its integers can count up to, whatever the memory held, in every execution on any number of threads. -/
theorem C55_main_success_double (readInt : Str → Option Int) (ier : Option Int) (num : Int → Str) (real : F64 → Str) (tol : Dbl)
    (htol : 0 ≤ tol.val) (T : Nat) (hT : 0 < T) (may : Nat → Nat → Nat → Prop) (hmay : ∀ k i, ∃ t, t < T ∧ may k i t)
    (args : List Str) (n m el : Int) (hargs : parse readInt ier args 1 (3, 4, 5) = .ok (n, m, el))
    (hn : n + 1 < 2 ^ 31) (hm : m + 1 < 2 ^ 31) (he : el + 1 < 2 ^ 31) (x : M Exit) :
    Main readInt ier num real (.fin tol) T may args x ↔ x = .ok {
      out := " matrix sizes: ".toList ++ num n ++ " x".toList ++ num m ++ " x".toList ++ num el ++ "\n SUCCESS.\n".toList
      err := [], files := [], status := 0 } := by
  rw [C55_main_outcomes readInt ier num real (.fin tol) T hT may hmay args n m el hargs hn hm he x]
  dsimp only
  rw [selfDifference_double _ _ _ (by omega), if_neg (not_lt_zero_double htol)]
  unfold matmultText
  rw [show "\n SUCCESS.\n".toList = "\n".toList ++ " SUCCESS.\n".toList by decide +kernel]
  simp only [List.append_assoc]

/-- C55: in exact arithmetic the program writes the sizes and `SUCCESS.`, and nothing else. -/
theorem C55_program_success {R : Type} [Ring R] [LinearOrder R] [IsStrictOrderedRing R] (readInt : Str → Option Int) (ier : Option Int)
    (num : Int → Str) (real : R → Str) (tol : R) (htol : 0 ≤ tol) (T : Nat) (hT : 0 < T) (may : Nat → Nat → Nat → Prop)
    (hmay : ∀ k i, ∃ t, t < T ∧ may k i t) (args : List Str) (n m el : Int)
    (hargs : parse readInt ier args 1 (3, 4, 5) = .ok (n, m, el))
    (hn : n + 1 < 2 ^ 31) (hm : m + 1 < 2 ^ 31) (he : el + 1 < 2 ^ 31) (x : M Exit) :
    Main readInt ier num real tol T may args x ↔ x = .ok {
      out := " matrix sizes: ".toList ++ num n ++ " x".toList ++ num m ++ " x".toList ++ num el ++ "\n SUCCESS.\n".toList
      err := [], files := [], status := 0 } := by
  rw [C55_main_outcomes readInt ier num real tol T hT may hmay args n m el hargs hn hm he x]
  dsimp only
  rw [selfDifference_zero (rowTimesColumn (firstMatrix n.toNat m.toNat) (secondMatrix n.toNat m.toNat el.toNat) :
    Matrix (Fin n.toNat) (Fin el.toNat) R) (fun i k => sub_self _) (lt_irrefl _) (add_zero _), if_neg (not_lt.2 htol)]
  unfold matmultText
  rw [show "\n SUCCESS.\n".toList = "\n".toList ++ " SUCCESS.\n".toList by decide +kernel]
  simp only [List.append_assoc]

/-- C79: the test of matmult passes with IEEE numbers whatever value `ier` holds, in every execution on any number of threads. -/
theorem C79_matmult_passes_double (readInt : Str → Option Int) (h3 : readInt "3".toList = some 3)
    (h4 : readInt "4".toList = some 4) (h5 : readInt "5".toList = some 5) (ier : Int) (num : Int → Str) (real : F64 → Str)
    (hnum : ∀ z, 'R' ∉ num z) (tol : Dbl) (htol : 0 ≤ tol.val) (T : Nat) (hT : 0 < T) (may : Nat → Nat → Nat → Prop)
    (hmay : ∀ k i, ∃ t, t < T ∧ may k i t) (x : M Exit)
    (hx : Main readInt (some ier) num real (.fin tol) T may ["3".toList, "4".toList, "5".toList] x) :
    ∃ e, x = .ok e ∧ ∀ v, Verdict matmultTest e v ↔ v = true := by
  obtain ⟨e, he, hv⟩ := C79_matmult_verdict readInt h3 h4 h5 ier num real hnum (.fin tol) T hT may hmay
  refine ⟨e, (he x).1 hx, fun v => ?_⟩
  rw [hv v, selfDifference_double 3 4 5 (by decide)]
  simp [not_lt_zero_double htol]

/-- The decimal digits read and written, for the examples. -/
def readSizes (s : Str) : Option Int :=
  if s = "3".toList then some 3 else if s = "4".toList then some 4 else if s = "5".toList then some 5
  else if s = "700".toList then some 700 else none

/-- An assigned `ier` and the arguments `700 4 5`, two threads that take the columns in any way: `SUCCESS.` -/
example (num : Int → Str) (real : F64 → Str) (x : M Exit) :
    Main readSizes (some 0) num real (.fin ⟨1 / 2 ^ 33⟩) 2 (fun _ _ t => t < 2) ["700".toList, "4".toList, "5".toList] x ↔
      x = .ok { out := " matrix sizes: ".toList ++ num 700 ++ " x".toList ++ num 4 ++ " x".toList ++ num 5 ++
        "\n SUCCESS.\n".toList, err := [], files := [], status := 0 } :=
  C55_main_success_double readSizes (some 0) num real ⟨1 / 2 ^ 33⟩ (by norm_num) 2 (by decide) _ (fun _ _ => ⟨0, by decide, by decide⟩)
    _ 700 4 5 (by decide +kernel) (by decide) (by decide) (by decide) x

/-- The test passes with the value 7 in `ier` on four threads, the columns dealt out in turn. -/
example (real : F64 → Str) (x : M Exit)
    (hx : Main readSizes (some 7) (fun z => (toString z).toList.filter (· ≠ 'R')) real (.fin ⟨1 / 2 ^ 33⟩) 4
      (fun _ i t => t = i % 4) ["3".toList, "4".toList, "5".toList] x) : ∃ e, x = .ok e ∧ ∀ v, Verdict matmultTest e v ↔ v = true := by
  refine C79_matmult_passes_double readSizes (by decide +kernel) (by decide +kernel) (by decide +kernel) 7 _ real ?_
    ⟨1 / 2 ^ 33⟩ (by norm_num) 4 (by decide) _ ?_ x hx
  · intro z h
    exact absurd (List.of_mem_filter h) (by decide)
  · exact fun _ i => ⟨i % 4, Nat.mod_lt _ (by decide), rfl⟩

end Fidi
