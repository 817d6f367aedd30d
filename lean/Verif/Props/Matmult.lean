import Verif.Lemmas.Matmult
import Mathlib.Algebra.Order.Field.Basic
import Mathlib.Algebra.Field.Rat
import Mathlib.Algebra.Order.Ring.Rat
import Mathlib.Algebra.BigOperators.Fin
import Mathlib.LinearAlgebra.Matrix.Notation

/-
Properties C55 and C57: the matrix products of matmult.F90 and the arguments of its main program.
-/
set_option linter.unusedSectionVars false

namespace Fidi
open Spec Matmult

section
variable {R : Type}

/-- A stored matrix seen with indices from 1. -/
theorem is_of_stores [Zero R] {n m : Nat} {d : List R} {X : Matrix (Fin n) (Fin m) R} (h : StoresMat d X) :
    Is n m ⟨n, m, d⟩ fun i j => if h : i - 1 < n ∧ j - 1 < m then X ⟨i - 1, h.1⟩ ⟨j - 1, h.2⟩ else 0 := by
  refine ⟨rfl, rfl, h.1, fun i j h1 h2 h3 h4 => ?_⟩
  have hi : i - 1 < n := by omega
  have hj : j - 1 < m := by omega
  rw [dif_pos ⟨hi, hj⟩]
  exact h.2 ⟨i - 1, hi⟩ ⟨j - 1, hj⟩

theorem stores_of_is {n m : Nat} {a : Mat R} {F : Nat → Nat → R} (h : Is n m a F) :
    StoresMat a.data (fun (i : Fin n) (j : Fin m) => F (i.val + 1) (j.val + 1)) := by
  refine ⟨h.len, fun i j => ?_⟩
  have := h.get (i.val + 1) (j.val + 1) (by omega) (by omega) (by omega) (by omega)
  simpa using this

/-- Any list of the right length stores a matrix. -/
theorem exists_stores {n m : Nat} {d : List R} (h : d.length = n * m) :
    ∃ X : Matrix (Fin n) (Fin m) R, StoresMat d X := by
  have hlt : ∀ (i : Fin n) (j : Fin m), j.val * n + i.val < d.length := by
    intro i j
    rw [h]
    exact pos_lt (i := i.val + 1) (j := j.val + 1) (by omega) (by omega) (by omega) (by omega)
  exact ⟨fun i j => d[j.val * n + i.val]'(hlt i j), h, fun i j => List.getElem?_eq_getElem (hlt i j)⟩

theorem dot_eq [Zero R] [Add R] [Mul R] {n m el : Nat} (X : Matrix (Fin n) (Fin m) R) (Y : Matrix (Fin m) (Fin el) R)
    (i : Fin n) (k : Fin el) :
    partialDot (fun i j => if h : i - 1 < n ∧ j - 1 < m then X ⟨i - 1, h.1⟩ ⟨j - 1, h.2⟩ else 0)
      (fun j k => if h : j - 1 < m ∧ k - 1 < el then Y ⟨j - 1, h.1⟩ ⟨k - 1, h.2⟩ else 0) (i.val + 1) (k.val + 1) m =
    rowTimesColumn X Y i k := by
  unfold partialDot rowTimesColumn
  have h : List.range' 1 m = (List.finRange m).map (fun j => j.val + 1) := by
    apply List.ext_getElem (by simp)
    intro i h1 h2
    simp [Nat.add_comm]
  rw [h, List.foldl_map]
  apply List.foldl_ext
  intro acc j _
  simp

/-- C55: `matmult0` computes every element of the product as the row times the column, the products being added in the
order of the index, whatever the values held by `c` before; nothing outside the arrays is accessed. -/
theorem C55_matmult0 [Zero R] [One R] [Add R] [Sub R] [Mul R] (n m el : Nat) (hn : n + 1 < 2 ^ 31) (hm : m + 1 < 2 ^ 31)
    (he : el + 1 < 2 ^ 31) (da db dc : List R) (X : Matrix (Fin n) (Fin m) R) (Y : Matrix (Fin m) (Fin el) R)
    (ha : StoresMat da X) (hb : StoresMat db Y) (hc : dc.length = n * el) :
    ∃ d, matmult0 ⟨n, m, da⟩ ⟨m, el, db⟩ ⟨n, el, dc⟩ = .ok ⟨n, el, d⟩ ∧ StoresMat d (rowTimesColumn X Y) := by
  obtain ⟨Z, hZ⟩ := exists_stores hc
  obtain ⟨c', e, h⟩ := matmult0_eq hn hm he (is_of_stores ha) (is_of_stores hb) (is_of_stores hZ)
  have hs := stores_of_is h
  obtain ⟨r, c, d⟩ := c'
  have h1 := h.rows
  have h2 := h.cols
  simp only at h1 h2
  subst h1 h2
  refine ⟨d, e, ?_⟩
  have : (fun (i : Fin r) (k : Fin c) => partialDot
      (fun i j => if h : i - 1 < r ∧ j - 1 < m then X ⟨i - 1, h.1⟩ ⟨j - 1, h.2⟩ else 0)
      (fun j k => if h : j - 1 < m ∧ k - 1 < c then Y ⟨j - 1, h.1⟩ ⟨k - 1, h.2⟩ else 0) (i.val + 1) (k.val + 1) m) =
      rowTimesColumn X Y := by
    funext i k; exact dot_eq X Y i k
  rw [this] at hs
  exact hs

theorem rowTimesColumn_mul [NonUnitalNonAssocSemiring R] {n m el : Nat} (X : Matrix (Fin n) (Fin m) R)
    (Y : Matrix (Fin m) (Fin el) R) : rowTimesColumn X Y = X * Y := by
  funext i k
  rw [Matrix.mul_apply]
  unfold rowTimesColumn
  rw [← List.foldl_map (f := fun j => X i j * Y j k) (g := fun acc x => acc + x), ← List.sum_eq_foldl]
  rw [← List.sum_ofFn, List.ofFn_eq_map]

/-- C55: with exact arithmetic `matmult0` computes the matrix product. -/
theorem C55_matmult0_product [Ring R] (n m el : Nat) (hn : n + 1 < 2 ^ 31) (hm : m + 1 < 2 ^ 31)
    (he : el + 1 < 2 ^ 31) (da db dc : List R) (X : Matrix (Fin n) (Fin m) R) (Y : Matrix (Fin m) (Fin el) R)
    (ha : StoresMat da X) (hb : StoresMat db Y) (hc : dc.length = n * el) :
    ∃ d, matmult0 ⟨n, m, da⟩ ⟨m, el, db⟩ ⟨n, el, dc⟩ = .ok ⟨n, el, d⟩ ∧ StoresMat d (X * Y) := by
  obtain ⟨d, e, h⟩ := C55_matmult0 n m el hn hm he da db dc X Y ha hb hc
  rw [rowTimesColumn_mul] at h
  exact ⟨d, e, h⟩

/-- C55: the concurrent columns of `matmult1` may be processed by any number of threads in any order, their accesses
interleaved in any way: no thread accesses anything outside the arrays or gets stuck, and at the end every element of
`c` is that computed by `matmult0`, bit for bit. -/
theorem C55_matmult1_any_order [Zero R] [One R] [Add R] [Sub R] [Mul R] (n m el : Nat) (hn : n + 1 < 2 ^ 31)
    (hm : m + 1 < 2 ^ 31) (he : el + 1 < 2 ^ 31) (da db dc : List R) (X : Matrix (Fin n) (Fin m) R)
    (Y : Matrix (Fin m) (Fin el) R) (ha : StoresMat da X) (hb : StoresMat db Y) (hc : dc.length = n * el)
    (T : Nat) (hT : 0 < T) (may : Nat → Nat → Nat → Prop)
    (hmay : Covers (matmult1 ⟨n, m, da⟩ ⟨m, el, db⟩ ⟨n, el, dc⟩) T may) (s : PState Loc R)
    (hs : PReach (matmult1 ⟨n, m, da⟩ ⟨m, el, db⟩ ⟨n, el, dc⟩) T may (memory ⟨n, m, da⟩ ⟨m, el, db⟩ ⟨n, el, dc⟩) s) :
    ¬ s.Faulty (allocated ⟨n, m, da⟩ ⟨m, el, db⟩ ⟨n, el, dc⟩) T ∧
    (¬ s.Final (matmult1 ⟨n, m, da⟩ ⟨m, el, db⟩ ⟨n, el, dc⟩) T →
      ∃ s', PStep (matmult1 ⟨n, m, da⟩ ⟨m, el, db⟩ ⟨n, el, dc⟩) T may s s') ∧
    (s.Final (matmult1 ⟨n, m, da⟩ ⟨m, el, db⟩ ⟨n, el, dc⟩) T →
      (∀ (i : Fin n) (k : Fin el), s.mem (.c, i.val + 1, k.val + 1) = rowTimesColumn X Y i k) ∧
      ∃ d, matmult0 ⟨n, m, da⟩ ⟨m, el, db⟩ ⟨n, el, dc⟩ = .ok ⟨n, el, d⟩ ∧
        ∀ (i : Fin n) (k : Fin el), d[k.val * n + i.val]? = some (s.mem (.c, i.val + 1, k.val + 1))) := by
  obtain ⟨Z, hZ⟩ := exists_stores hc
  have hr := matmult1_raceFree hn hm (is_of_stores ha) (is_of_stores hb) (is_of_stores hZ)
  refine ⟨hs.not_faulty hr hT, fun h => hs.progress hr hT hmay h, fun h => ?_⟩
  have key : ∀ (i : Fin n) (k : Fin el), s.mem (.c, i.val + 1, k.val + 1) = rowTimesColumn X Y i k := by
    intro i k
    rw [hs.final_mem hr hT h, matmult1_final hn hm (is_of_stores ha) (is_of_stores hb) (is_of_stores hZ)
      (i := i.val + 1) (k := k.val + 1) (by omega) (by omega) (by omega) (by omega), dot_eq]
  obtain ⟨d, e, hd⟩ := C55_matmult0 n m el hn hm he da db dc X Y ha hb hc
  exact ⟨key, d, e, fun i k => by rw [hd.2, key]⟩

/-- C55: executions of `matmult1` end. -/
theorem C55_matmult1_terminates [Zero R] [One R] [Add R] [Sub R] [Mul R] (n m el : Nat) (hn : n + 1 < 2 ^ 31)
    (hm : m + 1 < 2 ^ 31) (da db dc : List R) (T : Nat) (may : Nat → Nat → Nat → Prop) (σ : Nat → PState Loc R) (len : Nat)
    (h0 : σ 0 = .init (memory ⟨n, m, da⟩ ⟨m, el, db⟩ ⟨n, el, dc⟩))
    (hstep : ∀ l, l < len → PStep (matmult1 ⟨n, m, da⟩ ⟨m, el, db⟩ ⟨n, el, dc⟩) T may (σ l) (σ (l + 1))) :
    len ≤ T + el * (n * (4 * m + 1) + 2) := by
  have h := exec_bounded (reg := matmult1 ⟨n, m, da⟩ ⟨m, el, db⟩ ⟨n, el, dc⟩) (B := n * (4 * m + 1)) (by
    intro p i _ _
    simp only [matmult1, columnProg]
    rw [endDo_eq hn]
    exact rowsProg_len hm n 1) _ σ len h0 hstep
  simpa [matmult1] using h

/-- C55: `initmat` numbers the elements of `a` and then those of `b` from 1 on, column after column. -/
theorem C55_initmat [AddMonoidWithOne R] (n m el : Nat) (hn : n + 1 < 2 ^ 31) (hm : m + 1 < 2 ^ 31)
    (he : el + 1 < 2 ^ 31) (da db : List R) (ha : da.length = n * m) (hb : db.length = m * el) :
    ∃ da' db', initmat ⟨n, m, da⟩ ⟨m, el, db⟩ = .ok (⟨n, m, da'⟩, ⟨m, el, db'⟩) ∧
      StoresMat da' (countingMat 1 : Matrix (Fin n) (Fin m) R) ∧
      StoresMat db' (countingMat (1 + n * m) : Matrix (Fin m) (Fin el) R) := by
  obtain ⟨X, hX⟩ := exists_stores ha
  obtain ⟨Y, hY⟩ := exists_stores hb
  obtain ⟨⟨r, c, d⟩, ⟨r', c', d'⟩, e, h1, h2⟩ := initmat_eq hn hm he (is_of_stores hX) (is_of_stores hY)
  have a1 := h1.rows
  have a2 := h1.cols
  have a3 := h2.rows
  have a4 := h2.cols
  simp only at a1 a2 a3 a4
  subst a1 a2 a3 a4
  refine ⟨d, d', e, ?_, ?_⟩
  · have := stores_of_is h1
    simp only [Nat.add_sub_cancel] at this
    exact this
  · have := stores_of_is h2
    simp only [Nat.add_sub_cancel] at this
    exact this

/-- C55: with exact arithmetic the main program finds no difference between its two products and prints `SUCCESS.`,
whatever the sizes, the number of threads, the order of the columns and the former contents of the memory. -/
theorem C55_main_success {K : Type} [Field K] [LinearOrder K] [IsStrictOrderedRing K] (n m el : Int)
    (hn : n + 1 < 2 ^ 31) (hm : m + 1 < 2 ^ 31) (he : el + 1 < 2 ^ 31) (j1 j2 j3 j4 : List K) :
    ∃ a b c0, initmat (allocate j1 n m) (allocate j2 m el) = .ok (a, b) ∧ matmult0 a b (allocate j3 n el) = .ok c0 ∧
      ∀ (T : Nat) (_ : 0 < T) (may : Nat → Nat → Nat → Prop) (s : PState Loc K),
        PReach (matmult1 a b (allocate j4 n el)) T may (memory a b (allocate j4 n el)) s →
        s.Final (matmult1 a b (allocate j4 n el)) T →
        ∀ c1 : Mat K, c1.rows = n.toNat → c1.cols = el.toNat → c1.data.length = n.toNat * el.toNat →
          (∀ i k, allocated a b c1 (.c, i, k) → c1.elem i k = s.mem (.c, i, k)) →
          ¬ diff c0 c1 > 1 / 10 ^ 10 := by
  have hlen : ∀ (j : List K) (p q : Int), (allocate j p q).data.length = p.toNat * q.toNat := by
    intro j p q; simp [allocate]; omega
  have hn' : n.toNat + 1 < 2 ^ 31 := by omega
  have hm' : m.toNat + 1 < 2 ^ 31 := by omega
  have he' : el.toNat + 1 < 2 ^ 31 := by omega
  obtain ⟨X, hX⟩ := exists_stores (hlen j1 n m)
  obtain ⟨Y, hY⟩ := exists_stores (hlen j2 m el)
  obtain ⟨Z, hZ⟩ := exists_stores (hlen j3 n el)
  obtain ⟨V, hV⟩ := exists_stores (hlen j4 n el)
  obtain ⟨a, b, e1, ha, hb⟩ := initmat_eq hn' hm' he' (is_of_stores hX) (is_of_stores hY)
  obtain ⟨c0, e2, h0⟩ := matmult0_eq hn' hm' he' ha hb (is_of_stores hZ)
  refine ⟨a, b, c0, e1, e2, ?_⟩
  intro T hT may s hs hf c1 hr hcl hl hel
  have hrf := matmult1_raceFree hn' hm' ha hb (is_of_stores hV)
  have h1 : Is n.toNat el.toNat c1 fun i k => partialDot (fun i j => ((1 + (j - 1) * n.toNat + (i - 1) : Nat) : K))
      (fun j k => ((1 + n.toNat * m.toNat + (k - 1) * m.toNat + (j - 1) : Nat) : K)) i k m.toNat := by
    refine ⟨hr, hcl, hl, fun i k q1 q2 q3 q4 => ?_⟩
    have q := hel i k ⟨q1, by omega, q3, by omega⟩
    have hmem := hs.final_mem hrf hT hf
    have hfin := matmult1_final hn' hm' ha hb (is_of_stores hV) q1 q2 q3 q4
    rw [← hfin]
    have hlt := pos_lt q1 q2 q3 q4
    rw [← hl] at hlt
    rw [List.getElem?_eq_getElem hlt]
    unfold Mat.elem at q
    rw [hr, List.getD_eq_getElem?_getD, List.getElem?_eq_getElem hlt, hmem] at q
    exact congrArg some q
  have : c0 = c1 := h0.ext h1
  subst this
  have hz : ∀ l : List K, (List.zipWith (fun x y => if x - y < 0 then -(x - y) else x - y) l l).foldl (· + ·) 0 = 0 := by
    intro l
    rw [← List.sum_eq_foldl]
    apply List.sum_eq_zero
    intro x hx
    obtain ⟨i, hi, rfl⟩ := List.getElem_of_mem hx
    simp
  unfold diff
  rw [hz]
  simp only [gt_iff_lt, not_lt]
  positivity
end

/-- The hypotheses of C55 are met by a product of a 2 x 3 and a 3 x 2 matrix. -/
example : StoresMat [1, 4, 2, 5, 3, 6] (!![1, 2, 3; 4, 5, 6] : Matrix (Fin 2) (Fin 3) ℚ) ∧
    StoresMat [1, 0, -1, 2, 2, 2] (!![1, 2; 0, 2; -1, 2] : Matrix (Fin 3) (Fin 2) ℚ) ∧
    matmult0 ⟨2, 3, [1, 4, 2, 5, 3, 6]⟩ ⟨3, 2, [1, 0, -1, 2, 2, 2]⟩ ⟨2, 2, [7, 7, 7, 7]⟩ =
      .ok (⟨2, 2, [-2, -2, 12, 30]⟩ : Mat ℚ) := by
  refine ⟨⟨rfl, ?_⟩, ⟨rfl, ?_⟩, by decide +kernel⟩
  · decide +kernel
  · decide +kernel

/-- Both columns may be taken by either of two threads. -/
example : Covers (matmult1 ⟨2, 3, [1, 4, 2, 5, 3, 6]⟩ ⟨3, 2, [1, 0, -1, 2, 2, 2]⟩ (⟨2, 2, [7, 7, 7, 7]⟩ : Mat ℚ)) 2
    (fun _ _ _ => True) := fun _ _ _ _ => ⟨0, by omega, trivial⟩

/-- A product whose sizes do not conform reads outside an array. -/
example : matmult0 ⟨1, 1, [1]⟩ ⟨2, 1, [1, 1]⟩ ⟨1, 1, [0]⟩ = (.error .outOfBounds : M (Mat ℚ)) := by decide +kernel

/-! ### The arguments of the main program -/

/-- C57 (disagreement): the sizes given on the command line are not honoured: the main program tests the variable `ier`,
which no statement assigns, as soon as there is an argument that is a number, so that the sizes it uses are undefined. -/
theorem C57_arguments_fails (readInt : List Char → Option Int) (arg : List Char) (args : List (List Char)) (val : Int)
    (h1 : ¬ ∀ c ∈ arg, c = ' ') (h2 : readInt arg = some val) :
    sizes readInt (arg :: args) = .error .uninitialized := by
  have : ¬ (arg.all (· = ' ')) = true := by simpa using h1
  unfold sizes parse
  rw [if_neg this, h2]
  rfl

/-- C57: if the variable held 0 (as it would with `iostat=ier` in the `read`), the first three arguments would be the
sizes, for every list of arguments that are numbers. -/
theorem C57_arguments_partial (readInt : List Char → Option Int) (args : List (List Char)) (vals : List Int)
    (h1 : ∀ arg ∈ args, ¬ ∀ c ∈ arg, c = ' ') (h2 : args.map readInt = vals.map some) :
    parse readInt (some 0) args 1 (3, 4, 5) = .ok (wantedSizes vals) := by
  have hb : ∀ arg ∈ args, ¬ (arg.all (· = ' ')) = true := by
    intro arg ha; simpa using h1 arg ha
  -- later arguments change nothing
  have hrest : ∀ (as : List (List Char)) (vs : List Int) (argc : Nat) (s : Int × Int × Int),
      (∀ arg ∈ as, ¬ (arg.all (· = ' ')) = true) → as.map readInt = vs.map some → 4 ≤ argc →
      parse readInt (some 0) as argc s = .ok s := by
    intro as
    induction as with
    | nil => intro vs argc s _ _ _; rfl
    | cons a as ih =>
      intro vs argc ⟨n, m, el⟩ hb hv hc
      match vs with
      | [] => simp at hv
      | v :: vs =>
        simp only [List.map_cons, List.cons.injEq] at hv
        unfold parse
        rw [if_neg (hb a (by simp)), hv.1]
        simp only [if_true]
        rw [if_neg (by omega), if_neg (by omega), if_neg (by omega)]
        exact ih vs (argc + 1) _ (fun arg ha => hb arg (by simp [ha])) hv.2 (by omega)
  have hstep : ∀ (a : List Char) (as : List (List Char)) (v : Int) (argc : Nat) (n m el : Int),
      ¬ (a.all (· = ' ')) = true → readInt a = some v →
      parse readInt (some 0) (a :: as) argc (n, m, el) = parse readInt (some 0) as (argc + 1)
        (if argc = 1 then (v, m, el) else if argc = 2 then (n, v, el) else if argc = 3 then (n, m, v) else (n, m, el)) := by
    intro a as v argc n m el h1 h2
    conv_lhs => unfold parse
    rw [if_neg h1, h2]
    rfl
  match args, vals, h2 with
  | [], [], _ => rfl
  | [], _ :: _, h2 => simp at h2
  | _ :: _, [], h2 => simp at h2
  | a :: as, v :: vs, h2 =>
    simp only [List.map_cons, List.cons.injEq] at h2
    rw [hstep a as v 1 _ _ _ (hb a (by simp)) h2.1]
    match as, vs, h2.2 with
    | [], [], _ => rfl
    | [], _ :: _, h2 => simp at h2
    | _ :: _, [], h2 => simp at h2
    | a :: as, w :: vs, h2 =>
      simp only [List.map_cons, List.cons.injEq] at h2
      simp only [if_true]
      rw [hstep a as w 2 _ _ _ (hb a (by simp)) h2.1]
      match as, vs, h2.2 with
      | [], [], _ => rfl
      | [], _ :: _, h2 => simp at h2
      | _ :: _, [], h2 => simp at h2
      | a :: as, x :: vs, h2 =>
        simp only [List.map_cons, List.cons.injEq] at h2
        rw [if_neg (by omega), if_pos rfl, hstep a as x 3 _ _ _ (hb a (by simp)) h2.1]
        exact hrest as vs 4 _ (fun arg ha => hb arg (by simp [ha])) h2.2 (by omega)

/-- Without arguments the sizes are 3, 4 and 5. -/
example : sizes (fun _ => none) [] = .ok (3, 4, 5) := rfl

/-- Two arguments: the program's behaviour is undefined, with an assigned `ier` they would be the sizes. -/
example : sizes (fun s => if s = ['7'] then some 7 else some 2) [['7'], ['2']] = .error .uninitialized ∧
    parse (fun s => if s = ['7'] then some 7 else some 2) (some 0) [['7'], ['2']] 1 (3, 4, 5) = .ok (7, 2, 5) := by
  decide +kernel

end Fidi
