import Verif.Lemmas.MultiArrayIter
import Mathlib.Data.List.Nodup
import Mathlib.Data.Int.ModEq
import Mathlib.Algebra.BigOperators.Ring.List

/-
Properties C01-C06: the multi-dimensional array iterator.
-/
namespace Fidi
open Spec MultiArrayIter

/-- Client program: `for (i = 0; i < n; ++i) { out.push_back(it.getIndices()); it.next(); }`. -/
def traverse (it : MultiArrayIter) : Nat → M (List (List Nat))
  | 0 => pure []
  | n + 1 => do
    let t ← it.getIndices
    let ts ← traverse it.next n
    pure (t :: ts)

/-- Client program: a sequence of calls of `begin`, `next` and `move`. -/
def runOps (it : MultiArrayIter) (ops : List IterOp) : MultiArrayIter :=
  ops.foldl (fun it op => match op with | .begin => it.begin' | .next => it.next | .move k => it.move k) it

theorem traverse_eq {lo hi : List Nat} (rm : Bool) (hb : BoxLt lo hi) (hv : volume lo hi < W)
    (hs : ∀ h ∈ hi, h < W) (n k : Nat) (hk : k + n < W) :
    traverse ({ builtIter lo hi rm with bigIndex := k } : MultiArrayIter) n =
      .ok ((List.range' k n).map (tupleAt rm lo hi)) := by
  induction n generalizing k with
  | zero => rfl
  | succ n ih =>
    have e : ({ builtIter lo hi rm with bigIndex := k } : MultiArrayIter).next =
        { builtIter lo hi rm with bigIndex := k + 1 } := by
      unfold MultiArrayIter.next
      rw [szAdd_of_lt (by simp only []; omega)]
    simp only [traverse]
    rw [getIndices_built rm hb hv hs, e, ih (k + 1) (by omega)]
    simp [List.range'_succ]

/-- C01: starting at `begin()` and calling `next()` `getNumberOfTerms()` times, the tuples returned are exactly
the integer points of the box, each exactly once. -/
theorem C01_visits_box_exactly_once (self : Option MultiArrayIter) (lo hi : List Nat) (rowMajor : Bool)
    (hax : lo ≠ []) (hn : lo.length < 2 ^ 31) (hb : BoxLt lo hi) (hs : ∀ h ∈ hi, h < 2 ^ 64)
    (hv : volume lo hi < 2 ^ 64) :
    ∃ it ts, build self lo hi rowMajor = .ok it ∧ traverse it.begin' it.getNumberOfTerms = .ok ts ∧
      ts.Nodup ∧ ∀ t, t ∈ ts ↔ InBox lo hi t := by
  rw [← W_eq] at hv hs
  refine ⟨_, (List.range' 0 (volume lo hi)).map (tupleAt rowMajor lo hi),
    build_eq self lo hi rowMajor hax (le_of_eq hb.length_eq) (by unfold W; omega), ?_, ?_, ?_⟩
  · have h1 : (builtIter lo hi rowMajor).getNumberOfTerms = volume lo hi := by rw [builtIter_eq _ hb hv]; rfl
    rw [h1]
    exact traverse_eq rowMajor hb hv hs (volume lo hi) 0 (by omega)
  · apply List.Nodup.map_on _ List.nodup_range'
    intro a ha b hb' e
    have ha' : a < volume lo hi := by simpa using ha
    have hb'' : b < volume lo hi := by simpa using hb'
    have := congrArg (flatOf rowMajor lo hi) e
    rw [flatOf_tupleAt _ hb, flatOf_tupleAt _ hb, Nat.mod_eq_of_lt ha', Nat.mod_eq_of_lt hb''] at this
    exact this
  · intro t
    simp only [List.mem_map, List.mem_range'_1]
    constructor
    · rintro ⟨k, _, rfl⟩
      exact tupleAt_inBox rowMajor hb k
    · intro h
      exact ⟨flatOf rowMajor lo hi t, ⟨Nat.zero_le _, by simpa using flatOf_lt rowMajor h⟩, tupleAt_flatOf rowMajor h⟩

/-- The hypotheses of C01 are met, and the conclusion is the expected enumeration, on a shifted 2 x 3 box. -/
example : BoxLt [1, 2] [3, 5] ∧ volume [1, 2] [3, 5] < 2 ^ 64 ∧
    (do let it ← build none [1, 2] [3, 5] true; traverse it it.getNumberOfTerms) =
      .ok [[1, 2], [1, 3], [1, 4], [2, 2], [2, 3], [2, 4]] ∧
    (do let it ← build none [1, 2] [3, 5] false; traverse it it.getNumberOfTerms) =
      .ok [[1, 2], [2, 2], [1, 3], [2, 3], [1, 4], [2, 4]] :=
  ⟨by simp [BoxLt], by decide, by decide +kernel, by decide +kernel⟩

theorem prod_word (lo hi : List Nat) :
    (((wordExtents lo hi).prod : Nat) : Int) % 2 ^ 64 =
      (List.zipWith (fun l h : Nat => (h : Int) - (l : Int)) lo hi).prod % 2 ^ 64 := by
  induction lo generalizing hi with
  | nil => simp [wordExtents]
  | cons l lo ih =>
    cases hi with
    | nil => simp [wordExtents]
    | cons h hi =>
      have := ih hi
      simp only [wordExtents, List.zipWith_cons_cons, List.prod_cons] at this ⊢
      rw [Nat.cast_mul]
      apply Int.ModEq.mul
      · rw [Int.toNat_of_nonneg (Int.emod_nonneg _ (by decide))]
        exact Int.mod_modEq _ _
      · exact this

/-- C02: `getNumberOfTerms()` is the product of `hi[i] - lo[i]` modulo 2^64, for all `lo` and `hi`. -/
theorem C02_number_of_terms_mod (self : Option MultiArrayIter) (lo hi : List Nat) (rowMajor : Bool)
    (hn : lo.length < 2 ^ 31) (it : MultiArrayIter) (hit : build self lo hi rowMajor = .ok it) :
    (it.getNumberOfTerms : Int) = (List.zipWith (fun l h : Nat => (h : Int) - (l : Int)) lo hi).prod % 2 ^ 64 := by
  obtain ⟨_, _, rfl⟩ := (build_ok_iff self lo hi rowMajor (by unfold W; omega) it).1 hit
  rw [← prod_word, ← extW_eq_word]
  show (((extW lo hi).prod % W : Nat) : Int) = _
  rw [Int.natCast_mod]; rfl

/-- C02: it is the exact volume of the box when that is below 2^64. -/
theorem C02_number_of_terms_exact (self : Option MultiArrayIter) (lo hi : List Nat) (rowMajor : Bool)
    (hax : lo ≠ []) (hn : lo.length < 2 ^ 31) (hle : List.Forall₂ (· ≤ ·) lo hi)
    (hv : volume lo hi < 2 ^ 64) :
    ∃ it, build self lo hi rowMajor = .ok it ∧ it.getNumberOfTerms = volume lo hi := by
  have hl := hle.length_eq
  have hb := build_eq self lo hi rowMajor hax (le_of_eq hl) (by unfold W; omega)
  refine ⟨_, hb, ?_⟩
  have h := C02_number_of_terms_mod self lo hi rowMajor hn _ hb
  have e : List.zipWith (fun l h : Nat => (h : Int) - (l : Int)) lo hi = (extents lo hi).map (fun n : Nat => (n : Int)) := by
    clear hax hn hv hl hb h
    induction hle with
    | nil => rfl
    | cons h _ ih =>
      simp only [extents, List.zipWith_cons_cons, List.map_cons, ih]
      congr 1
      omega
  have e2 : ((extents lo hi).map (fun n : Nat => (n : Int))).prod = ((volume lo hi : Nat) : Int) := by
    unfold volume
    induction extents lo hi with
    | nil => rfl
    | cons a l ih => rw [List.map_cons, List.prod_cons, List.prod_cons, ih, Nat.cast_mul]
  rw [e, e2, Int.emod_eq_of_lt (by omega) (by exact_mod_cast hv)] at h
  exact_mod_cast h

/-- C02: it is 0 as soon as one extent is 0. -/
theorem C02_number_of_terms_zero (self : Option MultiArrayIter) (lo hi : List Nat) (rowMajor : Bool)
    (hn : lo.length < 2 ^ 31) (it : MultiArrayIter) (hit : build self lo hi rowMajor = .ok it)
    (i : Nat) (x : Nat) (h1 : lo[i]? = some x) (h2 : hi[i]? = some x) : it.getNumberOfTerms = 0 := by
  have h := C02_number_of_terms_mod self lo hi rowMajor hn _ hit
  have hz : (0 : Int) ∈ List.zipWith (fun l h : Nat => (h : Int) - (l : Int)) lo hi := by
    apply List.mem_iff_getElem?.2
    refine ⟨i, ?_⟩
    simp [List.getElem?_zipWith, h1, h2]
  rw [List.prod_eq_zero hz] at h
  exact_mod_cast h

/-- The three parts of C02 on concrete boxes: one that overflows, one exact, one empty. -/
example : (do let it ← build none [0, 0] [2 ^ 63, 6] true; pure it.getNumberOfTerms : M Nat) = .ok 0 ∧
    (do let it ← build none [5, 0] [4, 1] true; pure it.getNumberOfTerms : M Nat) = .ok (2 ^ 64 - 1) ∧
    (do let it ← build none [1, 2] [3, 5] true; pure it.getNumberOfTerms : M Nat) = .ok 6 ∧
    (do let it ← build none [1, 2, 3] [3, 2, 9] false; pure it.getNumberOfTerms : M Nat) = .ok 0 := by
  decide +kernel

/-- C03: flat index and index tuple are mutually inverse, whatever the current position `j` of the iterator
on which `computeBigIndex` is called. -/
theorem C03_flat_tuple_inverse (self : Option MultiArrayIter) (lo hi : List Nat) (rowMajor : Bool)
    (hax : lo ≠ []) (hn : lo.length < 2 ^ 31) (hb : BoxLt lo hi) (hs : ∀ h ∈ hi, h < 2 ^ 64)
    (hv : volume lo hi < 2 ^ 64) (j : Nat) :
    ∃ it, build self lo hi rowMajor = .ok it ∧
      (∀ k, k < it.getNumberOfTerms →
        ∃ t, (it.move k).getIndices = .ok t ∧ (it.move j).computeBigIndexSz t = .ok k) ∧
      (∀ t, InBox lo hi t →
        ∃ k, k < it.getNumberOfTerms ∧ (it.move j).computeBigIndexSz t = .ok k ∧ (it.move k).getIndices = .ok t) := by
  rw [← W_eq] at hv hs
  have h1 : (builtIter lo hi rowMajor).getNumberOfTerms = volume lo hi := by rw [builtIter_eq _ hb hv]; rfl
  refine ⟨_, build_eq self lo hi rowMajor hax (le_of_eq hb.length_eq) (by unfold W; omega), ?_, ?_⟩
  · intro k hk
    rw [h1] at hk
    refine ⟨_, getIndices_built rowMajor hb hv hs k, ?_⟩
    have := computeBigIndexSz_built rowMajor hv hs (tupleAt_inBox rowMajor hb k) j
    rwa [flatOf_tupleAt rowMajor hb, Nat.mod_eq_of_lt hk] at this
  · intro t ht
    refine ⟨flatOf rowMajor lo hi t, by rw [h1]; exact flatOf_lt rowMajor ht,
      computeBigIndexSz_built rowMajor hv hs ht j, ?_⟩
    have := getIndices_built rowMajor hb hv hs (flatOf rowMajor lo hi t)
    rwa [tupleAt_flatOf rowMajor ht] at this

/-- C03, the instantiation of `computeBigIndex` with `int` indices: the same position, for boxes of at most 2^31
cells. -/
theorem C03_flat_index_int (self : Option MultiArrayIter) (lo hi : List Nat) (rowMajor : Bool)
    (hax : lo ≠ []) (hn : lo.length < 2 ^ 31) (hb : BoxLt lo hi) (hs : ∀ h ∈ hi, h < 2 ^ 31)
    (hv : volume lo hi ≤ 2 ^ 31) (j : Nat) :
    ∃ it, build self lo hi rowMajor = .ok it ∧
      ∀ t, InBox lo hi t → ∃ k : Nat, k < it.getNumberOfTerms ∧
        (it.move j).computeBigIndexInt (t.map fun n : Nat => (n : Int)) = .ok (k : Int) ∧
        (it.move k).getIndices = .ok t := by
  have hv' : volume lo hi < W := by unfold W; omega
  have hs' : ∀ h ∈ hi, h < W := fun h hh => by have := hs h hh; unfold W; omega
  have h1 : (builtIter lo hi rowMajor).getNumberOfTerms = volume lo hi := by rw [builtIter_eq _ hb hv']; rfl
  refine ⟨_, build_eq self lo hi rowMajor hax (le_of_eq hb.length_eq) (by unfold W; omega), ?_⟩
  intro t ht
  refine ⟨flatOf rowMajor lo hi t, by rw [h1]; exact flatOf_lt rowMajor ht, ?_, ?_⟩
  · rw [builtIter_eq rowMajor hb hv']
    unfold MultiArrayIter.computeBigIndexInt MultiArrayIter.move
    rw [bigIndexAcc_eq _ _ _ (by simp [hb.length_extents]) rfl (by simp [ht.length_lo])]
    have e : List.zipWith (fun (x : Int) l => szSub (szOfInt x) l) (t.map fun n : Nat => (n : Int)) lo =
        List.zipWith (fun x l => x - l) t lo := by
      rw [← zipWith_szSub hs' ht, List.zipWith_map_left]
      apply ext_of_getElem? (by simp)
      intro i hi'
      have hi2 : i < t.length ∧ i < lo.length := by simpa using hi'
      have hb2 : t[i] < W := by
        have hlen := ht.length_hi
        have : t[i] < hi[i]'(by omega) := (ht.getElem i hi2.2 (by omega) hi2.1).2
        have h3 := hs' _ (List.getElem_mem (h := (by omega : i < hi.length)))
        omega
      simp [hi2.1, hi2.2, szOfInt_ofNat hb2]
    rw [e]
    have hlt := flatOf_lt rowMajor ht
    simp only [M.ok_bind, M.pure_eq]
    have : dot (strides rowMajor (extents lo hi)) (List.zipWith (fun x l => x - l) t lo) = flatOf rowMajor lo hi t := rfl
    rw [this, Nat.mod_eq_of_lt (by omega), intOfSz_of_lt (by rw [intLim_eq]; omega)]
  · have := getIndices_built rowMajor hb hv' hs' (flatOf rowMajor lo hi t)
    rwa [tupleAt_flatOf rowMajor ht] at this

/-- C03 on a concrete box. -/
example : InBox [1, 2] [3, 5] [2, 3] ∧
    (do let it ← build none [1, 2] [3, 5] true; it.computeBigIndexSz [2, 3]) = .ok 4 ∧
    (do let it ← build none [1, 2] [3, 5] true; it.computeBigIndexInt [2, 3]) = .ok 4 ∧
    (do let it ← build none [1, 2] [3, 5] true; (it.move 4).getIndices) = .ok [2, 3] := by
  decide +kernel

/-- C04: in row-major mode the tuples increase strictly in lexicographic order with the position. -/
theorem C04_row_major_lexicographic (self : Option MultiArrayIter) (lo hi : List Nat)
    (hax : lo ≠ []) (hn : lo.length < 2 ^ 31) (hb : BoxLt lo hi) (hs : ∀ h ∈ hi, h < 2 ^ 64)
    (hv : volume lo hi < 2 ^ 64) :
    ∃ it, build self lo hi true = .ok it ∧ ∀ k l, k < l → l < it.getNumberOfTerms →
      ∃ t u, (it.move k).getIndices = .ok t ∧ (it.move l).getIndices = .ok u ∧ t < u := by
  rw [← W_eq] at hv hs
  have h1 : (builtIter lo hi true).getNumberOfTerms = volume lo hi := by rw [builtIter_eq _ hb hv]; rfl
  refine ⟨_, build_eq self lo hi true hax (le_of_eq hb.length_eq) (by unfold W; omega), ?_⟩
  intro k l hkl hl
  rw [h1] at hl
  refine ⟨_, _, getIndices_built true hb hv hs k, getIndices_built true hb hv hs l, ?_⟩
  unfold tupleAt
  have hlen : ∀ m, lo.length = (digitsOf (strides true (extents lo hi)) (extents lo hi) m).length := fun m => by
    rw [(digits_inGrid true _ hb.extents_pos m).length_eq, hb.length_extents]
  exact lex_add (hlen k) (hlen l) (digitsR_strictMono _ hb.extents_pos k l hkl hl)

/-- C04: in column-major mode the reversed tuples increase strictly in lexicographic order with the position. -/
theorem C04_column_major_colexicographic (self : Option MultiArrayIter) (lo hi : List Nat)
    (hax : lo ≠ []) (hn : lo.length < 2 ^ 31) (hb : BoxLt lo hi) (hs : ∀ h ∈ hi, h < 2 ^ 64)
    (hv : volume lo hi < 2 ^ 64) :
    ∃ it, build self lo hi false = .ok it ∧ ∀ k l, k < l → l < it.getNumberOfTerms →
      ∃ t u, (it.move k).getIndices = .ok t ∧ (it.move l).getIndices = .ok u ∧ t.reverse < u.reverse := by
  rw [← W_eq] at hv hs
  have h1 : (builtIter lo hi false).getNumberOfTerms = volume lo hi := by rw [builtIter_eq _ hb hv]; rfl
  refine ⟨_, build_eq self lo hi false hax (le_of_eq hb.length_eq) (by unfold W; omega), ?_⟩
  intro k l hkl hl
  rw [h1] at hl
  refine ⟨_, _, getIndices_built false hb hv hs k, getIndices_built false hb hv hs l, ?_⟩
  unfold tupleAt
  have hlen : ∀ m, lo.length = (digitsOf (strides false (extents lo hi)) (extents lo hi) m).length := fun m => by
    rw [(digits_inGrid false _ hb.extents_pos m).length_eq, hb.length_extents]
  rw [List.reverse_zipWith (hlen k), List.reverse_zipWith (hlen l)]
  exact lex_add (by simpa using hlen k) (by simpa using hlen l) (digitsC_strictMono _ hb.extents_pos k l hkl hl)

/-- C04 on a concrete box: positions 2 and 3 in both orderings. -/
example : (do let it ← build none [1, 2] [3, 5] true; pure ((← (it.move 2).getIndices), (← (it.move 3).getIndices)) :
      M (List Nat × List Nat)) = .ok ([1, 4], [2, 2]) ∧ [1, 4] < [2, 2] ∧
    (do let it ← build none [1, 2] [3, 5] false; pure ((← (it.move 1).getIndices), (← (it.move 2).getIndices)) :
      M (List Nat × List Nat)) = .ok ([2, 2], [1, 3]) ∧ [2, 2].reverse < [1, 3].reverse := by
  decide +kernel

theorem runOps_eq (it : MultiArrayIter) (ops : List IterOp)
    (h : ∀ pre, pre <+: ops → counter pre < W) :
    runOps { it with bigIndex := 0 } ops = { it with bigIndex := counter ops } := by
  induction ops using List.reverseRecOn with
  | nil => rfl
  | append_singleton ops op ih =>
    have ih' := ih fun pre hp => h pre (hp.trans (List.prefix_append _ _))
    have hlt := h _ (List.prefix_refl (ops ++ [op]))
    rw [show runOps { it with bigIndex := 0 } (ops ++ [op]) = runOps (runOps { it with bigIndex := 0 } ops) [op] from
      List.foldl_append .., ih']
    cases op with
    | begin =>
      rw [show counter (ops ++ [.begin]) = 0 by simp [counter]]; rfl
    | next =>
      rw [show counter (ops ++ [.next]) = counter ops + 1 by simp [counter]] at hlt ⊢
      simp only [runOps, List.foldl_cons, List.foldl_nil, MultiArrayIter.next]
      rw [szAdd_of_lt hlt]
    | move k =>
      rw [show counter (ops ++ [.move k]) = k by simp [counter]]; rfl

/-- C05: after any sequence of `begin`, `next`, `move` the tuple returned is the one at the position given by a
plain counter modulo the number of terms, and the box is unchanged. -/
theorem C05_position_is_counter_mod_terms (self : Option MultiArrayIter) (lo hi : List Nat) (rowMajor : Bool)
    (hax : lo ≠ []) (hn : lo.length < 2 ^ 31) (hb : BoxLt lo hi) (hs : ∀ h ∈ hi, h < 2 ^ 64)
    (hv : volume lo hi < 2 ^ 64) (ops : List IterOp) (hc : ∀ pre, pre <+: ops → counter pre < 2 ^ 64) :
    ∃ it t, build self lo hi rowMajor = .ok it ∧
      (runOps it ops).getIndices = .ok t ∧ (it.move (counter ops % it.getNumberOfTerms)).getIndices = .ok t ∧
      (runOps it ops).getLBegIndices = lo ∧ (runOps it ops).getEndIndices = hi ∧
      (runOps it ops).getNumberOfTerms = it.getNumberOfTerms := by
  rw [← W_eq] at hv hs hc
  have h1 : (builtIter lo hi rowMajor).getNumberOfTerms = volume lo hi := by rw [builtIter_eq _ hb hv]; rfl
  have h2 := runOps_eq (builtIter lo hi rowMajor) ops hc
  have h3 : ({ builtIter lo hi rowMajor with bigIndex := 0 } : MultiArrayIter) = builtIter lo hi rowMajor := rfl
  rw [h3] at h2
  refine ⟨_, tupleAt rowMajor lo hi (counter ops),
    build_eq self lo hi rowMajor hax (le_of_eq hb.length_eq) (by unfold W; omega), ?_, ?_, ?_, ?_, ?_⟩
  · rw [h2]; exact getIndices_built rowMajor hb hv hs _
  · rw [h1]
    have := getIndices_built rowMajor hb hv hs (counter ops % volume lo hi)
    rwa [tupleAt_mod rowMajor hb] at this
  · rw [h2]; rfl
  · rw [h2]; rfl
  · rw [h2]; rfl

/-- C05 on a concrete history that runs past the end of a 2 x 3 box: counter 8, position 8 mod 6 = 2. -/
example : counter [.next, .begin, .move 6, .next, .next] = 8 ∧
    (do let it ← build none [1, 2] [3, 5] true
        (runOps it [.next, .begin, .move 6, .next, .next]).getIndices) = .ok [1, 4] ∧
    (do let it ← build none [1, 2] [3, 5] true; (it.move 2).getIndices) = .ok [1, 4] := by
  decide +kernel

/-- C06: `build` is undefined exactly when there is no axis or `hi` is shorter than `lo`. -/
theorem C06_build_undefined_iff (self : Option MultiArrayIter) (lo hi : List Nat) (rowMajor : Bool)
    (hn : lo.length < 2 ^ 31) :
    (∃ e, build self lo hi rowMajor = .error e) ↔ lo = [] ∨ hi.length < lo.length := by
  constructor
  · rintro ⟨e, he⟩
    by_contra hcon
    rw [not_or] at hcon
    rw [build_eq self lo hi rowMajor hcon.1 (by omega) (by unfold W; omega)] at he
    cases he
  · rintro (rfl | h)
    · exact ⟨_, build_nil self hi rowMajor⟩
    · exact ⟨_, build_short self lo hi rowMajor h⟩

/-- C06: `getIndices` on a built iterator, at any position, is defined exactly when all the divisors (extents and
strides, modulo 2^64) are non-zero. -/
theorem C06_getIndices_defined_iff (self : Option MultiArrayIter) (lo hi : List Nat) (rowMajor : Bool)
    (hn : lo.length < 2 ^ 31) (it : MultiArrayIter) (hit : build self lo hi rowMajor = .ok it) (k : Nat) :
    (∃ t, (it.move k).getIndices = .ok t) ↔
      ∀ i, i < lo.length → (wordExtents lo hi)[i]? ≠ some 0 ∧
        axisStride rowMajor (wordExtents lo hi) i % 2 ^ 64 ≠ 0 := by
  obtain ⟨h0, hl, rfl⟩ := (build_ok_iff self lo hi rowMajor (by unfold W; omega) it).1 hit
  have hlen := length_extW hl
  rw [← extW_eq_word]
  have hlen2 : (strW rowMajor (extW lo hi)).length = lo.length := by rw [length_strW, hlen]
  have hst : ∀ i (h : i < lo.length), (strW rowMajor (extW lo hi))[i]'(by omega) =
      axisStride rowMajor (extW lo hi) i % 2 ^ 64 := by
    intro i h
    have := strW_getElem? rowMajor (extW lo hi) i (by omega)
    rw [List.getElem?_eq_getElem (by omega)] at this
    injection this
  constructor
  · rintro ⟨t, ht⟩ i hil
    obtain ⟨a, b⟩ := getIndices_ok_pos ((builtIter lo hi rowMajor).move k) hlen hlen2 t ht
    constructor
    · intro h
      have := a 0 (List.mem_of_getElem? h)
      omega
    · rw [← hst i hil]
      have := b _ (List.getElem_mem (h := (by omega : i < (strW rowMajor (extW lo hi)).length)))
      omega
  · intro h
    refine ⟨_, getIndices_eq ((builtIter lo hi rowMajor).move k) hlen hlen2 rfl ?_ ?_⟩
    · intro d hd
      obtain ⟨i, hil, rfl⟩ := List.mem_iff_getElem.1 hd
      have hi' : i < (extW lo hi).length := hil
      have := (h i (by omega)).1
      rw [List.getElem?_eq_getElem hi'] at this
      exact Nat.pos_of_ne_zero fun h => this (congrArg some h)
    · intro d hd
      obtain ⟨i, hil, rfl⟩ := List.mem_iff_getElem.1 hd
      have hi' : i < (strW rowMajor (extW lo hi)).length := hil
      have := (h i (by omega)).2
      rw [← hst i (by omega)] at this
      exact Nat.pos_of_ne_zero this

/-- C06: in particular `getIndices` is undefined on an empty box, at every position. -/
theorem C06_getIndices_empty_box (self : Option MultiArrayIter) (lo hi : List Nat) (rowMajor : Bool)
    (hn : lo.length < 2 ^ 31) (it : MultiArrayIter) (hit : build self lo hi rowMajor = .ok it) (k : Nat)
    (i x : Nat) (h1 : lo[i]? = some x) (h2 : hi[i]? = some x) :
    ∃ e, (it.move k).getIndices = .error e := by
  cases h : (it.move k).getIndices with
  | error e => exact ⟨e, rfl⟩
  | ok t =>
    have hil : i < lo.length := by
      by_contra hc
      rw [List.getElem?_eq_none (by omega)] at h1; cases h1
    have := ((C06_getIndices_defined_iff self lo hi rowMajor hn it hit k).1 ⟨t, h⟩ i hil).1
    exfalso; apply this
    simp [wordExtents, List.getElem?_zipWith, h1, h2]

/-- C06 on concrete inputs: no axis, short `hi`, an empty box, and a box whose first stride overflows to 0. -/
example : build none [] [4] true = .error .outOfBounds ∧ build none [0, 0] [4] false = .error .outOfBounds ∧
    (do let it ← build none [1, 2] [3, 2] true; it.getIndices) = .error .divByZero ∧
    (do let it ← build none [0, 0, 0] [1, 2 ^ 32, 2 ^ 32] true; it.getIndices) = .error .divByZero := by
  decide +kernel

end Fidi
