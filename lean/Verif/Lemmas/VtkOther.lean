import Verif.Model.VtkOther
import Verif.Lemmas.Vtk
import Verif.Lemmas.UpwindFortran
import Verif.Lemmas.UpwindJulia
import Mathlib.Data.Nat.Digits.Defs

/-
Lemmas about the VTK writers of the Fortran, Python and Julia versions.
-/
namespace Fidi
open Spec

/-! ### The reader -/

/-- The words of a rectilinear file. -/
def rectWords (a b c : Nat) (xs ys zs : List Str) (n : Nat) (vals : List Str) : List Str :=
  "DATASET".toList :: "RECTILINEAR_GRID".toList :: "DIMENSIONS".toList :: showSz a :: showSz b :: showSz c ::
  "X_COORDINATES".toList :: showSz xs.length :: "double".toList :: (xs ++
  ("Y_COORDINATES".toList :: showSz ys.length :: "double".toList :: (ys ++
  ("Z_COORDINATES".toList :: showSz zs.length :: "double".toList :: (zs ++
  ("CELL_DATA".toList :: showSz n :: "SCALARS".toList :: "f".toList :: "double".toList :: "1".toList ::
    "LOOKUP_TABLE".toList :: "default".toList :: vals))))))

theorem floatType_of {ty : Str} (h : ty = "float".toList ∨ ty = "double".toList) (ws : List Str) :
    floatType (ty :: ws) = some ws := if_pos h

theorem floatType_double (ws : List Str) : floatType ("double".toList :: ws) = some ws := floatType_of (Or.inr rfl) ws

theorem coordinates_of (axis : String) (n : Nat) (xs ws : List Str) :
    coordinates axis n (axis.toList :: showSz xs.length :: "double".toList :: (xs ++ ws)) =
      if xs.length = n then some (xs, ws) else none := by
  unfold coordinates
  simp only [expect_lit, number_showSz, Option.bind_eq_bind, Option.bind_some]
  by_cases h : xs.length = n
  · rw [if_neg (by simpa using h), if_pos h]
    rw [floatType_double, Option.bind_some, nextWords_append _ _ h]
  · rw [if_pos h, if_neg h]; rfl

theorem nextWords_one (w : Str) (ws : List Str) : nextWords 1 (w :: ws) = some ([w], ws) := nextWords_append [w] ws rfl

theorem dimensions_of (a b c : Nat) (ws : List Str) :
    dimensions ("DIMENSIONS".toList :: showSz a :: showSz b :: showSz c :: ws) = some ((a, b, c), ws) := by
  unfold dimensions
  simp only [expect_lit, number_showSz, Option.bind_eq_bind, Option.bind_some]
  rfl

variable {text : Str} {a b c n : Nat} {xs ys zs vals : List Str}

theorem scalars_len (cells n : Nat) (vals : List Str) :
    scalars cells ("CELL_DATA".toList :: showSz n :: "SCALARS".toList :: "f".toList :: "double".toList :: "1".toList ::
      "LOOKUP_TABLE".toList :: "default".toList :: vals) =
      if n = cells ∧ vals.length = n then some ("f".toList, vals) else none := by
  by_cases hv : vals.length = n
  · have := scalars_of cells n "f".toList "double".toList (Or.inr rfl) ["1".toList] vals (Or.inr rfl) hv
    simp only [List.cons_append, List.nil_append] at this
    rw [this]
    by_cases h : n = cells
    · rw [if_pos h, if_pos ⟨h, hv⟩]
    · rw [if_neg h, if_neg fun h' => h h'.1]
  · rw [if_neg fun h' => hv h'.2]
    unfold scalars
    simp only [expect_lit, number_showSz, Option.bind_eq_bind, Option.bind_some]
    by_cases h : n = cells
    · rw [if_neg (by simpa using h)]
      simp only [nextWords_one, Option.bind_some, floatType_double, expect_lit, Option.getD_some]
      rw [if_pos hv]; rfl
    · rw [if_pos h]; rfl

theorem readRect_words (hh : header text = some (rectWords a b c xs ys zs n vals)) :
    readRect text = if xs.length = a ∧ ys.length = b ∧ zs.length = c ∧ n = cellsOf a * cellsOf b * cellsOf c ∧
        vals.length = n then some { x := xs, y := ys, z := zs, name := "f".toList, values := vals } else none := by
  unfold readRect rectWords at *
  rw [hh]
  simp only [Option.bind_eq_bind, Option.bind_some, expect_lit, dimensions_of, coordinates_of]
  by_cases h1 : xs.length = a
  · rw [if_pos h1, Option.bind_some]
    simp only [coordinates_of]
    by_cases h2 : ys.length = b
    · rw [if_pos h2, Option.bind_some]
      simp only [coordinates_of]
      by_cases h3 : zs.length = c
      · rw [if_pos h3, Option.bind_some]
        simp only [scalars_len]
        by_cases h4 : n = cellsOf a * cellsOf b * cellsOf c ∧ vals.length = n
        · rw [if_pos h4, Option.bind_some, if_pos ⟨h1, h2, h3, h4⟩]; rfl
        · rw [if_neg h4, if_neg fun h => h4 h.2.2.2]; rfl
      · rw [if_neg h3, if_neg fun h => h3 h.2.2.1]; rfl
    · rw [if_neg h2, if_neg fun h => h2 h.2.1]; rfl
  · rw [if_neg h1, if_neg fun h => h1 h.1]; rfl

theorem readRectHead_words (hh : header text = some (rectWords xs.length ys.length zs.length xs ys zs n vals))
    (hn : n = cellsOf xs.length * cellsOf ys.length * cellsOf zs.length) :
    readRectHead text = some { x := xs, y := ys, z := zs, name := "f".toList, values := vals } := by
  unfold readRectHead rectWords at *
  rw [hh]
  simp only [Option.bind_eq_bind, Option.bind_some, expect_lit, dimensions_of, coordinates_of, if_true, number_showSz, hn,
    ne_eq, not_true_eq_false, if_false, Option.pure_def, floatType_double, nextWords_one, Option.getD_some]
  simp

/-! ### Words -/

theorem length_pieces : ∀ s : Str, (pieces s).length = s.countP isBlank + 1
  | [] => rfl
  | c :: s => by
    have ih := length_pieces s
    unfold pieces
    split
    · next h => rw [List.length_cons, ih, List.countP_cons_of_pos h]
    · next h =>
      rw [List.countP_cons_of_neg h, ← ih]
      cases e : pieces s with
      | nil => exact absurd e (pieces_ne_nil s)
      | cons w ws => rfl

theorem length_words_le (s : Str) : (words s).length ≤ s.countP isBlank + 1 := by
  rw [← length_pieces]
  exact List.length_filter_le _ _

theorem flatten_pieces : ∀ s : Str, (pieces s).flatten = s.filter fun c => !isBlank c
  | [] => rfl
  | c :: s => by
    have ih := flatten_pieces s
    unfold pieces
    split
    · next h => rw [List.flatten_cons, ih, List.filter_cons_of_neg (by simp [h])]; rfl
    · next h =>
      rw [List.filter_cons_of_pos (by simpa using h), ← ih]
      cases e : pieces s with
      | nil => exact absurd e (pieces_ne_nil s)
      | cons w ws => rfl

theorem flatten_words (s : Str) : (words s).flatten = s.filter fun c => !isBlank c := by
  rw [← flatten_pieces]
  unfold words
  induction pieces s with
  | nil => rfl
  | cons w ws ih =>
    cases w with
    | nil => simpa using ih
    | cons c w => simpa using ih

/-! ### Fields of Fortran formats -/

namespace Fortran

theorem words_blanks (k : Nat) (s : Str) : words (List.replicate k ' ' ++ s) = words s := by
  induction k with
  | zero => rfl
  | succ k ih => rw [List.replicate_succ, List.cons_append, words_blank (by decide), ih]

theorem words_inField {w : Nat} {s : Str} (h : IsWord s) (hl : s.length ≤ w) {c : Char} (hc : isBlank c = true) (t : Str) :
    words (inField w s ++ c :: t) = s :: words t := by
  unfold inField
  rw [if_pos hl, List.append_assoc, words_blanks, words_word_blank h hc]

theorem words_before_field {w : Nat} {s : Str} (hl : s.length < w) (x t : Str) :
    words (x ++ (inField w s ++ t)) = words x ++ words (inField w s ++ t) := by
  obtain ⟨k, hk⟩ : ∃ k, w - s.length = k + 1 := ⟨w - s.length - 1, by omega⟩
  unfold inField
  rw [if_pos (by omega), hk, List.replicate_succ, List.cons_append, List.cons_append, words_append_blank _ (by decide)]

theorem words_fields {w w' : Nat} {s s' : Str} (h : IsWord s) (hl : s.length ≤ w) (hl' : s'.length < w') (t : Str) :
    words (inField w s ++ (inField w' s' ++ t)) = s :: words (inField w' s' ++ t) := by
  rw [words_before_field hl']
  have e : words (inField w s) = [s] := by
    unfold inField
    rw [if_pos hl, words_blanks, words_word h]
  rw [e]; rfl

theorem showInt_nat (n : Nat) : showInt (n : Int) = showSz n := by
  unfold showInt
  rw [if_neg (by omega), Int.natAbs_natCast]
  rfl

theorem length_showSz {n : Nat} (h : n < 1000000000) : (showSz n).length < 10 := by
  have := Nat.toDigits_length 10 n 9 (by decide) (by norm_num; exact h)
  unfold showSz
  omega

theorem length_showSz20 {n : Nat} (h : n < 2147483648) : (showSz n).length ≤ 20 := by
  have := Nat.toDigits_length 10 n 20 (by decide) (by norm_num; omega)
  unfold showSz
  omega

theorem words_recE {R : Type} [DoubleText R] (hw : ∀ x : R, IsWord (DoubleText.showDouble x))
    (hl : ∀ x : R, (DoubleText.showDouble x).length ≤ 20) (x : R) (t : Str) :
    words (recE x ++ t) = [DoubleText.showDouble x] ++ words t := by
  unfold recE
  rw [List.append_assoc, List.singleton_append, words_inField (hw x) (hl x) (by decide)]
  rfl

theorem doUp_text (n : Nat) (hn : n + 1 < 2 ^ 31) (t0 : Str) (p : Nat → Str) (f : Nat → Str → M Str)
    (hf : ∀ i t, i < n → f (i + 1) t = .ok (t ++ p i)) : doUp n t0 f = .ok (t0 ++ (List.range n).flatMap p) := by
  obtain ⟨s, e, rfl⟩ := forUp_inv (show 1 ≤ n + 1 by omega) (fun i s => s = t0 ++ (List.range (i - 1)).flatMap p) f t0 (by simp)
    (by
      rintro i s h1 hi rfl
      obtain ⟨i, rfl⟩ := Nat.exists_eq_add_of_le' h1
      refine ⟨_, hf i _ (by omega), ?_⟩
      simp only [Nat.add_sub_cancel]
      rw [List.range_succ, List.flatMap_append, List.append_assoc]; simp)
  unfold doUp
  rw [e, M.ok_bind, endsPast_of hn]
  simp

end Fortran

/-! ### Fortran -/

namespace FUpwind
open Fortran
variable {R : Type} [Zero R] [Add R] [Mul R] [NatCast R] [IntCast R] [DoubleText R] {s : FUpwind R} {N : List Nat}

omit [Zero R] [Add R] [Mul R] [NatCast R] [IntCast R] [DoubleText R] in
theorem nodes_eq (hN : s.numCells = ints N) (hax : ∀ n ∈ N, n + 1 < 1000000000) {j : Nat} (hj : j < N.length) :
    s.nodes (j + 1) = .ok ((nodesOf N j : Nat) : Int) := by
  unfold nodes nodesOf
  have h : j < (ints N).length := by simpa [ints] using hj
  have := hax _ (List.getElem_mem hj)
  rw [hN, rd1_of_lt h, M.ok_bind, if_pos hj, List.getD_eq_getElem _ _ hj]
  have e : (ints N)[j] + 1 = ((N[j] + 1 : Nat) : Int) := by simp [ints]
  rw [e, mkInt_nat (by omega)]

theorem nodesOf_lt (hax : ∀ n ∈ N, n + 1 < 1000000000) (j : Nat) : nodesOf N j < 1000000000 := by
  unfold nodesOf
  split
  · next h => rw [List.getD_eq_getElem _ _ h]; exact hax _ (List.getElem_mem h)
  · decide

theorem words_nodes (hax : ∀ n ∈ N, n + 1 < 1000000000) (j : Nat) {c : Char} (hc : isBlank c = true) (t : Str) :
    words (fmtI 10 ((nodesOf N j : Nat) : Int) ++ c :: t) = showSz (nodesOf N j) :: words t := by
  unfold fmtI
  rw [showInt_nat, words_inField (isWord_showSz _) (length_showSz (nodesOf_lt hax j)).le hc]

theorem words_nodes2 (hax : ∀ n ∈ N, n + 1 < 1000000000) (i j : Nat) (t : Str) :
    words (fmtI 10 ((nodesOf N i : Nat) : Int) ++ (fmtI 10 ((nodesOf N j : Nat) : Int) ++ t)) =
      showSz (nodesOf N i) :: words (fmtI 10 ((nodesOf N j : Nat) : Int) ++ t) := by
  unfold fmtI
  rw [showInt_nat, showInt_nat, words_fields (isWord_showSz _) (length_showSz (nodesOf_lt hax i)).le
    (length_showSz (nodesOf_lt hax j))]

theorem words_before_nodes (hax : ∀ n ∈ N, n + 1 < 1000000000) (j : Nat) (x t : Str) :
    words (x ++ (fmtI 10 ((nodesOf N j : Nat) : Int) ++ t)) = words x ++ words (fmtI 10 ((nodesOf N j : Nat) : Int) ++ t) := by
  unfold fmtI
  rw [showInt_nat, words_before_field (length_showSz (nodesOf_lt hax j))]

omit [Zero R] [Add R] [Mul R] [NatCast R] [IntCast R] [DoubleText R] in
theorem vtkDims_words (h0 : 0 < N.length) (hn : s.ndims = N.length) (hN : s.numCells = ints N)
    (hax : ∀ n ∈ N, n + 1 < 1000000000) :
    ∃ text, s.vtkDims = .ok text ∧ ∀ t, words (text ++ t) =
      "DIMENSIONS".toList :: showSz (nodesOf N 2) :: showSz (nodesOf N 1) :: showSz (nodesOf N 0) :: words t := by
  unfold vtkDims
  rw [hn]
  by_cases h2 : 2 < N.length
  · rw [if_pos h2, nodes_eq hN hax h2, nodes_eq hN hax (j := 1) (by omega), nodes_eq hN hax h0]
    refine ⟨_, rfl, fun t => ?_⟩
    simp only [List.append_assoc]
    rw [words_before_nodes hax, words_nodes2 hax, words_nodes2 hax, List.singleton_append, words_nodes hax _ (by decide),
      show words "DIMENSIONS ".toList = ["DIMENSIONS".toList] by decide +kernel]
    rfl
  · rw [if_neg h2]
    have e2 : showSz (nodesOf N 2) = "1".toList := by unfold nodesOf; rw [if_neg h2]; decide +kernel
    by_cases h1 : 1 < N.length
    · rw [if_pos h1, nodes_eq hN hax h1, nodes_eq hN hax h0]
      refine ⟨_, rfl, fun t => ?_⟩
      simp only [List.append_assoc]
      rw [words_before_nodes hax, words_nodes2 hax, List.singleton_append, words_nodes hax _ (by decide),
        show words "DIMENSIONS 1".toList = ["DIMENSIONS".toList, "1".toList] by decide +kernel, e2]
      rfl
    · have e1 : showSz (nodesOf N 1) = "1".toList := by unfold nodesOf; rw [if_neg h1]; decide +kernel
      rw [if_neg h1, nodes_eq hN hax h0]
      refine ⟨_, rfl, fun t => ?_⟩
      simp only [List.append_assoc]
      rw [words_before_nodes hax, List.singleton_append, words_nodes hax _ (by decide),
        show words "DIMENSIONS 1 1".toList = ["DIMENSIONS".toList, "1".toList, "1".toList] by decide +kernel, e2, e1]
      rfl

theorem vtkCoordLoop_words (hcast : ∀ n : Nat, ((n : Int) : R) = (n : R)) (hd : s.deltas.length = N.length)
    (hN : s.numCells = ints N) (hax : ∀ n ∈ N, n + 1 < 1000000000)
    (hw : ∀ x : R, IsWord (DoubleText.showDouble x)) (hl : ∀ x : R, (DoubleText.showDouble x).length ≤ 20)
    (name : Str) {j : Nat} (hj : j < N.length) :
    ∃ text, s.vtkCoordLoop name (j + 1) = .ok text ∧ ∀ t, words (text ++ t) =
      words name ++ showSz (nodesOf N j) :: "double".toList :: (coordTexts N s.deltas j ++ words t) := by
  have hlt := nodesOf_lt hax j
  unfold vtkCoordLoop
  rw [nodes_eq hN hax hj, M.ok_bind]
  refine ⟨_, doUp_text _ (by rw [Int.toNat_natCast]; omega) _
    (fun i => recE (0 + s.deltas.getD j 0 * (i : R))) _ ?_, fun t => ?_⟩
  · intro i t hi
    rw [Int.toNat_natCast] at hi
    rw [rd1_of_lt (by omega), M.ok_bind, List.getD_eq_getElem _ _ (by omega),
      show ((i + 1 : Nat) : Int) - 1 = (i : Int) by omega, mkInt_nat (by omega), M.ok_bind, hcast]
    rfl
  · simp only [List.append_assoc]
    rw [words_before_nodes hax, show " double".toList = ' ' :: "double".toList by decide +kernel, List.cons_append,
      words_nodes hax _ (by decide), List.singleton_append (x := '\n'),
      words_append _ (by decide), show words "double".toList = ["double".toList] by decide +kernel,
      words_flatMap _ _ (fun i t => words_recE hw hl _ t)]
    rw [Int.toNat_natCast, ← List.map_eq_flatMap]
    have : coordTexts N s.deltas j = (List.range (nodesOf N j)).map
        fun i : Nat => DoubleText.showDouble (0 + s.deltas.getD j 0 * (i : R)) := by
      unfold coordTexts nodesOf
      rw [if_pos hj, if_pos hj]
    rw [this]
    rfl

theorem vtkCoords_words (hcast : ∀ n : Nat, ((n : Int) : R) = (n : R)) (hn : s.ndims = N.length)
    (hd : s.deltas.length = N.length)
    (hN : s.numCells = ints N) (hax : ∀ n ∈ N, n + 1 < 1000000000)
    (hw : ∀ x : R, IsWord (DoubleText.showDouble x)) (hl : ∀ x : R, (DoubleText.showDouble x).length ≤ 20)
    (name : Str) (hname : (name.getLast?.map isBlank) = some true) (j : Nat) :
    ∃ text, s.vtkCoords name (j + 1) = .ok text ∧ ∀ t, words (text ++ t) =
      words name ++ showSz (nodesOf N j) :: "double".toList :: (coordTexts N s.deltas j ++ words t) := by
  unfold vtkCoords
  rw [hn, Nat.add_sub_cancel]
  by_cases h : j < N.length
  · rw [if_pos h]
    exact vtkCoordLoop_words hcast hd hN hax hw hl name h
  · rw [if_neg h]
    refine ⟨_, rfl, fun t => ?_⟩
    unfold coordTexts nodesOf
    rw [if_neg h, if_neg h, List.append_assoc, List.append_assoc, words_ends (ends_of hname),
      words_lit (ws := [showSz 1, "double".toList]) (by decide +kernel) (by decide +kernel),
      words_lit (ws := ["0.0".toList]) (by decide +kernel) (by decide +kernel)]
    rfl

omit [Add R] [Mul R] [NatCast R] [IntCast R] in
theorem vtkValues_words (hcells : N.prod + 1 < 2147483648) (hnt : s.ntot = N.prod) (hf : s.f.length = N.prod)
    (hw : ∀ x : R, IsWord (DoubleText.showDouble x)) (hl : ∀ x : R, (DoubleText.showDouble x).length ≤ 20) :
    ∃ text, s.vtkValues = .ok text ∧ words text = s.f.map DoubleText.showDouble := by
  unfold vtkValues
  rw [hnt, Int.toNat_natCast]
  refine ⟨_, doUp_text _ (by omega) _ (fun i => recE (s.f.getD i 0)) _ ?_, ?_⟩
  · intro i t hi
    rw [rd1_of_lt (by omega), M.ok_bind, List.getD_eq_getElem _ _ (by omega)]
    rfl
  · rw [List.nil_append, ← List.append_nil (List.flatMap _ _), words_flatMap _ _ (fun i t => words_recE hw hl _ t), words_nil,
      List.append_nil, ← List.map_eq_flatMap]
    apply List.ext_getElem
    · simp [hf]
    · intro i h1 h2
      simp at h1 h2
      simp [h2]

/-- The words of the file. -/
theorem saveVTK_words (hcast : ∀ n : Nat, ((n : Int) : R) = (n : R)) (h0 : 0 < N.length) (hn : s.ndims = N.length)
    (hd : s.deltas.length = N.length) (hN : s.numCells = ints N) (hax : ∀ n ∈ N, n + 1 < 1000000000)
    (hcells : N.prod + 1 < 2147483648) (hnt : s.ntot = N.prod) (hf : s.f.length = N.prod)
    (hw : ∀ x : R, IsWord (DoubleText.showDouble x)) (hl : ∀ x : R, (DoubleText.showDouble x).length ≤ 20) :
    ∃ text, s.saveVTK = .ok text ∧ header text = some (rectWords (nodesOf N 2) (nodesOf N 1) (nodesOf N 0)
      (coordTexts N s.deltas 0) (coordTexts N s.deltas 1) (coordTexts N s.deltas 2) N.prod
      (s.f.map DoubleText.showDouble)) := by
  obtain ⟨td, ed, hd'⟩ := vtkDims_words h0 hn hN hax
  obtain ⟨tx, ex, hx⟩ := vtkCoordLoop_words hcast hd hN hax hw hl "X_COORDINATES ".toList h0
  obtain ⟨ty, ey, hy⟩ := vtkCoords_words hcast hn hd hN hax hw hl "Y_COORDINATES ".toList (by decide +kernel) 1
  obtain ⟨tz, ez, hz⟩ := vtkCoords_words hcast hn hd hN hax hw hl "Z_COORDINATES ".toList (by decide +kernel) 2
  obtain ⟨tv, ev, hv⟩ := vtkValues_words hcells hnt hf hw hl
  unfold saveVTK
  rw [ed, ex, ey, ez, ev]
  refine ⟨_, rfl, ?_⟩
  rw [hnt]
  simp only [List.append_assoc]
  rw [show "upwind.f90\n".toList = "upwind.f90".toList ++ ['\n'] by decide +kernel, List.append_assoc, List.singleton_append,
    header_of _ (by decide +kernel)]
  congr 1
  unfold rectWords
  rw [words_lit (ws := ["DATASET".toList, "RECTILINEAR_GRID".toList]) (by decide +kernel) (by decide +kernel),
    hd', hx, List.singleton_append, words_blank (by decide), hy, List.singleton_append, words_blank (by decide), hz,
    words_lit (ws := ["CELL_DATA".toList]) (by decide +kernel) (by decide +kernel)]
  unfold fmtI
  rw [showInt_nat, List.singleton_append (x := '\n'), words_inField (isWord_showSz _) (length_showSz20 (by omega)) (by decide),
    words_lit (ws := ["SCALARS".toList, "f".toList, "double".toList, "1".toList]) (by decide +kernel) (by decide +kernel),
    words_lit (ws := ["LOOKUP_TABLE".toList, "default".toList]) (by decide +kernel) (by decide +kernel), hv,
    show words "X_COORDINATES ".toList = ["X_COORDINATES".toList] by decide +kernel,
    show words "Y_COORDINATES ".toList = ["Y_COORDINATES".toList] by decide +kernel,
    show words "Z_COORDINATES ".toList = ["Z_COORDINATES".toList] by decide +kernel,
    length_coordTexts, length_coordTexts, length_coordTexts]
  simp only [List.cons_append, List.nil_append]

end FUpwind

/-! ### Python -/

namespace PyVtk
variable {R : Type} [Zero R] [Add R] [Mul R] [NatCast R] [DoubleText R] {N : List Nat}

theorem dim_eq (j : Nat) : dim (ints N) j = .ok (' ' :: showSz (nodesOf N j)) := by
  unfold dim nodesOf
  have hl : (ints N).length = N.length := by simp [ints]
  rw [hl]
  split
  · next h =>
    rw [rd_of_lt (by omega), M.ok_bind, List.getD_eq_getElem _ _ h]
    have e : (ints N)[j]'(by omega) + 1 = ((N[j] + 1 : Nat) : Int) := by simp [ints]
    rw [e, Fortran.showInt_nat]; rfl
  · rfl

theorem coordLoop_words (deltas : List R) (hw : ∀ x : R, IsWord (DoubleText.showDouble x)) {j : Nat} (hj : j < N.length)
    (axis : List R) (ha : axis = (List.range (N.getD j 0 + 1)).map fun i : Nat => 0 + deltas.getD j 0 * (i : R)) :
    ∃ text, coordLoop (ints N) axis j = .ok text ∧ ∀ t, words (text ++ '\n' :: t) =
      showSz (nodesOf N j) :: "double".toList :: (coordTexts N deltas j ++ words t) := by
  have hl : (ints N).length = N.length := by simp [ints]
  have e : (ints N)[j]'(by omega) + 1 = ((N.getD j 0 + 1 : Nat) : Int) := by
    rw [List.getD_eq_getElem _ _ hj]; simp [ints]
  unfold coordLoop
  rw [rd_of_lt (by omega), M.ok_bind, e]
  refine ⟨_, forUp_text _ _ (fun i => ' ' :: DoubleText.showDouble (0 + deltas.getD j 0 * (i : R))) _ ?_, fun t => ?_⟩
  · intro i t hi
    rw [Int.toNat_natCast] at hi
    subst ha
    rw [rd_of_lt (by simpa using hi), M.ok_bind]
    simp
  · unfold nodesOf coordTexts
    rw [if_pos hj, if_pos hj, List.append_assoc, List.append_assoc, Fortran.showInt_nat,
      show " double".toList = ' ' :: "double".toList by decide +kernel, List.cons_append,
      words_word_blank (isWord_showSz _) (by decide), Int.toNat_natCast]
    have : ∀ n, words ("double".toList ++ ((List.range (n + 1)).flatMap (fun i : Nat =>
        ' ' :: DoubleText.showDouble (0 + deltas.getD j 0 * (i : R))) ++ '\n' :: t)) =
        "double".toList :: words ((List.range (n + 1)).flatMap (fun i : Nat =>
        ' ' :: DoubleText.showDouble (0 + deltas.getD j 0 * (i : R))) ++ '\n' :: t) := by
      intro n
      rw [List.range_succ_eq_map, List.flatMap_cons, List.append_assoc, List.cons_append, words_append_blank _ (by decide),
        show words "double".toList = ["double".toList] by decide +kernel]
      rfl
    rw [this, words_spaced _ (fun i => hw _) _ (by decide)]

theorem coords_words (deltas : List R) (hw : ∀ x : R, IsWord (DoubleText.showDouble x)) (j : Nat)
    (axis : List R) (ha : j < N.length → axis = (List.range (N.getD j 0 + 1)).map fun i : Nat => 0 + deltas.getD j 0 * (i : R)) :
    ∃ text, coords (ints N) axis j = .ok text ∧ ∀ t, words (text ++ '\n' :: t) =
      showSz (nodesOf N j) :: "double".toList :: (coordTexts N deltas j ++ words t) := by
  have hl : (ints N).length = N.length := by simp [ints]
  unfold coords
  rw [hl]
  by_cases h : j < N.length
  · rw [if_pos h]
    exact coordLoop_words deltas hw h axis (ha h)
  · rw [if_neg h]
    refine ⟨_, rfl, fun t => ?_⟩
    unfold coordTexts nodesOf
    rw [if_neg h, if_neg h, words_append _ (by decide),
      show words "1 double 0.0".toList = [showSz 1, "double".toList, "0.0".toList] by decide +kernel]
    rfl

omit [Add R] [Mul R] [NatCast R] in
/-- The text of the values: without the line feeds it is the texts one after the other; there are too few words. -/
theorem values_text (flat : List R) (hw : ∀ x : R, IsWord (DoubleText.showDouble x)) :
    ∃ text, values flat = .ok text ∧ (words text).flatten = flat.flatMap DoubleText.showDouble ∧
      (words text).length ≤ flat.length / 10 + 1 := by
  refine ⟨_, forUp_text flat.length [] (fun i => DoubleText.showDouble (flat.getD i 0) ++
    (if (i + 1) % 10 = 0 then ['\n'] else [])) _ ?_, ?_, ?_⟩
  · intro i t hi
    rw [rd_of_lt hi, M.ok_bind, List.getD_eq_getElem _ _ hi]
    split
    · rw [M.pure_eq, List.append_assoc]
    · rw [M.pure_eq, List.append_nil]
  · rw [List.nil_append, flatten_words]
    have h1 : ∀ n, ((List.range n).flatMap (fun i => DoubleText.showDouble (flat.getD i 0) ++
        (if (i + 1) % 10 = 0 then ['\n'] else []))).filter (fun c => !isBlank c) =
        (List.range n).flatMap fun i => DoubleText.showDouble (flat.getD i 0) := by
      intro n
      induction n with
      | zero => rfl
      | succ n ih =>
        rw [List.range_succ, List.flatMap_append, List.filter_append, ih, List.flatMap_append]
        congr 1
        rw [List.flatMap_singleton, List.flatMap_singleton, List.filter_append]
        have e : (if (n + 1) % 10 = 0 then ['\n'] else []).filter (fun c => !isBlank c) = [] := by
          split <;> decide
        rw [e, List.append_nil, List.filter_eq_self]
        intro c hc
        simp [(hw _).2 c hc]
    rw [h1]
    have : flat = (List.range flat.length).map fun i => flat.getD i 0 := by
      apply List.ext_getElem
      · simp
      · intro i h1 h2
        simp [h1]
    conv_rhs => rw [this, List.flatMap_map]
  · refine (length_words_le _).trans (Nat.add_le_add_right (le_of_eq ?_) 1)
    rw [List.nil_append]
    have h1 : ∀ n, ((List.range n).flatMap (fun i => DoubleText.showDouble (flat.getD i 0) ++
        (if (i + 1) % 10 = 0 then ['\n'] else []))).countP isBlank = n / 10 := by
      intro n
      induction n with
      | zero => rfl
      | succ n ih =>
        rw [List.range_succ, List.flatMap_append, List.countP_append, ih, List.flatMap_singleton, List.countP_append]
        have e0 : (DoubleText.showDouble (flat.getD n 0)).countP isBlank = 0 :=
          List.countP_eq_zero.2 fun c hc => by simp [(hw _).2 c hc]
        rw [e0]
        by_cases h : (n + 1) % 10 = 0
        · rw [if_pos h, show ['\n'].countP isBlank = 1 by decide]; omega
        · rw [if_neg h, List.countP_nil]; omega
    exact h1 _

end PyVtk

namespace PyUpwind
variable {R : Type} [Zero R] [Add R] [Mul R] [NatCast R] [IntCast R] [DoubleText R] {s : PyUpwind R} {N : List Nat}

omit [DoubleText R] in
theorem vtkAxis_eq (hcast : ∀ n : Nat, ((n : Int) : R) = (n : R)) (hn : s.ndims = N.length)
    (hd : s.deltas.length = N.length) (hN : s.numCells = ints N) (j : Nat) :
    ∃ axis, s.vtkAxis j = .ok axis ∧
      (j < N.length → axis = (List.range (N.getD j 0 + 1)).map fun i : Nat => 0 + s.deltas.getD j 0 * (i : R)) := by
  unfold vtkAxis
  rw [hn]
  by_cases h : j < N.length
  · have hl : (ints N).length = N.length := by simp [ints]
    have e : (ints N)[j]'(by omega) + 1 = ((N.getD j 0 + 1 : Nat) : Int) := by
      rw [List.getD_eq_getElem _ _ h]; simp [ints]
    rw [if_pos h, hN, rd_of_lt (by omega), M.ok_bind, e]
    refine ⟨_, mapM_pure (h := fun i : Nat => 0 + s.deltas.getD j 0 * (i : R)) fun i _ => ?_, fun _ => by rw [Int.toNat_natCast]⟩
    rw [rd_of_lt (by omega), M.ok_bind, hcast, List.getD_eq_getElem _ _ (by omega)]
    rfl
  · rw [if_neg h]
    exact ⟨_, rfl, fun h' => absurd h' h⟩

theorem prod_ints (N : List Nat) : (ints N).prod = (N.prod : Int) := by
  induction N with
  | nil => rfl
  | cons n N ih =>
    show ((n : Int) * (ints N).prod) = _
    rw [ih, List.prod_cons, Nat.cast_mul]

/-- The words of the file. -/
theorem saveVTK_words (hcast : ∀ n : Nat, ((n : Int) : R) = (n : R)) (h0 : 0 < N.length) (hn : s.ndims = N.length)
    (hd : s.deltas.length = N.length) (hN : s.numCells = ints N) (hf : s.f.length = N.prod)
    (hw : ∀ x : R, IsWord (DoubleText.showDouble x)) :
    ∃ text vals, s.saveVTK = .ok text ∧ header text = some (rectWords (nodesOf N 2) (nodesOf N 1) (nodesOf N 0)
      (coordTexts N s.deltas 2) (coordTexts N s.deltas 1) (coordTexts N s.deltas 0) N.prod vals) ∧
      vals.flatten = s.f.flatMap DoubleText.showDouble ∧ vals.length ≤ N.prod / 10 + 1 := by
  obtain ⟨ax, eax, hax⟩ := vtkAxis_eq hcast hn hd hN 2
  obtain ⟨ay, eay, hay⟩ := vtkAxis_eq hcast hn hd hN 1
  obtain ⟨az, eaz, haz⟩ := vtkAxis_eq hcast hn hd hN 0
  obtain ⟨tx, ex, hx⟩ := PyVtk.coords_words s.deltas hw 2 ax hax
  obtain ⟨ty, ey, hy⟩ := PyVtk.coords_words s.deltas hw 1 ay hay
  obtain ⟨tz, ez, hz⟩ := PyVtk.coordLoop_words s.deltas hw h0 az (haz h0)
  obtain ⟨tv, ev, hv1, hv2⟩ := PyVtk.values_text s.f hw
  have hl : (ints N).length = N.length := by simp [ints]
  have e0 : (ints N)[0]'(by omega) + 1 = ((nodesOf N 0 : Nat) : Int) := by
    unfold nodesOf
    rw [if_pos h0, List.getD_eq_getElem _ _ h0]; simp [ints]
  unfold saveVTK
  rw [eax, eay, eaz, M.ok_bind, M.ok_bind, M.ok_bind, hN, prod_ints, hf]
  rw [if_neg (by simp)]
  unfold PyVtk.rectilinear
  rw [PyVtk.dim_eq, PyVtk.dim_eq, rd_of_lt (by omega), ex, ey, ez, ev]
  refine ⟨_, words tv, rfl, ?_, hv1, by rw [← hf]; exact hv2⟩
  rw [e0, hf, Fortran.showInt_nat]
  simp only [List.append_assoc, List.cons_append]
  rw [show "upwind\n".toList = "upwind".toList ++ ['\n'] by decide +kernel, List.append_assoc, List.singleton_append,
    header_of _ (by decide +kernel)]
  congr 1
  unfold rectWords
  rw [words_lit (ws := ["DATASET".toList, "RECTILINEAR_GRID".toList]) (by decide +kernel) (by decide +kernel),
    words_append _ (by decide), show words "DIMENSIONS".toList = ["DIMENSIONS".toList] by decide +kernel,
    words_word_blank (isWord_showSz _) (by decide), words_word_blank (isWord_showSz _) (by decide),
    show "\nX_COORDINATES ".toList = '\n' :: "X_COORDINATES ".toList by decide +kernel,
    show "\nY_COORDINATES ".toList = '\n' :: "Y_COORDINATES ".toList by decide +kernel,
    show "\nZ_COORDINATES ".toList = '\n' :: "Z_COORDINATES ".toList by decide +kernel,
    show "\nCELL_DATA ".toList = '\n' :: "CELL_DATA ".toList by decide +kernel]
  simp only [List.cons_append]
  rw [words_word_blank (isWord_showSz _) (by decide),
    words_lit (ws := ["X_COORDINATES".toList]) (by decide +kernel) (by decide +kernel), hx,
    words_lit (ws := ["Y_COORDINATES".toList]) (by decide +kernel) (by decide +kernel), hy,
    words_lit (ws := ["Z_COORDINATES".toList]) (by decide +kernel) (by decide +kernel), hz,
    words_lit (ws := ["CELL_DATA".toList]) (by decide +kernel) (by decide +kernel),
    show "\n".toList = ['\n'] by decide +kernel, List.singleton_append (x := '\n'),
    words_word_blank (isWord_showSz _) (by decide),
    words_lit (ws := ["SCALARS".toList, "f".toList, "double".toList, "1".toList]) (by decide +kernel) (by decide +kernel),
    words_lit (ws := ["LOOKUP_TABLE".toList, "default".toList]) (by decide +kernel) (by decide +kernel),
    length_coordTexts, length_coordTexts, length_coordTexts]
  simp only [List.cons_append, List.nil_append]

end PyUpwind

/-! ### Julia -/

namespace JlVtk
open Fortran (rd1_of_lt)
variable {R : Type} [DoubleText R]

theorem words_trailing (hw : ∀ x : R, IsWord (DoubleText.showDouble x)) (l : List R) (t : Str) :
    words (l.flatMap (fun x => DoubleText.showDouble x ++ " ".toList) ++ t) = l.map DoubleText.showDouble ++ words t := by
  rw [words_flatMap _ (fun x => [DoubleText.showDouble x]), ← List.map_eq_flatMap]
  intro x t
  rw [List.append_assoc, show " ".toList = [' '] by decide +kernel, List.singleton_append, words_word_blank (hw x) (by decide)]
  rfl

omit [DoubleText R] in
theorem showInt_length (l : List R) : showInt ((l.length : Int) - 1 + 1) = showSz l.length := by
  rw [show (l.length : Int) - 1 + 1 = (l.length : Int) by omega, Fortran.showInt_nat]

theorem flatMap_getElem {α : Type} (l : List α) (g : α → Str) (p : Nat → Str)
    (h : ∀ i (hi : i < l.length), p i = g l[i]) : (List.range l.length).flatMap p = l.flatMap g := by
  have e : (List.range l.length).map p = l.map g := by
    apply List.ext_getElem
    · simp
    · intro i h1 h2
      simp at h1
      simp [h i h1]
  rw [List.flatMap_def, List.flatMap_def, e]

theorem coords_words (hw : ∀ x : R, IsWord (DoubleText.showDouble x)) (axis : List R) :
    ∃ text, coords axis = .ok text ∧ ∀ t, words (text ++ '\n' :: t) =
      showSz axis.length :: "double".toList :: (axis.map DoubleText.showDouble ++ words t) := by
  unfold coords
  refine ⟨_, forUp_text axis.length _ (fun i => if h : i < axis.length then DoubleText.showDouble axis[i] ++ " ".toList else []) _
    ?_, fun t => ?_⟩
  · intro i t hi
    rw [rd1_of_lt hi, M.ok_bind, dif_pos hi, M.pure_eq, List.append_assoc]
  · rw [flatMap_getElem axis (fun x => DoubleText.showDouble x ++ " ".toList) _ (fun i hi => dif_pos hi), showInt_length,
      List.append_assoc, List.append_assoc,
      show " double\n".toList = ' ' :: "double\n".toList by decide +kernel, List.cons_append,
      words_word_blank (isWord_showSz _) (by decide), words_lit (ws := ["double".toList]) (by decide +kernel) (by decide +kernel),
      words_trailing hw, words_blank (by decide)]
    rfl

theorem values_words (hw : ∀ x : R, IsWord (DoubleText.showDouble x)) (data : List R) :
    ∃ text, values data = .ok text ∧ ∀ t, words (text ++ t) = data.map DoubleText.showDouble ++ words t := by
  unfold values
  refine ⟨_, forUp_text data.length _ (fun i => if h : i < data.length then DoubleText.showDouble data[i] ++
    (if (i + 1) % 10 = 0 then " \n".toList else " ".toList) else []) _ ?_, fun t => ?_⟩
  · intro i t hi
    rw [rd1_of_lt hi, M.ok_bind, dif_pos hi]
    split
    · rw [M.pure_eq, List.append_assoc, List.append_assoc, show " \n".toList = " ".toList ++ ['\n'] by decide +kernel]
    · rw [M.pure_eq, List.append_assoc]
  · rw [List.nil_append, words_flatMap _ (fun i => if h : i < data.length then [DoubleText.showDouble data[i]] else [])]
    · congr 1
      rw [List.flatMap_def]
      have : (List.range data.length).map (fun i => if h : i < data.length then [DoubleText.showDouble data[i]] else []) =
          data.map fun x => [DoubleText.showDouble x] := by
        apply List.ext_getElem
        · simp
        · intro i h1 h2
          simp at h1
          simp [h1]
      rw [this, ← List.flatMap_def, ← List.map_eq_flatMap]
    · intro i t
      split
      · rw [List.append_assoc]
        split
        · rw [show " \n".toList = ' ' :: "\n".toList by decide +kernel, List.cons_append, words_word_blank (hw _) (by decide),
            words_lit (ws := []) (by decide +kernel) (by decide +kernel)]
          rfl
        · rw [show " ".toList = [' '] by decide +kernel, List.singleton_append, words_word_blank (hw _) (by decide)]
          rfl
      · rfl

/-- The words of the file. -/
theorem rectilinear_words (hw : ∀ x : R, IsWord (DoubleText.showDouble x)) (xAxis yAxis zAxis data : List R) :
    ∃ text, rectilinear xAxis yAxis zAxis data = .ok text ∧ header text = some (rectWords xAxis.length yAxis.length zAxis.length
      (xAxis.map DoubleText.showDouble) (yAxis.map DoubleText.showDouble) (zAxis.map DoubleText.showDouble) data.length
      (data.map DoubleText.showDouble)) := by
  obtain ⟨tx, ex, hx⟩ := coords_words hw xAxis
  obtain ⟨ty, ey, hy⟩ := coords_words hw yAxis
  obtain ⟨tz, ez, hz⟩ := coords_words hw zAxis
  obtain ⟨tv, ev, hv⟩ := values_words hw data
  unfold rectilinear
  rw [ex, ey, ez, ev]
  refine ⟨_, rfl, ?_⟩
  rw [showInt_length, showInt_length, showInt_length]
  simp only [List.append_assoc, List.cons_append]
  rw [show "upwind.jl\n".toList = "upwind.jl".toList ++ ['\n'] by decide +kernel, List.append_assoc, List.singleton_append,
    header_of _ (by decide +kernel)]
  congr 1
  unfold rectWords
  rw [words_lit (ws := ["DATASET".toList, "RECTILINEAR_GRID".toList]) (by decide +kernel) (by decide +kernel),
    words_append _ (by decide), show words "DIMENSIONS".toList = ["DIMENSIONS".toList] by decide +kernel,
    words_word_blank (isWord_showSz _) (by decide), words_word_blank (isWord_showSz _) (by decide),
    show "\nY_COORDINATES ".toList = '\n' :: "Y_COORDINATES ".toList by decide +kernel,
    show "\nZ_COORDINATES ".toList = '\n' :: "Z_COORDINATES ".toList by decide +kernel,
    show "\nCELL_DATA ".toList = '\n' :: "CELL_DATA ".toList by decide +kernel,
    show "\n".toList = ['\n'] by decide +kernel]
  simp only [List.cons_append, List.nil_append]
  rw [words_word_blank (isWord_showSz _) (by decide),
    words_lit (ws := ["X_COORDINATES".toList]) (by decide +kernel) (by decide +kernel), hx,
    words_lit (ws := ["Y_COORDINATES".toList]) (by decide +kernel) (by decide +kernel), hy,
    words_lit (ws := ["Z_COORDINATES".toList]) (by decide +kernel) (by decide +kernel), hz,
    words_lit (ws := ["CELL_DATA".toList]) (by decide +kernel) (by decide +kernel),
    words_word_blank (isWord_showSz _) (by decide),
    words_lit (ws := ["SCALARS".toList, "f".toList, "double".toList, "1".toList]) (by decide +kernel) (by decide +kernel),
    words_lit (ws := ["LOOKUP_TABLE".toList, "default".toList]) (by decide +kernel) (by decide +kernel), hv,
    words_blank (by decide), words_nil, List.append_nil, List.length_map, List.length_map, List.length_map]
  simp only [List.cons_append, List.nil_append]

end JlVtk
end Fidi
