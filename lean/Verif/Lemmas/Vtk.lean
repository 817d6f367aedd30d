import Verif.Spec.Vtk
import Verif.Model.Vtk
import Verif.Lemmas.CmdLine
import Verif.Lemmas.FilterData
import Verif.Lemmas.UpwindExact
import Mathlib.Data.List.GetD

/-
Lemmas about texts, their words and the VTK writers.
-/
namespace Fidi
open Spec

/-! ### Words -/

theorem pieces_ne_nil : ∀ s, pieces s ≠ []
  | [] => by simp [pieces]
  | c :: s => by
    unfold pieces
    split
    · simp
    · split <;> simp

theorem pieces_append (a : Str) {c : Char} (hc : isBlank c = true) (s : Str) :
    pieces (a ++ c :: s) = pieces a ++ pieces s := by
  induction a with
  | nil => simp [pieces, hc]
  | cons x a ih =>
    have e : ∀ y t, pieces (y :: t) = if isBlank y then [] :: pieces t else match pieces t with
      | [] => [[y]]
      | w :: ws => (y :: w) :: ws := fun _ _ => rfl
    rw [List.cons_append, e, e, ih]
    split
    · rfl
    · cases h : pieces a with
      | nil => exact absurd h (pieces_ne_nil a)
      | cons w ws => rfl

theorem words_append (a : Str) {c : Char} (hc : isBlank c = true) (s : Str) :
    words (a ++ c :: s) = words a ++ words s := by
  unfold words
  rw [pieces_append a hc, List.filter_append]

theorem words_nil : words [] = [] := rfl

theorem words_blank {c : Char} (hc : isBlank c = true) (s : Str) : words (c :: s) = words s :=
  words_append [] hc s

theorem words_append_blank (a : Str) {c : Char} (hc : isBlank c = true) (s : Str) :
    words (a ++ c :: s) = words a ++ words (c :: s) := by
  rw [words_append a hc, words_blank hc]

/-- Text that ends with white space. -/
def Ends (a : Str) : Prop := ∃ b c, a = b ++ [c] ∧ isBlank c = true

theorem ends_of {a : Str} (h : (a.getLast?.map isBlank) = some true) : Ends a := by
  cases e : a.getLast? with
  | none => simp [e] at h
  | some c =>
    obtain ⟨b, hb⟩ := List.getLast?_eq_some_iff.1 e
    exact ⟨b, c, hb, by simpa [e] using h⟩

theorem words_ends {a : Str} (h : Ends a) (s : Str) : words (a ++ s) = words a ++ words s := by
  obtain ⟨b, c, rfl, hc⟩ := h
  rw [List.append_assoc, List.singleton_append, words_append b hc, words_append b hc, words_nil, List.append_nil]

theorem words_lit {a : Str} {ws : List Str} (h : (a.getLast?.map isBlank) = some true) (hw : words a = ws) (s : Str) :
    words (a ++ s) = ws ++ words s := by rw [words_ends (ends_of h), hw]

theorem pieces_word {w : Str} (h : ∀ c ∈ w, isBlank c = false) : pieces w = [w] := by
  induction w with
  | nil => rfl
  | cons c w ih =>
    unfold pieces
    rw [if_neg (by simp [h c (by simp)]), ih fun d hd => h d (by simp [hd])]

theorem words_word {w : Str} (h : IsWord w) : words w = [w] := by
  unfold words
  rw [pieces_word h.2, List.filter_cons_of_pos (by simpa [List.isEmpty_iff] using h.1), List.filter_nil]

theorem words_word_blank {w : Str} (h : IsWord w) {c : Char} (hc : isBlank c = true) (s : Str) :
    words (w ++ c :: s) = w :: words s := by
  rw [words_append w hc, words_word h]; rfl

theorem words_flatMap {ι : Type} (p : ι → Str) (q : ι → List Str) (h : ∀ i t, words (p i ++ t) = q i ++ words t) (l : List ι)
    (t : Str) : words (l.flatMap p ++ t) = l.flatMap q ++ words t := by
  induction l with
  | nil => rfl
  | cons i l ih => rw [List.flatMap_cons, List.flatMap_cons, List.append_assoc, h, ih, List.append_assoc]

theorem words_spaced {ι : Type} (w : ι → Str) (h : ∀ i, IsWord (w i)) (l : List ι) {c : Char} (hc : isBlank c = true)
    (t : Str) : words (l.flatMap (fun i => ' ' :: w i) ++ c :: t) = l.map w ++ words t := by
  induction l with
  | nil => exact words_blank hc t
  | cons i l ih =>
    rw [List.flatMap_cons, List.append_assoc, List.cons_append, words_blank (by decide), List.map_cons]
    cases l with
    | nil => exact words_word_blank (h i) hc t
    | cons j l =>
      rw [List.flatMap_cons, List.append_assoc, List.cons_append] at ih ⊢
      rw [words_word_blank (h i) (by decide)]
      rw [words_blank (by decide)] at ih
      rw [ih]; rfl

/-! ### Numbers -/

theorem digit_not_blank {c : Char} (h : isDigitC c = true) : isBlank c = false := (digits_not_special h).1

theorem isWord_showSz (n : Nat) : IsWord (showSz n) :=
  ⟨Nat.toDigits_ne_nil, fun c hc => digit_not_blank (toDigits_ok n c hc)⟩

theorem readNat_showSz (n : Nat) : readNat (showSz n) = some n := by
  unfold readNat
  have h : (showSz n).all (fun c => '0' ≤ c && c ≤ '9') = true := by
    rw [List.all_eq_true]
    exact toDigits_ok n
  rw [if_pos ⟨(isWord_showSz n).1, h⟩]
  have e := digits_value (showSz n) 0
  rw [show showSz n = Nat.toDigits 10 n from rfl] at e ⊢
  rw [Nat.ofDigitChars_ten_toDigits] at e
  refine congrArg some (Eq.trans ?_ e)
  congr 1
  funext a c
  rw [Nat.mul_comm]

theorem number_showSz (n : Nat) (ws : List Str) : number (showSz n :: ws) = some (n, ws) := by
  show (readNat (showSz n)).map (fun n => (n, ws)) = _
  rw [readNat_showSz]; rfl

theorem expect_lit (w : String) (ws : List Str) : expect w (w.toList :: ws) = some ws := if_pos rfl

theorem nextWords_append (a b : List Str) {n : Nat} (h : a.length = n) : nextWords n (a ++ b) = some (a, b) := by
  subst h
  unfold nextWords
  rw [if_pos (by simp), List.take_left, List.drop_left]

/-- The section of the values; `comp` is the optional number of components. -/
theorem scalars_of (cells n : Nat) (name ty : Str) (hty : ty = "float".toList ∨ ty = "double".toList) (comp values : List Str)
    (hc : comp = [] ∨ comp = ["1".toList]) (hv : values.length = n) :
    scalars cells (["CELL_DATA".toList, showSz n, "SCALARS".toList, name, ty] ++
      (comp ++ (["LOOKUP_TABLE".toList, "default".toList] ++ values))) = if n = cells then some (name, values) else none := by
  unfold scalars
  simp only [List.cons_append, List.nil_append, expect_lit, number_showSz, Option.bind_eq_bind, Option.bind_some]
  by_cases hn : n = cells
  · have e : ∀ ws : List Str, floatType (ty :: ws) = some ws := fun ws => if_pos hty
    have e2 : (expect "1" (comp ++ "LOOKUP_TABLE".toList :: "default".toList :: values)).getD
        (comp ++ "LOOKUP_TABLE".toList :: "default".toList :: values) = "LOOKUP_TABLE".toList :: "default".toList :: values := by
      rcases hc with rfl | rfl
      · have : expect "1" ("LOOKUP_TABLE".toList :: "default".toList :: values) = none := by
          unfold expect
          exact if_neg (by decide +kernel)
        rw [List.nil_append, this, Option.getD_none]
      · rw [List.singleton_append, expect_lit]; rfl
    rw [if_neg (by simpa using hn), if_pos hn]
    have e3 : nextWords 1 (name :: ty :: (comp ++ "LOOKUP_TABLE".toList :: "default".toList :: values)) =
        some ([name], ty :: (comp ++ "LOOKUP_TABLE".toList :: "default".toList :: values)) :=
      nextWords_append [name] _ rfl
    rw [e3]
    simp only [Option.bind_some, e, e2, expect_lit]
    rw [if_neg (by simpa using hv)]
    simp
  · rw [if_pos hn, if_neg hn]; rfl

/-! ### Lines -/

theorem firstLine_append {a : Str} (h : ∀ c ∈ a, c ≠ '\n') (s : Str) : firstLine (a ++ '\n' :: s) = (a, s) := by
  unfold firstLine
  have h1 : ∀ c ∈ a, (decide (c ≠ '\n')) = true := fun c hc => by simpa using h c hc
  rw [List.takeWhile_append_of_pos h1, List.dropWhile_append_of_pos h1]
  simp

theorem header_of (title : Str) (ht : ∀ c ∈ title, c ≠ '\n') (s : Str) :
    header ("# vtk DataFile Version 2.0\n".toList ++ (title ++ '\n' :: ("ASCII\n".toList ++ s))) = some (words s) := by
  have e1 : "# vtk DataFile Version 2.0\n".toList = "# vtk DataFile Version 2.0".toList ++ ['\n'] := by decide +kernel
  have e2 : "ASCII\n".toList = "ASCII".toList ++ ['\n'] := by decide +kernel
  unfold header
  rw [e1, List.append_assoc, List.singleton_append, firstLine_append (by decide +kernel)]
  dsimp only
  rw [firstLine_append ht]
  dsimp only
  rw [e2, List.append_assoc, List.singleton_append, firstLine_append (by decide +kernel)]
  dsimp only
  rw [if_pos ⟨by decide +kernel, rfl⟩]

/-! ### Loops that write -/

theorem forUp_text (n : Nat) (t0 : Str) (p : Nat → Str) (f : Nat → Str → M Str)
    (hf : ∀ i t, i < n → f i t = .ok (t ++ p i)) : forUp 0 n t0 f = .ok (t0 ++ (List.range n).flatMap p) := by
  obtain ⟨s, e, rfl⟩ := forUp_inv (Nat.zero_le n) (fun i s => s = t0 ++ (List.range i).flatMap p) f t0 (by simp)
    (by
      rintro i s - hi rfl
      exact ⟨_, hf i _ hi, by rw [List.range_succ, List.flatMap_append, List.append_assoc]; simp⟩)
  exact e

/-! ### saveVTK.h -/

section
variable {R : Type} [Zero R] [Add R] [Mul R] [NatCast R] [DoubleText R]

/-- Number of nodes along axis `j`; an axis that the grid lacks has one. -/
def nodesOf (N : List Nat) (j : Nat) : Nat := if j < N.length then N.getD j 0 + 1 else 1

/-- The coordinates written for axis `j`. -/
def coordTexts (N : List Nat) (deltas : List R) (j : Nat) : List Str :=
  if j < N.length then (List.range (N.getD j 0 + 1)).map fun i : Nat => DoubleText.showDouble (0 + deltas.getD j 0 * (i : R))
  else ["0.0".toList]

theorem length_coordTexts (N : List Nat) (deltas : List R) (j : Nat) :
    (coordTexts N deltas j).length = nodesOf N j := by
  unfold coordTexts nodesOf
  split <;> simp

variable {s : Upwind R} {N : List Nat}

omit [Zero R] [Add R] [Mul R] [NatCast R] [DoubleText R] in
theorem vtkDim_eq (hn : s.ndims = N.length) (hN : s.numCells = N) (hW : ∀ n ∈ N, n + 1 < W) (j : Nat) :
    s.vtkDim j = .ok (' ' :: showSz (nodesOf N j)) := by
  unfold Upwind.vtkDim nodesOf
  rw [hn, hN]
  split
  · next h =>
    rw [rd_of_lt h, M.ok_bind, szAdd_of_lt (hW _ (List.getElem_mem h)), List.getD_eq_getElem _ _ h]; rfl
  · rfl

theorem vtkCoordLoop_eq (hd : s.deltas.length = N.length) (hN : s.numCells = N) (hW : ∀ n ∈ N, n + 1 < W)
    (j : Nat) (hj : j < N.length) :
    s.vtkCoordLoop j = .ok (showSz (N.getD j 0 + 1) ++ " double\n".toList ++
      (List.range (N.getD j 0 + 1)).flatMap fun i : Nat => ' ' :: DoubleText.showDouble (0 + s.deltas.getD j 0 * (i : R))) := by
  unfold Upwind.vtkCoordLoop
  rw [hN, rd_of_lt hj, M.ok_bind, szAdd_of_lt (hW _ (List.getElem_mem hj)), List.getD_eq_getElem _ _ hj]
  dsimp only
  apply forUp_text
  intro i t _
  rw [rd_of_lt (by omega), M.ok_bind, List.getD_eq_getElem _ _ (by omega)]; rfl

theorem words_coords (hn : s.ndims = N.length) (hd : s.deltas.length = N.length) (hN : s.numCells = N)
    (hW : ∀ n ∈ N, n + 1 < W) (hw : ∀ x : R, IsWord (DoubleText.showDouble x)) (j : Nat) :
    ∃ text, s.vtkCoords j = .ok text ∧ (j < N.length → s.vtkCoordLoop j = .ok text) ∧ ∀ t, words (text ++ '\n' :: t) =
      showSz (nodesOf N j) :: "double".toList :: (coordTexts N s.deltas j ++ words t) := by
  unfold Upwind.vtkCoords nodesOf coordTexts
  rw [hn]
  by_cases h : j < N.length
  · refine ⟨_, ?_, fun _ => vtkCoordLoop_eq hd hN hW j h, fun t => ?_⟩
    · rw [if_pos h]; exact vtkCoordLoop_eq hd hN hW j h
    · rw [if_pos h, if_pos h, List.append_assoc, List.append_assoc,
        show " double\n".toList = ' ' :: "double\n".toList by decide +kernel, List.cons_append,
        words_word_blank (isWord_showSz _) (by decide), words_lit (ws := ["double".toList]) (by decide +kernel) (by decide +kernel),
        words_spaced _ (fun i => hw _) _ (by decide)]
      rfl
  · refine ⟨_, by rw [if_neg h]; rfl, fun h' => absurd h' h, fun t => ?_⟩
    rw [if_neg h, if_neg h, words_append _ (by decide)]
    rw [show words ("1 double\n".toList ++ "0.0\n".toList) = [showSz 1, "double".toList, "0.0".toList] by decide +kernel]
    rfl

omit [Add R] [Mul R] [NatCast R] in
theorem vtkValues_eq (hl : s.ntot ≤ s.f.length) :
    ∃ text, s.vtkValues = .ok text ∧ ((∀ x : R, IsWord (DoubleText.showDouble x)) →
      ∀ t, words (text ++ t) = (s.f.take s.ntot).map DoubleText.showDouble ++ words t) := by
  refine ⟨_, forUp_text s.ntot [] (fun i => DoubleText.showDouble (s.f.getD i 0) ++
    (if szAdd i 1 % 10 = 0 then " \n".toList else " ".toList)) _ ?_, fun hw t => ?_⟩
  · intro i t hi
    have h : i < s.f.length := by omega
    rw [rd_of_lt h, M.ok_bind, List.getD_eq_getElem _ _ h]
    split
    · rw [M.pure_eq, List.append_assoc, List.append_assoc, show " \n".toList = " ".toList ++ "\n".toList by decide +kernel]
    · rw [M.pure_eq, List.append_assoc]
  · rw [List.nil_append, words_flatMap _ (fun i => [DoubleText.showDouble (s.f.getD i 0)])]
    · congr 1
      rw [← List.map_eq_flatMap]
      apply List.ext_getElem
      · simp [hl]
      · intro i h1 h2
        simp at h1 h2
        simp [h2.2]
    · intro i t
      rw [List.append_assoc]
      split
      · rw [show " \n".toList = ' ' :: "\n".toList by decide +kernel, List.cons_append, words_word_blank (hw _) (by decide),
          words_lit (ws := []) (by decide +kernel) (by decide +kernel)]
        rfl
      · rw [show " ".toList = [' '] by decide +kernel, List.singleton_append, words_word_blank (hw _) (by decide)]
        rfl

/-- The words of the file. -/
theorem saveVTK_words (h0 : 0 < N.length) (hn : s.ndims = N.length) (hd : s.deltas.length = N.length) (hN : s.numCells = N)
    (hW : ∀ n ∈ N, n + 1 < W) (hl : s.ntot ≤ s.f.length) (hw : ∀ x : R, IsWord (DoubleText.showDouble x)) :
    ∃ text, s.saveVTK = .ok text ∧ header text = some (
      ["DATASET".toList, "RECTILINEAR_GRID".toList, "DIMENSIONS".toList, showSz (nodesOf N 2), showSz (nodesOf N 1),
        showSz (nodesOf N 0), "X_COORDINATES".toList, showSz (nodesOf N 2), "double".toList] ++ (coordTexts N s.deltas 2 ++
      ("Y_COORDINATES".toList :: showSz (nodesOf N 1) :: "double".toList :: (coordTexts N s.deltas 1 ++
      ("Z_COORDINATES".toList :: showSz (nodesOf N 0) :: "double".toList :: (coordTexts N s.deltas 0 ++
      (["CELL_DATA".toList, showSz s.ntot, "SCALARS".toList, "f".toList, "double".toList, "1".toList,
        "LOOKUP_TABLE".toList, "default".toList] ++ (s.f.take s.ntot).map DoubleText.showDouble))))))) := by
  obtain ⟨tx, ex, -, hx⟩ := words_coords hn hd hN hW hw 2
  obtain ⟨ty, ey, -, hy⟩ := words_coords hn hd hN hW hw 1
  obtain ⟨tz, -, ez, hz⟩ := words_coords hn hd hN hW hw 0
  obtain ⟨tv, ev, hv⟩ := vtkValues_eq hl
  have e0 : rd s.numCells 0 = .ok (N.getD 0 0) := by
    subst hN
    rw [rd_of_lt h0, List.getD_eq_getElem _ _ h0]
  have e1 : szAdd (N.getD 0 0) 1 = nodesOf N 0 := by
    unfold nodesOf
    rw [if_pos h0, List.getD_eq_getElem _ _ h0, szAdd_of_lt (hW _ (List.getElem_mem h0))]
  unfold Upwind.saveVTK
  rw [vtkDim_eq hn hN hW, vtkDim_eq hn hN hW, e0, ex, ey, ez h0, ev]
  refine ⟨_, rfl, ?_⟩
  rw [e1]
  simp only [List.append_assoc, List.cons_append]
  rw [show "upwind.cxx\n".toList = "upwind.cxx".toList ++ ['\n'] by decide +kernel, List.append_assoc, List.singleton_append,
    header_of _ (by decide +kernel)]
  congr 1
  rw [words_lit (ws := ["DATASET".toList, "RECTILINEAR_GRID".toList]) (by decide +kernel) (by decide +kernel),
    words_append _ (by decide), show words "DIMENSIONS".toList = ["DIMENSIONS".toList] by decide +kernel,
    words_word_blank (isWord_showSz _) (by decide), words_word_blank (isWord_showSz _) (by decide),
    show "\nX_COORDINATES ".toList = '\n' :: "X_COORDINATES ".toList by decide +kernel,
    show "\nY_COORDINATES ".toList = '\n' :: "Y_COORDINATES ".toList by decide +kernel,
    show "\nZ_COORDINATES ".toList = '\n' :: "Z_COORDINATES ".toList by decide +kernel,
    show "\nCELL_DATA ".toList = '\n' :: "CELL_DATA ".toList by decide +kernel]
  simp only [List.cons_append]
  rw [words_word_blank (isWord_showSz _) (by decide),
    words_lit (ws := ["X_COORDINATES".toList]) (by decide +kernel) (by decide +kernel), hx,
    words_lit (ws := ["Y_COORDINATES".toList]) (by decide +kernel) (by decide +kernel), hy,
    words_lit (ws := ["Z_COORDINATES".toList]) (by decide +kernel) (by decide +kernel), hz,
    words_lit (ws := ["CELL_DATA".toList]) (by decide +kernel) (by decide +kernel),
    show "\n".toList = ['\n'] by decide +kernel, List.singleton_append (x := '\n'),
    words_word_blank (isWord_showSz _) (by decide),
    words_lit (ws := ["SCALARS".toList, "f".toList, "double".toList, "1".toList]) (by decide +kernel) (by decide +kernel),
    words_lit (ws := ["LOOKUP_TABLE".toList, "default".toList]) (by decide +kernel) (by decide +kernel), hv hw,
    words_blank (by decide), words_nil]
  simp

/-- The reader accepts the file exactly if the number of cells is that of a box with these nodes. -/
theorem readRect_saveVTK (h0 : 0 < N.length) (hn : s.ndims = N.length) (hd : s.deltas.length = N.length) (hN : s.numCells = N)
    (hW : ∀ n ∈ N, n + 1 < W) (hl : s.ntot ≤ s.f.length) (hw : ∀ x : R, IsWord (DoubleText.showDouble x)) :
    ∃ text, s.saveVTK = .ok text ∧ readRect text =
      if s.ntot = cellsOf (nodesOf N 2) * cellsOf (nodesOf N 1) * cellsOf (nodesOf N 0) then
        some { x := coordTexts N s.deltas 2, y := coordTexts N s.deltas 1, z := coordTexts N s.deltas 0, name := "f".toList,
               values := (s.f.take s.ntot).map DoubleText.showDouble }
      else none := by
  obtain ⟨text, e, hh⟩ := saveVTK_words h0 hn hd hN hW hl hw
  refine ⟨text, e, ?_⟩
  unfold readRect dimensions coordinates
  rw [hh]
  simp only [Option.bind_eq_bind, Option.bind_some, List.cons_append, expect_lit, number_showSz, List.nil_append,
    Option.pure_def, ne_eq, not_true_eq_false, if_false, floatType, or_true, if_true,
    nextWords_append _ _ (length_coordTexts N s.deltas _)]
  have := scalars_of (cellsOf (nodesOf N 2) * cellsOf (nodesOf N 1) * cellsOf (nodesOf N 0)) s.ntot "f".toList "double".toList
    (Or.inr rfl) ["1".toList] ((s.f.take s.ntot).map DoubleText.showDouble) (Or.inr rfl) (by simp [hl])
  simp only [List.cons_append, List.nil_append] at this
  rw [this]
  split <;> rfl

end

/-! ### writeVTK.cpp -/

theorem take_drop_flatMap {α : Type} (m : Nat) (q : Nat → List α) (hq : ∀ i, (q i).length = m) (n p : Nat) (hp : p < n) :
    (((List.range n).flatMap q).drop (m * p)).take m = q p := by
  have hlen : ∀ k, ((List.range k).flatMap q).length = m * k := by
    intro k
    induction k with
    | zero => rfl
    | succ k ih => rw [List.range_succ, List.flatMap_append, List.length_append, ih]; simp [hq, Nat.mul_succ]
  obtain ⟨r, rfl⟩ := Nat.exists_eq_add_of_lt hp
  have e : List.range (p + r + 1) = List.range p ++ (p :: (List.range' (p + 1) r)) := by
    rw [show p + r + 1 = p + (r + 1) by omega, List.range_eq_range', ← List.range'_append_1, ← List.range_eq_range',
      Nat.zero_add, List.range'_succ]
  rw [e, List.flatMap_append, ← hlen p, List.drop_left, List.flatMap_cons, ← hq p, List.take_left]

section
variable {R : Type} [Zero R] [One R] [Add R] [Sub R] [Mul R] [Div R] [NatCast R] [DoubleText R]

/-- Axis `j` of the file. -/
def axisOf (dims : List Nat) (xmins xmaxs : List R) (j : Nat) : Nat × R × R :=
  if j < dims.length then (dims.getD j 0, xmins.getD j 0, xmaxs.getD j 0) else (1, 0, 1)

omit [Add R] [Sub R] [Mul R] [Div R] [NatCast R] [DoubleText R] in
theorem vtkAxis_eq {dims : List Nat} {xmins xmaxs : List R} (h1 : dims.length ≤ xmins.length)
    (h2 : dims.length ≤ xmaxs.length) (j : Nat) : vtkAxis dims xmins xmaxs j = .ok (axisOf dims xmins xmaxs j) := by
  unfold vtkAxis axisOf
  by_cases h : j < dims.length
  · rw [if_pos h, if_pos h, rd_of_lt h, M.ok_bind, rd_of_lt (by omega), M.ok_bind, rd_of_lt (by omega), M.ok_bind,
      List.getD_eq_getElem _ _ h, List.getD_eq_getElem _ _ (by omega), List.getD_eq_getElem _ _ (by omega)]
    rfl
  · rw [if_neg h, if_neg h]; rfl

/-- The three coordinates written for the node with the given indices. -/
def nodeTexts (ax ay az : Nat × R × R) (t : List Nat) : List Str :=
  [DoubleText.showDouble (vtkNode ax (t.getD 0 0)), DoubleText.showDouble (vtkNode ay (t.getD 1 0)),
    DoubleText.showDouble (vtkNode az (t.getD 2 0))]

theorem boxLt3 {a b c : Nat} (ha : 0 < a) (hb : 0 < b) (hc : 0 < c) : BoxLt (List.replicate 3 0) [a, b, c] :=
  .cons ha (.cons hb (.cons hc .nil))

theorem volume3 (a b c : Nat) : volume (List.replicate 3 0) [a, b, c] = a * b * c := by
  simp [volume, extents, Nat.mul_assoc]

/-- The line written for a node. -/
def nodeLine (ax ay az : Nat × R × R) (t : List Nat) : Str :=
  DoubleText.showDouble (vtkNode ax (t.getD 0 0)) ++ ' ' :: (DoubleText.showDouble (vtkNode ay (t.getD 1 0)) ++ ' ' ::
    (DoubleText.showDouble (vtkNode az (t.getD 2 0)) ++ ['\n']))

omit [Zero R] [One R] in
theorem words_nodeLine (hw : ∀ x : R, IsWord (DoubleText.showDouble x)) (ax ay az : Nat × R × R) (t : List Nat) (s : Str) :
    words (nodeLine ax ay az t ++ s) = nodeTexts ax ay az t ++ words s := by
  unfold nodeLine nodeTexts
  simp only [List.append_assoc, List.cons_append, List.nil_append]
  rw [words_word_blank (hw _) (by decide), words_word_blank (hw _) (by decide), words_word_blank (hw _) (by decide)]

omit [Zero R] [One R] in
theorem nodeLoop_eq (ax ay az : Nat × R × R) {a b c : Nat} (ha : 0 < a) (hb : 0 < b) (hc : 0 < c) (hV : a * b * c < W)
    (hs : a < W ∧ b < W ∧ c < W) (t0 : Str) :
    forUp 0 (a * b * c) (itAt (List.replicate 3 0) [a, b, c] 0, t0) (vtkNodeBody ax ay az) =
      .ok (itAt (List.replicate 3 0) [a, b, c] (a * b * c), t0 ++ (List.range (a * b * c)).flatMap fun k =>
        nodeLine ax ay az (tupleAt false (List.replicate 3 0) [a, b, c] k)) := by
  have hB := boxLt3 ha hb hc
  have hv := volume3 a b c
  rw [← hv, iter_loop (by omega) _ (fun i text => .ok (text ++
    nodeLine ax ay az (tupleAt false (List.replicate 3 0) [a, b, c] i)))]
  · rw [forUp_text _ _ _ _ (fun i t _ => rfl)]; rfl
  · intro i s hi
    unfold vtkNodeBody
    dsimp only
    rw [itAt_indices hB (by omega) (by simp [hs])]
    have hin := tupleAt_inBox false hB i
    generalize tupleAt false (List.replicate 3 0) [a, b, c] i = t at hin ⊢
    have hl : t.length = 3 := by rw [hin.length_lo]; rfl
    match t, hl with
    | [x, y, z], _ =>
      simp only [M.ok_bind, rd_of_lt (show 0 < [x, y, z].length by simp), rd_of_lt (show 1 < [x, y, z].length by simp),
        rd_of_lt (show 2 < [x, y, z].length by simp), nodeLine, M.pure_eq,
        show " ".toList = [' '] by decide +kernel, show "\n".toList = ['\n'] by decide +kernel]
      simp

omit [One R] [Add R] [Sub R] [Mul R] [Div R] [NatCast R] in
theorem cellLoop_eq {field : List R} {a b c : Nat} (hV : a * b * c < W)
    (hf : a * b * c ≤ field.length) (t0 : Str) :
    forUp 0 (a * b * c) (itAt (List.replicate 3 0) [a, b, c] 0, t0) (vtkCellBody field) =
      .ok (itAt (List.replicate 3 0) [a, b, c] (a * b * c), t0 ++ (List.range (a * b * c)).flatMap fun i =>
        DoubleText.showDouble (field.getD i 0) ++ ['\n']) := by
  have hv := volume3 a b c
  rw [← hv] at hf ⊢
  rw [iter_loop (by omega) _ (fun i text => do pure (text ++ (DoubleText.showDouble (← rd field i) ++ ['\n'])))]
  · rw [forUp_text _ _ (fun i => DoubleText.showDouble (field.getD i 0) ++ ['\n'])]
    · rfl
    · intro i t hi
      rw [rd_of_lt (by omega), M.ok_bind, List.getD_eq_getElem _ _ (by omega)]; rfl
  · intro i s hi
    unfold vtkCellBody
    dsimp only
    rw [rd_of_lt (by omega)]
    simp only [M.ok_bind, M.pure_eq, show "\n".toList = ['\n'] by decide +kernel, List.append_assoc]

omit [One R] in
/-- The file written by `writeVTK`. -/
theorem writeGrid_eq (ax ay az : Nat × R × R) {field : List R} {name : Str} {a b c : Nat} (ha : ax.1 = a) (hb : ay.1 = b)
    (hc : az.1 = c) (ha0 : 0 < a) (hb0 : 0 < b) (hc0 : 0 < c)
    (hV : (a + 1) * (b + 1) * (c + 1) < W) (hf : a * b * c ≤ field.length) :
    writeGrid ax ay az field name = .ok (vtkHead (a + 1) (b + 1) (c + 1) ((a + 1) * (b + 1) * (c + 1)) ++
      ((List.range ((a + 1) * (b + 1) * (c + 1))).flatMap fun k =>
        nodeLine ax ay az (tupleAt false (List.replicate 3 0) [a + 1, b + 1, c + 1] k)) ++
      vtkMid (a * b * c) name ++
      (List.range (a * b * c)).flatMap fun i => DoubleText.showDouble (field.getD i 0) ++ ['\n']) := by
  have hab : (a + 1) * (b + 1) ≤ (a + 1) * (b + 1) * (c + 1) := Nat.le_mul_of_pos_right _ (by omega)
  have ha1 : a + 1 ≤ (a + 1) * (b + 1) := Nat.le_mul_of_pos_right _ (by omega)
  have hb1 : b + 1 ≤ (a + 1) * (b + 1) := Nat.le_mul_of_pos_left _ (by omega)
  have hc1 : c + 1 ≤ (a + 1) * (b + 1) * (c + 1) := Nat.le_mul_of_pos_left _ (by positivity)
  have hcell : a * b * c ≤ (a + 1) * (b + 1) * (c + 1) := by gcongr <;> omega
  have hcell2 : a * b ≤ (a + 1) * (b + 1) := by gcongr <;> omega
  subst ha hb hc
  have en : ∀ x y z : Nat, MultiArrayIter.new (List.replicate 3 0) [x, y, z] false = .ok (itAt (List.replicate 3 0) [x, y, z] 0) :=
    fun x y z => by
      unfold MultiArrayIter.new
      rw [build_eq none _ _ false (by simp) (by simp) (by simp [W])]
      rfl
  have em : ∀ x y : Nat, x * y < W → szMul x y = x * y := fun x y h => Nat.mod_eq_of_lt h
  unfold writeGrid
  dsimp only
  rw [szAdd_of_lt (by omega), szAdd_of_lt (by omega), szAdd_of_lt (by omega), em (ax.1 + 1) (ay.1 + 1) (by omega), em _ _ hV,
    em ax.1 ay.1 (by omega), em _ _ (by omega), en, M.ok_bind,
    itAt_terms (boxLt3 (by omega) (by omega) (by omega)) (by rw [volume3]; omega), volume3,
    nodeLoop_eq _ _ _ (by omega) (by omega) (by omega) hV (by omega), M.ok_bind]
  dsimp only
  rw [en, M.ok_bind, itAt_terms (boxLt3 ha0 hb0 hc0) (by rw [volume3]; omega), volume3,
    cellLoop_eq (by omega) hf, M.ok_bind]
  rfl

theorem header_vtkHead (nx ny nz n : Nat) (s : Str) : header (vtkHead nx ny nz n ++ s) = some (
    ["DATASET".toList, "STRUCTURED_GRID".toList, "DIMENSIONS".toList, showSz nx, showSz ny, showSz nz, "POINTS".toList,
      showSz n, "float".toList] ++ words s) := by
  unfold vtkHead
  simp only [List.append_assoc]
  rw [show "produced by laplacian\n".toList = "produced by laplacian".toList ++ ['\n'] by decide +kernel, List.append_assoc,
    List.singleton_append (x := '\n'), header_of _ (by decide +kernel)]
  congr 1
  rw [words_lit (ws := ["DATASET".toList, "STRUCTURED_GRID".toList]) (by decide +kernel) (by decide +kernel),
    words_lit (ws := ["DIMENSIONS".toList]) (by decide +kernel) (by decide +kernel),
    show " ".toList = [' '] by decide +kernel, show "\n".toList = ['\n'] by decide +kernel,
    show " float\n".toList = ' ' :: "float\n".toList by decide +kernel]
  simp only [List.singleton_append (x := ' '), List.singleton_append (x := '\n'), List.cons_append]
  rw [words_word_blank (isWord_showSz _) (by decide), words_word_blank (isWord_showSz _) (by decide),
    words_word_blank (isWord_showSz _) (by decide), words_lit (ws := ["POINTS".toList]) (by decide +kernel) (by decide +kernel),
    words_word_blank (isWord_showSz _) (by decide), words_lit (ws := ["float".toList]) (by decide +kernel) (by decide +kernel)]
  rfl

theorem words_vtkMid (n : Nat) {name : Str} (hn : IsWord name) (s : Str) : words (vtkMid n name ++ s) =
    ["CELL_DATA".toList, showSz n, "SCALARS".toList, name, "float".toList] ++
      ([] ++ (["LOOKUP_TABLE".toList, "default".toList] ++ words s)) := by
  unfold vtkMid
  simp only [List.append_assoc]
  rw [words_lit (ws := ["CELL_DATA".toList]) (by decide +kernel) (by decide +kernel),
    show "\n".toList = ['\n'] by decide +kernel,
    show " float\n".toList = ' ' :: "float\n".toList by decide +kernel]
  simp only [List.singleton_append (x := '\n'), List.cons_append]
  rw [words_word_blank (isWord_showSz _) (by decide), words_lit (ws := ["SCALARS".toList]) (by decide +kernel) (by decide +kernel),
    words_word_blank hn (by decide), words_lit (ws := ["float".toList]) (by decide +kernel) (by decide +kernel),
    words_lit (ws := ["LOOKUP_TABLE".toList, "default".toList]) (by decide +kernel) (by decide +kernel)]
  rfl

/-- What the reader finds in a file of this form. -/
theorem readStruct_of (nx ny nz n cells : Nat) (hn : n = nx * ny * nz) (hc : cells = cellsOf nx * cellsOf ny * cellsOf nz)
    {nodes vals name : Str} (hname : IsWord name) {coords values : List Str} (h1 : ∀ s, words (nodes ++ s) = coords ++ words s)
    (h2 : coords.length = 3 * n) (h3 : words vals = values) (h4 : values.length = cells) :
    readStruct (vtkHead nx ny nz n ++ nodes ++ vtkMid cells name ++ vals) =
      some { nx, ny, nz, coords, name, values } := by
  unfold readStruct dimensions
  rw [List.append_assoc, List.append_assoc, header_vtkHead, h1, words_vtkMid _ hname, h3]
  simp only [Option.bind_eq_bind, Option.bind_some, List.cons_append (a := "DATASET".toList),
    List.cons_append (a := "STRUCTURED_GRID".toList), List.cons_append (a := "DIMENSIONS".toList), List.cons_append (a := showSz _),
    List.cons_append (a := "POINTS".toList), List.cons_append (a := "float".toList), List.nil_append,
    expect_lit, number_showSz,
    Option.pure_def, ne_eq, floatType, true_or, if_true,
    nextWords_append _ _ h2]
  rw [if_neg (by simpa using hn)]
  have := scalars_of (cellsOf nx * cellsOf ny * cellsOf nz) cells name "float".toList (Or.inl rfl) [] values (Or.inl rfl) h4
  simp only [List.cons_append, List.nil_append] at this ⊢
  rw [this, if_pos hc]
  rfl

theorem cellsOf_succ {a : Nat} (ha : 0 < a) : cellsOf (a + 1) = a := by
  unfold cellsOf
  rw [if_neg (by omega)]; rfl

theorem length_flatMap_const {α : Type} (m : Nat) (q : Nat → List α) (hq : ∀ i, (q i).length = m) (k : Nat) :
    ((List.range k).flatMap q).length = m * k := by
  induction k with
  | zero => rfl
  | succ k ih => rw [List.range_succ, List.flatMap_append, List.length_append, ih]; simp [hq, Nat.mul_succ]

omit [One R] in
/-- What the reader finds in the file written by `writeVTK`. -/
theorem readStruct_writeGrid (ax ay az : Nat × R × R) {field : List R} {name : Str} {a b c : Nat} (ha : ax.1 = a) (hb : ay.1 = b)
    (hc : az.1 = c) (ha0 : 0 < a) (hb0 : 0 < b) (hc0 : 0 < c)
    (hV : (a + 1) * (b + 1) * (c + 1) < W) (hf : a * b * c ≤ field.length) (hname : IsWord name)
    (hw : ∀ x : R, IsWord (DoubleText.showDouble x)) :
    ∃ text, writeGrid ax ay az field name = .ok text ∧ readStruct text = some
      { nx := a + 1, ny := b + 1, nz := c + 1,
        coords := (List.range ((a + 1) * (b + 1) * (c + 1))).flatMap fun k =>
          nodeTexts ax ay az (tupleAt false (List.replicate 3 0) [a + 1, b + 1, c + 1] k)
        name := name, values := (List.range (a * b * c)).map fun i => DoubleText.showDouble (field.getD i 0) } := by
  refine ⟨_, writeGrid_eq ax ay az ha hb hc ha0 hb0 hc0 hV hf, readStruct_of _ _ _ _ _ rfl ?_ hname ?_ ?_ ?_ ?_⟩
  · rw [cellsOf_succ ha0, cellsOf_succ hb0, cellsOf_succ hc0]
  · intro s
    exact words_flatMap _ _ (fun i t => words_nodeLine hw ax ay az _ t) _ s
  · exact length_flatMap_const 3 _ (fun i => rfl) _
  · rw [← List.append_nil (List.flatMap _ _), words_flatMap _ (fun i => [DoubleText.showDouble (field.getD i 0)]), words_nil,
      List.append_nil, ← List.map_eq_flatMap]
    intro i t
    rw [List.append_assoc, List.singleton_append, words_word_blank (hw _) (by decide)]
    rfl
  · simp

end
end Fidi
