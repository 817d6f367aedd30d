import Verif.Model.UpwindPrint
import Verif.Spec.Print
import Verif.Lemmas.UpwindCython
import Verif.Lemmas.VtkOther
import Verif.Lemmas.MainsRun

/-
The texts of the print methods of the upwind solvers, and the words of the file of upwind5.pyx.
-/
set_option linter.unusedSectionVars false

namespace Fidi
open Spec Upwind

theorem getElem?_flatMap_uniform {α : Type} (F : Nat → List α) {m : Nat} (hF : ∀ i, (F i).length = m) (n x r : Nat) (hx : x < n)
    (hr : r < m) : ((List.range n).flatMap F)[x * m + r]? = (F x)[r]? := by
  have hl : ∀ n, ((List.range n).flatMap F).length = n * m := by
    intro n
    induction n with
    | zero => simp
    | succ n ih => rw [List.range_succ, List.flatMap_append, List.length_append, ih]; simp [hF, Nat.succ_mul]
  induction n with
  | zero => omega
  | succ n ih =>
    rw [List.range_succ, List.flatMap_append]
    by_cases h : x < n
    · rw [List.getElem?_append_left, ih h]
      rw [hl]
      calc x * m + r < x * m + m := by omega
        _ = (x + 1) * m := by rw [Nat.succ_mul]
        _ ≤ n * m := Nat.mul_le_mul_right _ h
    · have : x = n := by omega
      subst this
      rw [List.getElem?_append_right (by rw [hl]; omega), hl]
      simp

theorem rankOf_cons {N g : List Nat} (n x : Nat) (hl : g.length = N.length) :
    rankOf (n :: N) (x :: g) = x * N.prod + rankOf N g := by
  rw [rankOf_eq_dot _ _ (by simp [hl]), rankOf_eq_dot _ _ hl]
  simp [strideR, dot, Nat.mul_comm]

theorem length_rowCells (N : List Nat) : (rowCells N).length = N.prod := by
  induction N with
  | nil => rfl
  | cons n N ih =>
    rw [rowCells, List.length_flatMap, List.prod_cons]
    simp [ih]

theorem rowCells_stores (N : List Nat) : Stores N (rowCells N) id := by
  refine ⟨length_rowCells N, ?_⟩
  induction N with
  | nil => intro g hg; match g, hg with | [], _ => rfl
  | cons n N ih =>
    intro g hg
    match g, hg with
    | x :: g, hg =>
      rw [rankOf_cons _ _ hg.2.length_eq, rowCells,
        getElem?_flatMap_uniform _ (m := N.prod) (by simp [length_rowCells]) n x _ hg.1 (rankOf_lt hg.2), List.getElem?_map, ih g hg.2]
      rfl

theorem rowCells_eq {N : List Nat} (hp : ∀ n ∈ N, 0 < n) : rowCells N = (List.range N.prod).map (cellAt N) :=
  (stores_iff hp).1 (rowCells_stores N)

theorem stores_rowCells {R : Type} {N : List Nat} (hp : ∀ n ∈ N, 0 < n) {f : List R} {u : List Nat → R} (h : Stores N f u) :
    f = (rowCells N).map u := by
  rw [(stores_iff hp).1 h, rowCells_eq hp, List.map_map]; rfl

theorem numbered_eq {R : Type} {N : List Nat} (hp : ∀ n ∈ N, 0 < n) {f : List R} {u : List Nat → R} (h : Stores N f u)
    (line : Nat → R → List Char) (first : Nat) (d : R) :
    numbered line first N u = (List.range f.length).flatMap fun i => line (first + i) (f.getD i d) := by
  have e := stores_rowCells hp h
  unfold numbered
  rw [List.flatMap_def, List.flatMap_def]
  congr 1
  subst e
  apply List.ext_getElem
  · simp
  · intro i h1 h2
    simp at h1 h2
    simp [h1]

section
variable {R : Type} [DoubleText R] {N : List Nat} {u : List Nat → R}

/-- A loop that writes one line for each element. -/
theorem lines_text (hp : ∀ n ∈ N, 0 < n) {f : List R} (h : Stores N f u) (line : Nat → R → Str) (body : Nat → Str → M Str)
    (hb : ∀ i t (hi : i < f.length), body i t = .ok (t ++ line i f[i])) :
    forUp 0 f.length [] body = .ok (numbered line 0 N u) := by
  have d : R := u (cellAt N 0)
  rw [numbered_eq hp h line 0 d]
  have := forUp_text f.length [] (fun i => line i (f.getD i d)) body (fun i t hi => by
    rw [hb i t hi, List.getD_eq_getElem _ _ hi])
  simpa using this

theorem Upwind.print_eq (hp : ∀ n ∈ N, 0 < n) {s : Upwind R} (h : Stores N s.f u) :
    s.print = .ok (numbered (fun i x => (toString i ++ " ").toList ++ DoubleText.showDouble x ++ "\n".toList) 0 N u) := by
  refine lines_text hp h _ _ fun i t hi => ?_
  rw [rd_of_lt hi, M.ok_bind, M.pure_eq, showSz_toString]
  simp

theorem UpwindAcc.print_eq (hp : ∀ n ∈ N, 0 < n) {s : UpwindAcc R} (h : Stores N s.f u) :
    s.print = .ok (numbered (fun i x => (toString i ++ " ").toList ++ DoubleText.showDouble x ++ "\n".toList) 0 N u) := by
  refine lines_text hp h _ _ fun i t hi => ?_
  rw [rd_of_lt hi, M.ok_bind, M.pure_eq, showSz_toString]
  simp

theorem PyUpwind.printOut_eq (hp : ∀ n ∈ N, 0 < n) {s : PyUpwind R} (h : Stores N s.f u) :
    s.printOut = .ok (numbered (fun i x => (toString i ++ "   ").toList ++ DoubleText.showDouble x ++ "\n".toList) 0 N u) := by
  refine lines_text hp h _ _ fun i t hi => ?_
  rw [rd_of_lt hi, M.ok_bind, M.pure_eq, showSz_toString]
  simp

theorem CyUpwind.printOut_eq (hp : ∀ n ∈ N, 0 < n) {s : CyUpwind R} (h : Stores N s.f u) (hn : s.ntot = N.prod) :
    s.printOut = .ok (numbered (fun i x => (toString i ++ "   ").toList ++ DoubleText.showDouble x ++ "\n".toList) 0 N u) := by
  have e : s.ntot.toNat = s.f.length := by rw [hn, h.1]; rfl
  unfold CyUpwind.printOut
  rw [e]
  refine lines_text hp h _ _ fun i t hi => ?_
  rw [rd_of_lt hi, M.ok_bind, M.pure_eq, showSz_toString]
  simp

theorem Fortran.length_showSz10 {n : Nat} (h : n < 2147483648) : (showSz n).length ≤ 10 := by
  have := Nat.toDigits_length 10 n 10 (by decide) (by norm_num; omega)
  unfold showSz
  omega

theorem Fortran.inField_pad {w : Nat} {s : Str} (h : s.length ≤ w) : Fortran.inField w s = padLeft w s := if_pos h

theorem FUpwind.print_eq (hp : ∀ n ∈ N, 0 < n) (hcells : N.prod + 1 < 2 ^ 31) {s : FUpwind R} (h : Stores N s.f u)
    (hn : s.ntot = N.prod) (hl : ∀ x : R, (DoubleText.showDouble x).length ≤ 20) :
    s.print = .ok (numbered (fun i x => "i = ".toList ++ padLeft 10 (toString i).toList ++ " f = ".toList
      ++ padLeft 20 (DoubleText.showDouble x) ++ "\n".toList) 1 N u) := by
  have e : s.ntot.toNat = s.f.length := by rw [hn, h.1]; rfl
  have d : R := u (cellAt N 0)
  rw [numbered_eq hp h _ 1 d]
  unfold FUpwind.print
  rw [e]
  have := Fortran.doUp_text s.f.length (by rw [h.1]; exact hcells) [] (fun i => "i = ".toList ++ padLeft 10 (toString (1 + i)).toList
    ++ " f = ".toList ++ padLeft 20 (DoubleText.showDouble (s.f.getD i d)) ++ "\n".toList) (fun i text => do
      pure (text ++ "i = ".toList ++ Fortran.fmtI 10 (i : Int) ++ " f = ".toList
        ++ Fortran.inField 20 (DoubleText.showDouble (← Fortran.rd1 s.f i)) ++ ['\n'])) (fun i t hi => by
    have hi' : i < N.prod := by rw [← h.1]; exact hi
    rw [Fortran.rd1_of_lt (by omega), M.ok_bind, List.getD_eq_getElem _ _ hi, M.pure_eq, Fortran.fmtI, Fortran.showInt_nat,
      Fortran.inField_pad (Fortran.length_showSz10 (by omega)), Fortran.inField_pad (hl _), showSz_toString, Nat.add_comm]
    simp)
  simpa using this

end

/-! ### saveVTK of upwind5.pyx -/

namespace CyUpwind
variable {R : Type} [Zero R] [Add R] [Mul R] [NatCast R] [IntCast R] [DoubleText R] {s : CyUpwind R} {N : List Nat}

theorem nodes_eq (hN : s.numCells = ints N) (hax : ∀ n ∈ N, n < 2 ^ 31) {j : Nat} (hj : j < N.length) :
    (rd s.numCells j >>= fun n => mkInt64 (n + 1)) = .ok ((nodesOf N j : Nat) : Int) := by
  have h : j < (ints N).length := by simpa [ints] using hj
  have e : (ints N)[j] + 1 = ((N[j] + 1 : Nat) : Int) := by simp [ints]
  have hb := hax _ (List.getElem_mem hj)
  rw [hN, rd_of_lt h, M.ok_bind, e]
  unfold nodesOf
  rw [if_pos hj, List.getD_eq_getElem _ _ hj]
  exact mkInt64_nat (by omega)

theorem vtkDim_eq (hn : s.ndims = N.length) (hN : s.numCells = ints N) (hax : ∀ n ∈ N, n < 2 ^ 31) (j : Nat) :
    s.vtkDim j = .ok (' ' :: showSz (nodesOf N j) ++ [' ']) := by
  unfold vtkDim
  rw [hn]
  by_cases h : j < N.length
  · have e := nodes_eq hN hax h
    rw [if_pos h]
    have : (do pure (' ' :: showInt (← mkInt64 ((← rd s.numCells j) + 1)) ++ [' ']) : M Str) =
        (rd s.numCells j >>= fun n => mkInt64 (n + 1)) >>= fun n => pure (' ' :: showInt n ++ [' ']) := by
      cases rd s.numCells j <;> rfl
    rw [this, e, M.ok_bind, M.pure_eq, Fortran.showInt_nat]
  · rw [if_neg h, nodesOf, if_neg h]; rfl

theorem vtkCoordLoop_words (hcast : ∀ n : Nat, ((n : Int) : R) = (n : R)) (hd : s.deltas.length = N.length)
    (hN : s.numCells = ints N) (hax : ∀ n ∈ N, n < 2 ^ 31)
    (hw : ∀ x : R, IsWord (DoubleText.showDouble x)) {j : Nat} (hj : j < N.length) :
    ∃ text, s.vtkCoordLoop j = .ok text ∧ ∀ t, words (text ++ t) =
      showSz (nodesOf N j) :: "double".toList :: (coordTexts N s.deltas j ++ words t) := by
  have e := nodes_eq hN hax hj
  unfold vtkCoordLoop
  have : ∀ F : Int → M Str, (do let n ← mkInt64 ((← rd s.numCells j) + 1); F n : M Str) =
      (rd s.numCells j >>= fun n => mkInt64 (n + 1)) >>= F := by
    intro F; cases rd s.numCells j <;> rfl
  rw [this, e, M.ok_bind]
  refine ⟨_, forUp_text _ _ (fun i => ' ' :: DoubleText.showDouble (0 + s.deltas.getD j 0 * (i : R)) ++ ['\n']) _ ?_, fun t => ?_⟩
  · intro i t _
    rw [rd_of_lt (by omega), M.ok_bind, List.getD_eq_getElem _ _ (by omega), hcast, M.pure_eq, List.append_assoc]
  · rw [Fortran.showInt_nat, List.append_assoc, List.append_assoc, Int.toNat_natCast,
      show "  double\n".toList = ' ' :: " double\n".toList by decide +kernel, List.cons_append,
      words_word_blank (isWord_showSz _) (by decide),
      words_lit (ws := ["double".toList]) (by decide +kernel) (by decide +kernel),
      words_flatMap _ (fun i : Nat => [DoubleText.showDouble (0 + s.deltas.getD j 0 * (i : R))])]
    · unfold nodesOf coordTexts
      rw [if_pos hj, if_pos hj, ← List.map_eq_flatMap]
      rfl
    · intro i t
      rw [List.cons_append, List.cons_append, words_blank (by decide), List.append_assoc, List.singleton_append,
        words_word_blank (hw _) (by decide)]
      rfl

theorem vtkCoords_words (hcast : ∀ n : Nat, ((n : Int) : R) = (n : R)) (hn : s.ndims = N.length)
    (hd : s.deltas.length = N.length) (hN : s.numCells = ints N) (hax : ∀ n ∈ N, n < 2 ^ 31)
    (hw : ∀ x : R, IsWord (DoubleText.showDouble x)) (j : Nat) :
    ∃ text, s.vtkCoords j = .ok text ∧ ∀ t, words (text ++ t) =
      showSz (nodesOf N j) :: "double".toList :: (coordTexts N s.deltas j ++ words t) := by
  unfold vtkCoords
  rw [hn]
  by_cases h : j < N.length
  · rw [if_pos h]; exact vtkCoordLoop_words hcast hd hN hax hw h
  · rw [if_neg h]
    refine ⟨_, rfl, fun t => ?_⟩
    unfold coordTexts nodesOf
    rw [if_neg h, if_neg h, words_lit (ws := [showSz 1, "double".toList, "0.0".toList]) (by decide +kernel) (by decide +kernel)]
    rfl

theorem vtkValues_words (hl : s.ntot = s.f.length) (hw : ∀ x : R, IsWord (DoubleText.showDouble x)) :
    ∃ text, s.vtkValues = .ok text ∧ words text = s.f.map DoubleText.showDouble := by
  refine ⟨_, forUp_text s.ntot.toNat [] (fun i => DoubleText.showDouble (s.f.getD i 0) ++ ['\n']) _ ?_, ?_⟩
  · intro i t hi
    have h : i < s.f.length := by omega
    rw [rd_of_lt h, M.ok_bind, List.getD_eq_getElem _ _ h, M.pure_eq, List.append_assoc]
  · rw [List.nil_append, ← List.append_nil (List.flatMap _ _), words_flatMap _ (fun i => [DoubleText.showDouble (s.f.getD i 0)]),
      words_nil, List.append_nil, ← List.map_eq_flatMap, hl]
    · apply List.ext_getElem
      · simp
      · intro i h1 h2
        simp at h1 h2
        simp [h2]
    · intro i t
      rw [List.append_assoc, List.singleton_append, words_word_blank (hw _) (by decide)]
      rfl

/-- The file is the wrong version line and a text that with the right version line has these words. -/
theorem saveVTK_words (hcast : ∀ n : Nat, ((n : Int) : R) = (n : R)) (h0 : 0 < N.length) (hn : s.ndims = N.length)
    (hd : s.deltas.length = N.length) (hN : s.numCells = ints N) (hax : ∀ n ∈ N, n < 2 ^ 31)
    (hnt : s.ntot = N.prod) (hf : s.f.length = N.prod) (hw : ∀ x : R, IsWord (DoubleText.showDouble x)) :
    ∃ rest, s.saveVTK = .ok ("# vtk Data Version 2.0\n".toList ++ rest) ∧
      header ("# vtk DataFile Version 2.0\n".toList ++ rest) = some (rectWords (nodesOf N 2) (nodesOf N 1) (nodesOf N 0)
      (coordTexts N s.deltas 2) (coordTexts N s.deltas 1) (coordTexts N s.deltas 0) N.prod
      (s.f.map DoubleText.showDouble)) := by
  obtain ⟨tx, ex, hx⟩ := vtkCoords_words hcast hn hd hN hax hw 2
  obtain ⟨ty, ey, hy⟩ := vtkCoords_words hcast hn hd hN hax hw 1
  obtain ⟨tz, ez, hz⟩ := vtkCoordLoop_words hcast hd hN hax hw h0
  obtain ⟨tv, ev, hv⟩ := vtkValues_words (hnt.trans (by rw [hf])) hw
  have e := nodes_eq hN hax h0
  unfold saveVTK
  rw [vtkDim_eq hn hN hax, vtkDim_eq hn hN hax, ex, ey, ez, ev]
  have : ∀ F : Int → M Str, (do let n ← rd s.numCells 0; let n ← mkInt64 (n + 1); F n : M Str) =
      (rd s.numCells 0 >>= fun n => mkInt64 (n + 1)) >>= F := by
    intro F; cases rd s.numCells 0 <;> rfl
  simp only [M.ok_bind]
  rw [this, e]
  refine ⟨_, by simp only [List.append_assoc]; rfl, ?_⟩
  rw [hnt, show "upwind.cxx\n".toList = "upwind.cxx".toList ++ ['\n'] by decide +kernel, List.append_assoc, List.singleton_append,
    header_of _ (by decide +kernel)]
  congr 1
  unfold rectWords
  rw [Fortran.showInt_nat, Fortran.showInt_nat]
  simp only [List.append_assoc, List.cons_append, List.singleton_append, List.nil_append]
  rw [words_lit (ws := ["DATASET".toList, "RECTILINEAR_GRID".toList]) (by decide +kernel) (by decide +kernel),
    words_lit (ws := ["DIMENSIONS".toList]) (by decide +kernel) (by decide +kernel),
    words_blank (by decide), words_word_blank (isWord_showSz _) (by decide), words_blank (by decide),
    words_word_blank (isWord_showSz _) (by decide), words_blank (by decide),
    show "\n\n".toList = '\n' :: "\n".toList by decide +kernel, List.cons_append (a := '\n'),
    words_word_blank (isWord_showSz _) (by decide),
    words_lit (ws := []) (by decide +kernel) (by decide +kernel),
    words_lit (ws := ["X_COORDINATES".toList]) (by decide +kernel) (by decide +kernel), hx,
    words_lit (ws := ["Y_COORDINATES".toList]) (by decide +kernel) (by decide +kernel), hy,
    words_lit (ws := ["Z_COORDINATES".toList]) (by decide +kernel) (by decide +kernel), hz,
    words_lit (ws := ["CELL_DATA".toList]) (by decide +kernel) (by decide +kernel),
    show "\n".toList = ['\n'] by decide +kernel, List.singleton_append (x := '\n'),
    words_word_blank (isWord_showSz _) (by decide),
    words_lit (ws := ["SCALARS".toList, "f".toList, "double".toList, "1".toList]) (by decide +kernel) (by decide +kernel),
    words_lit (ws := ["LOOKUP_TABLE".toList, "default".toList]) (by decide +kernel) (by decide +kernel), hv,
    length_coordTexts, length_coordTexts, length_coordTexts]
  simp only [List.cons_append, List.nil_append]

theorem saveVTK_first {text : Str} (h : s.saveVTK = .ok text) : ∃ rest, text = "# vtk Data Version 2.0\n".toList ++ rest := by
  unfold saveVTK at h
  have key : ∀ {α : Type} (x : M α) (F : α → M Str), (x >>= F) = .ok text → ∃ a, F a = .ok text := by
    intro α x F hx
    cases x with
    | error _ => exact nomatch hx
    | ok a => exact ⟨a, hx⟩
  obtain ⟨_, h⟩ := key _ _ h
  obtain ⟨_, h⟩ := key _ _ h
  obtain ⟨_, h⟩ := key _ _ h
  obtain ⟨_, h⟩ := key _ _ h
  obtain ⟨_, h⟩ := key _ _ h
  obtain ⟨_, h⟩ := key _ _ h
  obtain ⟨_, h⟩ := key _ _ h
  obtain ⟨_, h⟩ := key _ _ h
  injection h with h
  simp only [List.append_assoc] at h
  exact ⟨_, h.symm⟩

end CyUpwind
end Fidi
