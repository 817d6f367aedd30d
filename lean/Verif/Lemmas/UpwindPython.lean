import Verif.Model.UpwindPython
import Verif.Spec.UpwindOther
import Verif.Lemmas.UpwindExact

/-
Closed forms for upwind.py.
-/
set_option linter.unusedSectionVars false

namespace Fidi
open Spec

theorem mapM_pure {α β : Type} {g : α → M β} {h : α → β} : ∀ {l : List α}, (∀ a ∈ l, g a = .ok (h a)) →
    l.mapM g = .ok (l.map h)
  | [], _ => rfl
  | a :: l, hl => by
    rw [List.mapM_cons, hl a (by simp), M.ok_bind, mapM_pure (l := l) (fun b hb => hl b (by simp [hb])), M.ok_bind]
    rfl

theorem mkInt_nat' {x : Nat} (h : x < 2147483648) : mkInt (x : Int) = .ok (x : Int) :=
  mkInt_ok (by rw [intLim_eq]; omega) (by rw [intLim_eq]; omega)

/-- The axes `0, ..., j - 1` of a step. -/
def axesDone {R : Type} [Sub R] (dims : List Nat) (s : Nat → Int) (chg : Nat → R → R → R) (u : List Nat → R) (j : Nat)
    (g : List Nat) : R :=
  (List.range j).foldl (fun acc j => acc - chg j (u (neighbour dims j (s j) g)) (u g)) (u g)

theorem axesDone_succ {R : Type} [Sub R] (dims : List Nat) (s : Nat → Int) (chg : Nat → R → R → R) (u : List Nat → R)
    (j : Nat) (g : List Nat) : axesDone dims s chg u (j + 1) g =
      axesDone dims s chg u j g - chg j (u (neighbour dims j (s j) g)) (u g) := by
  simp only [axesDone, List.range_succ, List.foldl_append, List.foldl_cons, List.foldl_nil]

namespace PyUpwind
open Upwind
variable {R : Type} [Zero R] [One R] [Add R] [Sub R] [Mul R] [Div R] [NatCast R] [IntCast R] [LT R] [DecidableLT R]
variable {v L : List R} {N : List Nat} {f : List R}

/-- Row `j` of the index sets. -/
def row (N : List Nat) (j : Nat) : List Int := (List.range N.prod).map fun c => (((cellAt N c).getD j 0 : Nat) : Int)

/-- All rows. -/
def rows (N : List Nat) : List (List Int) := (List.range N.length).map (row N)

/-- Row `j` of the index sets of the upwind cells along axis `j`. -/
def rowUp (v : List R) (N : List Nat) (j : Nat) : List Int :=
  (List.range N.prod).map fun c => (((neighbour N j (upDir v j) (cellAt N c)).getD j 0 : Nat) : Int)

/-- Closed form of the objects. -/
def built (v L : List R) (N : List Nat) (f : List R) : PyUpwind R :=
  { ndims := N.length, ntot := (N.prod : Int), numCells := ints N, upDirection := (List.range N.length).map (upDir v),
    deltas := (List.range N.length).map (cellWidth L N), v, lengths := L,
    coeff := (List.range N.length).map fun j => v.getD j 0 * (upDir v j : R) / cellWidth L N j, f,
    dimProd := ints (strideR N), inds := rows N }

theorem new_loop (hcast : ∀ n : Nat, ((n : Int) : R) = (n : R))
    (hv : v.length = N.length) (hL : L.length = N.length) :
    forUp 0 N.length (List.replicate N.length (0 : R), List.replicate N.length (0 : Int), 1) (newBody v L (ints N)) =
      .ok ((List.range N.length).map (cellWidth L N), (List.range N.length).map (upDir v), (N.prod : Int)) := by
  obtain ⟨s, e, h1, h2, h3, h4, h5⟩ := forUp_inv (Nat.zero_le N.length)
    (fun i (s : List R × List Int × Int) => s.1.length = N.length ∧ s.2.1.length = N.length ∧
      (∀ j, j < i → s.1[j]? = some (cellWidth L N j)) ∧ (∀ j, j < i → s.2.1[j]? = some (upDir v j)) ∧
      s.2.2 = ((N.take i).prod : Nat))
    (newBody v L (ints N))
    (List.replicate N.length (0 : R), List.replicate N.length (0 : Int), 1)
    ⟨by simp, by simp, by intro j hj; omega, by intro j hj; omega, by simp⟩
    (by
      rintro i ⟨d, u, t⟩ _ hi ⟨h1, h2, h3, h4, h5⟩
      simp only at h1 h2 h3 h4 h5
      have hpr : (N.take (i + 1)).prod = (N.take i).prod * N[i] := List.prod_take_succ _ _ hi
      refine ⟨(d.set i (cellWidth L N i), u.set i (upDir v i), ((N.take (i + 1)).prod : Nat)), ?_, by simpa using h1,
        by simpa using h2, ?_, ?_, rfl⟩
      · simp only [newBody]
        rw [wr_of_lt (by omega), rd_of_lt (v := v) (by omega), rd_of_lt (v := L) (by omega),
          rd_of_lt (v := ints N) (by simpa using hi)]
        have hvi : v.getD i 0 = v[i]'(by omega) := getD_of_lt (by omega)
        have hLi : L.getD i 0 = L[i]'(by omega) := getD_of_lt (by omega)
        have hNi : N.getD i 0 = N[i] := natGetD_of_lt hi
        have hmul : t * (N[i] : Int) = (((N.take (i + 1)).prod : Nat) : Int) := by
          rw [h5, ← Nat.cast_mul, ← hpr]
        simp only [M.ok_bind, M.pure_eq, upDir, cellWidth, hvi, hLi, hNi, List.getElem_map, hcast, hmul]
        split
        · rw [wr_of_lt (by simp; omega)]
          simp only [M.ok_bind]
          rw [wr_of_lt (by omega)]
          simp
        · rw [wr_of_lt (by omega)]
          simp
      · intro j hj
        by_cases hji : i = j
        · subst hji; simp [h1, hi]
        · simp only
          rw [List.getElem?_set_ne hji]; exact h3 j (by omega)
      · intro j hj
        by_cases hji : i = j
        · subst hji; simp [h2, hi]
        · simp only
          rw [List.getElem?_set_ne hji]; exact h4 j (by omega))
  rw [e]
  obtain ⟨d, u, t⟩ := s
  simp only at h1 h2 h3 h4 h5
  have e1 : d = (List.range N.length).map (cellWidth L N) := by
    apply ext_of_getElem? (by simp [h1])
    intro i hi
    simp at hi
    rw [h3 i hi]; simp [hi]
  have e2 : u = (List.range N.length).map (upDir v) := by
    apply ext_of_getElem? (by simp [h2])
    intro i hi
    simp at hi
    rw [h4 i hi]; simp [hi]
  rw [e1, e2, h5]
  simp

theorem strideR_get {N : List Nat} {i : Nat} (h : i < N.length) : (ints (strideR N))[i]? = some ((N.drop (i + 1)).prod : Int) := by
  simp only [List.getElem?_map, getElem?_strideR N i h]
  rfl

theorem dimProd_loop (hg : GoodGrid N) :
    (forDown (N.length - 1) (List.replicate N.length (1 : Int)) fun i dp => do
        wr dp i (← mkInt ((← rd dp (i + 1)) * (← rd (ints N) (i + 1))))) = .ok (ints (strideR N)) := by
  have hp := hg.prod
  obtain ⟨s, e, hl', hp'⟩ := forDown_inv (N.length - 1)
    (fun i (s : List Int) => s.length = N.length ∧ ∀ j, i ≤ j → j < N.length → s[j]? = some ((N.drop (j + 1)).prod : Int))
    (fun i dp => do wr dp i (← mkInt ((← rd dp (i + 1)) * (← rd (ints N) (i + 1)))))
    (List.replicate N.length (1 : Int))
    (by
      refine ⟨by simp, ?_⟩
      intro j h1 h2
      rw [List.getElem?_replicate, if_pos h2, List.drop_of_length_le (by omega)]; rfl)
    (by
      intro i s hi ⟨h1, h2⟩
      have hi2 : i + 1 < N.length := by omega
      have e1 := h2 (i + 1) (Nat.le_refl _) hi2
      have e2 : (ints N)[i + 1]? = some (N[i + 1] : Int) := by simp [hi2]
      have e3 : (((N.drop (i + 1 + 1)).prod : Nat) : Int) * (N[i + 1] : Int) = ((N.drop (i + 1)).prod : Nat) := by
        rw [← Nat.cast_mul, Nat.mul_comm, ← List.prod_cons, List.getElem_cons_drop]
      have hle := prod_drop_le hg.pos (i + 1)
      refine ⟨s.set i ((N.drop (i + 1)).prod : Nat), ?_, by simpa using h1, ?_⟩
      · rw [rd_of_some e1, M.ok_bind, rd_of_some e2, M.ok_bind, e3, mkInt_nat' (by omega), M.ok_bind]
        exact wr_of_lt (by omega)
      · intro j hj1 hj2
        by_cases hji : i = j
        · subst hji
          rw [List.getElem?_set_self (by omega)]
        · rw [List.getElem?_set_ne hji]
          exact h2 j (by omega) hj2)
  rw [e]
  congr 1
  apply ext_of_getElem? (by simp [hl'])
  intro i hi
  have hi' : i < N.length := by simpa using hi
  rw [hp' i (Nat.zero_le _) hi', strideR_get hi']

theorem inds_loop (hg : GoodGrid N) :
    (forUp 0 N.length (List.replicate N.length (List.replicate N.prod (0 : Int))) fun j inds => do
      let row ← (List.range N.prod).mapM fun c : Nat => do
        let q ← floorDiv (← mkInt (c : Int)) (← rd (ints (strideR N)) j)
        floorMod q (← mkInt (← rd (ints N) j))
      wr inds j row) = .ok (rows N) := by
  have hp := hg.prod
  rw [forUp_fill (g := row N) _ _ (by simp)]
  · rfl
  · intro j w hj hw _
    have hs : (strideR N).length = N.length := by simp
    have h1 : 0 < (strideR N)[j]'(by omega) := (strides_pos_le true hg.pos _ (List.getElem_mem (l := strideR N) (by omega))).1
    have h2 : 0 < N[j] := hg.pos _ (List.getElem_mem hj)
    have h5 := hg.mem_lt (List.getElem_mem hj)
    rw [mapM_pure (h := fun c => (((cellAt N c).getD j 0 : Nat) : Int)) ?_, M.ok_bind]
    · exact wr_of_lt (by omega)
    · intro c hc
      rw [List.mem_range] at hc
      have hl := (cellAt_inGrid hg.pos c).length_eq
      have h3 : j < (cellAt N c).length := by omega
      have h4 : (cellAt N c)[j] = c / (strideR N)[j]'(by omega) % N[j] := by simp [cellAt, digitsOf]
      rw [mkInt_nat' (by omega), M.ok_bind, rd_of_lt (v := ints (strideR N)) (by simpa using hj), M.ok_bind,
        List.getElem_map, rd_of_lt (v := ints N) (by simpa using hj)]
      unfold floorDiv
      rw [if_neg (by omega), M.ok_bind, M.ok_bind, List.getElem_map, mkInt_nat' (by omega), M.ok_bind]
      unfold floorMod
      rw [if_neg (by omega), natGetD_of_lt h3, h4, Int.fdiv_eq_ediv_of_nonneg _ (by omega),
        Int.fmod_eq_emod_of_nonneg _ (by omega)]
      simp

theorem new_eq (hcast : ∀ n : Nat, ((n : Int) : R) = (n : R)) (hg : GoodGrid N)
    (hv : v.length = N.length) (hL : L.length = N.length) :
    new v L (ints N) = .ok (built v L N (listOf N cornerField)) := by
  have hp := prod_pos_of hg.pos
  have e1 := new_loop hcast hv hL
  have e2 := dimProd_loop hg
  have e3 := inds_loop hg
  unfold new
  rw [hv]
  dsimp only
  rw [e1]
  simp only [M.ok_bind]
  rw [e2]
  simp only [M.ok_bind]
  rw [mapM_pure (h := fun j => v.getD j 0 * (upDir v j : R) / cellWidth L N j)]
  · simp only [M.ok_bind, Int.toNat_natCast]
    rw [if_neg (by omega), wr_of_lt (by simpa using hp)]
    simp only [M.ok_bind, M.pure_eq]
    rw [e3]
    simp only [M.ok_bind, built]
    congr 2
    have := (stores_iff hg.pos (f := (List.replicate N.prod (0 : R)).set 0 1) (u := cornerField)).1 (by
      have h := Upwind.built_stores (v := v) (L := L) (N := N) hg
      have hf : (Upwind.built v L N).f = (List.replicate N.prod (0 : R)).set 0 1 := by
        have := hg.prod
        simp only [Upwind.built]
        rw [Nat.mod_eq_of_lt (by unfold W; omega)]
      rw [hf] at h
      exact h)
    exact this
  · intro j hj
    rw [List.mem_range] at hj
    rw [rd_of_lt (v := v) (by omega), rd_of_lt (v := (List.range N.length).map (upDir v)) (by simpa using hj),
      rd_of_lt (v := (List.range N.length).map (cellWidth L N)) (by simpa using hj), getD_of_lt (by omega)]
    simp

/-- Flat indices from rows of index sets. -/
theorem flatInds_eq (hg : GoodGrid N) (G : Nat → List Nat) (hG : ∀ c, c < N.prod → InGrid N (G c))
    (rs : List (List Int)) (hrs : ∀ j, j < N.length → rs[j]? = some ((List.range N.prod).map fun c =>
      (((G c).getD j 0 : Nat) : Int))) :
    (built v L N f).flatInds rs = .ok ((List.range N.prod).map fun c => ((rankOf N (G c) : Nat) : Int)) := by
  unfold flatInds
  simp only [built, Int.toNat_natCast]
  apply mapM_pure
  intro c hc
  rw [List.mem_range] at hc
  have ht := hG c hc
  generalize hgt : G c = t at ht
  have hd := dotR_lt N t ht
  have hp := hg.prod
  have hl := ht.length_eq
  have key : ∀ i, i ≤ N.length → ((List.zipWith (· * ·) (strideR N) t).take i).sum ≤ dot (strideR N) t := by
    intro i hi
    unfold dot
    conv_rhs => rw [← List.take_append_drop i (List.zipWith (· * ·) (strideR N) t), List.sum_append]
    omega
  obtain ⟨s, e, hs⟩ := forUp_inv (Nat.zero_le N.length)
    (fun i (s : Int) => s = (((List.zipWith (· * ·) (strideR N) t).take i).sum : Nat))
    (fun j (acc : Int) => do
      mkInt (acc + (← mkInt ((← rd (ints (strideR N)) j) * (← rd (← rd rs j) c)))))
    0 (by simp)
    (by
      intro i s _ hi hs
      have h1 : i < (strideR N).length := by simpa using hi
      have h3 : i < t.length := by omega
      have h4 : i < (List.zipWith (· * ·) (strideR N) t).length := by simp; omega
      have k2 := key (i + 1) (by omega)
      have e1 : ((List.zipWith (· * ·) (strideR N) t).take (i + 1)).sum =
          ((List.zipWith (· * ·) (strideR N) t).take i).sum + (strideR N)[i] * t[i] := by
        rw [List.sum_take_succ _ _ h4]; simp
      refine ⟨((((List.zipWith (· * ·) (strideR N) t).take (i + 1)).sum : Nat) : Int), ?_, rfl⟩
      rw [e1] at k2
      have e5 : ((List.range N.prod).map fun c => (((G c).getD i 0 : Nat) : Int))[c]? = some (t[i] : Int) := by
        simp [hc, hgt, h3]
      rw [rd_of_lt (v := ints (strideR N)) (by simpa using hi), M.ok_bind, List.getElem_map, rd_of_some (hrs i hi), M.ok_bind,
        rd_of_some e5, M.ok_bind,
        ← Nat.cast_mul, mkInt_nat' (by omega), M.ok_bind, hs, ← Nat.cast_add, mkInt_nat' (by omega), e1])
  rw [e, hs]
  have : (List.zipWith (· * ·) (strideR N) t).take N.length = List.zipWith (· * ·) (strideR N) t := by
    apply List.take_of_length_le; simp [hl]
  rw [this, rankOf_eq_dot N t hl]
  rfl

theorem pyGet_nat {α : Type} {a : List α} {i : Nat} {x : α} (h : a[i]? = some x) : pyGet a (i : Int) = .ok x := by
  unfold pyGet
  rw [if_pos (by omega), Int.toNat_natCast]
  exact rd_of_some h

theorem axisBody_eq (hg : GoodGrid N) (dt : R) (u : List Nat → R) {j : Nat} (hj : j < N.length) :
    (built v L N f).axisBody dt (listOf N u) j
        (rows N, listOf N (axesDone N (upDir v) (changeTimeLast dt v L N) u j)) =
      .ok (rows N, listOf N (axesDone N (upDir v) (changeTimeLast dt v L N) u (j + 1))) := by
  have hp := hg.prod
  have h2 : 0 < N[j] := hg.pos _ (List.getElem_mem hj)
  have h5 := hg.mem_lt (List.getElem_mem hj)
  have hrj : (rows N)[j]? = some (row N j) := by simp [rows, hj]
  have hup := upDir_cases v j
  have e1 : (built v L N f).upDirection[j]? = some (upDir v j) := by simp [built, hj]
  have e2 : (built v L N f).numCells[j]? = some (N[j] : Int) := by simp [built, hj]
  have e3 : (row N j).mapM (fun x => do floorMod (← mkInt (x + upDir v j)) (N[j] : Int)) = .ok (rowUp v N j) := by
    unfold row
    rw [List.mapM_map]
    apply mapM_pure
    intro c hc
    rw [List.mem_range] at hc
    have hin := cellAt_inGrid hg.pos c
    have hl := hin.length_eq
    have h6 := (inGrid_iff_getElem.1 hin).2 j hj (by omega)
    have h7 : (cellAt N c).getD j 0 = (cellAt N c)[j]'(by omega) := natGetD_of_lt (by omega)
    simp only [Function.comp]
    rw [h7, mkInt_ok (by rw [intLim_eq]; rcases hup with h | h <;> rw [h] <;> omega)
      (by rw [intLim_eq]; rcases hup with h | h <;> rw [h] <;> omega), M.ok_bind]
    unfold floorMod
    rw [if_neg (by omega), Int.fmod_eq_emod_of_nonneg _ (by omega)]
    have hj' : j < (cellAt N c).length := by omega
    simp only [neighbour, List.getD_eq_getElem?_getD, List.getElem?_set_self hj', Option.getD_some]
    rw [List.getElem?_eq_getElem hj', List.getElem?_eq_getElem hj]
    simp only [Option.getD_some]
    rw [Int.toNat_of_nonneg (Int.emod_nonneg _ (by omega))]
  have e4 : (built v L N f).flatInds ((rows N).set j (rowUp v N j)) = .ok ((List.range N.prod).map fun c =>
      ((rankOf N (neighbour N j (upDir v j) (cellAt N c)) : Nat) : Int)) := by
    refine flatInds_eq hg (fun c => neighbour N j (upDir v j) (cellAt N c))
      (fun c _ => neighbour_inGrid (cellAt_inGrid hg.pos c) j _) _ ?_
    intro i hi
    by_cases hij : j = i
    · subst hij
      rw [List.getElem?_set_self (by simpa [rows] using hi)]
      rfl
    · rw [List.getElem?_set_ne hij]
      simp only [rows, List.getElem?_map, List.getElem?_range hi, Option.map_some, row]
      congr 2
      funext c
      simp only [neighbour, List.getD_eq_getElem?_getD, List.getElem?_set_ne hij]
  have e5 : (built v L N f).coeff[j]? = some (v.getD j 0 * (upDir v j : R) / cellWidth L N j) := by simp [built, hj]
  unfold axisBody
  simp only
  rw [rd_of_some e1, M.ok_bind, rd_of_some e2, M.ok_bind, rd_of_some hrj, M.ok_bind, e3, M.ok_bind,
    wr_of_lt (by simpa [rows] using hj), M.ok_bind, e4, M.ok_bind, rd_of_some e5, M.ok_bind]
  rw [mapM_pure (h := fun i => axesDone N (upDir v) (changeTimeLast dt v L N) u (j + 1) (cellAt N i))]
  · rw [M.ok_bind, rd_of_some (show (built v L N f).inds[j]? = some (row N j) from hrj), M.ok_bind,
      wr_of_lt (by simpa [rows] using hj), M.ok_bind, M.pure_eq, List.set_set]
    congr 2
    · apply List.ext_getElem?
      intro i
      rw [List.getElem?_set]
      split
      · next h => subst h; rw [if_pos (by simpa [rows] using hj), hrj]
      · rfl
    · simp [listOf]
  · intro i hi
    have hi' : i < N.prod := by simpa [listOf] using hi
    have g1 : (listOf N (axesDone N (upDir v) (changeTimeLast dt v L N) u j))[i]? =
        some (axesDone N (upDir v) (changeTimeLast dt v L N) u j (cellAt N i)) := by simp [listOf, hi']
    have g2 : ((List.range N.prod).map fun c =>
      ((rankOf N (neighbour N j (upDir v j) (cellAt N c)) : Nat) : Int))[i]? =
        some ((rankOf N (neighbour N j (upDir v j) (cellAt N i)) : Nat) : Int) := by simp [hi']
    have g3 : (listOf N u)[i]? = some (u (cellAt N i)) := by simp [listOf, hi']
    rw [rd_of_some g1, M.ok_bind, rd_of_some g2, M.ok_bind,
      pyGet_nat ((Stores.listOf hg.pos u).2 _ (neighbour_inGrid (cellAt_inGrid hg.pos i) j _)), M.ok_bind,
      rd_of_some g3, M.ok_bind, M.pure_eq, axesDone_succ]
    rfl

theorem advect_eq (hg : GoodGrid N) (dt : R) (u : List Nat → R) :
    (built v L N (listOf N u)).advect dt =
      .ok (built v L N (listOf N (schemeStep N (upDir v) (changeTimeLast dt v L N) u))) := by
  unfold advect
  obtain ⟨s, e, hs⟩ := forUp_inv (Nat.zero_le N.length)
    (fun j s => s = (rows N, listOf N (axesDone N (upDir v) (changeTimeLast dt v L N) u j)))
    ((built v L N (listOf N u)).axisBody dt (listOf N u)) (rows N, listOf N u) rfl
    (by
      rintro j s _ hj rfl
      exact ⟨_, axisBody_eq hg dt u hj, rfl⟩)
  have : forUp 0 (built v L N (listOf N u)).ndims ((built v L N (listOf N u)).inds, (built v L N (listOf N u)).f)
    ((built v L N (listOf N u)).axisBody dt (built v L N (listOf N u)).f) = .ok s := e
  rw [this, hs]
  rfl

theorem steps_eq (hg : GoodGrid N) (k : Int) (dt : R) (u : List Nat → R) :
    (built v L N (listOf N u)).steps k dt =
      .ok (built v L N (listOf N ((schemeStep N (upDir v) (changeTimeLast dt v L N))^[k.toNat] u))) := by
  unfold steps
  obtain ⟨s, e, hs⟩ := forUp_inv (Nat.zero_le k.toNat)
    (fun j s => s = built v L N (listOf N ((schemeStep N (upDir v) (changeTimeLast dt v L N))^[j] u)))
    (fun _ s => s.advect dt) (built v L N (listOf N u)) rfl
    (by
      rintro j s _ hj rfl
      exact ⟨_, advect_eq hg dt _, by rw [Function.iterate_succ_apply']⟩)
  rw [e, hs]

end PyUpwind
end Fidi
