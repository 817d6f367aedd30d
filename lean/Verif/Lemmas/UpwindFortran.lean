import Verif.Model.UpwindFortran
import Verif.Spec.UpwindOther
import Verif.Lemmas.Matmult
import Verif.Lemmas.UpwindPar

/-
Closed forms for the Fortran versions of the upwind solver.
-/
set_option linter.unusedSectionVars false

namespace Fidi
open Spec

namespace Fortran

theorem rd1_of_some {α : Type} {v : List α} {i : Nat} {x : α} (h : v[i]? = some x) : rd1 v (i + 1) = .ok x := by
  unfold rd1
  rw [if_neg (by omega), Nat.add_sub_cancel]
  exact rd_of_some h

theorem rd1_of_lt {α : Type} {v : List α} {i : Nat} (h : i < v.length) : rd1 v (i + 1) = .ok v[i] :=
  rd1_of_some (List.getElem?_eq_getElem h)

theorem wr1_of_lt {α : Type} {v : List α} {i : Nat} (h : i < v.length) (x : α) : wr1 v (i + 1) x = .ok (v.set i x) := by
  unfold wr1
  rw [if_neg (by omega), Nat.add_sub_cancel]
  exact wr_of_lt h

/-- A `do` loop that fills a vector. -/
theorem doUp_fill {α : Type} {n : Nat} (hn : n + 1 < 2 ^ 31) (v : List α) (hv : v.length = n) (g : Nat → α)
    (f : Nat → List α → M (List α))
    (hf : ∀ i v, i < n → v.length = n → f (i + 1) v = .ok (v.set i (g i))) :
    doUp n v f = .ok ((List.range n).map g) := by
  obtain ⟨s, e, hl, hp⟩ := doUp_inv hn (fun i (s : List α) => s.length = n ∧ ∀ j, j < i → s[j]? = some (g j)) f v
    ⟨hv, by intro j hj; omega⟩
    (by
      intro i s hi ⟨hl, hp⟩
      refine ⟨_, hf i s hi hl, by simpa using hl, fun j hj => ?_⟩
      by_cases h : i = j
      · subst h; simp [hl, hi]
      · rw [List.getElem?_set_ne h]; exact hp j (by omega))
  rw [e]
  congr 1
  apply ext_of_getElem? (by simp [hl])
  intro i hi
  have hi' : i < n := by simpa using hi
  rw [hp i hi']
  simp [hi']

theorem endsPast_of {n : Nat} (hn : n + 1 < 2 ^ 31) : endsPast n = false := by
  simp [endsPast, intLim]; omega

theorem mkInt_nat {x : Nat} (h : x < 2147483648) : mkInt (x : Int) = .ok (x : Int) :=
  mkInt_ok (by rw [intLim_eq]; omega) (by rw [intLim_eq]; omega)

end Fortran

theorem Upwind.GoodGrid.prod_lit {N : List Nat} (hg : Upwind.GoodGrid N) : N.prod < 2147483648 := by
  have := hg.prod
  omega

namespace FUpwind
open Fortran Upwind
variable {R : Type} [Zero R] [One R] [Add R] [Sub R] [Mul R] [Div R] [NatCast R] [IntCast R] [LT R] [DecidableLT R]
variable {v L : List R} {N : List Nat} {f : List R}

/-- Closed form of the objects. -/
def built (v L : List R) (N : List Nat) (f : List R) : FUpwind R :=
  { ndims := N.length, ntot := (N.prod : Int), numCells := ints N, upDirection := (List.range N.length).map (upDir v),
    deltas := (List.range N.length).map (cellWidth L N), v, lengths := L, f, dimProd := ints (strideR N) }

theorem new_loop (hcast : ∀ n : Nat, ((n : Int) : R) = (n : R)) (hg : GoodGrid N) (hd : N.length + 1 < 2 ^ 31)
    (hv : v.length = N.length) (hL : L.length = N.length) :
    doUp N.length (List.replicate N.length (0 : R), List.replicate N.length (0 : Int), 1) (newBody v L (ints N)) =
      .ok ((List.range N.length).map (cellWidth L N), (List.range N.length).map (upDir v), (N.prod : Int)) := by
  obtain ⟨s, e, h1, h2, h3, h4, h5⟩ := doUp_inv hd
    (fun i (s : List R × List Int × Int) => s.1.length = N.length ∧ s.2.1.length = N.length ∧
      (∀ j, j < i → s.1[j]? = some (cellWidth L N j)) ∧ (∀ j, j < i → s.2.1[j]? = some (upDir v j)) ∧
      s.2.2 = ((N.take i).prod : Nat))
    (newBody v L (ints N))
    (List.replicate N.length (0 : R), List.replicate N.length (0 : Int), 1)
    ⟨by simp, by simp, by intro j hj; omega, by intro j hj; omega, by simp⟩
    (by
      rintro i ⟨d, u, t⟩ hi ⟨h1, h2, h3, h4, h5⟩
      simp only at h1 h2 h3 h4 h5
      have hp := hg.prod_lit
      have hle := prod_take_le hg.pos (i + 1)
      have hpr : (N.take (i + 1)).prod = (N.take i).prod * N[i] := List.prod_take_succ _ _ hi
      refine ⟨(d.set i (cellWidth L N i), u.set i (upDir v i), ((N.take (i + 1)).prod : Nat)), ?_, by simpa using h1,
        by simpa using h2, ?_, ?_, rfl⟩
      · simp only [newBody]
        rw [wr1_of_lt (by omega), rd1_of_lt (v := v) (by omega), rd1_of_lt (v := L) (by omega),
          rd1_of_lt (v := ints N) (by simpa using hi)]
        have hvi : v.getD i 0 = v[i]'(by omega) := getD_of_lt (by omega)
        have hLi : L.getD i 0 = L[i]'(by omega) := getD_of_lt (by omega)
        have hNi : N.getD i 0 = N[i] := natGetD_of_lt hi
        simp only [M.ok_bind, M.pure_eq, upDir, cellWidth, hvi, hLi, hNi, List.getElem_map, hcast]
        have hmul : mkInt (t * (N[i] : Int)) = .ok (((N.take (i + 1)).prod : Nat) : Int) := by
          rw [h5, ← Nat.cast_mul, ← hpr]
          exact mkInt_nat (by omega)
        split
        · rw [wr1_of_lt (by simp; omega)]
          simp only [M.ok_bind]
          rw [wr1_of_lt (by omega), hmul]
          simp
        · rw [wr1_of_lt (by omega), hmul]
          simp
      · intro j hj
        by_cases hji : i = j
        · subst hji; simp [h1, hi]
        · simp only
          rw [List.getElem?_set_ne hji]; exact h3 j (by omega)
      · intro j hj
        by_cases hji : i = j
        · subst hji; simp [h2, hi]
        · simp only
          rw [List.getElem?_set_ne hji]; exact h4 j (by omega))
  rw [e]
  obtain ⟨d, u, t⟩ := s
  simp only at h1 h2 h3 h4 h5
  have e1 : d = (List.range N.length).map (cellWidth L N) := by
    apply ext_of_getElem? (by simp [h1])
    intro i hi
    simp at hi
    rw [h3 i hi]; simp [hi]
  have e2 : u = (List.range N.length).map (upDir v) := by
    apply ext_of_getElem? (by simp [h2])
    intro i hi
    simp at hi
    rw [h4 i hi]; simp [hi]
  rw [e1, e2, h5]
  simp

theorem strideR_get {N : List Nat} {i : Nat} (h : i < N.length) : (ints (strideR N))[i]? = some ((N.drop (i + 1)).prod : Int) := by
  simp only [List.getElem?_map, getElem?_strideR N i h]
  rfl

theorem dimProd_loop (hN : N ≠ []) (hg : GoodGrid N) :
    (do
      let dp ← wr1 (List.replicate N.length (0 : Int)) N.length 1
      forDown (N.length - 1) dp fun i dp => do
        wr1 dp (i + 1) (← mkInt ((← rd1 dp (i + 2)) * (← rd1 (ints N) (i + 2))))) = .ok (ints (strideR N)) := by
  have hpos : 0 < N.length := List.length_pos_iff.2 hN
  have hp := hg.prod_lit
  obtain ⟨n, hn⟩ : ∃ n, N.length = n + 1 := ⟨N.length - 1, by omega⟩
  have e0 : wr1 (List.replicate N.length (0 : Int)) N.length 1 = .ok ((List.replicate N.length (0 : Int)).set n 1) := by
    rw [hn]; exact wr1_of_lt (by simp) _
  rw [e0]
  simp only [M.ok_bind]
  obtain ⟨s, e, hl', hp'⟩ := forDown_inv (N.length - 1)
    (fun i (s : List Int) => s.length = N.length ∧ ∀ j, i ≤ j → j < N.length → s[j]? = some ((N.drop (j + 1)).prod : Int))
    (fun i dp => do wr1 dp (i + 1) (← mkInt ((← rd1 dp (i + 2)) * (← rd1 (ints N) (i + 2)))))
    ((List.replicate N.length (0 : Int)).set n 1)
    (by
      refine ⟨by simp, ?_⟩
      intro j h1 h2
      have : j = n := by omega
      subst this
      rw [List.getElem?_set_self (by simp; omega), List.drop_of_length_le (by omega)]; rfl)
    (by
      intro i s hi ⟨h1, h2⟩
      have hi2 : i + 1 < N.length := by omega
      have e1 := h2 (i + 1) (Nat.le_refl _) hi2
      have e2 : (ints N)[i + 1]? = some (N[i + 1] : Int) := by simp [hi2]
      have e3 : (((N.drop (i + 1 + 1)).prod : Nat) : Int) * (N[i + 1] : Int) = ((N.drop (i + 1)).prod : Nat) := by
        rw [← Nat.cast_mul, Nat.mul_comm, ← List.prod_cons, List.getElem_cons_drop]
      have hle := prod_drop_le hg.pos (i + 1)
      refine ⟨s.set i ((N.drop (i + 1)).prod : Nat), ?_, by simpa using h1, ?_⟩
      · rw [rd1_of_some e1, M.ok_bind, rd1_of_some e2, M.ok_bind, e3, mkInt_nat (by omega), M.ok_bind]
        exact wr1_of_lt (by omega) _
      · intro j hj1 hj2
        by_cases hji : i = j
        · subst hji
          rw [List.getElem?_set_self (by omega)]
        · rw [List.getElem?_set_ne hji]
          exact h2 j (by omega) hj2)
  rw [e]
  congr 1
  apply ext_of_getElem? (by simp [hl'])
  intro i hi
  have hi' : i < N.length := by simpa using hi
  rw [hp' i (Nat.zero_le _) hi', strideR_get hi']

theorem new_eq (hcast : ∀ n : Nat, ((n : Int) : R) = (n : R)) (hN : N ≠ []) (hg : GoodGrid N) (hd : N.length + 1 < 2 ^ 31)
    (hv : v.length = N.length) (hL : L.length = N.length) :
    new v L (ints N) = .ok (built v L N (listOf N cornerField)) := by
  have hp := prod_pos_of hg.pos
  have e1 := new_loop hcast hg hd hv hL
  have e2 := dimProd_loop hN hg
  unfold new
  rw [hv]
  dsimp only
  rw [e1]
  simp only [M.ok_bind]
  rw [← bind_assoc, e2]
  simp only [M.ok_bind, Int.toNat_natCast]
  rw [show (1 : Nat) = 0 + 1 from rfl, wr1_of_lt (by simpa using hp)]
  simp only [M.ok_bind, M.pure_eq, built]
  congr 2
  have := (stores_iff hg.pos (f := (List.replicate N.prod (0 : R)).set 0 1) (u := cornerField)).1 (by
    have h := Upwind.built_stores (v := v) (L := L) (N := N) hg
    have hf : (Upwind.built v L N).f = (List.replicate N.prod (0 : R)).set 0 1 := by
      have := hg.prod
      simp only [Upwind.built]
      rw [Nat.mod_eq_of_lt (by unfold W; omega)]
    rw [hf] at h
    exact h)
  exact this

theorem getIndexSet_eq (hg : GoodGrid N) (hd : N.length + 1 < 2 ^ 31) {i : Nat} (hi : i < N.prod) :
    (built v L N f).getIndexSet (i + 1) = .ok ((cellAt N i).map fun n : Nat => (n : Int) + 1) := by
  have hp := hg.prod_lit
  have hl := (cellAt_inGrid hg.pos i).length_eq
  unfold getIndexSet
  simp only [built]
  rw [doUp_fill hd _ (by simp) (fun j => (((cellAt N i).getD j 0 : Nat) : Int) + 1)]
  · congr 1
    apply ext_of_getElem? (by simp [hl])
    intro j hj
    simp at hj
    have h2 : j < N.length := by omega
    simp [hj, h2]
  · intro j w hj hw
    have hs : (strideR N).length = N.length := by simp
    have h1 : 0 < (strideR N)[j]'(by omega) := (strides_pos_le true hg.pos _ (List.getElem_mem (l := strideR N) (by omega))).1
    have h2 : 0 < N[j] := hg.pos _ (List.getElem_mem hj)
    have h3 : j < (cellAt N i).length := by omega
    have h4 : (cellAt N i)[j] = i / (strideR N)[j]'(by omega) % N[j] := by simp [cellAt, digitsOf]
    have h5 := hg.mem_lt (List.getElem_mem hj)
    have h6 := Nat.mod_lt (i / (strideR N)[j]'(by omega)) h2
    have h7 := Nat.div_le_self i ((strideR N)[j]'(by omega))
    have e1 : idiv (i : Int) (((strideR N)[j]'(by omega) : Nat) : Int) = .ok ((i / (strideR N)[j]'(by omega) : Nat) : Int) := by
      unfold idiv
      rw [if_neg (by omega), ← Int.ofNat_tdiv]
      exact mkInt_nat (by omega)
    have e2 : imod ((i / (strideR N)[j]'(by omega) : Nat) : Int) ((N[j] : Nat) : Int) =
        .ok ((i / (strideR N)[j]'(by omega) % N[j] : Nat) : Int) := by
      unfold imod
      rw [if_neg (by omega), ← Int.ofNat_tmod]
      rfl
    have e3 : mkInt (((i / (strideR N)[j]'(by omega) % N[j] : Nat) : Int) + 1) =
        .ok (((i / (strideR N)[j]'(by omega) % N[j] : Nat) : Int) + 1) := by
      have := mkInt_nat (x := i / (strideR N)[j]'(by omega) % N[j] + 1) (by omega)
      simpa using this
    rw [show ((i + 1 : Nat) : Int) - 1 = (i : Int) by omega, mkInt_nat (by omega), M.ok_bind,
      rd1_of_lt (v := ints (strideR N)) (by simpa using hj), M.ok_bind, List.getElem_map, e1, M.ok_bind,
      rd1_of_lt (v := ints N) (by simpa using hj), M.ok_bind, List.getElem_map, e2, M.ok_bind, e3, M.ok_bind,
      wr1_of_lt (by omega), natGetD_of_lt h3, h4]

/-- The index set of a cell, from 1. -/
abbrev ones (g : List Nat) : List Int := g.map fun n : Nat => (n : Int) + 1

theorem getFlatIndex_eq (hg : GoodGrid N) {t : List Nat} (ht : InGrid N t) :
    (built v L N f).getFlatIndex (ones t) = .ok ((rankOf N t + 1 : Nat) : Int) := by
  unfold getFlatIndex
  simp only [built]
  have hd := dotR_lt N t ht
  have hp := hg.prod_lit
  have hl := ht.length_eq
  have key : ∀ i, i ≤ N.length → ((List.zipWith (· * ·) (strideR N) t).take i).sum ≤ dot (strideR N) t := by
    intro i hi
    unfold dot
    conv_rhs => rw [← List.take_append_drop i (List.zipWith (· * ·) (strideR N) t), List.sum_append]
    omega
  obtain ⟨s, e, hs⟩ := forUp_inv (Nat.zero_le N.length)
    (fun i (s : Int) => s = (((List.zipWith (· * ·) (strideR N) t).take i).sum : Nat))
    (fun j (acc : Int) => do
      let x ← mkInt ((← rd (ones t) j) - 1)
      mkInt (acc + (← mkInt ((← rd (ints (strideR N)) j) * x))))
    0 (by simp)
    (by
      intro i s _ hi hs
      have h1 : i < (strideR N).length := by simpa using hi
      have h2 : i < (ones t).length := by simp [hl]; exact hi
      have h3 : i < t.length := by omega
      have h4 : i < (List.zipWith (· * ·) (strideR N) t).length := by simp; omega
      have k2 := key (i + 1) (by omega)
      have e1 : ((List.zipWith (· * ·) (strideR N) t).take (i + 1)).sum =
          ((List.zipWith (· * ·) (strideR N) t).take i).sum + (strideR N)[i] * t[i] := by
        rw [List.sum_take_succ _ _ h4]; simp
      have h5 := (inGrid_iff_getElem.1 ht).2 i hi h3
      have h6 := hg.mem_lt (List.getElem_mem hi)
      refine ⟨((((List.zipWith (· * ·) (strideR N) t).take (i + 1)).sum : Nat) : Int), ?_, rfl⟩
      rw [e1] at k2
      rw [rd_of_lt h2, M.ok_bind, List.getElem_map, show ((t[i] : Nat) : Int) + 1 - 1 = (t[i] : Int) by omega,
        mkInt_nat (by omega), M.ok_bind, rd_of_lt (v := ints (strideR N)) (by simpa using hi), M.ok_bind, List.getElem_map,
        ← Nat.cast_mul, mkInt_nat (by omega), M.ok_bind, hs, ← Nat.cast_add, mkInt_nat (by omega), e1])
  rw [e, hs, M.ok_bind]
  have : (List.zipWith (· * ·) (strideR N) t).take N.length = List.zipWith (· * ·) (strideR N) t := by
    apply List.take_of_length_le; simp [hl]
  rw [this, rankOf_eq_dot N t hl]
  have h7 := mkInt_nat (x := dot (strideR N) t + 1) (by omega)
  simpa [dot] using h7

theorem shiftInd_eq (hg : GoodGrid N) {t : List Nat} (ht : InGrid N t) {j : Nat} (hj : j < N.length) :
    (built v L N f).shiftInd (j + 1) ((t.getD j 0 : Nat) + 1 : Int) =
      .ok ((((((t.getD j 0 : Nat) : Int) + upDir v j) % (N.getD j 0 : Int)).toNat : Int) + 1) := by
  have hl := ht.length_eq
  have h1 := (inGrid_iff_getElem.1 ht).2 j hj (by omega)
  have h2 := hg.mem_lt (List.getElem_mem hj)
  unfold shiftInd
  simp only [built]
  rw [rd1_of_lt (v := ints N) (by simpa using hj), rd1_of_lt (v := (List.range N.length).map (upDir v)) (by simpa using hj)]
  simp only [M.ok_bind, List.getElem_map, List.getElem_range]
  rw [natGetD_of_lt (l := t) (by omega), natGetD_of_lt hj]
  have hu := upDir_cases v j
  have hpos : (0 : Int) < (N[j] : Int) := by omega
  rw [mkInt_ok (by rw [intLim_eq]; rcases hu with h | h <;> rw [h] <;> omega)
    (by rw [intLim_eq]; rcases hu with h | h <;> rw [h] <;> omega)]
  simp only [M.ok_bind]
  rw [mkInt_ok (by rw [intLim_eq]; rcases hu with h | h <;> rw [h] <;> omega)
    (by rw [intLim_eq]; rcases hu with h | h <;> rw [h] <;> omega)]
  simp only [M.ok_bind]
  rw [mkInt_ok (by rw [intLim_eq]; rcases hu with h | h <;> rw [h] <;> omega)
    (by rw [intLim_eq]; rcases hu with h | h <;> rw [h] <;> omega)]
  simp only [M.ok_bind]
  have e1 : imodulo ((t[j]'(by omega) : Int) + 1 + upDir v j + (N[j] : Int) - 1) (N[j] : Int) =
      .ok (((t[j]'(by omega) : Int) + upDir v j) % (N[j] : Int)) := by
    unfold imodulo
    rw [if_neg (by omega), show (t[j]'(by omega) : Int) + 1 + upDir v j + (N[j] : Int) - 1 =
      (t[j]'(by omega) : Int) + upDir v j + (N[j] : Int) by ring, Int.fmod_eq_emod_of_nonneg _ (by omega),
      Int.add_emod_right]
    rfl
  rw [e1]
  simp only [M.ok_bind]
  have a := Int.emod_lt_of_pos ((t[j]'(by omega) : Int) + upDir v j) hpos
  have b := Int.emod_nonneg ((t[j]'(by omega) : Int) + upDir v j) (by omega : (N[j] : Int) ≠ 0)
  rw [mkInt_ok (by rw [intLim_eq]; omega) (by rw [intLim_eq]; omega)]
  congr 1
  omega

theorem axisData_eq (hg : GoodGrid N) (hv : v.length = N.length) (dt : R) {g : List Nat} (hgr : InGrid N g) {j : Nat}
    (hj : j < N.length) : (built v L N f).axisData dt (j + 1) (ones g) =
      .ok (((rankOf N (neighbour N j (upDir v j) g) + 1 : Nat) : Int), ones g, dt * v.getD j 0 * (upDir v j : R),
        cellWidth L N j) := by
  have hl := hgr.length_eq
  have hn := neighbour_inGrid hgr j (upDir v j)
  unfold axisData
  rw [rd1_of_lt (by simpa using (by omega : j < g.length))]
  simp only [M.ok_bind, List.getElem_map]
  have e1 : ((g[j]'(by omega) : Nat) : Int) = ((g.getD j 0 : Nat) : Int) := by rw [natGetD_of_lt (by omega)]
  rw [e1, shiftInd_eq hg hgr hj]
  simp only [M.ok_bind]
  rw [wr1_of_lt (by simpa using (by omega : j < g.length))]
  have e2 : (ones g).set j ((((((g.getD j 0 : Nat) : Int) + upDir v j) % (N.getD j 0 : Int)).toNat : Int) + 1) =
      ones (neighbour N j (upDir v j) g) := by
    simp only [ones, neighbour, List.map_set]
  simp only [M.ok_bind]
  rw [e2, getFlatIndex_eq hg hn]
  simp only [M.ok_bind]
  have e3 : rd1 (built v L N f).v (j + 1) = .ok (v.getD j 0) := by
    rw [getD_of_lt (by omega)]; exact rd1_of_lt (v := v) (by omega)
  have e4 : rd1 (built v L N f).upDirection (j + 1) = .ok (upDir v j) := rd1_of_some (by simp [built, hj])
  have e5 : rd1 (built v L N f).deltas (j + 1) = .ok (cellWidth L N j) := rd1_of_some (by simp [built, hj])
  rw [e3, e4, e5]
  simp only [M.ok_bind]
  rw [wr1_of_lt (by simp [neighbour]; omega)]
  simp only [M.ok_bind, M.pure_eq]
  congr 3
  simp only [ones, neighbour]
  rw [← e1, List.map_set, List.set_set]
  apply List.ext_getElem?
  intro k
  rw [List.getElem?_set]
  split
  · next e =>
    subst e
    have : j < g.length := by omega
    simp [this]
  · rfl

/-! ### The parallel loops -/

/-- Owners of the locations in the loop over the cells. -/
def cellOwner : UpLoc → Option Nat
  | (.f, i) => some (i - 1)
  | (.oldF, _) => none

/-- Owners of the locations in the two loops of upwindF08Gpu. -/
def gpuOwner (k : Nat) : UpLoc → Option Nat
  | (.f, i) => if k = 0 then none else some (i - 1)
  | (.oldF, i) => if k = 0 then some (i - 1) else none

/-- Elements of the two arrays. -/
def gridAlloc1 (n : Nat) : UpLoc → Prop
  | (_, i) => 1 ≤ i ∧ i ≤ n

theorem axesProg_safe (hg : GoodGrid N) (hd : N.length + 1 < 2 ^ 31) (hv : v.length = N.length) (dt : R) {g : List Nat}
    (hgr : InGrid N g) {owner : UpLoc → Option Nat} (ho : owner (.f, rankOf N g + 1) = some (rankOf N g))
    (ho2 : ∀ i, owner (.oldF, i) = none) : ∀ n j, j + n = N.length →
    Safe owner (gridAlloc1 N.prod) (rankOf N g) ((built v L N f).axesProg dt (rankOf N g + 1) n (j + 1) (ones g))
  | 0, _, _ => by
    unfold axesProg
    simp only [built, endsPast_of hd]
    exact .done
  | n + 1, j, h => by
    have hr := rankOf_lt hgr
    have hr2 := rankOf_lt (neighbour_inGrid hgr j (upDir v j))
    unfold axesProg
    rw [axisData_eq hg hv dt hgr (by omega)]
    refine .read ⟨by omega, by omega⟩ (Or.inr ho) fun x => .read ⟨by simp, by simp; omega⟩ (Or.inl (ho2 _)) fun a =>
      .read ⟨by omega, by omega⟩ (Or.inl (ho2 _)) fun b => .write ⟨by omega, by omega⟩ ho ?_
    exact axesProg_safe hg hd hv dt hgr ho ho2 n (j + 1) (by omega)

theorem axesProg_len (hg : GoodGrid N) (hd : N.length + 1 < 2 ^ 31) (hv : v.length = N.length) (dt : R) {g : List Nat}
    (hgr : InGrid N g) : ∀ n j, j + n = N.length →
    ((built v L N f).axesProg dt (rankOf N g + 1) n (j + 1) (ones g)).LenLe (4 * n)
  | 0, _, _ => by
    unfold axesProg
    simp only [built, endsPast_of hd]
    exact .done _
  | n + 1, j, h => by
    unfold axesProg
    rw [axisData_eq hg hv dt hgr (by omega)]
    exact .read fun a => .read fun b => .read fun x => .write
      (axesProg_len hg hd hv dt hgr n (j + 1) (by omega))

theorem axesProg_run (hg : GoodGrid N) (hd : N.length + 1 < 2 ^ 31) (hv : v.length = N.length) (dt : R)
    {u : List Nat → R} {g : List Nat}
    (hgr : InGrid N g) : ∀ n j, j + n = N.length → ∀ m : Mem UpLoc R,
    (∀ g, InGrid N g → m (.oldF, rankOf N g + 1) = u g) →
    ((built v L N f).axesProg dt (rankOf N g + 1) n (j + 1) (ones g)).run m (.f, rankOf N g + 1) =
      (List.range' j n).foldl (fun acc j => acc - changeDivLast dt v L N j (u (neighbour N j (upDir v j) g)) (u g))
        (m (.f, rankOf N g + 1))
  | 0, _, _, m, _ => by
    unfold axesProg
    simp only [built, endsPast_of hd]
    rfl
  | n + 1, j, h, m, hm => by
    unfold axesProg
    rw [axisData_eq hg hv dt hgr (by omega)]
    simp only [Prog.run, List.range'_succ, List.foldl_cons, Int.toNat_natCast]
    rw [axesProg_run hg hd hv dt hgr n (j + 1) (by omega)]
    · simp only [Mem.set, if_true]
      rw [hm g hgr, hm _ (neighbour_inGrid hgr j (upDir v j))]
      rfl
    · intro g' hg'
      simp [Mem.set, hm g' hg']

theorem cellProg_eq (hg : GoodGrid N) (hd : N.length + 1 < 2 ^ 31) (dt : R) {i : Nat} (hi : i < N.prod) :
    (built v L N f).cellProg dt (i + 1) = (built v L N f).axesProg dt (i + 1) N.length 1 (ones (cellAt N i)) := by
  unfold cellProg
  rw [getIndexSet_eq hg hd hi]
  rfl

theorem region_raceFree (hg : GoodGrid N) (hd : N.length + 1 < 2 ^ 31) (hv : v.length = N.length) (dt : R) :
    RaceFree ((built v L N f).region dt) (gridAlloc1 N.prod) (fun _ => cellOwner) where
  safe := by
    intro p i hp hi
    simp only [region, built, Int.toNat_natCast] at hi
    change Safe _ _ _ ((built v L N f).cellProg dt (i + 1))
    rw [cellProg_eq hg hd dt hi]
    have := axesProg_safe (v := v) (L := L) (f := f) hg hd hv dt (cellAt_inGrid hg.pos i) (owner := cellOwner) rfl
      (fun _ => rfl) N.length 0 (by omega)
    rwa [rankOf_cellAt hg.pos hi] at this

theorem regionGpu_raceFree (hg : GoodGrid N) (hd : N.length + 1 < 2 ^ 31) (hv : v.length = N.length) (dt : R) :
    RaceFree ((built v L N f).regionGpu dt) (gridAlloc1 N.prod) gpuOwner where
  safe := by
    intro p i hp hi
    simp only [regionGpu, built, Int.toNat_natCast] at hp hi
    by_cases h0 : p = 0
    · subst h0
      exact .read ⟨by omega, by omega⟩ (Or.inl rfl) fun x => .write ⟨by omega, by omega⟩ rfl .done
    · simp only [regionGpu, if_neg h0]
      rw [cellProg_eq hg hd dt hi]
      have := axesProg_safe (v := v) (L := L) (f := f) hg hd hv dt (cellAt_inGrid hg.pos i) (owner := gpuOwner p)
        (by simp [gpuOwner, h0]) (fun _ => by simp [gpuOwner, h0]) N.length 0 (by omega)
      rwa [rankOf_cellAt hg.pos hi] at this

theorem cellProg_len (hg : GoodGrid N) (hd : N.length + 1 < 2 ^ 31) (hv : v.length = N.length) (dt : R) {i : Nat}
    (hi : i < N.prod) : ((built v L N f).cellProg dt (i + 1)).LenLe (4 * N.length) := by
  rw [cellProg_eq hg hd dt hi]
  have := axesProg_len (v := v) (L := L) (f := f) hg hd hv dt (cellAt_inGrid hg.pos i) N.length 0 (by omega)
  rwa [rankOf_cellAt hg.pos hi] at this

theorem cellProg_run (hg : GoodGrid N) (hd : N.length + 1 < 2 ^ 31) (hv : v.length = N.length) (dt : R)
    {u : List Nat → R} {g : List Nat} (hgr : InGrid N g) (m : Mem UpLoc R)
    (h1 : ∀ g, InGrid N g → m (.oldF, rankOf N g + 1) = u g) (h2 : m (.f, rankOf N g + 1) = u g) :
    ((built v L N f).cellProg dt (rankOf N g + 1)).run m (.f, rankOf N g + 1) =
      schemeStep N (upDir v) (changeDivLast dt v L N) u g := by
  rw [cellProg_eq hg hd dt (rankOf_lt hgr), cellAt_rankOf hgr]
  rw [axesProg_run hg hd hv dt hgr N.length 0 (by omega) m h1, h2]
  unfold schemeStep
  rw [List.range_eq_range']

theorem region_seq (hg : GoodGrid N) (hd : N.length + 1 < 2 ^ 31) (hv : v.length = N.length) (dt : R)
    {u : List Nat → R} (m : Mem UpLoc R) (h1 : ∀ g, InGrid N g → m (.oldF, rankOf N g + 1) = u g)
    (h2 : ∀ g, InGrid N g → m (.f, rankOf N g + 1) = u g) {g : List Nat} (hgr : InGrid N g) :
    ((built v L N f).region dt).seq m (.f, rankOf N g + 1) = schemeStep N (upDir v) (changeDivLast dt v L N) u g := by
  have hr := region_raceFree (v := v) (L := L) (f := f) hg hd hv dt
  have hp : ((built v L N f).region dt).phases = 1 := rfl
  unfold Region.seq
  rw [hp]
  simp only [List.range_one, List.foldl_cons, List.foldl_nil]
  rw [seqPhase_eq hr (by rw [hp]; omega)]
  have hlt := rankOf_lt hgr
  have hc : ((built v L N f).region dt).count 0 = N.prod := Int.toNat_natCast _
  simp only [phaseMem, cellOwner, Nat.add_sub_cancel, hc, if_pos hlt]
  exact cellProg_run hg hd hv dt hgr m h1 (h2 g hgr)

theorem regionGpu_seq (hg : GoodGrid N) (hd : N.length + 1 < 2 ^ 31) (hv : v.length = N.length) (dt : R)
    {u : List Nat → R} (m : Mem UpLoc R) (h2 : ∀ g, InGrid N g → m (.f, rankOf N g + 1) = u g) {g : List Nat}
    (hgr : InGrid N g) :
    ((built v L N f).regionGpu dt).seq m (.f, rankOf N g + 1) = schemeStep N (upDir v) (changeDivLast dt v L N) u g := by
  have hr := regionGpu_raceFree (v := v) (L := L) (f := f) hg hd hv dt
  have hp : ((built v L N f).regionGpu dt).phases = 2 := rfl
  have hc : ∀ k, ((built v L N f).regionGpu dt).count k = N.prod := fun _ => Int.toNat_natCast _
  unfold Region.seq
  rw [hp]
  simp only [List.range_succ, List.range_zero, List.nil_append, List.cons_append, List.foldl_cons, List.foldl_nil]
  rw [seqPhase_eq hr (by rw [hp]; omega), seqPhase_eq hr (by rw [hp]; omega)]
  have k1 : ∀ g, InGrid N g → phaseMem ((built v L N f).regionGpu dt) gpuOwner 0 m (.oldF, rankOf N g + 1) = u g := by
    intro g hg'
    have hlt := rankOf_lt hg'
    simp only [phaseMem, gpuOwner, if_true, Nat.add_sub_cancel, hc, if_pos hlt]
    simp [regionGpu, Prog.run, Mem.set, h2 g hg']
  have k2 : ∀ g, InGrid N g → phaseMem ((built v L N f).regionGpu dt) gpuOwner 0 m (.f, rankOf N g + 1) = u g := by
    intro g hg'
    simp only [phaseMem, gpuOwner, if_true]
    exact h2 g hg'
  generalize phaseMem ((built v L N f).regionGpu dt) gpuOwner 0 m = m1 at k1 k2 ⊢
  have hlt := rankOf_lt hgr
  simp only [phaseMem, gpuOwner, one_ne_zero, if_false, Nat.add_sub_cancel, hc, if_pos hlt]
  have : ((built v L N f).regionGpu dt).prog 1 (rankOf N g) = (built v L N f).cellProg dt (rankOf N g + 1) := by
    simp [regionGpu]
  rw [this]
  exact cellProg_run hg hd hv dt hgr m1 k1 (k2 g hgr)

/-- The memory at the start. -/
theorem memory_stores {u : List Nat → R} (h : Stores N f u) {g : List Nat} (hgr : InGrid N g) (a : UpArr) :
    (built v L N f).memory (a, rankOf N g + 1) = u g := by
  have := h.2 g hgr
  cases a <;> simp [memory, built, this]

theorem memoryGpu_stores {u : List Nat → R} (h : Stores N f u) {g : List Nat} (hgr : InGrid N g) (junk : Nat → R) :
    (built v L N f).memoryGpu junk (.f, rankOf N g + 1) = u g := by
  have := h.2 g hgr
  simp [memoryGpu, built, this]

/-- The object built from the final memory. -/
theorem after_eq (hg : GoodGrid N) {u : List Nat → R} (hf : f.length = N.prod) (m : Mem UpLoc R)
    (h : ∀ g, InGrid N g → m (.f, rankOf N g + 1) = u g) : (built v L N f).after m = built v L N (listOf N u) := by
  unfold after
  simp only [built, hf]
  congr 1
  unfold listOf
  apply List.map_congr_left
  intro i hi
  rw [List.mem_range] at hi
  have := h _ (cellAt_inGrid hg.pos i)
  rw [rankOf_cellAt hg.pos hi] at this
  exact this

/-- Any number of calls. -/
theorem advances_eq (hg : GoodGrid N) (hd : N.length + 1 < 2 ^ 31) (hv : v.length = N.length) (dt : R)
    {u : List Nat → R} (hf : Stores N f u) {k : Nat} {x : FUpwind R} (h : Advances dt k (built v L N f) x) :
    x = built v L N (listOf N ((schemeStep N (upDir v) (changeDivLast dt v L N))^[k] u)) := by
  generalize hx0 : built v L N f = x0 at h
  induction h with
  | none =>
    rw [← hx0, (stores_iff hg.pos).1 hf]
    rfl
  | @call k _ mid h T hT may s hs hfin ih =>
    have e := ih hx0
    subst e
    have hst := Stores.listOf hg.pos ((schemeStep N (upDir v) (changeDivLast dt v L N))^[k] u)
    rw [Function.iterate_succ_apply']
    refine after_eq hg hst.1 _ fun g hgr => ?_
    rw [hs.final_mem (region_raceFree hg hd hv dt) hT hfin]
    exact region_seq hg hd hv dt _ (fun g hg' => memory_stores hst hg' _) (fun g hg' => memory_stores hst hg' _) hgr
  | @callGpu k _ mid h T hT may junk s hs hfin ih =>
    have e := ih hx0
    subst e
    have hst := Stores.listOf hg.pos ((schemeStep N (upDir v) (changeDivLast dt v L N))^[k] u)
    rw [Function.iterate_succ_apply']
    refine after_eq hg hst.1 _ fun g hgr => ?_
    rw [hs.final_mem (regionGpu_raceFree hg hd hv dt) hT hfin]
    exact regionGpu_seq hg hd hv dt _ (fun g hg' => memoryGpu_stores hst hg' junk) hgr

/-- The loops of the regions have at most this many accesses. -/
theorem region_len (hg : GoodGrid N) (hd : N.length + 1 < 2 ^ 31) (hv : v.length = N.length) (dt : R) :
    ∀ p i, p < ((built v L N f).region dt).phases → i < ((built v L N f).region dt).count p →
      (((built v L N f).region dt).prog p i).LenLe (4 * N.length) := by
  intro p i _ hi
  simp only [region, built, Int.toNat_natCast] at hi
  exact cellProg_len hg hd hv dt hi

theorem regionGpu_len (hN : N ≠ []) (hg : GoodGrid N) (hd : N.length + 1 < 2 ^ 31) (hv : v.length = N.length) (dt : R) :
    ∀ p i, p < ((built v L N f).regionGpu dt).phases → i < ((built v L N f).regionGpu dt).count p →
      (((built v L N f).regionGpu dt).prog p i).LenLe (4 * N.length) := by
  intro p i _ hi
  have hpos : 0 < N.length := List.length_pos_iff.2 hN
  simp only [regionGpu, built, Int.toNat_natCast] at hi
  by_cases h : p = 0
  · subst h
    obtain ⟨n, hn⟩ : ∃ n, 4 * N.length = n + 1 + 1 := ⟨4 * N.length - 2, by omega⟩
    rw [hn]
    exact .read fun x => .write (.done _)
  · simp only [regionGpu, if_neg h]
    exact cellProg_len hg hd hv dt hi

/-- Locations outside the arrays of the object. -/
theorem not_alloc (hf : f.length = N.prod) {l : UpLoc} (h : ¬ (built v L N f).allocated l) : ¬ gridAlloc1 N.prod l := by
  obtain ⟨_ | _, i⟩ := l
  · simpa [allocated, gridAlloc1, built, hf] using h
  · simp only [allocated, built] at h
    simp only [gridAlloc1]
    omega

theorem not_faulty (hf : f.length = N.prod) {s : PState UpLoc R} {T : Nat} (h : ¬ s.Faulty (gridAlloc1 N.prod) T) :
    ¬ s.Faulty (built v L N f).allocated T := by
  rintro ⟨t, ht, i, h1⟩
  refine h ⟨t, ht, i, ?_⟩
  rcases h1 with h1 | ⟨l, p, h1, h2⟩ | ⟨l, x, p, h1, h2⟩
  · exact Or.inl h1
  · exact Or.inr (Or.inl ⟨l, p, h1, not_alloc hf h2⟩)
  · exact Or.inr (Or.inr ⟨l, x, p, h1, not_alloc hf h2⟩)

/-- There are executions of any number of calls. -/
theorem exists_advances (hg : GoodGrid N) (hd : N.length + 1 < 2 ^ 31) (hv : v.length = N.length) (dt : R)
    (hf : f.length = N.prod) (k : Nat) : ∃ x, Advances dt k (built v L N f) x := by
  induction k with
  | zero => exact ⟨_, .none _⟩
  | succ k ih =>
    obtain ⟨x, hx⟩ := ih
    have e := advances_eq hg hd hv dt (exists_field hf) hx
    subst e
    obtain ⟨s, hs, hfin⟩ := exists_final (T := 1) (may := fun _ _ _ => True) (region_len (L := L) hg hd hv dt) (built v L N
        (listOf N ((schemeStep N (upDir v) (changeDivLast dt v L N))^[k] fun g => f.getD (rankOf N g) 0))).memory
      (fun s hs => hs.progress (region_raceFree hg hd hv dt) (by omega) fun _ _ _ _ => ⟨0, by omega, trivial⟩)
    exact ⟨_, .call hx 1 (by omega) _ s hs hfin⟩

end FUpwind

namespace Spec

theorem schemeStep_eq_upwindStep {K : Type} [Sub K] [Mul K] (N : List Nat) (s : Nat → Int) (c : Nat → K)
    (chg : Nat → K → K → K) (h : ∀ j a b, chg j a b = c j * (a - b)) : schemeStep N s chg = upwindStep N s c := by
  funext u g
  simp only [schemeStep, upwindStep, h]

end Spec
end Fidi
