import Verif.Model.UpwindJulia
import Verif.Lemmas.UpwindPython
import Verif.Lemmas.UpwindFortran

/-
Closed forms for upwind.jl and upwind3.jl: the fields are stored with the first axis fastest.
-/
set_option linter.unusedSectionVars false

namespace Fidi
open Spec

theorem mkInt64_ok {x : Int} (h1 : -9223372036854775808 ≤ x) (h2 : x < 9223372036854775808) : mkInt64 x = .ok x := by
  unfold mkInt64
  rw [if_pos ⟨by omega, by omega⟩]

theorem mkInt64_nat {x : Nat} (h : x < 9223372036854775808) : mkInt64 (x : Int) = .ok (x : Int) :=
  mkInt64_ok (by omega) (by omega)

theorem jlGet_nat {α : Type} {a : List α} {i : Nat} {x : α} (h : a[i]? = some x) : jlGet a ((i + 1 : Nat) : Int) = .ok x := by
  unfold jlGet
  rw [if_pos (by omega), Int.toNat_natCast, Nat.add_sub_cancel]
  exact rd_of_some h

namespace JlUpwind
open Upwind Fortran
variable {R : Type} [Zero R] [One R] [Add R] [Sub R] [Mul R] [Div R] [NatCast R] [IntCast R] [LT R] [DecidableLT R]
variable {v L : List R} {N : List Nat} {f : List R}

/-- Grids whose numbers fit in Int64. -/
structure Grid64 (N : List Nat) : Prop where
  pos : ∀ n ∈ N, 0 < n
  prod : N.prod + 1 < 9223372036854775808

theorem Grid64.mem_le (hg : Grid64 N) {n : Nat} (h : n ∈ N) : n ≤ N.prod := mem_le_prod hg.pos h

/-- Cell of a flat index, first axis fastest. -/
def cellC (N : List Nat) (i : Nat) : List Nat := digitsOf (strides false N) N i

/-- Flat index of a cell, first axis fastest. -/
def flatC (N : List Nat) (g : List Nat) : Nat := dot (strides false N) g

/-- The vector that stores a field. -/
def listC (N : List Nat) (u : List Nat → R) : List R := (List.range N.prod).map fun i => u (cellC N i)

theorem cellC_inGrid (hg : ∀ n ∈ N, 0 < n) (i : Nat) : InGrid N (cellC N i) := digits_inGrid false N hg i

theorem flatC_lt {g : List Nat} (h : InGrid N g) : flatC N g < N.prod := dot_lt false N g h

theorem cellC_flatC {g : List Nat} (h : InGrid N g) : cellC N (flatC N g) = g := digits_dot false N g h

theorem flatC_eq {g : List Nat} (h : InGrid N g) : flatC N g = rankOf N.reverse g.reverse := by
  have hl := h.length_eq
  unfold flatC
  simp only [strides, Bool.false_eq_true, if_false]
  rw [dotC_eq _ _ hl, rankOf_eq_dot _ _ (by simp [hl])]

theorem listC_stores (u : List Nat → R) : StoresCol N (listC N u) u := by
  refine ⟨by simp [listC], fun g h => ?_⟩
  rw [← flatC_eq h]
  simp [listC, flatC_lt h, cellC_flatC h]

theorem listC_get (u : List Nat → R) {i : Nat} (hi : i < N.prod) : (listC N u)[i]? = some (u (cellC N i)) := by
  simp [listC, hi]

theorem listC_flat {g : List Nat} (h : InGrid N g) (u : List Nat → R) : (listC N u)[flatC N g]? = some (u g) := by
  rw [listC_get u (flatC_lt h), cellC_flatC h]

theorem flatC_cellC (hg : ∀ n ∈ N, 0 < n) {i : Nat} (hi : i < N.prod) : flatC N (cellC N i) = i := by
  have := dot_digits false N hg i
  rwa [Nat.mod_eq_of_lt hi] at this

/-- Closed form of the objects. -/
def built (v L : List R) (N : List Nat) (f : List R) : JlUpwind R :=
  { ndims := N.length, ntot := (N.prod : Int), numCells := ints N, upDirection := (List.range N.length).map (upDir v),
    deltas := (List.range N.length).map (cellWidth L N), velocity := v, lengths := L, f, dimProd := ints (strides false N) }

theorem stride_get {i : Nat} (h : i < N.length) : (ints (strides false N))[i]? = some ((N.take i).prod : Int) := by
  simp only [strides, Bool.false_eq_true, if_false, List.getElem?_map, getElem?_strideC N i h]
  rfl

theorem new_loop (hcast : ∀ n : Nat, ((n : Int) : R) = (n : R)) (hg : Grid64 N)
    (hv : v.length = N.length) (hL : L.length = N.length) :
    (forUp 0 N.length (List.replicate N.length (0 : R), List.replicate N.length (0 : Int), 1)
      fun i => newBody v L (ints N) (i + 1)) =
      .ok ((List.range N.length).map (cellWidth L N), (List.range N.length).map (upDir v), (N.prod : Int)) := by
  obtain ⟨s, e, h1, h2, h3, h4, h5⟩ := forUp_inv (Nat.zero_le N.length)
    (fun i (s : List R × List Int × Int) => s.1.length = N.length ∧ s.2.1.length = N.length ∧
      (∀ j, j < i → s.1[j]? = some (cellWidth L N j)) ∧ (∀ j, j < i → s.2.1[j]? = some (upDir v j)) ∧
      s.2.2 = ((N.take i).prod : Nat))
    (fun i => newBody v L (ints N) (i + 1))
    (List.replicate N.length (0 : R), List.replicate N.length (0 : Int), 1)
    ⟨by simp, by simp, by intro j hj; omega, by intro j hj; omega, by simp⟩
    (by
      rintro i ⟨d, u, t⟩ _ hi ⟨h1, h2, h3, h4, h5⟩
      simp only at h1 h2 h3 h4 h5
      have hp := hg.prod
      have hle := prod_take_le hg.pos (i + 1)
      have hpr : (N.take (i + 1)).prod = (N.take i).prod * N[i] := List.prod_take_succ _ _ hi
      refine ⟨(d.set i (cellWidth L N i), u.set i (upDir v i), ((N.take (i + 1)).prod : Nat)), ?_, by simpa using h1,
        by simpa using h2, ?_, ?_, rfl⟩
      · simp only [newBody]
        rw [wr1_of_lt (by omega), rd1_of_lt (v := v) (by omega), rd1_of_lt (v := L) (by omega),
          rd1_of_lt (v := ints N) (by simpa using hi)]
        have hvi : v.getD i 0 = v[i]'(by omega) := getD_of_lt (by omega)
        have hLi : L.getD i 0 = L[i]'(by omega) := getD_of_lt (by omega)
        have hNi : N.getD i 0 = N[i] := natGetD_of_lt hi
        have hmul : mkInt64 (t * (N[i] : Int)) = .ok (((N.take (i + 1)).prod : Nat) : Int) := by
          rw [h5, ← Nat.cast_mul, ← hpr]
          exact mkInt64_nat (by omega)
        simp only [M.ok_bind, M.pure_eq, upDir, cellWidth, hvi, hLi, hNi, List.getElem_map, hcast, hmul]
        split
        · rw [wr1_of_lt (by simp; omega)]
          simp only [M.ok_bind]
          rw [wr1_of_lt (by omega)]
          simp
        · rw [wr1_of_lt (by omega)]
          simp
      · intro j hj
        by_cases hji : i = j
        · subst hji; simp [h1, hi]
        · simp only
          rw [List.getElem?_set_ne hji]; exact h3 j (by omega)
      · intro j hj
        by_cases hji : i = j
        · subst hji; simp [h2, hi]
        · simp only
          rw [List.getElem?_set_ne hji]; exact h4 j (by omega))
  rw [e]
  obtain ⟨d, u, t⟩ := s
  simp only at h1 h2 h3 h4 h5
  have e1 : d = (List.range N.length).map (cellWidth L N) := by
    apply ext_of_getElem? (by simp [h1])
    intro i hi
    simp at hi
    rw [h3 i hi]; simp [hi]
  have e2 : u = (List.range N.length).map (upDir v) := by
    apply ext_of_getElem? (by simp [h2])
    intro i hi
    simp at hi
    rw [h4 i hi]; simp [hi]
  rw [e1, e2, h5]
  simp

theorem dimProd_loop (hg : Grid64 N) :
    (forUp 1 N.length (List.replicate N.length (1 : Int)) fun i dp => do
        wr1 dp (i + 1) (← mkInt64 ((← rd1 dp i) * (← rd1 (ints N) i)))) = .ok (ints (strides false N)) := by
  have hp := hg.prod
  by_cases h0 : N = []
  · subst h0; rfl
  have hN : 1 ≤ N.length := List.length_pos_iff.2 h0
  obtain ⟨s, e, hl', hp'⟩ := forUp_inv hN
    (fun i (s : List Int) => s.length = N.length ∧ ∀ j, j < i → s[j]? = some ((N.take j).prod : Int))
    (fun i dp => do wr1 dp (i + 1) (← mkInt64 ((← rd1 dp i) * (← rd1 (ints N) i))))
    (List.replicate N.length (1 : Int))
    (by
      refine ⟨by simp, ?_⟩
      intro j h1
      have : j = 0 := by omega
      subst this
      rw [List.getElem?_replicate, if_pos (by omega)]; rfl)
    (by
      intro i s h1i hi ⟨h1, h2⟩
      obtain ⟨i, rfl⟩ : ∃ k, i = k + 1 := ⟨i - 1, by omega⟩
      have e1 := h2 i (by omega)
      have e2 : (ints N)[i]? = some (N[i]'(by omega) : Int) := by simp [(by omega : i < N.length)]
      have e3 : (((N.take i).prod : Nat) : Int) * (N[i]'(by omega) : Int) = ((N.take (i + 1)).prod : Nat) := by
        rw [← Nat.cast_mul, List.prod_take_succ _ _ (by omega)]
      have hle := prod_take_le hg.pos (i + 1)
      refine ⟨s.set (i + 1) ((N.take (i + 1)).prod : Nat), ?_, by simpa using h1, ?_⟩
      · rw [rd1_of_some e1, M.ok_bind, rd1_of_some e2, M.ok_bind, e3, mkInt64_nat (by omega), M.ok_bind]
        exact wr1_of_lt (by omega) _
      · intro j hj1
        by_cases hji : i + 1 = j
        · subst hji
          rw [List.getElem?_set_self (by omega)]
        · rw [List.getElem?_set_ne hji]
          exact h2 j (by omega))
  rw [e]
  congr 1
  apply ext_of_getElem? (by simp [hl'])
  intro i hi
  have hi' : i < N.length := by simpa using hi
  rw [hp' i hi', stride_get hi']

theorem cornerC (hg : ∀ n ∈ N, 0 < n) : (List.replicate N.prod (0 : R)).set 0 1 = listC N cornerField := by
  apply ext_of_getElem? (by simp [listC])
  intro i hi
  have hi' : i < N.prod := by simpa [listC] using hi
  rw [listC_get _ hi']
  have hz : ∀ g : List Nat, InGrid N g → (∀ x ∈ g, x = 0) → flatC N g = 0 := by
    intro g _ h
    unfold flatC dot
    apply List.sum_eq_zero
    intro x hx
    obtain ⟨k, hk, rfl⟩ := List.getElem_of_mem hx
    rw [List.getElem_zipWith, h _ (List.getElem_mem _), Nat.mul_zero]
  by_cases h0 : i = 0
  · subst h0
    rw [List.getElem?_set_self (by simpa using hi')]
    unfold cornerField
    rw [if_pos]
    intro x hx
    obtain ⟨k, hk, rfl⟩ := List.getElem_of_mem hx
    simp [cellC, digitsOf]
  · rw [List.getElem?_set_ne (Ne.symm h0), List.getElem?_replicate, if_pos hi']
    unfold cornerField
    rw [if_neg]
    intro h
    have := hz _ (cellC_inGrid hg i) h
    rw [flatC_cellC hg hi'] at this
    exact h0 this

theorem new_eq (hcast : ∀ n : Nat, ((n : Int) : R) = (n : R)) (hg : Grid64 N)
    (hv : v.length = N.length) (hL : L.length = N.length) :
    new N.length v L (ints N) = .ok (built v L N (listC N cornerField)) := by
  have hp := prod_pos_of hg.pos
  have e1 := new_loop hcast hg hv hL
  have e2 := dimProd_loop hg
  unfold new
  rw [e1]
  simp only [M.ok_bind]
  rw [e2]
  simp only [M.ok_bind, Int.toNat_natCast]
  rw [if_neg (by omega), show (1 : Nat) = 0 + 1 from rfl, wr1_of_lt (by simpa using hp)]
  simp only [M.ok_bind, M.pure_eq, built]
  rw [cornerC hg.pos]

/-- The index set of a cell, from 1. -/
abbrev ones (g : List Nat) : List Int := g.map fun n : Nat => (n : Int) + 1

theorem getIndexSet_eq (hg : Grid64 N) {i : Nat} (hi : i < N.prod) :
    (built v L N f).getIndexSet (i + 1) = .ok (ones (cellC N i)) := by
  have hp := hg.prod
  have hl := (cellC_inGrid hg.pos i).length_eq
  unfold getIndexSet
  simp only [built]
  rw [forUp_fill (g := fun j => (((cellC N i).getD j 0 : Nat) : Int) + 1) _ _ (by simp)]
  · congr 1
    apply ext_of_getElem? (by simp [hl])
    intro j hj
    have h2 : j < N.length := by simpa [hl] using hj
    have h3 : j < (cellC N i).length := by omega
    simp [h2, h3]
  · intro j w hj hw _
    have hs : (strides false N).length = N.length := by simp
    have h1 : 0 < (strides false N)[j]'(by omega) :=
      (strides_pos_le false hg.pos _ (List.getElem_mem (l := strides false N) (by omega))).1
    have h2 : 0 < N[j] := hg.pos _ (List.getElem_mem hj)
    have h3 : j < (cellC N i).length := by omega
    have h4 : (cellC N i)[j] = i / (strides false N)[j]'(by omega) % N[j] := by simp [cellC, digitsOf]
    have h5 := hg.mem_le (List.getElem_mem hj)
    have h6 := Nat.mod_lt (i / (strides false N)[j]'(by omega)) h2
    have h7 := Nat.div_le_self i ((strides false N)[j]'(by omega))
    have e1 : jlDiv (i : Int) (((strides false N)[j]'(by omega) : Nat) : Int) =
        .ok ((i / (strides false N)[j]'(by omega) : Nat) : Int) := by
      unfold jlDiv
      rw [if_neg (by omega), ← Int.ofNat_tdiv]
      exact mkInt64_nat (by omega)
    have e2 : floorMod ((i / (strides false N)[j]'(by omega) : Nat) : Int) ((N[j] : Nat) : Int) =
        .ok ((i / (strides false N)[j]'(by omega) % N[j] : Nat) : Int) := by
      unfold floorMod
      rw [if_neg (by omega), Int.fmod_eq_emod_of_nonneg _ (by omega)]
      rfl
    have e3 : mkInt64 (((i / (strides false N)[j]'(by omega) % N[j] : Nat) : Int) + 1) =
        .ok (((i / (strides false N)[j]'(by omega) % N[j] : Nat) : Int) + 1) :=
      mkInt64_ok (by omega) (by omega)
    rw [show ((i + 1 : Nat) : Int) - 1 = (i : Int) by omega, mkInt64_nat (by omega), M.ok_bind,
      rd1_of_lt (v := ints (strides false N)) (by simpa using hj), M.ok_bind, List.getElem_map, e1, M.ok_bind,
      rd1_of_lt (v := ints N) (by simpa using hj), M.ok_bind, List.getElem_map, e2, M.ok_bind, e3, M.ok_bind,
      wr1_of_lt (by omega), natGetD_of_lt h3, h4]

/-- Partial sums of the flat index. -/
theorem partial_le {t : List Nat} (i : Nat) :
    ((List.zipWith (· * ·) (strides false N) t).take i).sum ≤ flatC N t := by
  unfold flatC dot
  conv_rhs => rw [← List.take_append_drop i (List.zipWith (· * ·) (strides false N) t), List.sum_append]
  omega

theorem partial_succ {t : List Nat} {i : Nat} (h1 : i < (strides false N).length) (h2 : i < t.length) :
    ((List.zipWith (· * ·) (strides false N) t).take (i + 1)).sum =
      ((List.zipWith (· * ·) (strides false N) t).take i).sum + (strides false N)[i] * t[i] := by
  rw [List.sum_take_succ _ _ (by rw [List.length_zipWith]; omega)]; simp

theorem partial_all {t : List Nat} (h : t.length = N.length) :
    ((List.zipWith (· * ·) (strides false N) t).take N.length).sum = flatC N t := by
  rw [List.take_of_length_le (by simp [h])]
  rfl

theorem getFlatIndex_eq (hg : Grid64 N) {t : List Nat} (ht : InGrid N t) :
    (built v L N f).getFlatIndex (ones t) = .ok ((flatC N t + 1 : Nat) : Int) := by
  have hp := hg.prod
  have hl := ht.length_eq
  have hd := flatC_lt ht
  unfold getFlatIndex
  rw [if_neg (by simp [built, hl]), show (ones t).length = N.length by simp [hl]]
  simp only [built]
  obtain ⟨s, e, hs⟩ := forUp_inv (Nat.zero_le N.length)
    (fun i (s : Int) => s = (((List.zipWith (· * ·) (strides false N) t).take i).sum : Nat))
    (fun j (acc : Int) => do
      let x ← mkInt64 ((← rd (ones t) j) - 1)
      mkInt64 (acc + (← mkInt64 ((← rd (ints (strides false N)) j) * x))))
    0 (by simp)
    (by
      intro i s _ hi hs
      have h1 : i < (strides false N).length := by simpa using hi
      have h2 : i < (ones t).length := by simp [hl]; exact hi
      have h3 : i < t.length := by omega
      have k2 := partial_le (N := N) (t := t) (i + 1)
      have e1 := partial_succ h1 h3
      have h5 := (inGrid_iff_getElem.1 ht).2 i hi h3
      have h6 := hg.mem_le (List.getElem_mem hi)
      refine ⟨((((List.zipWith (· * ·) (strides false N) t).take (i + 1)).sum : Nat) : Int), ?_, rfl⟩
      rw [e1] at k2
      rw [rd_of_lt h2, M.ok_bind, List.getElem_map, show ((t[i] : Nat) : Int) + 1 - 1 = (t[i] : Int) by omega,
        mkInt64_nat (by omega), M.ok_bind, rd_of_lt (v := ints (strides false N)) (by simpa using hi), M.ok_bind,
        List.getElem_map, ← Nat.cast_mul, mkInt64_nat (by omega), M.ok_bind, hs, ← Nat.cast_add, mkInt64_nat (by omega), e1])
  rw [e, hs, M.ok_bind, partial_all hl]
  have h7 := mkInt64_nat (x := flatC N t + 1) (by omega)
  simpa using h7

theorem getElem_neighbour {g : List Nat} {j : Nat} (h1 : j < g.length) (h2 : j < N.length) (s : Int) :
    neighbour N j s g = g.set j (((g[j] : Int) + s) % (N[j] : Int)).toNat := by
  unfold neighbour
  rw [natGetD_of_lt h1, natGetD_of_lt h2]

theorem mod1_eq {x n : Int} (hn : 0 < n) : jlMod1 (x + 1) n = .ok (x % n + 1) := by
  unfold jlMod1 floorMod
  rw [if_neg (by omega), Int.fmod_eq_emod_of_nonneg _ (by omega), M.ok_bind, M.pure_eq]
  congr 1
  have a := Int.emod_lt_of_pos x hn
  have b := Int.emod_nonneg x (by omega : n ≠ 0)
  by_cases h : x % n + 1 = n
  · have e : (x + 1) % n = 0 := by
      rw [Int.add_emod, show x % n = n - 1 by omega]
      by_cases h1 : n = 1
      · subst h1; simp
      · rw [Int.emod_eq_of_lt (a := 1) (by omega) (by omega), show n - 1 + 1 = n by omega, Int.emod_self]
    rw [if_pos e, h]
  · have e : (x + 1) % n = x % n + 1 := by
      rw [← Int.emod_add_emod]
      exact Int.emod_eq_of_lt (by omega) (by omega)
    rw [e, if_neg (by omega)]

theorem cellBody_eq (hg : Grid64 N) (u : List Nat → R) (c : R) (w : List R) {j i : Nat}
    (hj : j < N.length) (hi : i < N.prod) (f' : List R) {x : R} (hw : w[i]? = some x) :
    cellBody (built v L N f) (built v L N f') (listC N u) (j + 1) c (i + 1) w =
      .ok (w.set i (x - c * (u (neighbour N j (upDir v j) (cellC N i)) - u (cellC N i)))) := by
  have hp := hg.prod
  have hin := cellC_inGrid hg.pos i
  have hl := hin.length_eq
  have hjl : j < (cellC N i).length := by omega
  have h6 := (inGrid_iff_getElem.1 hin).2 j hj hjl
  have h5 := hg.mem_le (List.getElem_mem hj)
  have hup := upDir_cases v j
  have e1 : (built v L N f').upDirection[j]? = some (upDir v j) := by simp [built, hj]
  have e2 : (built v L N f').numCells[j]? = some (N[j] : Int) := by simp [built, hj]
  have e3 : (ones (cellC N i))[j]? = some (((cellC N i)[j] : Int) + 1) := by simp [hjl]
  have b := Int.emod_nonneg (((cellC N i)[j] : Int) + upDir v j) (by omega : (N[j] : Int) ≠ 0)
  have e4 : (ones (cellC N i)).set j ((((cellC N i)[j] : Int) + upDir v j) % (N[j] : Int) + 1) =
      ones (neighbour N j (upDir v j) (cellC N i)) := by
    rw [getElem_neighbour hjl hj]
    simp only [ones, List.map_set]
    rw [Int.toNat_of_nonneg b]
  unfold cellBody
  rw [getIndexSet_eq hg hi, M.ok_bind, rd1_of_some e3, M.ok_bind, rd1_of_some e1, M.ok_bind,
    mkInt64_ok (by rcases hup with h | h <;> rw [h] <;> omega) (by rcases hup with h | h <;> rw [h] <;> omega), M.ok_bind,
    rd1_of_some e2, M.ok_bind, show ((cellC N i)[j] : Int) + 1 + upDir v j = ((cellC N i)[j] : Int) + upDir v j + 1 by omega,
    mod1_eq (by omega), M.ok_bind, wr1_of_lt (by simpa using hjl), M.ok_bind, e4,
    getFlatIndex_eq hg (neighbour_inGrid hin j _), M.ok_bind, rd1_of_some hw, M.ok_bind,
    jlGet_nat (listC_flat (neighbour_inGrid hin j _) u), M.ok_bind, rd1_of_some (listC_get u hi), M.ok_bind]
  exact wr1_of_lt (List.getElem?_eq_some_iff.1 hw).1 _

theorem axisBody_eq (hg : Grid64 N) (hv : v.length = N.length) (dt : R) (u : List Nat → R) {j : Nat} (hj : j < N.length)
    (f' : List R) :
    axisBody (built v L N f) (built v L N f') dt (listC N u) (j + 1)
        (listC N (axesDone N (upDir v) (fun j a b => upCoeff dt v L N j * (a - b)) u j)) =
      .ok (listC N (axesDone N (upDir v) (fun j a b => upCoeff dt v L N j * (a - b)) u (j + 1))) := by
  have e0 : (built v L N f').velocity[j]? = some (v.getD j 0) := by
    rw [getD_of_lt (by omega)]; exact List.getElem?_eq_getElem (l := v) (by omega)
  have e1 : (built v L N f').upDirection[j]? = some (upDir v j) := by simp [built, hj]
  have e2 : (built v L N f').deltas[j]? = some (cellWidth L N j) := by simp [built, hj]
  unfold axisBody
  rw [rd1_of_some e0, M.ok_bind, rd1_of_some e1, M.ok_bind, rd1_of_some e2, M.ok_bind]
  have hn : (built v L N f').ntot.toNat = N.prod := Int.toNat_natCast _
  rw [hn]
  obtain ⟨s, e, hl, h1⟩ := forUp_inv (Nat.zero_le N.prod)
    (fun i (s : List R) => s.length = N.prod ∧ ∀ k, k < N.prod → s[k]? = some (axesDone N (upDir v)
      (fun j a b => upCoeff dt v L N j * (a - b)) u (if k < i then j + 1 else j) (cellC N k)))
    (fun i => cellBody (built v L N f) (built v L N f') (listC N u) (j + 1)
      (dt * v.getD j 0 * (upDir v j : R) / cellWidth L N j) (i + 1))
    (listC N (axesDone N (upDir v) (fun j a b => upCoeff dt v L N j * (a - b)) u j))
    ⟨by simp [listC], fun k hk => by rw [if_neg (by omega)]; exact listC_get _ hk⟩
    (by
      intro i s _ hi ⟨hl, hs⟩
      have := hs i hi
      rw [if_neg (by omega)] at this
      refine ⟨_, cellBody_eq hg u _ s hj hi f' this, by simpa using hl, fun k hk => ?_⟩
      by_cases hik : i = k
      · subst hik
        rw [List.getElem?_set_self (by omega), if_pos (by omega), axesDone_succ]
        rfl
      · rw [List.getElem?_set_ne hik, hs k hk]
        by_cases hki : k < i
        · rw [if_pos hki, if_pos (by omega)]
        · rw [if_neg hki, if_neg (by omega)])
  rw [e]
  congr 1
  apply ext_of_getElem? (by simp [hl, listC])
  intro k hk
  have hk' : k < N.prod := by simpa [listC] using hk
  rw [h1 k hk', if_pos hk', listC_get _ hk']

theorem upwindStep_eq (N : List Nat) (s : Nat → Int) (c : Nat → R) (u : List Nat → R) :
    axesDone N s (fun j a b => c j * (a - b)) u N.length = upwindStep N s c u := rfl

theorem advect_eq (hg : Grid64 N) (hv : v.length = N.length) (dt : R) (u : List Nat → R) (f : List R) :
    advect (built v L N f) (built v L N (listC N u)) dt =
      .ok (built v L N (listC N (upwindStep N (upDir v) (upCoeff dt v L N) u))) := by
  unfold advect
  obtain ⟨s, e, hs⟩ := forUp_inv (Nat.zero_le N.length)
    (fun j s => s = listC N (axesDone N (upDir v) (fun j a b => upCoeff dt v L N j * (a - b)) u j))
    (fun j => axisBody (built v L N f) (built v L N (listC N u)) dt (listC N u) (j + 1)) (listC N u) rfl
    (by
      rintro j s _ hj rfl
      exact ⟨_, axisBody_eq hg hv dt u hj _, rfl⟩)
  have : (forUp 0 (built v L N (listC N u)).ndims (built v L N (listC N u)).f fun j =>
    axisBody (built v L N f) (built v L N (listC N u)) dt (built v L N (listC N u)).f (j + 1)) = .ok s := e
  rw [this, hs]
  rfl

theorem steps_eq (hg : Grid64 N) (hv : v.length = N.length) (k : Int) (dt : R) (u : List Nat → R) :
    (built v L N (listC N u)).steps k dt =
      .ok (built v L N (listC N ((upwindStep N (upDir v) (upCoeff dt v L N))^[k.toNat] u))) := by
  unfold steps
  obtain ⟨s, e, hs⟩ := forUp_inv (Nat.zero_le k.toNat)
    (fun j s => s = built v L N (listC N ((upwindStep N (upDir v) (upCoeff dt v L N))^[j] u)))
    (fun _ s => advect s s dt) (built v L N (listC N u)) rfl
    (by
      rintro j s _ hj rfl
      exact ⟨_, advect_eq hg hv dt _ _, by rw [Function.iterate_succ_apply']⟩)
  rw [e, hs]

/-! ### upwind3.jl -/

/-- Column `j` of the index sets. -/
def col (N : List Nat) (j : Nat) : List Int := (List.range N.prod).map fun c => (((cellC N c).getD j 0 : Nat) : Int)

/-- All columns. -/
def cols (N : List Nat) : List (List Int) := (List.range N.length).map (col N)

/-- Column `j` of the index sets of the upwind cells along axis `j`. -/
def colUp (v : List R) (N : List Nat) (j : Nat) : List Int :=
  (List.range N.prod).map fun c => (((neighbour N j (upDir v j) (cellC N c)).getD j 0 : Nat) : Int)

theorem indexColumns_eq (hg : Grid64 N) : (built v L N f).indexColumns = .ok (cols N) := by
  have hp := hg.prod
  unfold indexColumns
  simp only [built, Int.toNat_natCast]
  apply mapM_pure
  intro j hj
  rw [List.mem_range] at hj
  apply mapM_pure
  intro c hc
  rw [List.mem_range] at hc
  have hs : (strides false N).length = N.length := by simp
  have h1 : 0 < (strides false N)[j]'(by omega) :=
    (strides_pos_le false hg.pos _ (List.getElem_mem (l := strides false N) (by omega))).1
  have h2 : 0 < N[j] := hg.pos _ (List.getElem_mem hj)
  have hl := (cellC_inGrid hg.pos c).length_eq
  have h3 : j < (cellC N c).length := by omega
  have h4 : (cellC N c)[j] = c / (strides false N)[j]'(by omega) % N[j] := by simp [cellC, digitsOf]
  have h7 := Nat.div_le_self c ((strides false N)[j]'(by omega))
  have e1 : jlDiv (c : Int) (((strides false N)[j]'(by omega) : Nat) : Int) =
      .ok ((c / (strides false N)[j]'(by omega) : Nat) : Int) := by
    unfold jlDiv
    rw [if_neg (by omega), ← Int.ofNat_tdiv]
    exact mkInt64_nat (by omega)
  rw [mkInt64_nat (by omega), M.ok_bind, rd1_of_lt (v := ints (strides false N)) (by simpa using hj), M.ok_bind,
    List.getElem_map, e1, M.ok_bind, rd1_of_lt (v := ints N) (by simpa using hj), M.ok_bind, List.getElem_map]
  unfold floorMod
  rw [if_neg (by omega), Int.fmod_eq_emod_of_nonneg _ (by omega), natGetD_of_lt h3, h4]
  rfl

theorem flatInds_eq (hg : Grid64 N) (G : Nat → List Nat) (hG : ∀ c, c < N.prod → InGrid N (G c))
    (rs : List (List Int)) (hrs : ∀ j, j < N.length → rs[j]? = some ((List.range N.prod).map fun c =>
      (((G c).getD j 0 : Nat) : Int))) :
    (built v L N f).flatInds rs = .ok ((List.range N.prod).map fun c => ((flatC N (G c) + 1 : Nat) : Int)) := by
  unfold flatInds
  simp only [built, Int.toNat_natCast]
  apply mapM_pure
  intro c hc
  rw [List.mem_range] at hc
  have ht := hG c hc
  generalize hgt : G c = t at ht
  have hd := flatC_lt ht
  have hp := hg.prod
  have hl := ht.length_eq
  obtain ⟨s, e, hs⟩ := forUp_inv (Nat.zero_le N.length)
    (fun i (s : Int) => s = (((List.zipWith (· * ·) (strides false N) t).take i).sum : Nat))
    (fun j (acc : Int) => do
      mkInt64 (acc + (← mkInt64 ((← rd (← rd rs j) c) * (← rd (ints (strides false N)) j)))))
    0 (by simp)
    (by
      intro i s _ hi hs
      have h1 : i < (strides false N).length := by simpa using hi
      have h3 : i < t.length := by omega
      have k2 := partial_le (N := N) (t := t) (i + 1)
      have e1 := partial_succ h1 h3
      refine ⟨((((List.zipWith (· * ·) (strides false N) t).take (i + 1)).sum : Nat) : Int), ?_, rfl⟩
      rw [e1] at k2
      have e5 : ((List.range N.prod).map fun c => (((G c).getD i 0 : Nat) : Int))[c]? = some (t[i] : Int) := by
        simp [hc, hgt, h3]
      rw [rd_of_some (hrs i hi), M.ok_bind, rd_of_some e5, M.ok_bind,
        rd_of_lt (v := ints (strides false N)) (by simpa using hi), M.ok_bind, List.getElem_map,
        ← Nat.cast_mul, Nat.mul_comm, mkInt64_nat (by omega), M.ok_bind, hs, ← Nat.cast_add, mkInt64_nat (by omega), e1])
  rw [e, hs, M.ok_bind, partial_all hl]
  have h7 := mkInt64_nat (x := flatC N t + 1) (by omega)
  simpa using h7

theorem jlFloat_ok {x : Int} (h1 : -9007199254740992 ≤ x) (h2 : x ≤ 9007199254740992) : jlFloat x = .ok x := by
  unfold jlFloat
  rw [if_pos ⟨by omega, by omega⟩]

theorem axisBody3_eq {dt : R} (hg : Grid64 N) (h53 : ∀ n ∈ N, n ≤ 9007199254740992) (cs : List R)
    (hcs : cs = (List.range N.length).map (upCoeff dt v L N))
    (u : List Nat → R) {j : Nat} (hj : j < N.length) :
    (built v L N f).axisBody3 (cols N) cs (listC N u) (j + 1)
        (cols N, listC N (axesDone N (upDir v) (fun j a b => upCoeff dt v L N j * (a - b)) u j)) =
      .ok (cols N, listC N (axesDone N (upDir v) (fun j a b => upCoeff dt v L N j * (a - b)) u (j + 1))) := by
  have hp := hg.prod
  have h2 : 0 < N[j] := hg.pos _ (List.getElem_mem hj)
  have h5 := h53 _ (List.getElem_mem hj)
  have hrj : (cols N)[j]? = some (col N j) := by simp [cols, hj]
  have hup := upDir_cases v j
  have e1 : (built v L N f).upDirection[j]? = some (upDir v j) := by simp [built, hj]
  have e2 : (built v L N f).numCells[j]? = some (N[j] : Int) := by simp [built, hj]
  have e3 : (col N j).mapM (fun x => do floorMod (← jlFloat ((← jlFloat x) + upDir v j)) (← jlFloat (N[j] : Int))) =
      .ok (colUp v N j) := by
    unfold col
    rw [List.mapM_map]
    apply mapM_pure
    intro c hc
    rw [List.mem_range] at hc
    have hin := cellC_inGrid hg.pos c
    have hl := hin.length_eq
    have h6 := (inGrid_iff_getElem.1 hin).2 j hj (by omega)
    have h7 : (cellC N c).getD j 0 = (cellC N c)[j]'(by omega) := natGetD_of_lt (by omega)
    simp only [Function.comp]
    rw [h7, jlFloat_ok (by omega) (by omega), M.ok_bind, jlFloat_ok (by rcases hup with h | h <;> rw [h] <;> omega)
      (by rcases hup with h | h <;> rw [h] <;> omega), M.ok_bind, jlFloat_ok (by omega) (by omega), M.ok_bind]
    unfold floorMod
    rw [if_neg (by omega), Int.fmod_eq_emod_of_nonneg _ (by omega)]
    have hj' : j < (cellC N c).length := by omega
    rw [getElem_neighbour hj' hj]
    simp only [List.getD_eq_getElem?_getD, List.getElem?_set_self hj', Option.getD_some]
    rw [Int.toNat_of_nonneg (Int.emod_nonneg _ (by omega))]
  have e4 : (built v L N f).flatInds ((cols N).set j (colUp v N j)) = .ok ((List.range N.prod).map fun c =>
      ((flatC N (neighbour N j (upDir v j) (cellC N c)) + 1 : Nat) : Int)) := by
    refine flatInds_eq hg (fun c => neighbour N j (upDir v j) (cellC N c))
      (fun c _ => neighbour_inGrid (cellC_inGrid hg.pos c) j _) _ ?_
    intro i hi
    by_cases hij : j = i
    · subst hij
      rw [List.getElem?_set_self (by simpa [cols] using hi)]
      rfl
    · rw [List.getElem?_set_ne hij]
      simp only [cols, List.getElem?_map, List.getElem?_range hi, Option.map_some, col]
      congr 2
      funext c
      simp only [neighbour, List.getD_eq_getElem?_getD, List.getElem?_set_ne hij]
  have e5 : cs[j]? = some (upCoeff dt v L N j) := by simp [hcs, hj]
  unfold axisBody3
  simp only
  rw [rd1_of_some e1, M.ok_bind, rd1_of_some e2, M.ok_bind, rd1_of_some hrj, M.ok_bind, e3, M.ok_bind,
    wr1_of_lt (by simpa [cols] using hj), M.ok_bind, e4, M.ok_bind, rd1_of_some e5, M.ok_bind]
  rw [mapM_pure (h := fun i => axesDone N (upDir v) (fun j a b => upCoeff dt v L N j * (a - b)) u (j + 1) (cellC N i))]
  · rw [M.ok_bind, M.ok_bind,
      wr1_of_lt (by simpa [cols] using hj), M.ok_bind, M.pure_eq, List.set_set]
    congr 2
    · apply List.ext_getElem?
      intro i
      rw [List.getElem?_set]
      split
      · next h => subst h; rw [if_pos (by simpa [cols] using hj), hrj]
      · rfl
    · simp [listC]
  · intro i hi
    have hi' : i < N.prod := by simpa [listC] using hi
    have g2 : ((List.range N.prod).map fun c =>
      ((flatC N (neighbour N j (upDir v j) (cellC N c)) + 1 : Nat) : Int))[i]? =
        some ((flatC N (neighbour N j (upDir v j) (cellC N i)) + 1 : Nat) : Int) := by simp [hi']
    rw [rd_of_some (listC_get _ hi'), M.ok_bind, rd_of_some g2, M.ok_bind,
      jlGet_nat (listC_flat (neighbour_inGrid (cellC_inGrid hg.pos i) j _) u), M.ok_bind,
      rd_of_some (listC_get u hi'), M.ok_bind, M.pure_eq, axesDone_succ]

theorem advect3_eq (hg : Grid64 N) (h53 : ∀ n ∈ N, n ≤ 9007199254740992) (hv : v.length = N.length) (dt : R)
    (u : List Nat → R) :
    advect3 (cols N) (built v L N (listC N u)) dt =
      .ok (built v L N (listC N (upwindStep N (upDir v) (upCoeff dt v L N) u))) := by
  unfold advect3
  obtain ⟨s, e, hs⟩ := forUp_inv (Nat.zero_le N.length)
    (fun j s => s = (cols N, listC N (axesDone N (upDir v) (fun j a b => upCoeff dt v L N j * (a - b)) u j)))
    (fun j => (built v L N (listC N u)).axisBody3 (cols N) ((List.range N.length).map (upCoeff dt v L N)) (listC N u) (j + 1))
    (cols N, listC N u) rfl
    (by
      rintro j s _ hj rfl
      exact ⟨_, axisBody3_eq hg h53 _ rfl u hj, rfl⟩)
  rw [mapM_pure (h := upCoeff dt v L N), M.ok_bind]
  · have : (forUp 0 (built v L N (listC N u)).ndims (cols N, (built v L N (listC N u)).f) fun j =>
      (built v L N (listC N u)).axisBody3 (cols N) ((List.range (built v L N (listC N u)).ndims).map (upCoeff dt v L N))
        (built v L N (listC N u)).f (j + 1)) = .ok s := e
    rw [this, hs]
    rfl
  · intro j hj
    have hj : j < N.length := by simpa [built] using hj
    have e0 : (built v L N (listC N u)).velocity[j]? = some (v.getD j 0) := by
      rw [getD_of_lt (by omega)]; exact List.getElem?_eq_getElem (l := v) (by omega)
    have e1 : (built v L N (listC N u)).upDirection[j]? = some (upDir v j) := by simp [built, hj]
    have e2 : (built v L N (listC N u)).deltas[j]? = some (cellWidth L N j) := by simp [built, hj]
    rw [rd1_of_some e0, M.ok_bind, rd1_of_some e1, M.ok_bind, rd1_of_some e2, M.ok_bind]
    rfl

theorem run3_eq (hcast : ∀ n : Nat, ((n : Int) : R) = (n : R)) (hg : Grid64 N) (h53 : ∀ n ∈ N, n ≤ 9007199254740992)
    (hv : v.length = N.length) (hL : L.length = N.length) (k : Int) (dt : R) :
    run3 N.length v L (ints N) k dt =
      .ok (built v L N (listC N ((upwindStep N (upDir v) (upCoeff dt v L N))^[k.toNat] cornerField))) := by
  unfold run3
  rw [new_eq hcast hg hv hL, M.ok_bind, indexColumns_eq hg, M.ok_bind]
  obtain ⟨s, e, hs⟩ := forUp_inv (Nat.zero_le k.toNat)
    (fun j s => s = built v L N (listC N ((upwindStep N (upDir v) (upCoeff dt v L N))^[j] cornerField)))
    (fun _ s => advect3 (cols N) s dt) (built v L N (listC N cornerField)) rfl
    (by
      rintro j s _ hj rfl
      exact ⟨_, advect3_eq hg h53 hv dt _, by rw [Function.iterate_succ_apply']⟩)
  rw [e, hs]

end JlUpwind
end Fidi
