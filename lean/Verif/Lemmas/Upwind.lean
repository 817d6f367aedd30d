import Verif.Model.Upwind
import Verif.Spec.Upwind
import Verif.Lemmas.CubeDecomp

/-
Closed forms of the methods of `Upwind`.
-/
namespace Fidi
open Spec

/-- A loop whose body replaces entry `i` of a vector, given that this entry is still the initial one. -/
theorem forUp_update {α : Type} (n : Nat) (v0 : List α) (hv : v0.length = n) (g : Nat → α)
    (f : Nat → List α → M (List α))
    (hf : ∀ i v, i < n → v.length = n → v[i]? = v0[i]? → f i v = .ok (v.set i (g i))) :
    forUp 0 n v0 f = .ok ((List.range n).map g) := by
  obtain ⟨s, e, hl, hp, _⟩ := forUp_inv (Nat.zero_le n)
    (fun i (s : List α) => s.length = n ∧ (∀ j, j < i → s[j]? = some (g j)) ∧ ∀ j, i ≤ j → s[j]? = v0[j]?) f v0
    ⟨hv, by intro j hj; omega, fun _ _ => rfl⟩
    (by
      intro i s _ hi ⟨hl, hp, hq⟩
      refine ⟨_, hf i s hi hl (hq i (Nat.le_refl _)), by simpa using hl, ?_, ?_⟩
      · intro j hj
        rw [List.getElem?_set]
        by_cases hji : i = j
        · subst hji; simp [hl, hi]
        · simp only [hji, if_false]; exact hp j (by omega)
      · intro j hj
        rw [List.getElem?_set_ne (by omega)]
        exact hq j (by omega))
  rw [e]
  congr 1
  apply List.ext_getElem?
  intro j
  by_cases hj : j < n
  · rw [hp j hj]; simp [hj]
  · rw [List.getElem?_eq_none (by omega)]
    rw [List.getElem?_eq_none (by simp; omega)]

/-- Cell at flat position `i` (last axis fastest). -/
def cellAt (N : List Nat) (i : Nat) : List Nat := digitsOf (strideR N) N i

theorem cellAt_inGrid {N : List Nat} (hp : ∀ n ∈ N, 0 < n) (i : Nat) : InGrid N (cellAt N i) := digitsR_lt N hp i

theorem rankOf_cellAt {N : List Nat} (hp : ∀ n ∈ N, 0 < n) {i : Nat} (hi : i < N.prod) : rankOf N (cellAt N i) = i := by
  rw [rankOf_eq_dot _ _ (cellAt_inGrid hp i).length_eq, cellAt, dotR_digits N hp, Nat.mod_eq_of_lt hi]

theorem cellAt_rankOf {N g : List Nat} (hg : InGrid N g) : cellAt N (rankOf N g) = g := by
  rw [rankOf_eq_dot _ _ hg.length_eq, cellAt, digitsR_dot N g hg]

/-- The list storing a field. -/
def listOf {R : Type} (N : List Nat) (u : List Nat → R) : List R := (List.range N.prod).map fun i => u (cellAt N i)

@[simp] theorem length_listOf {R : Type} (N : List Nat) (u : List Nat → R) : (listOf N u).length = N.prod := by
  simp [listOf]

theorem stores_iff {R : Type} {N : List Nat} (hp : ∀ n ∈ N, 0 < n) {f : List R} {u : List Nat → R} :
    Stores N f u ↔ f = listOf N u := by
  constructor
  · rintro ⟨hl, h⟩
    apply ext_of_getElem? (by simp [hl])
    intro i hi
    simp only [length_listOf] at hi
    have := h (cellAt N i) (cellAt_inGrid hp i)
    rw [rankOf_cellAt hp hi] at this
    rw [this]
    simp [listOf, hi]
  · rintro rfl
    refine ⟨by simp, fun g hg => ?_⟩
    have := rankOf_lt hg
    simp [listOf, this, cellAt_rankOf hg]

theorem Stores.listOf {R : Type} {N : List Nat} (hp : ∀ n ∈ N, 0 < n) (u : List Nat → R) : Stores N (listOf N u) u :=
  (stores_iff hp).2 rfl

/-- Every list of the right length stores a field. -/
theorem exists_field {R : Type} [Zero R] {N : List Nat} {f : List R} (hf : f.length = N.prod) :
    Stores N f fun g => f.getD (rankOf N g) 0 := by
  refine ⟨hf, fun g hg => ?_⟩
  have := rankOf_lt hg
  simp only [List.getD_eq_getElem?_getD]
  rw [List.getElem?_eq_getElem (by omega)]; rfl

theorem neighbour_inGrid {N g : List Nat} (hg : InGrid N g) (j : Nat) (s : Int) : InGrid N (neighbour N j s g) := by
  obtain ⟨hl, h⟩ := inGrid_iff_getElem.1 hg
  refine inGrid_iff_getElem.2 ⟨by simp [neighbour, hl], ?_⟩
  intro i h1 h2
  simp only [neighbour]
  rw [List.getElem_set]
  split
  · next e =>
    subst e
    have h3 : j < g.length := by omega
    have hpos : 0 < N[j] := Nat.lt_of_le_of_lt (Nat.zero_le _) (h j h1 h3)
    simp only [List.getD_eq_getElem?_getD, List.getElem?_eq_getElem h1, List.getElem?_eq_getElem h3, Option.getD_some]
    have a := Int.emod_lt_of_pos ((g[j] : Int) + s) (b := (N[j] : Int)) (by omega)
    have b := Int.emod_nonneg ((g[j] : Int) + s) (b := (N[j] : Int)) (by omega)
    omega
  · exact h i h1 (by omega)

/-- The vector of `int` equal to a vector of naturals. -/
abbrev ints (t : List Nat) : List Int := t.map fun n : Nat => (n : Int)

namespace Upwind
variable {R : Type} [Zero R] [One R] [Add R] [Sub R] [Mul R] [Div R] [NatCast R] [IntCast R] [LT R] [DecidableLT R]

/-- Closed form of a constructed object. -/
def built (v L : List R) (N : List Nat) : Upwind R :=
  { ndims := N.length, v, lengths := L, deltas := (List.range N.length).map (cellWidth L N),
    f := (List.replicate (N.prod % W) 0).set 0 1, oldF := List.replicate (N.prod % W) 0,
    upDirection := (List.range N.length).map (upDir v), dimProd := strW true N, numCells := N, ntot := N.prod % W }

omit [One R] [Add R] [Sub R] [Mul R] [IntCast R] in
theorem new_loop (v L : List R) (N : List Nat) (hv : v.length = N.length) (hL : L.length = N.length) :
    (forUp 0 N.length (List.replicate N.length (0 : R), List.replicate N.length (0 : Int), 1) (newBody v L N)) =
      .ok ((List.range N.length).map (cellWidth L N), (List.range N.length).map (upDir v), N.prod % W) := by
  obtain ⟨s, e, h1, h2, h3, h4, h5⟩ := forUp_inv (Nat.zero_le N.length)
    (fun i (s : List R × List Int × Nat) => s.1.length = N.length ∧ s.2.1.length = N.length ∧
      (∀ j, j < i → s.1[j]? = some (cellWidth L N j)) ∧ (∀ j, j < i → s.2.1[j]? = some (upDir v j)) ∧
      s.2.2 = (N.take i).prod % W)
    (newBody v L N)
    (List.replicate N.length (0 : R), List.replicate N.length (0 : Int), 1)
    ⟨by simp, by simp, by intro j hj; omega, by intro j hj; omega, by simp [W]⟩
    (by
      rintro i ⟨d, u, t⟩ _ hi ⟨h1, h2, h3, h4, h5⟩
      simp only at h1 h2 h3 h4 h5
      refine ⟨(d.set i (cellWidth L N i), u.set i (upDir v i), szMul t N[i]), ?_, by simpa using h1, by simpa using h2,
        ?_, ?_, ?_⟩
      · simp only [newBody]
        rw [wr_of_lt (by omega), rd_of_lt (v := v) (by omega), rd_of_lt (v := L) (by omega), rd_of_lt (v := N) hi]
        have hvi : v.getD i 0 = v[i]'(by omega) := by
          rw [List.getD_eq_getElem?_getD, List.getElem?_eq_getElem (by omega)]; rfl
        have hLi : L.getD i 0 = L[i]'(by omega) := by
          rw [List.getD_eq_getElem?_getD, List.getElem?_eq_getElem (by omega)]; rfl
        have hNi : N.getD i 0 = N[i] := by
          rw [List.getD_eq_getElem?_getD, List.getElem?_eq_getElem hi]; rfl
        simp only [M.ok_bind, M.pure_eq, upDir, cellWidth, hvi, hLi, hNi]
        split
        · rw [wr_of_lt (by simp; omega)]
          simp only [M.ok_bind]
          rw [wr_of_lt (by omega)]
          simp
        · rw [wr_of_lt (by omega)]
          simp
      · intro j hj
        by_cases hji : i = j
        · subst hji; simp [h1, hi]
        · simp only
          rw [List.getElem?_set_ne hji]; exact h3 j (by omega)
      · intro j hj
        by_cases hji : i = j
        · subst hji; simp [h2, hi]
        · simp only
          rw [List.getElem?_set_ne hji]; exact h4 j (by omega)
      · simp only
        rw [h5, szMul_mod_left, List.prod_take_succ _ _ hi])
  rw [e]
  obtain ⟨d, u, t⟩ := s
  simp only at h1 h2 h3 h4 h5
  have e1 : d = (List.range N.length).map (cellWidth L N) := by
    apply ext_of_getElem? (by simp [h1])
    intro i hi
    simp at hi
    rw [h3 i hi]; simp [hi]
  have e2 : u = (List.range N.length).map (upDir v) := by
    apply ext_of_getElem? (by simp [h2])
    intro i hi
    simp at hi
    rw [h4 i hi]; simp [hi]
  rw [e1, e2, h5]
  simp

omit [Add R] [Sub R] [Mul R] [IntCast R] in
theorem new_eq (v L : List R) (N : List Nat) (hv : v.length = N.length) (hL : L.length = N.length) (hN : N ≠ [])
    (hn : N.length < W) : new N.length v L N = if N.prod % W = 0 then .error .outOfBounds else .ok (built v L N) := by
  have h := build_dpR N (List.replicate N.length 0) hN (by simp) hn
  have hpos : 0 < N.length := List.length_pos_iff.2 hN
  rw [szSub_of_le hpos hn] at h
  unfold new
  rw [szSub_of_le hpos hn, new_loop v L N hv hL]
  simp only [M.ok_bind]
  rw [← bind_assoc, h]
  simp only [M.ok_bind]
  split
  · next e => rw [e, wr_of_ge (by simp)]; simp only [M.error_bind]
  · next e => rw [wr_of_lt (by rw [List.length_replicate]; exact Nat.pos_of_ne_zero e)]; simp only [M.ok_bind, M.pure_eq, built]

omit [Add R] [Sub R] [Mul R] [IntCast R] in
theorem new_nil (v L : List R) (N : List Nat) : new 0 v L N = .error .outOfBounds := by
  unfold new
  rw [forUp_of_ge (Nat.le_refl _), wr_of_ge (by simp)]
  simp only [M.error_bind, M.ok_bind]

/-- Grids on which the `int` arithmetic of the class is exact. -/
structure GoodGrid (N : List Nat) : Prop where
  pos : ∀ n ∈ N, 0 < n
  prod : N.prod < 2 ^ 31
  axis : ∀ n ∈ N, n < 2 ^ 30

/-- The object with other fields. -/
abbrev withF (v L : List R) (N : List Nat) (f old : List R) : Upwind R := { built v L N with f := f, oldF := old }

variable {v L : List R} {N : List Nat} {f old : List R}

theorem GoodGrid.strides {N : List Nat} (hg : GoodGrid N) : strW true N = strideR N := by
  have := hg.prod
  have h := strW_eq (ds := N) true hg.pos (by unfold W; omega)
  rw [h]; rfl

theorem GoodGrid.mem_lt {N : List Nat} (hg : GoodGrid N) {n : Nat} (h : n ∈ N) : n < 2 ^ 30 := hg.axis n h

omit [One R] [Add R] [Sub R] [Mul R] [Div R] [NatCast R] [IntCast R] [LT R] [DecidableLT R] in
theorem getD_of_lt {l : List R} {i : Nat} (h : i < l.length) : l.getD i 0 = l[i] := by
  rw [List.getD_eq_getElem?_getD, List.getElem?_eq_getElem h]; rfl

theorem natGetD_of_lt {l : List Nat} {i : Nat} (h : i < l.length) : l.getD i 0 = l[i] := by
  rw [List.getD_eq_getElem?_getD, List.getElem?_eq_getElem h]; rfl

omit [Add R] [Sub R] [Mul R] [IntCast R] in
theorem getIndexSet_eq (hg : GoodGrid N) (i : Nat) : (withF v L N f old).getIndexSet i = .ok (ints (cellAt N i)) := by
  unfold getIndexSet
  simp only [built]
  rw [forUp_fill N.length _ (by simp) (fun j => (((cellAt N i).getD j 0 : Nat) : Int))]
  · congr 1
    have hl := (cellAt_inGrid hg.pos i).length_eq
    apply ext_of_getElem? (by simp [hl])
    intro j hj
    simp [hl] at hj
    have h2 : j < (cellAt N i).length := by omega
    simp [hj, h2]
  · intro j w hj hw _
    have hs : (strideR N).length = N.length := by simp
    have h1 : 0 < (strideR N)[j]'(by omega) := (strides_pos_le true hg.pos _ (List.getElem_mem (l := strideR N) (by omega))).1
    have h2 : 0 < N[j] := hg.pos _ (List.getElem_mem hj)
    rw [hg.strides, rd_of_lt (v := strideR N) (by omega), rd_of_lt hj]
    simp only [M.ok_bind]
    rw [szDiv_of_pos h1]
    simp only [M.ok_bind]
    rw [szMod_of_pos h2]
    simp only [M.ok_bind]
    have h3 : j < (cellAt N i).length := by rw [(cellAt_inGrid hg.pos i).length_eq]; exact hj
    have h4 : (cellAt N i)[j] = i / (strideR N)[j]'(by omega) % N[j] := by
      simp [cellAt, digitsOf]
    have h5 := hg.mem_lt (List.getElem_mem hj)
    have h6 := Nat.mod_lt (i / (strideR N)[j]'(by omega)) h2
    rw [intOfSz_of_lt (by rw [intLim_eq]; omega), wr_of_lt (by omega), natGetD_of_lt h3, h4]

omit [Add R] [Sub R] [Mul R] [IntCast R] in
theorem getFlatIndex_eq (hg : GoodGrid N) {t : List Nat} (ht : InGrid N t) :
    (withF v L N f old).getFlatIndex (ints t) = .ok (rankOf N t) := by
  unfold getFlatIndex
  simp only [built, hg.strides, length_strideR]
  have hd := dotR_lt N t ht
  have hp := hg.prod
  have hl := ht.length_eq
  have key : ∀ i, i ≤ N.length → ((List.zipWith (· * ·) (strideR N) t).take i).sum ≤ dot (strideR N) t := by
    intro i hi
    unfold dot
    conv_rhs => rw [← List.take_append_drop i (List.zipWith (· * ·) (strideR N) t), List.sum_append]
    omega
  obtain ⟨s, e, hs⟩ := forUp_inv (Nat.zero_le N.length)
    (fun i (s : Int) => s = (((List.zipWith (· * ·) (strideR N) t).take i).sum : Nat))
    (fun j (acc : Int) => do
      pure (intOfSz (szAdd (szOfInt acc) (szMul (← rd (strideR N) j) (szOfInt (← rd (ints t) j))))))
    0 (by simp)
    (by
      intro i s _ hi hs
      have h1 : i < (strideR N).length := by simpa using hi
      have h2 : i < (ints t).length := by simp [hl]; exact hi
      have h3 : i < t.length := by omega
      have h4 : i < (List.zipWith (· * ·) (strideR N) t).length := by simp; omega
      refine ⟨_, by rw [rd_of_lt h1, rd_of_lt h2]; rfl, ?_⟩
      have k1 := key i (by omega)
      have k2 := key (i + 1) (by omega)
      have e1 : ((List.zipWith (· * ·) (strideR N) t).take (i + 1)).sum =
          ((List.zipWith (· * ·) (strideR N) t).take i).sum + (strideR N)[i] * t[i] := by
        rw [List.sum_take_succ _ _ h4]; simp
      rw [e1] at k2 ⊢
      have h5 := (inGrid_iff_getElem.1 ht).2 i hi h3
      have h6 := hg.mem_lt (List.getElem_mem hi)
      simp only [List.getElem_map]
      rw [hs, szOfInt_ofNat (by unfold W; omega), szOfInt_ofNat (by unfold W; omega), szMul_of_lt (by unfold W; omega),
        szAdd_of_lt (by unfold W; omega), intOfSz_of_lt (by rw [intLim_eq]; omega)])
  rw [e, hs]
  simp only [M.ok_bind, M.pure_eq]
  have : (List.zipWith (· * ·) (strideR N) t).take N.length = List.zipWith (· * ·) (strideR N) t := by
    apply List.take_of_length_le; simp [hl]
  rw [this, rankOf_eq_dot N t hl]
  have h7 : dot (strideR N) t < W := by unfold W; omega
  exact congrArg Except.ok (szOfInt_ofNat h7)

theorem shift_arith {x n : Nat} {s : Int} (hx : x < n) (hn : n < 2 ^ 30) (hs : s = 1 ∨ s = -1) :
    intOfSz (szOfInt (intOfSz (szAdd (szOfInt (x : Int)) (szAdd (szOfInt s) n))) % n) = (((x : Int) + s) % n).toNat := by
  have h1 : intOfSz (szAdd (szOfInt (x : Int)) (szAdd (szOfInt s) n)) = (x : Int) + s + n := by
    rw [szOfInt_ofNat (by unfold W; omega)]
    have : szAdd x (szAdd (szOfInt s) n) = ((x : Int) + s + n).toNat := by
      unfold szAdd szOfInt W
      rcases hs with rfl | rfl <;> omega
    rw [this, intOfSz_of_lt (by rw [intLim_eq]; rcases hs with rfl | rfl <;> omega)]
    rcases hs with rfl | rfl <;> omega
  rw [h1]
  have h2 : (x : Int) + s + n = ((((x : Int) + s + n).toNat : Nat) : Int) := by rcases hs with rfl | rfl <;> omega
  rw [h2, szOfInt_ofNat (by unfold W; rcases hs with rfl | rfl <;> omega)]
  have h3 : ((x : Int) + s + n).toNat % n < n := Nat.mod_lt _ (by omega)
  rw [intOfSz_of_lt (by rw [intLim_eq]; omega)]
  have h4 : (((x : Int) + s) % n).toNat = ((x : Int) + s + n).toNat % n := by
    have : ((((x : Int) + s + n).toNat % n : Nat) : Int) = ((x : Int) + s) % n := by
      rw [Int.natCast_mod, ← h2, Int.add_emod_right]
    omega
  rw [h4]

omit [One R] [Add R] [Sub R] [Mul R] [Div R] [NatCast R] [IntCast R] in
theorem upDir_cases (v : List R) (j : Nat) : upDir v j = 1 ∨ upDir v j = -1 := by
  unfold upDir; split <;> simp

omit [Add R] [Sub R] [Mul R] [IntCast R] in
theorem shiftInd_eq (hg : GoodGrid N) {t : List Nat} (ht : InGrid N t) {j : Nat} (hj : j < N.length) :
    (withF v L N f old).shiftInd j ((t.getD j 0 : Nat) : Int) =
      .ok (((((t.getD j 0 : Nat) : Int) + upDir v j) % (N.getD j 0 : Int)).toNat : Int) := by
  have hl := ht.length_eq
  have h1 := (inGrid_iff_getElem.1 ht).2 j hj (by omega)
  unfold shiftInd
  simp only [built]
  rw [rd_of_lt hj, rd_of_lt (v := (List.range N.length).map (upDir v)) (by simpa using hj)]
  simp only [M.ok_bind, List.getElem_map, List.getElem_range]
  rw [szMod_of_pos (by omega)]
  simp only [M.ok_bind, M.pure_eq]
  rw [natGetD_of_lt (l := t) (by omega), natGetD_of_lt hj,
    shift_arith h1 (hg.mem_lt (List.getElem_mem hj)) (upDir_cases v j)]

omit [Add R] [Sub R] in
theorem coeff_eq (hv : v.length = N.length) {j : Nat} (hj : j < N.length) (dt : R) :
    (withF v L N f old).coeff dt j = .ok (upCoeff dt v L N j) := by
  unfold coeff
  simp only [built]
  rw [rd_of_lt (v := v) (by omega), rd_of_lt (by simpa using hj), rd_of_lt (by simpa using hj)]
  simp only [M.ok_bind, M.pure_eq, List.getElem_map, List.getElem_range, upCoeff]
  rw [getD_of_lt (by omega)]

omit [Add R] in
theorem axisBody_eq (hg : GoodGrid N) (hv : v.length = N.length) (dt : R) {u : List Nat → R} {f0 old0 : List R}
    (hold : Stores N old u) (hf : f.length = N.prod) {g : List Nat} (hgr : InGrid N g) {j : Nat} (hj : j < N.length)
    {x : R} (hx : f[rankOf N g]? = some x) :
    (withF v L N f0 old0).axisBody dt old (rankOf N g) j f (ints g) =
      .ok (f.set (rankOf N g) (x - upCoeff dt v L N j * (u (neighbour N j (upDir v j) g) - u g)), ints g) := by
  have hl := hgr.length_eq
  have hn := neighbour_inGrid hgr j (upDir v j)
  unfold axisBody
  have e1 : rd (ints g) j = .ok ((g.getD j 0 : Nat) : Int) := by
    rw [rd_of_lt (by simp [hl]; exact hj)]
    rw [natGetD_of_lt (by omega)]
    simp
  have e2 : (ints g).set j (((((g.getD j 0 : Nat) : Int) + upDir v j) % (N.getD j 0 : Int)).toNat : Int) =
      ints (neighbour N j (upDir v j) g) := by
    unfold neighbour ints
    rw [List.map_set]
  rw [e1]
  simp only [M.ok_bind]
  rw [coeff_eq hv hj]
  simp only [M.ok_bind]
  rw [shiftInd_eq hg hgr hj]
  simp only [M.ok_bind]
  rw [wr_of_lt (by simp [hl]; exact hj), e2]
  simp only [M.ok_bind]
  rw [getFlatIndex_eq hg hn]
  simp only [M.ok_bind]
  have := rankOf_lt hgr
  rw [rd_of_some hx, rd_of_some (hold.2 _ hn), rd_of_some (hold.2 _ hgr)]
  simp only [M.ok_bind]
  rw [wr_of_lt (by omega)]
  simp only [M.ok_bind]
  rw [wr_of_lt (by simp [hn.length_eq]; exact hj)]
  simp only [M.ok_bind, M.pure_eq]
  congr 2
  rw [← e2, List.set_set, natGetD_of_lt (by omega)]
  apply List.ext_getElem?
  intro k
  rw [List.getElem?_set]
  split
  · next e => subst e; simp [hl, hj]
  · rfl

omit [Add R] in
theorem cellBody_eq (hg : GoodGrid N) (hv : v.length = N.length) (dt : R) {u : List Nat → R} {f0 old0 : List R}
    (hold : Stores N old u) (hf : f.length = N.prod) {g : List Nat} (hgr : InGrid N g)
    (hx : f[rankOf N g]? = some (u g)) :
    (withF v L N f0 old0).cellBody dt old (rankOf N g) f =
      .ok (f.set (rankOf N g) (upwindStep N (upDir v) (upCoeff dt v L N) u g)) := by
  unfold cellBody
  rw [getIndexSet_eq hg]
  simp only [M.ok_bind, built, cellAt_rankOf hgr]
  have hr := rankOf_lt hgr
  obtain ⟨s, e, hs⟩ := forUp_inv (Nat.zero_le N.length)
    (fun j (s : List R × List Int) => s = (f.set (rankOf N g) ((List.range j).foldl (fun acc j =>
      acc - upCoeff dt v L N j * (u (neighbour N j (upDir v j) g) - u g)) (u g)), ints g))
    (fun j (s : List R × List Int) => (withF v L N f0 old0).axisBody dt old (rankOf N g) j s.1 s.2) (f, ints g)
    (by
      simp only [List.range_zero, List.foldl_nil]
      congr 1
      apply List.ext_getElem?
      intro k
      rw [List.getElem?_set]
      split
      · next e => subst e; rw [if_pos (by omega), hx]
      · rfl)
    (by
      rintro j s _ hj rfl
      refine ⟨_, axisBody_eq hg hv dt hold (by simpa using hf) hgr hj (List.getElem?_set_self (by omega)), ?_⟩
      rw [List.range_succ, List.foldl_append, List.set_set]
      rfl)
  rw [e, hs]
  rfl

omit [Sub R] [Mul R] [IntCast R] [Add R] in
theorem loopCount_eq (hg : GoodGrid N) : (withF v L N f old).loopCount = N.prod := by
  have := hg.prod
  unfold loopCount
  simp only [built]
  rw [Nat.mod_eq_of_lt (by unfold W; omega), intOfSz_of_lt (by rw [intLim_eq]; omega)]
  rfl

omit [Add R] in
/-- One time step. -/
theorem timeStep_eq (hg : GoodGrid N) (hv : v.length = N.length) (dt : R) {u : List Nat → R}
    (hf : Stores N f u) (hold : old.length = N.prod) :
    (withF v L N f old).timeStep dt =
      .ok (withF v L N (listOf N (upwindStep N (upDir v) (upCoeff dt v L N) u)) f) := by
  unfold timeStep
  rw [loopCount_eq hg]
  have e1 : (forUp 0 N.prod old fun i oldF => do wr oldF i (← rd f i)) = .ok f := by
    rw [forUp_fill N.prod old hold (fun i => u (cellAt N i))]
    · rw [(stores_iff hg.pos).1 hf]; rfl
    · intro i w hi hw _
      have := hf.2 _ (cellAt_inGrid hg.pos i)
      rw [rankOf_cellAt hg.pos hi] at this
      rw [rd_of_some this]
      simp only [M.ok_bind]
      exact wr_of_lt (by omega)
  rw [e1]
  simp only [M.ok_bind]
  rw [forUp_update N.prod f hf.1 (fun i => upwindStep N (upDir v) (upCoeff dt v L N) u (cellAt N i))]
  · rfl
  · intro i w hi hw he
    have := cellBody_eq (v := v) (L := L) (f0 := f) (old0 := old) hg hv dt hf hw (cellAt_inGrid hg.pos i)
      (by rw [rankOf_cellAt hg.pos hi, he]
          have := hf.2 _ (cellAt_inGrid hg.pos i)
          rwa [rankOf_cellAt hg.pos hi] at this)
    rw [rankOf_cellAt hg.pos hi] at this
    exact this

omit [Add R] in
/-- Any number of time steps. -/
theorem advect_eq (hg : GoodGrid N) (hv : v.length = N.length) (k : Int) (dt : R) {u : List Nat → R}
    (hf : Stores N f u) (hold : old.length = N.prod) :
    ∃ old', old'.length = N.prod ∧ (withF v L N f old).advect k dt =
      .ok (withF v L N (listOf N ((upwindStep N (upDir v) (upCoeff dt v L N))^[k.toNat] u)) old') := by
  unfold advect
  obtain ⟨s, e, o, ho, hs⟩ := forUp_inv (Nat.zero_le k.toNat)
    (fun i (s : Upwind R) => ∃ o, o.length = N.prod ∧
      s = withF v L N (listOf N ((upwindStep N (upDir v) (upCoeff dt v L N))^[i] u)) o)
    (fun _ s => s.timeStep dt) (withF v L N f old)
    ⟨old, hold, by rw [(stores_iff hg.pos).1 hf]; rfl⟩
    (by
      rintro i s _ _ ⟨o, ho, rfl⟩
      refine ⟨_, timeStep_eq hg hv dt (Stores.listOf hg.pos _) ho, _,
        length_listOf N ((upwindStep N (upDir v) (upCoeff dt v L N))^[i] u), ?_⟩
      rw [Function.iterate_succ_apply'])
  exact ⟨o, ho, by rw [e, hs]⟩

end Upwind
end Fidi
