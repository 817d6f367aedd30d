import Verif.Lemmas.UpwindExact
import Verif.Lemmas.FilterCalls
import Verif.Spec.UpwindWide

/-
Closed forms of the methods of `Upwind` on all grids with fewer than 2^31 cells, also those with an axis of 2^30 cells or more, and
what remains of them on larger grids.
-/
set_option linter.unusedSectionVars false

namespace Fidi
open Spec

theorem wideNeighbour_inGrid {N g : List Nat} (hg : InGrid N g) (j : Nat) (s : Int) : InGrid N (wideNeighbour N j s g) := by
  obtain ⟨hl, h⟩ := inGrid_iff_getElem.1 hg
  refine inGrid_iff_getElem.2 ⟨by simp [wideNeighbour, hl], ?_⟩
  intro i h1 h2
  simp only [wideNeighbour]
  rw [List.getElem_set]
  split
  · next e =>
    subst e
    have h3 : j < g.length := by omega
    have hpos : 0 < N[j] := Nat.lt_of_le_of_lt (Nat.zero_le _) (h j h1 h3)
    simp only [List.getD_eq_getElem?_getD, List.getElem?_eq_getElem h1, List.getElem?_eq_getElem h3, Option.getD_some]
    split
    · have a := Int.emod_lt_of_pos ((g[j] : Int) + s) (b := (N[j] : Int)) (by omega)
      have b := Int.emod_nonneg ((g[j] : Int) + s) (b := (N[j] : Int)) (by omega)
      omega
    · have a := Int.emod_lt_of_pos ((g[j] : Int) + s + (2 ^ 64 - 2 ^ 32)) (b := (N[j] : Int)) (by omega)
      have b := Int.emod_nonneg ((g[j] : Int) + s + (2 ^ 64 - 2 ^ 32)) (b := (N[j] : Int)) (by omega)
      omega
  · exact h i h1 (by omega)

namespace Upwind
variable {R : Type} [Zero R] [One R] [Add R] [Sub R] [Mul R] [Div R] [NatCast R] [IntCast R] [LT R] [DecidableLT R]

/-- Grids on which the loops run over all cells. -/
structure WideGrid (N : List Nat) : Prop where
  pos : ∀ n ∈ N, 0 < n
  prod : N.prod < 2 ^ 31

variable {v L : List R} {N : List Nat} {f old : List R}

theorem WideGrid.strides {N : List Nat} (hg : WideGrid N) : strW true N = strideR N := by
  have := hg.prod
  have h := strW_eq (ds := N) true hg.pos (by unfold W; omega)
  rw [h]; rfl

theorem WideGrid.mem_lt {N : List Nat} (hg : WideGrid N) {n : Nat} (h : n ∈ N) : n < 2 ^ 31 :=
  Nat.lt_of_le_of_lt (Nat.le_of_dvd (List.prod_pos hg.pos) (List.dvd_prod h)) hg.prod

omit [Add R] [Sub R] [Mul R] [IntCast R] in
theorem wide_getIndexSet_eq (hg : WideGrid N) (i : Nat) : (withF v L N f old).getIndexSet i = .ok (ints (cellAt N i)) := by
  unfold getIndexSet
  simp only [built]
  rw [forUp_fill N.length _ (by simp) (fun j => (((cellAt N i).getD j 0 : Nat) : Int))]
  · congr 1
    have hl := (cellAt_inGrid hg.pos i).length_eq
    apply ext_of_getElem? (by simp [hl])
    intro j hj
    simp [hl] at hj
    have h2 : j < (cellAt N i).length := by omega
    simp [hj, h2]
  · intro j w hj hw _
    have hs : (strideR N).length = N.length := by simp
    have h1 : 0 < (strideR N)[j]'(by omega) := (strides_pos_le true hg.pos _ (List.getElem_mem (l := strideR N) (by omega))).1
    have h2 : 0 < N[j] := hg.pos _ (List.getElem_mem hj)
    rw [hg.strides, rd_of_lt (v := strideR N) (by omega), rd_of_lt hj]
    simp only [M.ok_bind]
    rw [szDiv_of_pos h1]
    simp only [M.ok_bind]
    rw [szMod_of_pos h2]
    simp only [M.ok_bind]
    have h3 : j < (cellAt N i).length := by rw [(cellAt_inGrid hg.pos i).length_eq]; exact hj
    have h4 : (cellAt N i)[j] = i / (strideR N)[j]'(by omega) % N[j] := by
      simp [cellAt, digitsOf]
    have h5 := hg.mem_lt (List.getElem_mem hj)
    have h6 := Nat.mod_lt (i / (strideR N)[j]'(by omega)) h2
    rw [intOfSz_of_lt (by rw [intLim_eq]; omega), wr_of_lt (by omega), natGetD_of_lt h3, h4]

omit [Add R] [Sub R] [Mul R] [IntCast R] in
theorem wide_getFlatIndex_eq (hg : WideGrid N) {t : List Nat} (ht : InGrid N t) :
    (withF v L N f old).getFlatIndex (ints t) = .ok (rankOf N t) := by
  unfold getFlatIndex
  simp only [built, hg.strides, length_strideR]
  have hd := dotR_lt N t ht
  have hp := hg.prod
  have hl := ht.length_eq
  have key : ∀ i, i ≤ N.length → ((List.zipWith (· * ·) (strideR N) t).take i).sum ≤ dot (strideR N) t := by
    intro i hi
    unfold dot
    conv_rhs => rw [← List.take_append_drop i (List.zipWith (· * ·) (strideR N) t), List.sum_append]
    omega
  obtain ⟨s, e, hs⟩ := forUp_inv (Nat.zero_le N.length)
    (fun i (s : Int) => s = (((List.zipWith (· * ·) (strideR N) t).take i).sum : Nat))
    (fun j (acc : Int) => do
      pure (intOfSz (szAdd (szOfInt acc) (szMul (← rd (strideR N) j) (szOfInt (← rd (ints t) j))))))
    0 (by simp)
    (by
      intro i s _ hi hs
      have h1 : i < (strideR N).length := by simpa using hi
      have h2 : i < (ints t).length := by simp [hl]; exact hi
      have h3 : i < t.length := by omega
      have h4 : i < (List.zipWith (· * ·) (strideR N) t).length := by simp; omega
      refine ⟨_, by rw [rd_of_lt h1, rd_of_lt h2]; rfl, ?_⟩
      have k1 := key i (by omega)
      have k2 := key (i + 1) (by omega)
      have e1 : ((List.zipWith (· * ·) (strideR N) t).take (i + 1)).sum =
          ((List.zipWith (· * ·) (strideR N) t).take i).sum + (strideR N)[i] * t[i] := by
        rw [List.sum_take_succ _ _ h4]; simp
      rw [e1] at k2 ⊢
      have h5 := (inGrid_iff_getElem.1 ht).2 i hi h3
      have h6 := hg.mem_lt (List.getElem_mem hi)
      simp only [List.getElem_map]
      rw [hs, szOfInt_ofNat (by unfold W; omega), szOfInt_ofNat (by unfold W; omega), szMul_of_lt (by unfold W; omega),
        szAdd_of_lt (by unfold W; omega), intOfSz_of_lt (by rw [intLim_eq]; omega)])
  rw [e, hs]
  simp only [M.ok_bind, M.pure_eq]
  have : (List.zipWith (· * ·) (strideR N) t).take N.length = List.zipWith (· * ·) (strideR N) t := by
    apply List.take_of_length_le; simp [hl]
  rw [this, rankOf_eq_dot N t hl]
  have h7 : dot (strideR N) t < W := by unfold W; omega
  exact congrArg Except.ok (szOfInt_ofNat h7)

theorem wide_shift_arith {x n : Nat} {s : Int} (hx : x < n) (hn : n < 2 ^ 31) (hs : s = 1 ∨ s = -1) :
    intOfSz (szOfInt (intOfSz (szAdd (szOfInt (x : Int)) (szAdd (szOfInt s) n))) % n) =
      ((if (x : Int) + s + n < 2 ^ 31 then ((x : Int) + s) % n else ((x : Int) + s + (2 ^ 64 - 2 ^ 32)) % n).toNat : Int) := by
  have hxs : (0 : Int) ≤ (x : Int) + s + n := by rcases hs with rfl | rfl <;> omega
  have h0 : szAdd (szOfInt (x : Int)) (szAdd (szOfInt s) n) = ((x : Int) + s + n).toNat := by
    rw [szOfInt_ofNat (by unfold W; omega)]
    unfold szAdd szOfInt W
    rcases hs with rfl | rfl <;> omega
  rw [h0]
  have fin : ∀ m : Nat, intOfSz (m % n) = ((m % n : Nat) : Int) := by
    intro m
    have := Nat.mod_lt m (show 0 < n by omega)
    exact intOfSz_of_lt (by rw [intLim_eq]; omega)
  rw [fin]
  split
  · next hlt =>
    rw [intOfSz_of_lt (by rw [intLim_eq]; omega), szOfInt_ofNat (by unfold W; omega)]
    have : ((((x : Int) + s + n).toNat % n : Nat) : Int) = ((x : Int) + s) % n := by
      rw [Int.natCast_mod, Int.toNat_of_nonneg hxs, Int.add_emod_right]
    omega
  · next hge =>
    have e1 : intOfSz ((x : Int) + s + n).toNat = (x : Int) + s + n - 2 ^ 32 := by
      unfold intOfSz
      rw [show ((((x : Int) + s + n).toNat : Nat) : Int) = ((x : Int) + s + n - 2 ^ 32) + (W32 : Int) * 1 by unfold W32; omega,
        Int.add_mul_bmod_self_left, Int.bmod_eq_of_le] <;> (unfold W32; rcases hs with rfl | rfl <;> omega)
    have e2 : szOfInt ((x : Int) + s + n - 2 ^ 32) = ((x : Int) + s + n - 2 ^ 32 + 2 ^ 64).toNat := by
      unfold szOfInt W
      rcases hs with rfl | rfl <;> omega
    rw [e1, e2]
    have : ((((x : Int) + s + n - 2 ^ 32 + 2 ^ 64).toNat % n : Nat) : Int) = ((x : Int) + s + (2 ^ 64 - 2 ^ 32)) % n := by
      rw [Int.natCast_mod, Int.toNat_of_nonneg (by omega),
        show (x : Int) + s + n - 2 ^ 32 + 2 ^ 64 = (x : Int) + s + (2 ^ 64 - 2 ^ 32) + n by ring, Int.add_emod_right]
    omega

omit [Add R] [Sub R] [Mul R] [IntCast R] in
theorem wide_shiftInd_eq (hg : WideGrid N) {t : List Nat} (ht : InGrid N t) {j : Nat} (hj : j < N.length) :
    (withF v L N f old).shiftInd j ((t.getD j 0 : Nat) : Int) =
      .ok ((if ((t.getD j 0 : Nat) : Int) + upDir v j + (N.getD j 0 : Int) < 2 ^ 31 then (((t.getD j 0 : Nat) : Int) + upDir v j) % (N.getD j 0 : Int)
        else (((t.getD j 0 : Nat) : Int) + upDir v j + (2 ^ 64 - 2 ^ 32)) % (N.getD j 0 : Int)).toNat : Int) := by
  have hl := ht.length_eq
  have h1 := (inGrid_iff_getElem.1 ht).2 j hj (by omega)
  unfold shiftInd
  simp only [built]
  rw [rd_of_lt hj, rd_of_lt (v := (List.range N.length).map (upDir v)) (by simpa using hj)]
  simp only [M.ok_bind, List.getElem_map, List.getElem_range]
  rw [szMod_of_pos (by omega)]
  simp only [M.ok_bind, M.pure_eq]
  rw [natGetD_of_lt (l := t) (by omega), natGetD_of_lt hj,
    wide_shift_arith h1 (hg.mem_lt (List.getElem_mem hj)) (upDir_cases v j)]

omit [Add R] in
theorem wide_axisBody_eq (hg : WideGrid N) (hv : v.length = N.length) (dt : R) {u : List Nat → R} {f0 old0 : List R}
    (hold : Stores N old u) (hf : f.length = N.prod) {g : List Nat} (hgr : InGrid N g) {j : Nat} (hj : j < N.length)
    {x : R} (hx : f[rankOf N g]? = some x) :
    (withF v L N f0 old0).axisBody dt old (rankOf N g) j f (ints g) =
      .ok (f.set (rankOf N g) (x - upCoeff dt v L N j * (u (wideNeighbour N j (upDir v j) g) - u g)), ints g) := by
  have hl := hgr.length_eq
  have hn := wideNeighbour_inGrid hgr j (upDir v j)
  unfold axisBody
  have e1 : rd (ints g) j = .ok ((g.getD j 0 : Nat) : Int) := by
    rw [rd_of_lt (by simp [hl]; exact hj)]
    rw [natGetD_of_lt (by omega)]
    simp
  have e2 : (ints g).set j ((if ((g.getD j 0 : Nat) : Int) + upDir v j + (N.getD j 0 : Int) < 2 ^ 31 then
        (((g.getD j 0 : Nat) : Int) + upDir v j) % (N.getD j 0 : Int)
        else (((g.getD j 0 : Nat) : Int) + upDir v j + (2 ^ 64 - 2 ^ 32)) % (N.getD j 0 : Int)).toNat : Int) =
      ints (wideNeighbour N j (upDir v j) g) := by
    unfold wideNeighbour ints
    rw [List.map_set]
  rw [e1]
  simp only [M.ok_bind]
  rw [coeff_eq hv hj]
  simp only [M.ok_bind]
  rw [wide_shiftInd_eq hg hgr hj]
  simp only [M.ok_bind]
  rw [wr_of_lt (by simp [hl]; exact hj), e2]
  simp only [M.ok_bind]
  rw [wide_getFlatIndex_eq hg hn]
  simp only [M.ok_bind]
  have := rankOf_lt hgr
  rw [rd_of_some hx, rd_of_some (hold.2 _ hn), rd_of_some (hold.2 _ hgr)]
  simp only [M.ok_bind]
  rw [wr_of_lt (by omega)]
  simp only [M.ok_bind]
  rw [wr_of_lt (by simp [hn.length_eq]; exact hj)]
  simp only [M.ok_bind, M.pure_eq]
  congr 2
  rw [← e2, List.set_set, natGetD_of_lt (by omega)]
  apply List.ext_getElem?
  intro k
  rw [List.getElem?_set]
  split
  · next e => subst e; simp [hl, hj]
  · rfl

omit [Add R] in
theorem wide_cellBody_eq (hg : WideGrid N) (hv : v.length = N.length) (dt : R) {u : List Nat → R} {f0 old0 : List R}
    (hold : Stores N old u) (hf : f.length = N.prod) {g : List Nat} (hgr : InGrid N g)
    (hx : f[rankOf N g]? = some (u g)) :
    (withF v L N f0 old0).cellBody dt old (rankOf N g) f =
      .ok (f.set (rankOf N g) (wideStep N (upDir v) (upCoeff dt v L N) u g)) := by
  unfold cellBody
  rw [wide_getIndexSet_eq hg]
  simp only [M.ok_bind, built, cellAt_rankOf hgr]
  have hr := rankOf_lt hgr
  obtain ⟨s, e, hs⟩ := forUp_inv (Nat.zero_le N.length)
    (fun j (s : List R × List Int) => s = (f.set (rankOf N g) ((List.range j).foldl (fun acc j =>
      acc - upCoeff dt v L N j * (u (wideNeighbour N j (upDir v j) g) - u g)) (u g)), ints g))
    (fun j (s : List R × List Int) => (withF v L N f0 old0).axisBody dt old (rankOf N g) j s.1 s.2) (f, ints g)
    (by
      simp only [List.range_zero, List.foldl_nil]
      congr 1
      apply List.ext_getElem?
      intro k
      rw [List.getElem?_set]
      split
      · next e => subst e; rw [if_pos (by omega), hx]
      · rfl)
    (by
      rintro j s _ hj rfl
      refine ⟨_, wide_axisBody_eq hg hv dt hold (by simpa using hf) hgr hj (List.getElem?_set_self (by omega)), ?_⟩
      rw [List.range_succ, List.foldl_append, List.set_set]
      rfl)
  rw [e, hs]
  rfl

omit [Sub R] [Mul R] [IntCast R] [Add R] in
theorem wide_loopCount_eq (hg : WideGrid N) : (withF v L N f old).loopCount = N.prod := by
  have := hg.prod
  unfold loopCount
  simp only [built]
  rw [Nat.mod_eq_of_lt (by unfold W; omega), intOfSz_of_lt (by rw [intLim_eq]; omega)]
  rfl

omit [Add R] in
/-- One time step. -/
theorem wide_timeStep_eq (hg : WideGrid N) (hv : v.length = N.length) (dt : R) {u : List Nat → R}
    (hf : Stores N f u) (hold : old.length = N.prod) :
    (withF v L N f old).timeStep dt =
      .ok (withF v L N (listOf N (wideStep N (upDir v) (upCoeff dt v L N) u)) f) := by
  unfold timeStep
  rw [wide_loopCount_eq hg]
  have e1 : (forUp 0 N.prod old fun i oldF => do wr oldF i (← rd f i)) = .ok f := by
    rw [forUp_fill N.prod old hold (fun i => u (cellAt N i))]
    · rw [(stores_iff hg.pos).1 hf]; rfl
    · intro i w hi hw _
      have := hf.2 _ (cellAt_inGrid hg.pos i)
      rw [rankOf_cellAt hg.pos hi] at this
      rw [rd_of_some this]
      simp only [M.ok_bind]
      exact wr_of_lt (by omega)
  rw [e1]
  simp only [M.ok_bind]
  rw [forUp_update N.prod f hf.1 (fun i => wideStep N (upDir v) (upCoeff dt v L N) u (cellAt N i))]
  · rfl
  · intro i w hi hw he
    have := wide_cellBody_eq (v := v) (L := L) (f0 := f) (old0 := old) hg hv dt hf hw (cellAt_inGrid hg.pos i)
      (by rw [rankOf_cellAt hg.pos hi, he]
          have := hf.2 _ (cellAt_inGrid hg.pos i)
          rwa [rankOf_cellAt hg.pos hi] at this)
    rw [rankOf_cellAt hg.pos hi] at this
    exact this

omit [Add R] in
/-- Any number of time steps. -/
theorem wide_advect_eq (hg : WideGrid N) (hv : v.length = N.length) (k : Int) (dt : R) {u : List Nat → R}
    (hf : Stores N f u) (hold : old.length = N.prod) :
    ∃ old', old'.length = N.prod ∧ (withF v L N f old).advect k dt =
      .ok (withF v L N (listOf N ((wideStep N (upDir v) (upCoeff dt v L N))^[k.toNat] u)) old') := by
  unfold advect
  obtain ⟨s, e, o, ho, hs⟩ := forUp_inv (Nat.zero_le k.toNat)
    (fun i (s : Upwind R) => ∃ o, o.length = N.prod ∧
      s = withF v L N (listOf N ((wideStep N (upDir v) (upCoeff dt v L N))^[i] u)) o)
    (fun _ s => s.timeStep dt) (withF v L N f old)
    ⟨old, hold, by rw [(stores_iff hg.pos).1 hf]; rfl⟩
    (by
      rintro i s _ _ ⟨o, ho, rfl⟩
      refine ⟨_, wide_timeStep_eq hg hv dt (Stores.listOf hg.pos _) ho, _,
        length_listOf N ((wideStep N (upDir v) (upCoeff dt v L N))^[i] u), ?_⟩
      rw [Function.iterate_succ_apply'])
  exact ⟨o, ho, by rw [e, hs]⟩


/-- Whatever the grid, a time step that ends normally leaves the values beyond the bound of the loops as they were. -/
theorem timeStep_frame {self s' : Upwind R} {dt : R} (h : self.timeStep dt = .ok s') {k : Nat} (hk : self.loopCount ≤ k) :
    s'.f[k]? = self.f[k]? := by
  unfold timeStep at h
  obtain ⟨old', -, h⟩ := (M.bind_ok_iff _ _ _).1 h
  obtain ⟨f', e, h⟩ := (M.bind_ok_iff _ _ _).1 h
  obtain rfl := Except.ok.inj h
  have key : ∀ m, m ≤ self.loopCount → ∀ f', forUp 0 m self.f (fun i f => self.cellBody dt old' i f) = .ok f' →
      f'[k]? = self.f[k]? := by
    intro m
    induction m with
    | zero =>
      intro _ f' h
      rw [forUp_of_ge (Nat.le_refl _)] at h
      rw [Except.ok.inj h]
    | succ m ih =>
      intro hm f' h
      rw [forUp_succ (Nat.zero_le _)] at h
      obtain ⟨f1, e1, h⟩ := (M.bind_ok_iff _ _ _).1 h
      rw [← ih (by omega) f1 e1]
      unfold cellBody at h
      obtain ⟨inds, -, h⟩ := (M.bind_ok_iff _ _ _).1 h
      obtain ⟨r, e2, h⟩ := (M.bind_ok_iff _ _ _).1 h
      obtain rfl := Except.ok.inj h
      refine forUp_ok_inv (fun s : List R × List Int => s.1[k]? = f1[k]?) _ _ _ e2 rfl ?_
      rintro j ⟨f2, i2⟩ ⟨f3, i3⟩ hP hb
      unfold axisBody at hb
      obtain ⟨_, -, hb⟩ := (M.bind_ok_iff _ _ _).1 hb
      obtain ⟨_, -, hb⟩ := (M.bind_ok_iff _ _ _).1 hb
      obtain ⟨_, -, hb⟩ := (M.bind_ok_iff _ _ _).1 hb
      obtain ⟨_, -, hb⟩ := (M.bind_ok_iff _ _ _).1 hb
      obtain ⟨_, -, hb⟩ := (M.bind_ok_iff _ _ _).1 hb
      obtain ⟨_, -, hb⟩ := (M.bind_ok_iff _ _ _).1 hb
      obtain ⟨_, -, hb⟩ := (M.bind_ok_iff _ _ _).1 hb
      obtain ⟨_, -, hb⟩ := (M.bind_ok_iff _ _ _).1 hb
      obtain ⟨_, hw, hb⟩ := (M.bind_ok_iff _ _ _).1 hb
      obtain ⟨_, -, hb⟩ := (M.bind_ok_iff _ _ _).1 hb
      have hb := Except.ok.inj hb
      rw [Prod.mk.injEq] at hb
      obtain ⟨rfl, -⟩ := hb
      obtain ⟨-, rfl⟩ := wr_ok hw
      rw [List.getElem?_set_ne (by omega)]
      exact hP
  exact key _ (Nat.le_refl _) _ e

/-- The loops never reach the last cell of a grid of 2^31 cells or more. -/
theorem loopCount_lt (h1 : 2 ^ 31 ≤ N.prod) (h2 : N.prod < 2 ^ 64) : (withF v L N f old).loopCount ≤ N.prod - 1 := by
  unfold loopCount
  simp only [built]
  rw [Nat.mod_eq_of_lt (by unfold W; omega)]
  have : intOfSz N.prod < 2 ^ 31 := by
    unfold intOfSz W32
    have := Int.bmod_lt (x := (N.prod : Int)) (m := 4294967296) (by decide)
    omega
  omega

/-- Where the displacement does not matter, the step is that of the scheme. -/
theorem wideNeighbour_eq (hN : ∀ n ∈ N, n ≤ 2 ^ 30 ∨ n ∣ 2 ^ 64 - 2 ^ 32) {g : List Nat} (hg : InGrid N g) {j : Nat}
    (hj : j < N.length) {s : Int} (hs : s = 1 ∨ s = -1) : wideNeighbour N j s g = neighbour N j s g := by
  obtain ⟨hl, h⟩ := inGrid_iff_getElem.1 hg
  have hx := h j hj (by omega)
  have hn := hN _ (List.getElem_mem hj)
  unfold wideNeighbour neighbour
  simp only
  rw [natGetD_of_lt (l := g) (by omega), natGetD_of_lt hj]
  split
  · rfl
  · next hge =>
    have hd : ((N[j] : Nat) : Int) ∣ (2 ^ 64 - 2 ^ 32 : Int) := by
      rcases hn with hn | hn
      · have : N[j] = 2 ^ 30 := by rcases hs with rfl | rfl <;> omega
        rw [this]
        exact ⟨2 ^ 34 - 2 ^ 2, by norm_num⟩
      · have := Int.natCast_dvd_natCast.2 hn
        exact this
    obtain ⟨q, hq⟩ := hd
    rw [hq, Int.add_mul_emod_self_left]

theorem wideStep_iter (hN : ∀ n ∈ N, n ≤ 2 ^ 30 ∨ n ∣ 2 ^ 64 - 2 ^ 32) (v : List R) (c : Nat → R) (u : List Nat → R) (k : Nat)
    (g : List Nat) (hg : InGrid N g) : (wideStep N (upDir v) c)^[k] u g = (upwindStep N (upDir v) c)^[k] u g := by
  induction k generalizing g with
  | zero => rfl
  | succ k ih =>
    rw [Function.iterate_succ_apply', Function.iterate_succ_apply']
    have key : ∀ (l : List Nat) (a : R), (∀ j ∈ l, j < N.length) →
        l.foldl (fun acc j => acc - c j * ((wideStep N (upDir v) c)^[k] u (wideNeighbour N j (upDir v j) g) -
          (upwindStep N (upDir v) c)^[k] u g)) a =
        l.foldl (fun acc j => acc - c j * ((upwindStep N (upDir v) c)^[k] u (neighbour N j (upDir v j) g) -
          (upwindStep N (upDir v) c)^[k] u g)) a := by
      intro l
      induction l with
      | nil => intro a _; rfl
      | cons j l ih' =>
        intro a hl
        rw [List.foldl_cons, List.foldl_cons, wideNeighbour_eq hN hg (hl j (by simp)) (upDir_cases v j),
          ih _ (neighbour_inGrid hg j _), ih' _ (fun i hi => hl i (by simp [hi]))]
    have e := key (List.range N.length) ((upwindStep N (upDir v) c)^[k] u g) (fun j hj => List.mem_range.1 hj)
    rw [← ih g hg] at e
    rw [show wideStep N (upDir v) c ((wideStep N (upDir v) c)^[k] u) g = _ from e, ih g hg]
    rfl

end Upwind
end Fidi
