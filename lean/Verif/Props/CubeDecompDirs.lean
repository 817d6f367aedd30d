import Verif.Lemmas.NeighborRank
import Verif.Props.CubeDecomp

/-
Property C12 for directions of any length: what `getNeighborRank` returns and when it is the periodic neighbour.
-/
namespace Fidi
open Spec CubeDecomp

section
variable {R : Type} [Div R] [NatCast R] [LT R] [DecidableLT R] [HasMax R]

/-- C12: what `getNeighborRank` returns for the rank at coordinates `x` and any direction: every index is wrapped once only, and the rank of the tuple, which
may lie outside of the process grid, is reduced to an `int`. -/
theorem C12_any_direction (self c : CubeDecomp) (nprocs : Nat) (dims : List Nat) (hp2 : nprocs ≤ 2 ^ 30)
    (hpos : ∀ n ∈ dims, 0 < n) (hlt : ∀ n ∈ dims, n < 2 ^ 64) (hlen : dims.length < 2 ^ 64)
    (h : build R self nprocs dims = .ok (true, c)) (hv : ValidDecomp nprocs dims c.getDecomp)
    (x : List Nat) (hx : InGrid c.getDecomp x) (dir : List Int) (hdl : dir.length = dims.length)
    (hdir : ∀ s ∈ dir, -(2 : Int) ^ 31 < s ∧ s ≤ 2 ^ 30) :
    Prod.fst <$> c.getNeighborRank (rankOf c.getDecomp x : Nat) dir =
      .ok (Int.bmod (rankOfInt c.getDecomp ((List.range dims.length).map fun i =>
        wrapOnce (c.getDecomp.getD i 0) ((x.getD i 0 : Int) + dir.getD i 0))) (2 ^ 32)) := by
  obtain ⟨g, hc⟩ := good_of_build (by omega) hpos hlt hlen h hv
  generalize c.getDecomp = d at *
  subst hc
  have e : shiftedCoords d x dir = (List.range dims.length).map fun i => wrapOnce (d.getD i 0) ((x.getD i 0 : Int) + dir.getD i 0) := by
    unfold shiftedCoords
    rw [g.length_eq]
    apply List.map_congr_left
    intro i hi
    rw [List.mem_range] at hi
    have a : i < d.length := by rw [g.length_eq]; exact hi
    obtain ⟨hxl, hxlt⟩ := inGrid_iff_getElem.1 hx
    have b : i < x.length := by omega
    have hs := hdir (dir.getD i 0) (by rw [getD_of_lt (by omega)]; exact List.getElem_mem _)
    have hd := g.d_le _ (List.getElem_mem a)
    have hx' := hxlt i a b
    rw [getD_of_lt a, getD_of_lt b]
    rw [shiftIndex_any (by omega) (by omega) hs.1 (by omega) (by omega)]
    rfl
  rw [neighborRank_eq_any g hx (by rw [hdl, g.length_eq]), e, show W32 = 2 ^ 32 by norm_num [W32]]

/-- C12: for a step of `s` along one axis every rank is given its periodic neighbour exactly if `|s|` is at most the number of
processes along that axis. -/
theorem C12_axis_iff (self c : CubeDecomp) (nprocs : Nat) (dims : List Nat) (hp2 : nprocs ≤ 2 ^ 30)
    (hpos : ∀ n ∈ dims, 0 < n) (hlt : ∀ n ∈ dims, n < 2 ^ 64) (hlen : dims.length < 2 ^ 64)
    (h : build R self nprocs dims = .ok (true, c)) (hv : ValidDecomp nprocs dims c.getDecomp)
    (a : Nat) (ha : a < dims.length) (s : Int) (hs : |s| * nprocs ≤ 2 ^ 30) :
    (∀ x, InGrid c.getDecomp x →
      Prod.fst <$> c.getNeighborRank (rankOf c.getDecomp x : Nat) (axisDir dims.length a s) =
        .ok (rankOf c.getDecomp (shiftMod c.getDecomp x (axisDir dims.length a s)) : Nat)) ↔
      -(c.getDecomp.getD a 0 : Int) ≤ s ∧ s ≤ c.getDecomp.getD a 0 := by
  have hnp : 1 ≤ nprocs := by
    rw [← hv.2]
    exact prod_pos_of (forall₂_dvd_pos hv.1 hpos).2
  have hs30 : |s| ≤ 2 ^ 30 := by
    have : |s| * 1 ≤ |s| * nprocs := mul_le_mul_of_nonneg_left (by exact_mod_cast hnp) (abs_nonneg s)
    linarith
  have hs' := abs_le.1 hs30
  have hdl : (axisDir dims.length a s).length = dims.length := by simp [axisDir]
  have hget : ∀ i, (axisDir dims.length a s).getD i 0 = if i = a then s else 0 := by
    intro i
    unfold axisDir
    simp only [List.getD_eq_getElem?_getD]
    rw [List.getElem?_set]
    by_cases e : a = i
    · subst e; simp [ha]
    · rw [if_neg e, if_neg (fun h => e h.symm)]
      by_cases hi : i < dims.length <;> simp [hi]
  have hmem : ∀ t ∈ axisDir dims.length a s, t = s ∨ t = 0 := by
    intro t ht
    unfold axisDir at ht
    rcases List.mem_or_eq_of_mem_set ht with h | h
    · exact Or.inr (List.mem_replicate.1 h).2
    · exact Or.inl h
  have hl : c.getDecomp.length = dims.length := hv.1.length_eq.symm
  have hdp := (forall₂_dvd_pos hv.1 hpos).2
  have haD : a < c.getDecomp.length := by omega
  have key : ∀ x, InGrid c.getDecomp x →
      (Prod.fst <$> c.getNeighborRank (rankOf c.getDecomp x : Nat) (axisDir dims.length a s) =
        .ok (rankOf c.getDecomp (shiftMod c.getDecomp x (axisDir dims.length a s)) : Nat) ↔
      -(c.getDecomp.getD a 0 : Int) ≤ (x.getD a 0 : Int) + s ∧ (x.getD a 0 : Int) + s < 2 * c.getDecomp.getD a 0) := by
    intro x hx
    rw [C12_any_direction self c nprocs dims hp2 hpos hlt hlen h hv x hx _ hdl (by
      intro t ht
      rcases hmem t ht with rfl | rfl <;> omega)]
    have hprod := hv.2
    clear h hv
    generalize c.getDecomp = d at *
    obtain ⟨S, hS0, hS1, hS⟩ := rankOfInt_axis hdp haD
    obtain ⟨hxl, hxlt⟩ := inGrid_iff_getElem.1 hx
    have hy := shiftMod_inGrid hx (by rw [hdl, hl])
    have hyr := rankOf_lt hy
    obtain ⟨hyl, hylt⟩ := inGrid_iff_getElem.1 hy
    have hyget : ∀ i, i < d.length → (shiftMod d x (axisDir dims.length a s)).getD i 0 =
        (((x.getD i 0 : Int) + (if i = a then s else 0)) % (d.getD i 0 : Int)).toNat := by
      intro i hi
      have := shiftMod_getElem (d := d) (x := x) (dir := axisDir dims.length a s) i hi (by omega) (by omega)
      rw [List.getD_eq_getElem?_getD, this, ← hget i, getD_of_lt hi, getD_of_lt (by omega : i < x.length),
        getD_of_lt (by omega : i < (axisDir dims.length a s).length)]
      rfl
    have hT : ∀ i, i < d.length → ((List.range dims.length).map fun i =>
        wrapOnce (d.getD i 0) ((x.getD i 0 : Int) + (axisDir dims.length a s).getD i 0)).getD i 0 =
        wrapOnce (d.getD i 0) ((x.getD i 0 : Int) + (if i = a then s else 0)) := by
      intro i hi
      rw [getD_of_lt (by simp [← hl, hi]), List.getElem_map, List.getElem_range, hget i]
    have hY : ∀ i, i < d.length → ((shiftMod d x (axisDir dims.length a s)).map fun n : Nat => (n : Int)).getD i 0 =
        ((((x.getD i 0 : Int) + (if i = a then s else 0)) % (d.getD i 0 : Int)).toNat : Int) := by
      intro i hi
      rw [getD_of_lt (by rw [List.length_map]; omega), List.getElem_map, ← hyget i hi, getD_of_lt]
    rw [hS _ ((shiftMod d x (axisDir dims.length a s)).map fun n : Nat => (n : Int)) (by rw [List.length_map, List.length_range, hl])
      (by rw [List.length_map, hyl]) (by
        intro i hi
        by_cases hid : i < d.length
        · have hxi := hxlt i hid (by omega)
          rw [hT i hid, hY i hid, if_neg hi, add_zero, getD_of_lt hid, getD_of_lt (by omega : i < x.length)]
          unfold wrapOnce
          rw [if_neg (by omega), if_neg (by omega), Int.emod_eq_of_lt (by omega) (by omega)]
          simp
        · simp only [List.getD_eq_getElem?_getD]
          rw [List.getElem?_eq_none (by simp; omega), List.getElem?_eq_none (by simp; omega)]),
      hT a haD, hY a haD, if_pos rfl, rankOfInt_nat hyl]
    have hxa := hxlt a haD (by omega)
    clear hT hY hyget hylt
    generalize rankOf d (shiftMod d x (axisDir dims.length a s)) = y at *
    have hD := hdp _ (List.getElem_mem haD)
    have e1 : d.getD a 0 = d[a] := getD_of_lt haD
    have e2 : x.getD a 0 = x[a]'(by omega) := getD_of_lt (by omega)
    rw [← e1] at hD hxa
    rw [← e2] at hxa
    clear e1 e2
    generalize d.getD a 0 = D at *
    generalize x.getD a 0 = X at *
    have hD' : (0 : Int) < D := by exact_mod_cast hD
    have hY0 := Int.emod_nonneg ((X : Int) + s) (by omega : (D : Int) ≠ 0)
    have hY1 := Int.emod_lt_of_pos ((X : Int) + s) hD'
    rw [Int.toNat_of_nonneg hY0]
    have hSn : S ≤ nprocs := by
      rw [← hprod]
      exact Nat.le_trans (Nat.le_mul_of_pos_right S hD) hS1
    rw [hprod] at hyr
    have same : ∀ P : Int, |P| ≤ |s| → (Except.ok (Int.bmod ((y : Int) + S * P) (2 ^ 32)) = (Except.ok (y : Int) : M Int) ↔
        P = 0) := by
      intro P hP
      have hb : |(S : Int) * P| ≤ 2 ^ 30 := by
        rw [abs_mul, abs_of_nonneg (by omega : (0 : Int) ≤ S)]
        refine le_trans ?_ hs
        rw [mul_comm]
        exact mul_le_mul hP (by exact_mod_cast hSn) (by omega) (abs_nonneg s)
      have hb' := abs_le.1 hb
      rw [Except.ok.injEq]
      constructor
      · intro e
        have h0 : (S : Int) * P = 0 := by
          rw [Int.bmod_def] at e
          split at e <;> omega
        rcases mul_eq_zero.1 h0 with h1 | h1
        · omega
        · exact h1
      · rintro rfl
        rw [mul_zero, add_zero, Int.bmod_def, if_pos] <;> omega
    have hsl := neg_abs_le s
    have hsu := le_abs_self s
    by_cases hin : -(D : Int) ≤ (X : Int) + s ∧ (X : Int) + s < 2 * D
    · have hT : wrapOnce D ((X : Int) + s) = ((X : Int) + s) % D := by
        unfold wrapOnce
        split
        · rw [← Int.add_emod_right, Int.emod_eq_of_lt (by omega) (by omega)]
        · split
          · rw [← Int.sub_emod_right, Int.emod_eq_of_lt (by omega) (by omega)]
          · rw [Int.emod_eq_of_lt (by omega) (by omega)]
      rw [hT, sub_self]
      exact ⟨fun _ => hin, fun _ => (same 0 (by simp)).2 rfl⟩
    · have hT : |wrapOnce D ((X : Int) + s) - ((X : Int) + s) % D| ≤ |s| ∧
          wrapOnce D ((X : Int) + s) - ((X : Int) + s) % D ≠ 0 := by
        rw [abs_le]
        unfold wrapOnce
        split
        · omega
        · rw [if_pos (by omega)]; omega
      rw [same _ hT.1]
      exact ⟨fun e => absurd e hT.2, fun e => absurd e hin⟩
  have exists_at : ∀ v, v < c.getDecomp.getD a 0 → ∃ x, InGrid c.getDecomp x ∧ x.getD a 0 = v := by
    intro v hv'
    refine ⟨(List.replicate c.getDecomp.length 0).set a v, inGrid_iff_getElem.2 ⟨by simp, ?_⟩, ?_⟩
    · intro i h1 h2
      rw [List.getElem_set]
      split
      · rename_i e; subst e; rwa [getD_of_lt h1] at hv'
      · simpa using hdp _ (List.getElem_mem h1)
    · rw [getD_of_lt (by simpa using haD), List.getElem_set_self]
  have hD0 : 0 < c.getDecomp.getD a 0 := by
    rw [getD_of_lt haD]
    exact hdp _ (List.getElem_mem haD)
  constructor
  · intro hall
    obtain ⟨x, hx, hxa⟩ := exists_at 0 hD0
    obtain ⟨x', hx', hxa'⟩ := exists_at (c.getDecomp.getD a 0 - 1) (by omega)
    have h1 := (key x hx).1 (hall x hx)
    have h2 := (key x' hx').1 (hall x' hx')
    rw [hxa] at h1
    rw [hxa'] at h2
    omega
  · intro hr x hx
    refine (key x hx).2 ?_
    have : x.getD a 0 < c.getDecomp.getD a 0 := by
      obtain ⟨hxl, hxlt⟩ := inGrid_iff_getElem.1 hx
      rw [getD_of_lt haD, getD_of_lt (by omega)]
      exact hxlt a haD (by omega)
    omega

end

/-- 4 processes on an 8 x 8 grid, [2, 2]: from the process at (1, 1), rank 3, three steps along axis 0 give rank 5 instead of
the periodic neighbour 1; from rank 1 they are right, but three steps back give -1; two steps give the rank itself. -/
example : ∃ c, build ℚ CubeDecomp.empty ((4 : Nat) : Int) [8, 8] = .ok (true, c) ∧ c.getDecomp = [2, 2] ∧
    rankOf [2, 2] [1, 1] = 3 ∧ rankOf [2, 2] (shiftMod [2, 2] [1, 1] (axisDir 2 0 3)) = 1 ∧
    Prod.fst <$> c.getNeighborRank 1 (axisDir 2 0 3) = .ok 3 ∧
    Prod.fst <$> c.getNeighborRank 3 (axisDir 2 0 3) = .ok 5 ∧
    Prod.fst <$> c.getNeighborRank 1 (axisDir 2 0 (-3)) = .ok (-1) ∧
    Prod.fst <$> c.getNeighborRank 1 (axisDir 2 0 2) = .ok 1 :=
  ⟨{ nprocs := 4, ndims := 2, decomp := [2, 2], dims := [8, 8], localDims := [4, 4],
     mit := some (builtIter [0, 0] [2, 2] true) }, by decide +kernel⟩

end Fidi
