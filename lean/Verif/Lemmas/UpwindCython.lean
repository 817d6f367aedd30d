import Verif.Model.UpwindCython
import Verif.Lemmas.UpwindJulia

/-
Closed forms for upwind5.pyx.
-/
set_option linter.unusedSectionVars false

namespace Fidi
open Spec

/-- Grids with a number of cells in the range of `int`. -/
structure Grid31 (N : List Nat) : Prop where
  pos : ∀ n ∈ N, 0 < n
  prod : N.prod < 2 ^ 31

theorem Grid31.mem_lt {N : List Nat} (hg : Grid31 N) {n : Nat} (h : n ∈ N) : n < 2 ^ 31 :=
  lt_of_le_of_lt (mem_le_prod hg.pos h) hg.prod

namespace CyUpwind
open Upwind PyUpwind
variable {R : Type} [Zero R] [One R] [Add R] [Sub R] [Mul R] [Div R] [NatCast R] [IntCast R] [LT R] [DecidableLT R]
variable {v L : List R} {N : List Nat} {f : List R}

/-- Closed form of the objects. -/
def built (v L : List R) (N : List Nat) (f old : List R) (flat : List Int) : CyUpwind R :=
  { ndims := N.length, ntot := (N.prod : Int), numCells := ints N, upDirection := (List.range N.length).map (upDir v),
    deltas := (List.range N.length).map (cellWidth L N), v, lengths := L,
    coeff := (List.range N.length).map fun j => v.getD j 0 * (upDir v j : R) / cellWidth L N j, f, oldF := old,
    dimProd := ints (strideR N), inds := rows N, indsUp := rows N, flatIndsUp := flat }

theorem new_loop_inv (hcast : ∀ n : Nat, ((n : Int) : R) = (n : R))
    (hv : v.length = N.length) (hL : L.length = N.length) {m : Nat} (hm : m ≤ N.length)
    (hfit : ∀ i, i < m → (N.take (i + 1)).prod < 2147483648) :
    ∃ s, forUp 0 m (List.replicate N.length (0 : R), List.replicate N.length (0 : Int), 1) (newBody v L (ints N)) = .ok s ∧
      s.1.length = N.length ∧ s.2.1.length = N.length ∧
      (∀ j, j < m → s.1[j]? = some (cellWidth L N j)) ∧ (∀ j, j < m → s.2.1[j]? = some (upDir v j)) ∧
      s.2.2 = ((N.take m).prod : Nat) := by
  refine forUp_inv (Nat.zero_le m)
    (fun i (s : List R × List Int × Int) => s.1.length = N.length ∧ s.2.1.length = N.length ∧
      (∀ j, j < i → s.1[j]? = some (cellWidth L N j)) ∧ (∀ j, j < i → s.2.1[j]? = some (upDir v j)) ∧
      s.2.2 = ((N.take i).prod : Nat))
    (newBody v L (ints N))
    (List.replicate N.length (0 : R), List.replicate N.length (0 : Int), 1)
    ⟨by simp, by simp, by intro j hj; omega, by intro j hj; omega, by simp⟩ ?_
  rintro i ⟨d, u, t⟩ _ him ⟨h1, h2, h3, h4, h5⟩
  simp only at h1 h2 h3 h4 h5
  have hi : i < N.length := by omega
  have hpr : (N.take (i + 1)).prod = (N.take i).prod * N[i] := List.prod_take_succ _ _ hi
  refine ⟨(d.set i (cellWidth L N i), u.set i (upDir v i), ((N.take (i + 1)).prod : Nat)), ?_, by simpa using h1,
    by simpa using h2, ?_, ?_, rfl⟩
  · simp only [newBody]
    rw [wr_of_lt (by omega), rd_of_lt (v := v) (by omega), rd_of_lt (v := L) (by omega),
      rd_of_lt (v := ints N) (by simpa using hi)]
    have hvi : v.getD i 0 = v[i]'(by omega) := getD_of_lt (by omega)
    have hLi : L.getD i 0 = L[i]'(by omega) := getD_of_lt (by omega)
    have hNi : N.getD i 0 = N[i] := natGetD_of_lt hi
    have hmul : mkInt (t * (N[i] : Int)) = .ok (((N.take (i + 1)).prod : Nat) : Int) := by
      rw [h5, ← Nat.cast_mul, ← hpr, mkInt_nat' (hfit i him)]
    simp only [M.ok_bind, M.pure_eq, upDir, cellWidth, hvi, hLi, hNi, List.getElem_map, hcast, hmul]
    split
    · rw [wr_of_lt (by simp; omega)]
      simp only [M.ok_bind]
      rw [wr_of_lt (by omega)]
      simp
    · rw [wr_of_lt (by omega)]
      simp
  · intro j hj
    by_cases hji : i = j
    · subst hji; simp [h1, hi]
    · simp only
      rw [List.getElem?_set_ne hji]; exact h3 j (by omega)
  · intro j hj
    by_cases hji : i = j
    · subst hji; simp [h2, hi]
    · simp only
      rw [List.getElem?_set_ne hji]; exact h4 j (by omega)

theorem new_loop (hcast : ∀ n : Nat, ((n : Int) : R) = (n : R)) (hg : Grid31 N)
    (hv : v.length = N.length) (hL : L.length = N.length) :
    forUp 0 N.length (List.replicate N.length (0 : R), List.replicate N.length (0 : Int), 1) (newBody v L (ints N)) =
      .ok ((List.range N.length).map (cellWidth L N), (List.range N.length).map (upDir v), (N.prod : Int)) := by
  obtain ⟨s, e, h1, h2, h3, h4, h5⟩ := new_loop_inv hcast hv hL (Nat.le_refl N.length) (by
    intro i _
    have := prod_take_le hg.pos (i + 1)
    have := hg.prod
    omega)
  rw [e]
  obtain ⟨d, u, t⟩ := s
  simp only at h1 h2 h3 h4 h5
  have e1 : d = (List.range N.length).map (cellWidth L N) := by
    apply ext_of_getElem? (by simp [h1])
    intro i hi
    simp at hi
    rw [h3 i hi]; simp [hi]
  have e2 : u = (List.range N.length).map (upDir v) := by
    apply ext_of_getElem? (by simp [h2])
    intro i hi
    simp at hi
    rw [h4 i hi]; simp [hi]
  rw [e1, e2, h5]
  simp

/-- Too many cells. -/
theorem new_loop_big (hcast : ∀ n : Nat, ((n : Int) : R) = (n : R)) (hbig : 2147483648 ≤ N.prod)
    (hv : v.length = N.length) (hL : L.length = N.length) :
    forUp 0 N.length (List.replicate N.length (0 : R), List.replicate N.length (0 : Int), 1) (newBody v L (ints N)) =
      .error .signedOverflow := by
  have hex : ∃ i, i < N.length ∧ 2147483648 ≤ (N.take (i + 1)).prod := by
    have h0 : N.length ≠ 0 := by
      intro h
      rw [List.length_eq_zero_iff] at h
      subst h
      simp at hbig
    refine ⟨N.length - 1, by omega, ?_⟩
    rw [List.take_of_length_le (by omega)]
    exact hbig
  classical
  obtain ⟨hi, hb⟩ := Nat.find_spec hex
  have hmin : ∀ k, k < Nat.find hex → (N.take (k + 1)).prod < 2147483648 := by
    intro k hk
    have := Nat.find_min hex hk
    have hlt : k < N.length := by omega
    by_contra h
    exact this ⟨hlt, by omega⟩
  generalize Nat.find hex = i at hi hb hmin
  obtain ⟨s, e, h1, h2, h3, h4, h5⟩ := new_loop_inv hcast hv hL (Nat.le_of_lt hi) hmin
  refine forUp_error (Nat.zero_le i) hi _ s _ _ e ?_
  obtain ⟨d, u, t⟩ := s
  simp only at h1 h2 h3 h4 h5
  have hpr : (N.take (i + 1)).prod = (N.take i).prod * N[i] := List.prod_take_succ _ _ hi
  have hmul : mkInt (t * (N[i] : Int)) = .error .signedOverflow := by
    rw [h5, ← Nat.cast_mul, ← hpr]
    unfold mkInt inInt
    rw [intLim_eq, if_neg (by simp only [Bool.and_eq_true, decide_eq_true_eq]; omega)]
    rfl
  simp only [newBody]
  rw [wr_of_lt (by omega), rd_of_lt (v := v) (by omega), rd_of_lt (v := L) (by omega),
    rd_of_lt (v := ints N) (by simpa using hi)]
  simp only [M.ok_bind, List.getElem_map, hmul]
  split
  · rw [wr_of_lt (by simp; omega)]
    simp only [M.ok_bind]
    rw [wr_of_lt (by omega)]
    rfl
  · simp only [M.pure_eq, M.ok_bind]
    rw [wr_of_lt (by omega)]
    rfl

theorem dimProd_loop (hg : Grid31 N) :
    (forDown (N.length - 1) (List.replicate N.length (1 : Int)) fun i dp => do
        wr dp i (← mkInt64 ((← rd dp (i + 1)) * (← rd (ints N) (i + 1))))) = .ok (ints (strideR N)) := by
  have hp := hg.prod
  obtain ⟨s, e, hl', hp'⟩ := forDown_inv (N.length - 1)
    (fun i (s : List Int) => s.length = N.length ∧ ∀ j, i ≤ j → j < N.length → s[j]? = some ((N.drop (j + 1)).prod : Int))
    (fun i dp => do wr dp i (← mkInt64 ((← rd dp (i + 1)) * (← rd (ints N) (i + 1)))))
    (List.replicate N.length (1 : Int))
    (by
      refine ⟨by simp, ?_⟩
      intro j h1 h2
      rw [List.getElem?_replicate, if_pos h2, List.drop_of_length_le (by omega)]; rfl)
    (by
      intro i s hi ⟨h1, h2⟩
      have hi2 : i + 1 < N.length := by omega
      have e1 := h2 (i + 1) (Nat.le_refl _) hi2
      have e2 : (ints N)[i + 1]? = some (N[i + 1] : Int) := by simp [hi2]
      have e3 : (((N.drop (i + 1 + 1)).prod : Nat) : Int) * (N[i + 1] : Int) = ((N.drop (i + 1)).prod : Nat) := by
        rw [← Nat.cast_mul, Nat.mul_comm, ← List.prod_cons, List.getElem_cons_drop]
      have hle := prod_drop_le hg.pos (i + 1)
      refine ⟨s.set i ((N.drop (i + 1)).prod : Nat), ?_, by simpa using h1, ?_⟩
      · rw [rd_of_some e1, M.ok_bind, rd_of_some e2, M.ok_bind, e3, mkInt64_nat (by omega), M.ok_bind]
        exact wr_of_lt (by omega)
      · intro j hj1 hj2
        by_cases hji : i = j
        · subst hji
          rw [List.getElem?_set_self (by omega)]
        · rw [List.getElem?_set_ne hji]
          exact h2 j (by omega) hj2)
  rw [e]
  congr 1
  apply ext_of_getElem? (by simp [hl'])
  intro i hi
  have hi' : i < N.length := by simpa using hi
  rw [hp' i (Nat.zero_le _) hi', strideR_get hi']

theorem inds_loop {py : NumpyRules} (hpy : py.trueDivision = false) (hg : Grid31 N) :
    (forUp 0 N.length (List.replicate N.length (List.replicate N.prod (0 : Int))) fun j inds => do
      let row ← (List.range N.prod).mapM fun c : Nat => do
        let q ← divInPlace py (← mkInt64 (c : Int)) (← rd (ints (strideR N)) j)
        floorMod q (← rd (ints N) j)
      wr inds j row) = .ok (rows N) := by
  have hp := hg.prod
  rw [forUp_fill (g := row N) _ _ (by simp)]
  · rfl
  · intro j w hj hw _
    have hs : (strideR N).length = N.length := by simp
    have h1 : 0 < (strideR N)[j]'(by omega) := (strides_pos_le true hg.pos _ (List.getElem_mem (l := strideR N) (by omega))).1
    have h2 : 0 < N[j] := hg.pos _ (List.getElem_mem hj)
    have h5 := hg.mem_lt (List.getElem_mem hj)
    rw [mapM_pure (h := fun c => (((cellAt N c).getD j 0 : Nat) : Int)) ?_, M.ok_bind]
    · exact wr_of_lt (by omega)
    · intro c hc
      rw [List.mem_range] at hc
      have hl := (cellAt_inGrid hg.pos c).length_eq
      have h3 : j < (cellAt N c).length := by omega
      have h4 : (cellAt N c)[j] = c / (strideR N)[j]'(by omega) % N[j] := by simp [cellAt, digitsOf]
      rw [mkInt64_nat (by omega), M.ok_bind, rd_of_lt (v := ints (strideR N)) (by simpa using hj), M.ok_bind,
        List.getElem_map, rd_of_lt (v := ints N) (by simpa using hj)]
      unfold divInPlace floorDiv
      rw [hpy]
      simp only [Bool.false_eq_true, if_false]
      rw [if_neg (by omega), M.ok_bind, M.ok_bind, List.getElem_map]
      unfold floorMod
      rw [if_neg (by omega), natGetD_of_lt h3, h4, Int.fdiv_eq_ediv_of_nonneg _ (by omega),
        Int.fmod_eq_emod_of_nonneg _ (by omega)]
      simp

theorem inds_loop_error {py : NumpyRules} (hpy : py.trueDivision = true) (hN : N ≠ []) (hg : Grid31 N) :
    (forUp 0 N.length (List.replicate N.length (List.replicate N.prod (0 : Int))) fun j inds => do
      let row ← (List.range N.prod).mapM fun c : Nat => do
        let q ← divInPlace py (← mkInt64 (c : Int)) (← rd (ints (strideR N)) j)
        floorMod q (← rd (ints N) j)
      wr inds j row) = .error .badArgument := by
  have hp := prod_pos_of hg.pos
  have h0 : 0 < N.length := List.length_pos_iff.2 hN
  rw [forUp_of_lt h0]
  obtain ⟨k, hk⟩ : ∃ k, N.prod = k + 1 := ⟨N.prod - 1, by omega⟩
  rw [hk, List.range_succ_eq_map, List.mapM_cons, mkInt64_nat (by omega), M.ok_bind,
    rd_of_lt (v := ints (strideR N)) (by simpa using h0), M.ok_bind]
  unfold divInPlace
  rw [hpy]
  rfl

theorem corner_list (hpos : ∀ n ∈ N, 0 < n) :
    (List.replicate N.prod (0 : R)).set 0 1 = listOf N cornerField := by
  have hp : 0 < N.prod := List.prod_pos hpos
  refine (stores_iff hpos).1 ?_
  have hz : InGrid N (List.replicate N.length 0) := by
    refine inGrid_iff_getElem.2 ⟨by simp, fun i h1 h2 => ?_⟩
    simpa using hpos _ (List.getElem_mem h1)
  have hr0 : rankOf N (List.replicate N.length 0) = 0 := by
    rw [rankOf_eq_dot _ _ (by simp)]
    have : ∀ (a : List Nat) n, dot a (List.replicate n 0) = 0 := by
      intro a
      induction a with
      | nil => intro n; cases n <;> rfl
      | cons x a ih => intro n; cases n with
        | zero => rfl
        | succ n =>
          have := ih n
          simp only [dot] at this ⊢
          simp [List.replicate_succ, this]
    exact this _ _
  refine ⟨by simp, fun g hgr => ?_⟩
  have hr := rankOf_lt hgr
  rw [List.getElem?_set]
  by_cases h0 : rankOf N g = 0
  · have : g = List.replicate N.length 0 := rankOf_inj hgr hz (by rw [h0, hr0])
    rw [if_pos h0.symm, if_pos (by simpa using hp)]
    simp [cornerField, this]
  · rw [if_neg (fun h => h0 h.symm), List.getElem?_replicate, if_pos hr]
    simp only [cornerField]
    rw [if_neg]
    intro hall
    apply h0
    have : g = List.replicate N.length 0 := by
      apply List.eq_replicate_of_mem hall |>.trans
      rw [hgr.length_eq]
    rw [this, hr0]

theorem coeff_eq (hv : v.length = N.length) :
    (List.range N.length).mapM (fun j => do
      pure ((← rd v j) * ((← rd ((List.range N.length).map (upDir v)) j : Int) : R) /
        (← rd ((List.range N.length).map (cellWidth L N)) j)) : Nat → M R) =
      .ok ((List.range N.length).map fun j => v.getD j 0 * (upDir v j : R) / cellWidth L N j) := by
  apply mapM_pure
  intro j hj
  rw [List.mem_range] at hj
  rw [rd_of_lt (v := v) (by omega), rd_of_lt (v := (List.range N.length).map (upDir v)) (by simpa using hj),
    rd_of_lt (v := (List.range N.length).map (cellWidth L N)) (by simpa using hj), getD_of_lt (by omega)]
  simp

theorem new_eq {py : NumpyRules} (hpy : py.trueDivision = false) (hcast : ∀ n : Nat, ((n : Int) : R) = (n : R))
    (hg : Grid31 N) (hv : v.length = N.length) (hL : L.length = N.length) :
    new py v L (ints N) = .ok (built v L N (listOf N cornerField) (List.replicate N.prod 0) (List.replicate N.prod 0)) := by
  have hp := prod_pos_of hg.pos
  unfold new
  rw [hv]
  dsimp only
  rw [new_loop hcast hg hv hL]
  simp only [M.ok_bind]
  rw [dimProd_loop hg]
  simp only [M.ok_bind]
  rw [coeff_eq hv]
  simp only [M.ok_bind, Int.toNat_natCast]
  rw [if_neg (by omega), wr_of_lt (by simpa using hp)]
  simp only [M.ok_bind, M.pure_eq]
  rw [inds_loop hpy hg]
  simp only [M.ok_bind, built, corner_list hg.pos]

theorem new_trueDivision {py : NumpyRules} (hpy : py.trueDivision = true) (hcast : ∀ n : Nat, ((n : Int) : R) = (n : R))
    (hN : N ≠ []) (hg : Grid31 N) (hv : v.length = N.length) (hL : L.length = N.length) :
    new py v L (ints N) = .error .badArgument := by
  have hp := prod_pos_of hg.pos
  unfold new
  rw [hv]
  dsimp only
  rw [new_loop hcast hg hv hL]
  simp only [M.ok_bind]
  rw [dimProd_loop hg]
  simp only [M.ok_bind]
  rw [coeff_eq hv]
  simp only [M.ok_bind, Int.toNat_natCast]
  rw [if_neg (by omega), wr_of_lt (by simpa using hp)]
  simp only [M.ok_bind, M.pure_eq]
  rw [inds_loop_error hpy hN hg]
  rfl

theorem new_big {py : NumpyRules} (hcast : ∀ n : Nat, ((n : Int) : R) = (n : R)) (hbig : 2147483648 ≤ N.prod)
    (hv : v.length = N.length) (hL : L.length = N.length) : new py v L (ints N) = .error .signedOverflow := by
  unfold new
  rw [hv]
  dsimp only
  rw [new_loop_big hcast hbig hv hL]
  rfl

/-- Flat indices from rows of index sets. -/
theorem dotInds_eq {old : List R} {flat : List Int} (hg : Grid31 N) (G : Nat → List Nat) (hG : ∀ c, c < N.prod → InGrid N (G c))
    (rs : List (List Int)) (hrs : ∀ j, j < N.length → rs[j]? = some ((List.range N.prod).map fun c =>
      (((G c).getD j 0 : Nat) : Int))) :
    (built v L N f old flat).dotInds rs = .ok ((List.range N.prod).map fun c => ((rankOf N (G c) : Nat) : Int)) := by
  unfold dotInds
  simp only [built, Int.toNat_natCast]
  apply mapM_pure
  intro c hc
  rw [List.mem_range] at hc
  have ht := hG c hc
  generalize hgt : G c = t at ht
  have hd := dotR_lt N t ht
  have hp := hg.prod
  have hl := ht.length_eq
  have key : ∀ i, i ≤ N.length → ((List.zipWith (· * ·) (strideR N) t).take i).sum ≤ dot (strideR N) t := by
    intro i hi
    unfold dot
    conv_rhs => rw [← List.take_append_drop i (List.zipWith (· * ·) (strideR N) t), List.sum_append]
    omega
  obtain ⟨s, e, hs⟩ := forUp_inv (Nat.zero_le N.length)
    (fun i (s : Int) => s = (((List.zipWith (· * ·) (strideR N) t).take i).sum : Nat))
    (fun j (acc : Int) => do
      mkInt64 (acc + (← mkInt64 ((← rd (ints (strideR N)) j) * (← rd (← rd rs j) c)))))
    0 (by simp)
    (by
      intro i s _ hi hs
      have h1 : i < (strideR N).length := by simpa using hi
      have h3 : i < t.length := by omega
      have h4 : i < (List.zipWith (· * ·) (strideR N) t).length := by simp; omega
      have k2 := key (i + 1) (by omega)
      have e1 : ((List.zipWith (· * ·) (strideR N) t).take (i + 1)).sum =
          ((List.zipWith (· * ·) (strideR N) t).take i).sum + (strideR N)[i] * t[i] := by
        rw [List.sum_take_succ _ _ h4]; simp
      refine ⟨((((List.zipWith (· * ·) (strideR N) t).take (i + 1)).sum : Nat) : Int), ?_, rfl⟩
      rw [e1] at k2
      have e5 : ((List.range N.prod).map fun c => (((G c).getD i 0 : Nat) : Int))[c]? = some (t[i] : Int) := by
        simp [hc, hgt, h3]
      rw [rd_of_lt (v := ints (strideR N)) (by simpa using hi), M.ok_bind, List.getElem_map, rd_of_some (hrs i hi), M.ok_bind,
        rd_of_some e5, M.ok_bind,
        ← Nat.cast_mul, mkInt64_nat (by omega), M.ok_bind, hs, ← Nat.cast_add, mkInt64_nat (by omega), e1])
  rw [e, hs]
  have : (List.zipWith (· * ·) (strideR N) t).take N.length = List.zipWith (· * ·) (strideR N) t := by
    apply List.take_of_length_le; simp [hl]
  rw [this, rankOf_eq_dot N t hl]
  rfl

theorem axisBody_eq {py : NumpyRules} (hpy : py.sameKind = false) (hg : Grid31 N) (dt : R) (u : List Nat → R) {j : Nat}
    (hj : j < N.length) (flat : List Int) :
    ∃ flat', axisBody py dt j (built v L N (listOf N (axesDone N (upDir v) (changeTimeLast dt v L N) u j)) (listOf N u) flat) =
      .ok (built v L N (listOf N (axesDone N (upDir v) (changeTimeLast dt v L N) u (j + 1))) (listOf N u) flat') := by
  refine ⟨(List.range N.prod).map fun c => ((rankOf N (neighbour N j (upDir v j) (cellAt N c)) : Nat) : Int), ?_⟩
  have hp := hg.prod
  generalize hX : built v L N (listOf N (axesDone N (upDir v) (changeTimeLast dt v L N) u j)) (listOf N u) flat = X
  have h2 : 0 < N[j] := hg.pos _ (List.getElem_mem hj)
  have h5 := hg.mem_lt (List.getElem_mem hj)
  have hrj : (rows N)[j]? = some (row N j) := by simp [rows, hj]
  have hup := upDir_cases v j
  have e1 : X.upDirection[j]? = some (upDir v j) := by simp [← hX, built, hj]
  have e2 : X.numCells[j]? = some (N[j] : Int) := by simp [← hX, built, hj]
  have e3 : (row N j).mapM (fun x => do floorMod (← addInPlace py x (upDir v j)) (N[j] : Int)) = .ok (rowUp v N j) := by
    unfold row
    rw [List.mapM_map]
    apply mapM_pure
    intro c hc
    rw [List.mem_range] at hc
    have hin := cellAt_inGrid hg.pos c
    have hl := hin.length_eq
    have h6 := (inGrid_iff_getElem.1 hin).2 j hj (by omega)
    have h7 : (cellAt N c).getD j 0 = (cellAt N c)[j]'(by omega) := natGetD_of_lt (by omega)
    simp only [Function.comp]
    have h8 : addInPlace py (((cellAt N c)[j]'(by omega) : Nat) : Int) (upDir v j) =
        .ok ((((cellAt N c)[j]'(by omega) : Nat) : Int) + upDir v j) := by
      unfold addInPlace mkInt64
      rw [hpy]
      simp only [Bool.false_eq_true, if_false]
      exact if_pos (by rcases hup with h | h <;> rw [h] <;> omega)
    rw [h7, h8, M.ok_bind]
    unfold floorMod
    rw [if_neg (by omega), Int.fmod_eq_emod_of_nonneg _ (by omega)]
    have hj' : j < (cellAt N c).length := by omega
    simp only [neighbour, List.getD_eq_getElem?_getD, List.getElem?_set_self hj', Option.getD_some]
    rw [List.getElem?_eq_getElem hj', List.getElem?_eq_getElem hj]
    simp only [Option.getD_some]
    rw [Int.toNat_of_nonneg (Int.emod_nonneg _ (by omega))]
  have e4 : X.dotInds ((rows N).set j (rowUp v N j)) = .ok ((List.range N.prod).map fun c =>
      ((rankOf N (neighbour N j (upDir v j) (cellAt N c)) : Nat) : Int)) := by
    rw [← hX]
    refine dotInds_eq hg (fun c => neighbour N j (upDir v j) (cellAt N c))
      (fun c _ => neighbour_inGrid (cellAt_inGrid hg.pos c) j _) _ ?_
    intro i hi
    by_cases hij : j = i
    · subst hij
      rw [List.getElem?_set_self (by simpa [rows] using hi)]
      rfl
    · rw [List.getElem?_set_ne hij]
      simp only [rows, List.getElem?_map, List.getElem?_range hi, Option.map_some, row]
      congr 2
      funext c
      simp only [neighbour, List.getD_eq_getElem?_getD, List.getElem?_set_ne hij]
  have e5 : X.coeff[j]? = some (v.getD j 0 * (upDir v j : R) / cellWidth L N j) := by simp [← hX, built, hj]
  have e6 : X.indsUp = rows N := by rw [← hX]; rfl
  have e7 : X.inds[j]? = some (row N j) := by rw [← hX]; exact hrj
  have e8 : X.f = listOf N (axesDone N (upDir v) (changeTimeLast dt v L N) u j) := by rw [← hX]; rfl
  have e9 : X.oldF = listOf N u := by rw [← hX]; rfl
  unfold axisBody
  rw [rd_of_some e1, M.ok_bind, rd_of_some e2, M.ok_bind, e6, rd_of_some hrj, M.ok_bind, e3, M.ok_bind,
    wr_of_lt (by simpa [rows] using hj), M.ok_bind, e4, M.ok_bind, rd_of_some e5, M.ok_bind, e8, e9]
  dsimp only
  rw [mapM_pure (h := fun i => axesDone N (upDir v) (changeTimeLast dt v L N) u (j + 1) (cellAt N i))]
  · rw [M.ok_bind, rd_of_some e7, M.ok_bind,
      wr_of_lt (by simpa [rows] using hj), M.ok_bind, M.pure_eq, List.set_set]
    have e10 : (rows N).set j (row N j) = rows N := by
      apply List.ext_getElem?
      intro i
      rw [List.getElem?_set]
      split
      · next h => subst h; rw [if_pos (by simpa [rows] using hj), hrj]
      · rfl
    rw [e10, ← hX]
    simp [built, listOf]
  · intro i hi
    have hi' : i < N.prod := by simpa [listOf] using hi
    have g1 : (listOf N (axesDone N (upDir v) (changeTimeLast dt v L N) u j))[i]? =
        some (axesDone N (upDir v) (changeTimeLast dt v L N) u j (cellAt N i)) := by simp [listOf, hi']
    have g2 : ((List.range N.prod).map fun c =>
      ((rankOf N (neighbour N j (upDir v j) (cellAt N c)) : Nat) : Int))[i]? =
        some ((rankOf N (neighbour N j (upDir v j) (cellAt N i)) : Nat) : Int) := by simp [hi']
    have g3 : (listOf N u)[i]? = some (u (cellAt N i)) := by simp [listOf, hi']
    rw [rd_of_some g1, M.ok_bind, rd_of_some g2, M.ok_bind,
      pyGet_nat ((Stores.listOf hg.pos u).2 _ (neighbour_inGrid (cellAt_inGrid hg.pos i) j _)), M.ok_bind,
      rd_of_some g3, M.ok_bind, M.pure_eq, axesDone_succ]
    rfl

theorem advect_eq {py : NumpyRules} (hpy : py.sameKind = false) (hg : Grid31 N) (dt : R) (u : List Nat → R)
    (old : List R) (hold : old.length = N.prod) (flat : List Int) :
    ∃ flat', (built v L N (listOf N u) old flat).advect py dt =
      .ok (built v L N (listOf N (schemeStep N (upDir v) (changeTimeLast dt v L N) u)) (listOf N u) flat') := by
  unfold advect
  rw [if_neg (by simp [built, hold])]
  obtain ⟨s, e, flat', hs⟩ := forUp_inv (Nat.zero_le N.length)
    (fun j s => ∃ flat', s = built v L N (listOf N (axesDone N (upDir v) (changeTimeLast dt v L N) u j)) (listOf N u) flat')
    (axisBody py dt) (built v L N (listOf N u) (listOf N u) flat) ⟨flat, rfl⟩
    (by
      rintro j s _ hj ⟨fl, rfl⟩
      obtain ⟨fl', e⟩ := axisBody_eq (v := v) (L := L) hpy hg dt u hj fl
      exact ⟨_, e, fl', rfl⟩)
  subst hs
  exact ⟨flat', e⟩

theorem advect_sameKind {py : NumpyRules} (hpy : py.sameKind = true) (hN : N ≠ []) (hg : Grid31 N) (dt : R) (f old : List R)
    (hold : old.length = f.length) (flat : List Int) :
    (built v L N f old flat).advect py dt = .error .badArgument := by
  have h0 : 0 < N.length := List.length_pos_iff.2 hN
  have hp := prod_pos_of hg.pos
  obtain ⟨k, hk⟩ : ∃ k, N.prod = k + 1 := ⟨N.prod - 1, by omega⟩
  have hrj : (rows N)[0]? = some (row N 0) := by simp [rows, h0]
  unfold advect
  rw [if_neg (by simp [built, hold])]
  show forUp 0 N.length _ _ = _
  rw [forUp_of_lt h0]
  unfold axisBody
  simp only [built]
  rw [rd_of_lt (by simpa using h0), M.ok_bind, rd_of_lt (by simpa using h0), M.ok_bind, rd_of_some hrj, M.ok_bind]
  unfold row
  rw [hk, List.range_succ_eq_map, List.map_cons, List.mapM_cons]
  unfold addInPlace
  rw [hpy]
  rfl

theorem advects_eq {py : NumpyRules} (hpy : py.sameKind = false) (hg : Grid31 N) (dts : List R) (u : List Nat → R)
    (old : List R) (hold : old.length = N.prod) (flat : List Int) :
    ∃ old' flat', (built v L N (listOf N u) old flat).advects py dts =
      .ok (built v L N (listOf N (dts.foldl (fun u dt => schemeStep N (upDir v) (changeTimeLast dt v L N) u) u)) old' flat') := by
  induction dts generalizing u old flat with
  | nil => exact ⟨old, flat, rfl⟩
  | cons dt dts ih =>
    obtain ⟨fl, e⟩ := advect_eq (v := v) (L := L) hpy hg dt u old hold flat
    obtain ⟨o, fl', e'⟩ := ih (schemeStep N (upDir v) (changeTimeLast dt v L N) u) (listOf N u) (length_listOf _ _) fl
    refine ⟨o, fl', ?_⟩
    unfold advects at e' ⊢
    rw [List.foldlM_cons, e, M.ok_bind, e', List.foldl_cons]

end CyUpwind
end Fidi
