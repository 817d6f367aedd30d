import Verif.Lemmas.FilterAnyWrap
import Verif.Lemmas.FilterShapes
import Verif.Lemmas.FilterCalls

/-
An offset along one axis that is wider than the sub-domains: filling the window reads outside of the data.
-/
namespace Fidi
open Spec

theorem prod_set_eq {L : List Nat} {a : Nat} (m : Nat) (ha : a < L.length) :
    (L.set a m).prod = (L.take a).prod * m * (L.drop (a + 1)).prod := by
  rw [List.prod_set, if_pos ha]

theorem prod_split {L : List Nat} {a : Nat} (ha : a < L.length) :
    L.prod = (L.take a).prod * L[a] * (L.drop (a + 1)).prod := by
  have := prod_set_eq L[a] ha
  rwa [List.set_getElem_self] at this

theorem dot_lastR : ∀ {L : List Nat}, (∀ n ∈ L, 0 < n) → dot (strideR L) (L.map (· - 1)) + 1 = L.prod
  | [], _ => rfl
  | n :: L, h => by
    have e := dot_lastR (L := L) fun x hx => h x (by simp [hx])
    have hn := h n (by simp)
    simp only [strideR, List.map_cons, List.prod_cons]
    rw [dot_cons, Nat.add_assoc, e]
    obtain ⟨k, rfl⟩ := Nat.exists_eq_succ_of_ne_zero (by omega : n ≠ 0)
    simp only [Nat.succ_eq_add_one, Nat.add_sub_cancel]
    ring

/-- The position of the last cell. -/
theorem dot_lastC {L : List Nat} (h : ∀ n ∈ L, 0 < n) : dot (strides false L) (L.map (· - 1)) + 1 = L.prod := by
  have := dot_lastR (L := L.reverse) (by simpa using h)
  simp only [strides, Bool.false_eq_true, if_false]
  rw [dotC_eq _ _ (by simp), ← List.map_reverse, this, List.prod_reverse]

theorem getD_set_self {L : List Nat} {a : Nat} (m : Nat) (ha : a < L.length) : (L.set a m).getD a 0 = m := by
  simp [ha]

theorem getD_set_other {L : List Nat} {a k : Nat} (m : Nat) (hk : k ≠ a) : (L.set a m).getD k 0 = L.getD k 0 := by
  simp [List.getD_eq_getElem?_getD, List.getElem?_set_ne (Ne.symm hk)]

/-- The two boxes of a window of `m` cells along axis `a` of the first sub-domain. -/
def WideBox (L : List Nat) (a m : Nat) (lo hi : List Nat) : Prop :=
  lo = List.replicate L.length 0 ∧ hi = L.set a m ∨
    lo = (List.replicate L.length 0).set a (szSub (L.getD a 0) m) ∧ hi = L

section
variable {L lo hi : List Nat} {a m : Nat}

theorem extW_zero (hW : ∀ n ∈ L, n < W) : extW (List.replicate L.length 0) L = L := by
  apply List.ext_getElem (by simp [extW])
  intro i h1 h2
  simp only [extW, List.getElem_zipWith, List.getElem_replicate]
  exact szSub_zero (hW _ (List.getElem_mem h2))

theorem WideBox.length (h : WideBox L a m lo hi) : lo.length = L.length ∧ hi.length = L.length := by
  rcases h with ⟨rfl, rfl⟩ | ⟨rfl, rfl⟩ <;> simp

theorem WideBox.ext (h : WideBox L a m lo hi) (hW : ∀ n ∈ L, n < W) (hm : m < W) : extW lo hi = L.set a m := by
  rcases h with ⟨rfl, rfl⟩ | ⟨rfl, rfl⟩
  · have := extW_zero (L := L.set a m) (fun n hn => by
      rcases List.mem_or_eq_of_mem_set hn with hn | rfl
      · exact hW n hn
      · exact hm)
    simpa using this
  · apply List.ext_getElem (by simp [extW])
    intro i h1 h2
    have hi : i < hi.length := by simpa using h2
    have hw := hW _ (List.getElem_mem hi)
    simp only [extW, List.getElem_zipWith]
    by_cases e : i = a
    · subst e
      rw [List.getElem_set_self, List.getElem_set_self]
      have key : ∀ v, v < W → szSub v (szSub v m) = m := by
        intro v hv
        unfold szSub
        unfold W at *
        omega
      simp only [getD_of_lt hi]
      exact key _ hw
    · rw [List.getElem_set_ne (Ne.symm e), List.getElem_set_ne (Ne.symm e), List.getElem_replicate]
      exact szSub_zero hw

/-- The cell of the window that lies outside of the sub-domain. -/
theorem WideBox.bad (h : WideBox L a m lo hi) (hp : ∀ n ∈ L, 0 < n) (hL : L.prod < 2 ^ 31) (ha : a < L.length)
    (hm : L.getD a 0 < m) (hm31 : m < 2 ^ 31) : (builtIter lo hi false).getNumberOfTerms < W ∧
    ∃ k, k < (builtIter lo hi false).getNumberOfTerms ∧ ∃ t bi,
      ({ builtIter lo hi false with bigIndex := k } : MultiArrayIter).getIndices = .ok t ∧
      (∀ j, ({ builtIter (List.replicate L.length 0) L false with bigIndex := j } : MultiArrayIter).computeBigIndexSz t =
        .ok bi) ∧ L.prod ≤ bi := by
  have hlt : ∀ n ∈ L, n < 2 ^ 31 := fun n hn => Nat.lt_of_le_of_lt (mem_le_prod hp hn) hL
  have hW : ∀ n ∈ L, n < W := fun n hn => by have := hlt n hn; unfold W; omega
  have he := h.ext hW (by unfold W; omega)
  obtain ⟨l1, l2⟩ := h.length
  have hp' : ∀ n ∈ L.set a m, 0 < n := fun n hn => by
    rcases List.mem_or_eq_of_mem_set hn with hn | rfl
    · exact hp n hn
    · omega
  -- the size of the window
  have ht1 : 0 < (L.take a).prod := prod_pos_of fun n hn => hp n (List.mem_of_mem_take hn)
  have ht2 : 0 < (L.drop (a + 1)).prod := prod_pos_of fun n hn => hp n (List.mem_of_mem_drop hn)
  have hLa := hp _ (List.getElem_mem ha)
  have hsplit := prod_split ha
  rw [getD_of_lt ha] at hm
  have hta : (L.take a).prod * L[a] ≤ L.prod := by
    rw [hsplit]; exact Nat.le_mul_of_pos_right _ ht2
  have htd : (L.take a).prod * (L.drop (a + 1)).prod ≤ L.prod := by
    rw [hsplit, Nat.mul_right_comm]; exact Nat.le_mul_of_pos_right _ hLa
  have hta' : (L.take a).prod ≤ L.prod := Nat.le_trans (Nat.le_mul_of_pos_right _ hLa) hta
  have hvol : (L.set a m).prod < 2 ^ 62 := by
    rw [prod_set_eq m ha, Nat.mul_right_comm]
    calc _ ≤ L.prod * m := Nat.mul_le_mul_right _ htd
      _ < 2 ^ 31 * 2 ^ 31 := Nat.mul_lt_mul'' hL hm31
      _ = 2 ^ 62 := by norm_num
  have hterms : (builtIter lo hi false).getNumberOfTerms = (L.set a m).prod := by
    unfold MultiArrayIter.getNumberOfTerms builtIter
    rw [he]
    exact Nat.mod_eq_of_lt (by unfold W; omega)
  have hidx : ∀ k, ({ builtIter lo hi false with bigIndex := k } : MultiArrayIter).getIndices =
      .ok (List.zipWith szAdd lo (digitsOf (strides false (L.set a m)) (L.set a m) k)) := by
    intro k
    rw [getIndices_eq]
    · unfold builtIter
      simp only [he]
      rw [strW_eq false hp' (by unfold W; omega)]
    · simp [builtIter, he, l1]
    · simp [builtIter, he, l1]
    · rfl
    · simp only [builtIter, he]; exact hp'
    · simp only [builtIter, he]
      rw [strW_eq false hp' (by unfold W; omega)]
      exact fun s hs => (strides_pos_le false hp' s hs).1
  have hbig : ∀ (t : List Nat) (j : Nat), t.length = L.length → (∀ n ∈ t, n < W) →
      ({ builtIter (List.replicate L.length 0) L false with bigIndex := j } : MultiArrayIter).computeBigIndexSz t =
        .ok (dot (strides false L) t % W) := by
    intro t j hl ht
    unfold MultiArrayIter.computeBigIndexSz
    rw [bigIndexAcc_eq]
    · unfold builtIter
      simp only [extW_zero hW, id]
      rw [strW_eq false hp (by unfold W; omega)]
      congr 3
      apply List.ext_getElem (by simp [hl])
      intro i h1 h2
      simp only [List.getElem_zipWith, List.getElem_replicate]
      exact szSub_zero (ht _ (List.getElem_mem h2))
    · simp [builtIter, extW_zero hW]
    · rfl
    · simpa [builtIter] using hl
  have hstr : (strides false L).getD a 0 = (L.take a).prod := by
    rw [List.getD_eq_getElem?_getD, strides_getElem? false L a ha]
    rfl
  rw [hterms]
  refine ⟨by unfold W; omega, ?_⟩
  rcases h with ⟨rfl, rfl⟩ | ⟨rfl, rfl⟩
  · have hin : InGrid (L.set a m) ((L.set a m).map (· - 1)) := by
      refine inGrid_iff_getElem.2 ⟨by simp, fun i h1 h2 => ?_⟩
      have := hp' _ (List.getElem_mem h1)
      rw [List.getElem_map]
      omega
    refine ⟨_, dot_lt false _ _ hin, (L.set a m).map (· - 1), _, ?_, fun j => hbig _ j (by simp) ?_, ?_⟩
    · rw [hidx, digits_dot false _ _ hin]
      congr 1
      apply List.ext_getElem (by simp)
      intro i h1 h2
      simp only [List.getElem_zipWith, List.getElem_replicate, List.getElem_map]
      rw [szAdd_of_lt, Nat.zero_add]
      have hi : i < (L.set a m).length := by simpa using h2
      rcases List.mem_or_eq_of_mem_set (List.getElem_mem hi) with hn | hn
      · have := hW _ hn; omega
      · rw [hn]; unfold W; omega
    · intro n hn
      obtain ⟨v, hv, rfl⟩ := List.mem_map.1 hn
      rcases List.mem_or_eq_of_mem_set hv with hv | rfl
      · have := hW _ hv; omega
      · unfold W; omega
    · have e := dot_axis (ss := strides false L) (t := (L.set a m).map (· - 1)) (t' := L.map (· - 1)) (i := a)
        (by simp) (by simp) (fun k hk => by
          rw [List.map_set]
          exact getD_set_other _ hk)
      have e1 : ((L.set a m).map (· - 1)).getD a 0 = m - 1 := by rw [List.map_set]; exact getD_set_self _ (by simpa using ha)
      have e2 : (L.map (· - 1)).getD a 0 = L[a] - 1 := by
        rw [getD_of_lt (by simpa using ha), List.getElem_map]
      have e3 := dot_lastC hp
      rw [hstr, e1, e2] at e
      have e4 : dot (strides false L) ((L.set a m).map (· - 1)) + 1 = L.prod + (L.take a).prod * (m - L[a]) := by
        zify [hm.le]
        zify at e3
        rw [Nat.cast_sub (by omega), Nat.cast_sub (by omega)] at e
        push_cast at e
        linarith
      have e5 : (L.take a).prod * (m - L[a]) ≤ 2 ^ 31 * 2 ^ 31 := Nat.mul_le_mul (by omega) (by omega)
      have e6 : 1 ≤ (L.take a).prod * (m - L[a]) := Nat.mul_pos ht1 (by omega)
      rw [Nat.mod_eq_of_lt (by unfold W; omega)]
      omega
  · refine ⟨0, prod_pos_of hp', (List.replicate hi.length 0).set a (szSub (hi.getD a 0) m), _, ?_,
      fun j => hbig _ j (by simp) ?_, ?_⟩
    · rw [hidx]
      congr 1
      apply List.ext_getElem (by simp [digitsOf])
      intro i h1 h2
      simp only [List.getElem_zipWith, digitsOf, Nat.zero_div, Nat.zero_mod]
      rw [szAdd_of_lt (by
        rcases List.mem_or_eq_of_mem_set (List.getElem_mem h2) with hn | hn
        · rw [(List.mem_replicate.1 hn).2]; unfold W; omega
        · rw [hn]; exact szSub_lt _ _), Nat.add_zero]
    · intro n hn
      rcases List.mem_or_eq_of_mem_set hn with hn | rfl
      · rw [(List.mem_replicate.1 hn).2]; unfold W; omega
      · exact szSub_lt _ _
    · rw [dot_single (j := a) (by simpa using ha) (by simp) (fun i h1 h2 => by
        rw [getD_set_other _ h2]; simp only [List.length_set, List.length_replicate] at h1; simp [h1]),
        getD_set_self _ (by simpa using ha), hstr, getD_of_lt ha, szSub_wrap hm (by unfold W; omega)]
      have e5 : (hi.take a).prod * (m - hi[a]) ≤ 2 ^ 31 * 2 ^ 31 := Nat.mul_le_mul (by omega) (by omega)
      have e6 : 1 ≤ (hi.take a).prod * (m - hi[a]) := Nat.mul_pos ht1 (by omega)
      have e7 : (hi.take a).prod * (W - (m - hi[a])) = W * ((hi.take a).prod - 1) + (W - (hi.take a).prod * (m - hi[a])) := by
        have : m - hi[a] ≤ W := by unfold W; omega
        have : (hi.take a).prod * (m - hi[a]) ≤ W := by unfold W; omega
        zify [this, ‹m - hi[a] ≤ W›, show 1 ≤ (hi.take a).prod from ht1]
        ring
      rw [e7, Nat.mul_add_mod, Nat.mod_eq_of_lt (by unfold W at *; omega)]
      unfold W
      omega

variable {R : Type}

/-- Filling the window fails. -/
theorem WideBox.fill (h : WideBox L a m lo hi) (hp : ∀ n ∈ L, 0 < n) (hL : L.prod < 2 ^ 31) (ha : a < L.length)
    (hm : L.getD a 0 < m) (hm31 : m < 2 ^ 31) (j : Nat) (dat : List R) (hd : dat.length = L.prod) (buf : Buf R)
    (r : MultiArrayIter × Buf R) :
    forUp 0 (builtIter lo hi false).getNumberOfTerms ((builtIter lo hi false).begin', buf)
      (Filter.fillBody { builtIter (List.replicate L.length 0) L false with bigIndex := j } dat) ≠ .ok r := by
  intro hr
  obtain ⟨hN, k, hk, t, bi, h1, h2, h3⟩ := h.bad hp hL ha hm hm31
  obtain ⟨s, s1, hs, hf⟩ := (forUp_ok_index (fun i (s : MultiArrayIter × Buf R) =>
    s.1 = { builtIter lo hi false with bigIndex := i }) _ _ _ hr rfl (by
      rintro i ⟨it, b⟩ ⟨it1, b1⟩ hi' (rfl : it = _) hf
      unfold Filter.fillBody at hf
      obtain ⟨_, _, hf⟩ := (M.bind_ok_iff _ _ _).1 hf
      obtain ⟨_, _, hf⟩ := (M.bind_ok_iff _ _ _).1 hf
      obtain ⟨_, _, hf⟩ := (M.bind_ok_iff _ _ _).1 hf
      obtain ⟨_, _, hf⟩ := (M.bind_ok_iff _ _ _).1 hf
      have := Except.ok.inj hf
      rw [Prod.mk.injEq] at this
      rw [← this.1]
      simp only [MultiArrayIter.next]
      rw [szAdd_of_lt (by omega)])).2 k hk
  obtain ⟨it, b⟩ := s
  obtain rfl : it = _ := hs
  unfold Filter.fillBody at hf
  simp only [h1, h2, M.ok_bind] at hf
  rw [rd_of_ge (by omega)] at hf
  cases hf

end

/-! The constructor and the input. -/

section
variable {R : Type} {c : Cfg R} {off : List Int} {a : Nat}

theorem ghostWidth_axis (hax : ∀ k, k ≠ a → off.getD k 0 = 0) : ghostWidth off = (off.getD a 0).natAbs := by
  apply Nat.le_antisymm
  · unfold ghostWidth
    have key : ∀ (l : List Int) (b m : Nat), b ≤ m → (∀ o ∈ l, o.natAbs ≤ m) → l.foldl (fun m o => max m o.natAbs) b ≤ m := by
      intro l
      induction l with
      | nil => intro b m hb _; exact hb
      | cons o l ih =>
        intro b m hb hl
        exact ih _ _ (max_le hb (hl o (by simp))) fun o' ho => hl o' (by simp [ho])
    refine key _ _ _ (Nat.zero_le _) fun o ho => ?_
    obtain ⟨i, hi, rfl⟩ := List.getElem_of_mem ho
    rw [← getD_of_lt (z := 0) hi]
    by_cases e : i = a
    · rw [e]
    · rw [hax i e]; simp
  · exact natAbs_le_ghostWidth off a

/-- The box of the window of an offset along one axis, on the first process. -/
theorem axis_window {L : List Nat} {n m : Nat} {s : List Int} (hn : n = L.length) (ha : a < L.length)
    (hs : s.length = L.length) (h0 : ∀ k, k ≠ a → s.getD k 0 = 0) (hsa : s.getD a 0 ≠ 0) (hm : m < W) :
    ∃ lo hi, forUp 0 n (List.replicate L.length 0, L) (Filter.windowBody s m) = .ok (lo, hi) ∧ WideBox L a m lo hi := by
  subst hn
  obtain ⟨⟨lo, hi⟩, e, h⟩ := forUp_inv (Nat.zero_le L.length)
    (fun i (p : List Nat × List Nat) => if i ≤ a then p = (List.replicate L.length 0, L) else WideBox L a m p.1 p.2)
    (Filter.windowBody s m) (List.replicate L.length 0, L) (by simp) (by
      rintro i ⟨p, q⟩ _ hi hp
      unfold Filter.windowBody
      rw [rd_of_lt (by omega)]
      simp only [M.ok_bind]
      rcases lt_trichotomy i a with h | rfl | h
      · have := h0 i (by omega)
        rw [getD_of_lt (by omega)] at this
        rw [if_neg (by simpa using this)]
        rw [if_pos (by omega)] at hp
        exact ⟨_, rfl, by rw [if_pos (by omega)]; exact hp⟩
      · rw [getD_of_lt (by omega)] at hsa
        rw [if_pos (Nat.le_refl _), Prod.mk.injEq] at hp
        obtain ⟨rfl, rfl⟩ := hp
        rw [if_pos hsa]
        by_cases hneg : s[i] < 0
        · rw [if_pos hneg, rd_of_lt (by simpa using ha)]
          simp only [M.ok_bind]
          rw [wr_of_lt ha]
          refine ⟨_, rfl, ?_⟩
          rw [if_neg (by omega)]
          left
          refine ⟨rfl, ?_⟩
          simp only [List.getElem_replicate]
          rw [szAdd_of_lt (by omega), Nat.zero_add]
        · rw [if_neg hneg, rd_of_lt ha]
          simp only [M.ok_bind]
          rw [wr_of_lt (by simpa using ha)]
          refine ⟨_, rfl, ?_⟩
          rw [if_neg (by omega)]
          right
          refine ⟨?_, rfl⟩
          simp only [getD_of_lt ha]
      · have := h0 i (by omega)
        rw [getD_of_lt (by omega)] at this
        rw [if_neg (by simpa using this)]
        rw [if_neg (by omega)] at hp
        exact ⟨_, rfl, by rw [if_neg (by omega)]; exact hp⟩)
  exact ⟨lo, hi, e, by rw [if_neg (by omega)] at h; exact h⟩

theorem first_hi_eq (h : c.Good) : c.hi c.first = c.L := by
  apply List.ext_getElem (by rw [h.len_hi (first_grid h), h.lenL])
  intro i h1 h2
  have := first_hi h (i := i) (by rw [← h.lenL]; exact h2)
  rwa [getD_of_lt h1, getD_of_lt h2] at this

/-- On the first process the filter is not constructed, or its input cannot be set. -/
theorem wide_set_never [Zero R] [Div R] [NatCast R] [LT R] [DecidableLT R] [HasMax R] (h : c.Good)
    (hb : CubeDecomp.build R CubeDecomp.empty c.nprocs c.dims = .ok (true, movedDecomp c.nprocs c.dims c.d 0))
    (hlen : off.length = c.dims.length) (hint : ∀ o ∈ off, -(2 : Int) ^ 31 < o ∧ o < 2 ^ 31)
    (hax : ∀ k, k ≠ a → off.getD k 0 = 0) (hwide : c.L.getD a 0 < (off.getD a 0).natAbs) (v : R) {f : Filter R}
    (hf : Filter.new ((0 : Nat) : Int) c.nprocs c.dims c.xmins c.xmaxs [(off, v)] = .ok f) (u : List Nat → R)
    (f1 : Filter R) : f.setInDataByIndices u ≠ .ok f1 := by
  have hx := first_grid h
  have ha : a < off.length := lt_of_getD_ne (by omega)
  have haL : a < c.L.length := by rw [h.lenL]; omega
  have hm31 : (off.getD a 0).natAbs < 2 ^ 31 := by
    have := hint _ (List.getElem_mem ha)
    rw [getD_of_lt ha]
    omega
  rw [← rankOf_first c] at hf
  unfold Filter.new at hf
  dsimp only [Filter.initial] at hf
  rw [hb] at hf
  simp only [M.ok_bind, if_true] at hf
  rw [getBegIndices_eq h.good _ hx] at hf
  simp only [M.ok_bind] at hf
  rw [getEndIndices_eq h.good _ hx] at hf
  simp only [M.ok_bind] at hf
  have hbox := h.box hx
  have hl := h.len_lo hx
  have hh := h.len_hi hx
  have e := build_eq none (c.lo c.first) (c.hi c.first) false
    (by intro e0; rw [e0] at hl; exact h.good.ne (List.length_eq_zero_iff.1 hl.symm)) (by omega)
    (by rw [hl]; exact h.good.len)
  unfold Cfg.lo Cfg.hi Cfg.L at e
  rw [e] at hf
  simp only [M.ok_bind] at hf
  have hn : (builtIter (c.lo c.first) (c.hi c.first) false).getNumberOfTerms = c.L.prod := by
    have := h.loc
    have h1 := h.vol hx
    unfold MultiArrayIter.getNumberOfTerms
    rw [builtIter_eq false hbox (by unfold W; omega), h1]
  have hn' := hn
  unfold Cfg.lo Cfg.hi Cfg.L at hn'
  rw [hn'] at hf
  have hr : ∀ n, resize ([] : List R) n 0 = List.replicate n 0 := by intro n; simp [resize]
  rw [hr] at hf
  have elo : subLo (localExtents c.dims c.d) c.first = List.replicate c.L.length 0 := by
    have := first_lo h
    unfold Cfg.lo Cfg.L at this
    rw [this, h.lenL]
    rfl
  have ehi : subHi (localExtents c.dims c.d) c.first = c.L := first_hi_eq h
  have eL : localExtents c.dims c.d = c.L := rfl
  rw [List.foldlM_cons] at hf
  obtain ⟨f0, hf0, hf⟩ := (M.bind_ok_iff _ _ _).1 hf
  rw [List.foldlM_nil] at hf
  obtain rfl := Except.ok.inj hf
  -- the window
  have hc0 : off.countP (· ≠ 0) ≠ 0 := countP_ne (i := a) (by omega)
  unfold Filter.addWindow at hf0
  dsimp only at hf0
  rw [getNumberOfNonZeroElements_eq off (by rw [hlen]; exact h.good.len)] at hf0
  simp only [M.ok_bind] at hf0
  rw [if_neg hc0, getSideFromOffset_eq _ off hlen hint] at hf0
  simp only [M.ok_bind] at hf0
  rw [getNumberOfGhostsFromOffset_eq off hint, ghostWidth_axis hax] at hf0
  simp only [M.ok_bind] at hf0
  have hside : ∀ k, (sideOf off).getD k 0 = -(off.getD k 0).sign := by
    intro k
    unfold sideOf
    by_cases hk : k < off.length
    · rw [getD_of_lt (by simpa using hk), getD_of_lt hk, List.getElem_map]
    · rw [getD_ge (by simp; omega), getD_ge (by omega)]; rfl
  obtain ⟨lo, hi, ew, hw⟩ := axis_window (a := a) (L := c.L) (n := c.dims.length) (m := (off.getD a 0).natAbs)
    (s := sideOf off) h.lenL.symm haL (by rw [length_sideOf, hlen, h.lenL]) (fun k hk => by rw [hside, hax k hk]; rfl)
    (by
      rw [hside]
      intro hz
      have : (off.getD a 0).sign = 0 := by omega
      have := Int.sign_eq_zero_iff_zero.1 this
      omega) (by unfold W; omega)
  unfold Filter.newWindow at hf0
  obtain ⟨⟨it, f1'⟩, hit, hf0⟩ := (M.bind_ok_iff _ _ _).1 hf0
  unfold Filter.getWindowIter at hit
  dsimp only at hit
  rw [getBegIndices_eq h.good _ hx] at hit
  simp only [M.ok_bind] at hit
  rw [getEndIndices_eq h.good _ hx] at hit
  simp only [M.ok_bind] at hit
  rw [StdMap.find_insert, if_pos rfl, elo, ehi] at hit
  simp only [StdMap.find, Option.getD_none, Option.getD_some] at hit
  rw [ew] at hit
  simp only [M.ok_bind] at hit
  have hlo := hw.length
  have hne : c.L.length ≠ 0 := by omega
  unfold MultiArrayIter.new at hit
  rw [build_eq none lo hi false (by intro e0; rw [e0] at hlo; exact hne hlo.1.symm) (by omega)
    (by rw [hlo.1, h.lenL]; exact h.good.len)] at hit
  simp only [M.ok_bind] at hit
  have hit := Except.ok.inj hit
  rw [Prod.mk.injEq] at hit
  obtain ⟨rfl, rfl⟩ := hit
  dsimp only at hf0
  split at hf0
  · cases hf0
  obtain rfl := Except.ok.inj hf0
  -- the input
  intro hset
  unfold Filter.setInDataByIndices Filter.setWith at hset
  obtain ⟨mit, hmit, hset⟩ := (M.bind_ok_iff _ _ _).1 hset
  unfold Filter.getMit at hmit
  dsimp only at hmit
  obtain rfl := Except.ok.inj hmit
  dsimp only at hset
  have hn2 : (builtIter (List.replicate c.L.length 0) c.L false).getNumberOfTerms = c.L.prod := by
    rw [← hn]
    unfold Cfg.lo Cfg.hi Cfg.L
    unfold Cfg.L at elo ehi
    rw [elo, ehi]
  rw [hn2] at hset
  obtain ⟨⟨mit, dat⟩, hdat, hset⟩ := (M.bind_ok_iff _ _ _).1 hset
  obtain ⟨⟨hmit, hdl⟩, _⟩ := forUp_ok_index (fun i (s : MultiArrayIter × List R) =>
      (∃ j, s.1 = { builtIter (List.replicate c.L.length 0) c.L false with bigIndex := j }) ∧ s.2.length = c.L.prod)
    _ _ _ hdat ⟨⟨0, rfl⟩, by simp [eL]⟩ (by
      rintro i ⟨it, b⟩ ⟨it1, b1⟩ hi' ⟨⟨j, hj⟩, hl⟩ hf
      obtain rfl : it = _ := hj
      unfold Filter.setBody at hf
      obtain ⟨_, _, hf⟩ := (M.bind_ok_iff _ _ _).1 hf
      obtain ⟨_, _, hf⟩ := (M.bind_ok_iff _ _ _).1 hf
      obtain ⟨b2, hb2, hf⟩ := (M.bind_ok_iff _ _ _).1 hf
      have := Except.ok.inj hf
      rw [Prod.mk.injEq] at this
      obtain ⟨rfl, rfl⟩ := this
      refine ⟨⟨_, rfl⟩, ?_⟩
      simp only at hl
      rw [wr_of_lt (by omega)] at hb2
      obtain rfl := Except.ok.inj hb2
      simpa using hl)
  obtain ⟨j, hmit⟩ := hmit
  simp only at hmit hdl
  subst hmit
  dsimp only at hset
  unfold Filter.fillWindows at hset
  simp only [StdMap.insert] at hset
  rw [List.foldlM_cons] at hset
  obtain ⟨f2, hf2, _⟩ := (M.bind_ok_iff _ _ _).1 hset
  unfold Filter.fillWindow Filter.getMit at hf2
  simp [StdMap.find, rd, M.ok_bind, M.pure_eq] at hf2
  obtain ⟨r, hr, _⟩ := (M.bind_ok_iff _ _ _).1 hf2
  exact hw.fill h.lpos h.loc haL hwide hm31 j dat hdl _ r hr

/-- The sign of -2^31 cannot be computed: the constructor does not end normally. -/
theorem min_new_never [Zero R] [Div R] [NatCast R] [LT R] [DecidableLT R] [HasMax R] (h : c.Good)
    (hb : CubeDecomp.build R CubeDecomp.empty c.nprocs c.dims = .ok (true, movedDecomp c.nprocs c.dims c.d 0))
    (hlen : off.length = c.dims.length) (hmin : off.getD a 0 = -(2 : Int) ^ 31) (v : R) (f : Filter R) :
    Filter.new ((0 : Nat) : Int) c.nprocs c.dims c.xmins c.xmaxs [(off, v)] ≠ .ok f := by
  intro hf
  have hx := first_grid h
  have hne : off.getD a 0 ≠ 0 := by rw [hmin]; decide
  have ha : a < off.length := lt_of_getD_ne hne
  unfold Filter.new at hf
  obtain ⟨⟨valid, dcmp⟩, hv, hf⟩ := (M.bind_ok_iff _ _ _).1 hf
  dsimp only [Filter.initial] at hv hf
  rw [hb] at hv
  have hv := Except.ok.inj hv
  rw [Prod.mk.injEq] at hv
  obtain ⟨rfl, rfl⟩ := hv
  simp only [if_true] at hf
  obtain ⟨_, _, hf⟩ := (M.bind_ok_iff _ _ _).1 hf
  obtain ⟨_, _, hf⟩ := (M.bind_ok_iff _ _ _).1 hf
  obtain ⟨_, _, hf⟩ := (M.bind_ok_iff _ _ _).1 hf
  rw [List.foldlM_cons] at hf
  obtain ⟨f0, hf, _⟩ := (M.bind_ok_iff _ _ _).1 hf
  unfold Filter.addWindow at hf
  dsimp only at hf
  rw [getNumberOfNonZeroElements_eq off (by rw [hlen]; exact h.good.len)] at hf
  simp only [M.ok_bind] at hf
  rw [if_neg (countP_ne hne)] at hf
  obtain ⟨_, hs, _⟩ := (M.bind_ok_iff _ _ _).1 hf
  unfold Filter.getSideFromOffset at hs
  obtain ⟨s, s', hs⟩ := forUp_ok_body _ _ _ hs a (Nat.zero_le _) (by simp only; omega)
  obtain ⟨_, _, hs⟩ := (M.bind_ok_iff _ _ _).1 hs
  rw [rd_of_lt ha, M.ok_bind, ← getD_of_lt (z := 0) ha, hmin, if_pos (by decide)] at hs
  obtain ⟨_, hs, _⟩ := (M.bind_ok_iff _ _ _).1 hs
  simp [mkInt, inInt, intLim] at hs

end
end Fidi
