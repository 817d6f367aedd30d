import Verif.Lemmas.FilterAnyWorks

/-
An offset that is computed on any number of processes is wrapped correctly along the axes on which it is negative.
-/
namespace Fidi
open Spec
variable {R : Type} {c : Cfg R} {x y : List Nat}

/-! The sum with the index of any cell is an `int`. -/

theorem works_tame (h : c.Good) (hcells : c.dims.prod ≤ 2 ^ 31) {kv : List Int × R} (hkv : kv ∈ c.st)
    {m : Nat} (ho : OffsetWorksWith m c.d c.L kv.1) : Tame c.dims kv.1 := by
  obtain ⟨hlen, hint, _⟩ := h.st kv hkv
  have hdl := h.good.length_eq
  refine ⟨hlen, fun i hi => ?_⟩
  have i2 : i < kv.1.length := by omega
  have hb := hint _ (List.getElem_mem i2)
  have hn := (axis_sizes h hi).2.2.2.2
  refine ⟨by rw [getD_of_lt i2]; have := hb.1; omega, ?_⟩
  by_cases h2 : kv.1.getD i 0 ≤ 1
  · omega
  · have hfit : ∀ k, kv.1.getD k 0 ≠ 0 → (kv.1.getD k 0).natAbs ≤ c.dims.getD k 0 ∧ k < c.dims.length := by
      intro k hk
      obtain ⟨f1, f2⟩ := fits_axis h hkv hk
      obtain ⟨_, s2, s3, s4, _⟩ := axis_sizes h f2
      have := Nat.le_mul_of_pos_left (c.L.getD k 0) s3
      have := natAbs_le_ghostWidth kv.1 k
      exact ⟨by omega, f2⟩
    have h3 : ∃ j, kv.1.getD j 0 < -1 := by
      by_contra hc
      push Not at hc
      have := (rankOfInt_pos h.good.d_pos (t := kv.1.map fun o => o - o.sign) (by simp; omega) (fun z hz => by
        obtain ⟨j, hj, rfl⟩ := List.getElem_of_mem hz
        rw [← getD_of_lt (z := 0) hj, getD_steps]
        have := hc j
        split_ifs <;> omega)).2 ho.rank _ (List.getElem_mem (by simpa using i2 : i < (kv.1.map fun o => o - o.sign).length))
      rw [← getD_of_lt (z := 0), getD_steps] at this
      split_ifs at this <;> omega
    obtain ⟨j, hneg⟩ := h3
    obtain ⟨e1, _⟩ := hfit i (by omega)
    obtain ⟨e2, hj⟩ := hfit j (by omega)
    have hij : i ≠ j := by rintro rfl; omega
    have e3 := mul_le_prod' h.good.pos hij hi hj
    have e5 : c.dims.getD i 0 * 2 ≤ c.dims.getD i 0 * c.dims.getD j 0 := Nat.mul_le_mul_left _ (by omega)
    omega

/-! Indices. -/

theorem dot_cons (s : Nat) (ss : List Nat) (a : Nat) (xs : List Nat) : dot (s :: ss) (a :: xs) = s * a + dot ss xs := by
  simp [dot]

theorem dot_axis {ss t t' : List Nat} {i : Nat} (ht : t.length = ss.length) (ht' : t'.length = ss.length)
    (h : ∀ k, k ≠ i → t.getD k 0 = t'.getD k 0) :
    (dot ss t : Int) - dot ss t' = (ss.getD i 0 : Int) * ((t.getD i 0 : Int) - t'.getD i 0) := by
  induction ss generalizing t t' i with
  | nil =>
    obtain rfl := List.length_eq_zero_iff.1 ht
    obtain rfl := List.length_eq_zero_iff.1 ht'
    simp
  | cons s ss ih =>
    match t, t', ht, ht' with
    | a :: t, b :: t', ht, ht' =>
      have l1 : t.length = ss.length := by simpa using ht
      have l2 : t'.length = ss.length := by simpa using ht'
      rw [dot_cons, dot_cons]
      cases i with
      | zero =>
        have e : t = t' := by
          apply List.ext_getElem (by omega)
          intro k k1 k2
          have := h (k + 1) (by omega)
          rwa [List.getD_cons_succ, List.getD_cons_succ, getD_of_lt k1, getD_of_lt k2] at this
        rw [e]
        simp
        ring
      | succ i =>
        have e : a = b := by simpa using h 0 (by omega)
        have := ih l1 l2 (i := i) (fun k hk => by simpa using h (k + 1) (by omega))
        rw [e]
        simp only [List.getD_cons_succ]
        push_cast
        linarith

theorem dot_szSub {ss t lo : List Nat} (ht : t.length = ss.length) (hl : lo.length = ss.length) (hW : ∀ l ∈ lo, l < W) :
    (dot ss (List.zipWith (fun x l => szSub x l) t lo) + dot ss lo) % 2 ^ 32 = dot ss t % 2 ^ 32 := by
  induction ss generalizing t lo with
  | nil =>
    obtain rfl := List.length_eq_zero_iff.1 ht
    obtain rfl := List.length_eq_zero_iff.1 hl
    rfl
  | cons s ss ih =>
    match t, lo, ht, hl with
    | a :: t, b :: lo, ht, hl =>
      have e := ih (t := t) (lo := lo) (by simpa using ht) (by simpa using hl) (fun l hl => hW l (by simp [hl]))
      have hb := hW b (by simp)
      rw [List.zipWith_cons_cons, dot_cons, dot_cons, dot_cons]
      have e1 : (szSub a b + b) % 2 ^ 32 = a % 2 ^ 32 := by
        unfold szSub
        unfold W at hb ⊢
        omega
      have e2 : (s * szSub a b + s * b) % 2 ^ 32 = (s * a) % 2 ^ 32 := by
        rw [← Nat.mul_add, Nat.mul_mod, e1, ← Nat.mul_mod]
      generalize szSub a b = z at *
      omega

theorem dot_sub {ss t lo : List Nat} (ht : t.length = ss.length) (hl : lo.length = ss.length)
    (hle : ∀ k, lo.getD k 0 ≤ t.getD k 0) : dot ss (List.zipWith (fun x l => x - l) t lo) + dot ss lo = dot ss t := by
  induction ss generalizing t lo with
  | nil =>
    obtain rfl := List.length_eq_zero_iff.1 ht
    obtain rfl := List.length_eq_zero_iff.1 hl
    rfl
  | cons s ss ih =>
    match t, lo, ht, hl with
    | a :: t, b :: lo, ht, hl =>
      have e := ih (t := t) (lo := lo) (by simpa using ht) (by simpa using hl) (fun k => by simpa using hle (k + 1))
      have hb : b ≤ a := by simpa using hle 0
      rw [List.zipWith_cons_cons, dot_cons, dot_cons, dot_cons, ← e]
      have : s * (a - b) + s * b = s * a := by rw [← Nat.mul_add]; congr 1; omega
      omega

theorem szOfInt_bmod {v p : Nat} (hp : p < 2 ^ 31) (h : szOfInt (intOfSz (v % W)) = p) : v % 2 ^ 32 = p := by
  unfold szOfInt intOfSz W32 at h
  unfold W at h
  rw [Int.bmod_def] at h
  split at h <;> omega

/-- A tuple with the index of another one that is inside of the box. -/
theorem same_index {lo hi t t' : List Nat} (hb : BoxLt lo hi) (hv : volume lo hi < 2 ^ 31) (hl : t.length = lo.length)
    (ht : ∀ n ∈ t, n < W) (hlo : ∀ l ∈ lo, l < W) (hin : InBox lo hi t') {bi : Int} {k : Nat}
    (he : (itAt lo hi k).computeBigIndexInt (t.map fun n : Nat => (n : Int)) = .ok bi)
    (hs : szOfInt bi = flatOf false lo hi t') :
    dot (strides false (extents lo hi)) t % 2 ^ 32 = dot (strides false (extents lo hi)) t' % 2 ^ 32 := by
  have hsl : (strides false (extents lo hi)).length = lo.length := by rw [length_strides, hb.length_extents]
  rw [itAt_bigInt_any hb (by unfold W; omega) hl ht] at he
  rw [← Except.ok.inj he] at hs
  have e1 := szOfInt_bmod (Nat.lt_trans (flatOf_lt false hin) hv) hs
  have hlt := flatOf_lt false hin
  obtain ⟨l1, l2, l3⟩ := inBox_iff_getD.1 hin
  have e2 := dot_szSub (ss := strides false (extents lo hi)) (t := t) (lo := lo) (by omega) (by omega) hlo
  have e3 := dot_sub (ss := strides false (extents lo hi)) (t := t') (lo := lo) (by omega) (by omega) (fun k => by
    by_cases hk : k < lo.length
    · exact (l3 k hk).1
    · rw [getD_ge (by omega)]; exact Nat.zero_le _)
  change flatOf false lo hi t' + _ = _ at e3
  omega

/-! One axis whose extent is not a power of two. -/

theorem wrap_val {n q : Nat} (hn0 : 0 < n) (hn : n < 2 ^ 31) (h1 : 1 ≤ q) (hq : q ≤ n) :
    ((-(q : Int)) % 2 ^ 64).toNat % n = if q ≤ 2 ^ 64 % n then 2 ^ 64 % n - q else n + 2 ^ 64 % n - q := by
  have e : ((-(q : Int)) % 2 ^ 64).toNat = 2 ^ 64 - q := by omega
  have hdm := Nat.div_add_mod (2 ^ 64) n
  have hlt := Nat.mod_lt (2 ^ 64) hn0
  have hQ : 1 ≤ 2 ^ 64 / n := (Nat.le_div_iff_mul_le hn0).2 (by omega)
  generalize 2 ^ 64 / n = Q at hdm hQ
  generalize 2 ^ 64 % n = δ at hdm hlt ⊢
  rw [e, ← hdm]
  split
  · rw [show n * Q + δ - q = n * Q + (δ - q) by omega, Nat.mul_add_mod, Nat.mod_eq_of_lt (by omega)]
  · obtain ⟨Q', rfl⟩ : ∃ Q', Q = Q' + 1 := ⟨Q - 1, by omega⟩
    rw [Nat.mul_add, Nat.mul_one, show n * Q' + n + δ - q = n * Q' + (n + δ - q) by omega, Nat.mul_add_mod,
      Nat.mod_eq_of_lt (by omega)]

theorem axis_wrap {n : Nat} {o : Int} (hn : n < 2 ^ 31) (h0 : o < 0) (ho : -(n : Int) ≤ o) (hd : ¬ n ∣ 2 ^ 64) :
    ∃ e : Int, e ≠ 0 ∧ e.natAbs ≤ n ∧
      ((((((0 : Nat) : Int) + o) % 2 ^ 64).toNat % n : Nat) : Int) - ((((0 : Nat) : Int) + o) % (n : Int)).toNat -
        ((((((n - 1 : Nat) : Int) + o) % 2 ^ 64).toNat % n : Nat) - ((((n - 1 : Nat) : Int) + o) % (n : Int)).toNat) = e := by
  have hn0 : 0 < n := by omega
  have hδ : 0 < 2 ^ 64 % n := Nat.pos_of_ne_zero fun h => hd (Nat.dvd_of_mod_eq_zero h)
  have hlt := Nat.mod_lt (2 ^ 64) hn0
  obtain ⟨q, hq⟩ : ∃ q : Nat, o = -(q : Int) := ⟨(-o).toNat, by omega⟩
  have a0 : ((0 : Nat) : Int) + o = -(q : Int) := by omega
  rw [a0, wrap_val hn0 hn (by omega) (by omega)]
  by_cases hqn : q = n
  · have a1 : ((n - 1 : Nat) : Int) + o = -((1 : Nat) : Int) := by omega
    rw [a1, wrap_val hn0 hn (by omega) (by omega), toNat_emod (v := 0) (by omega) (-1) (by rw [hqn]; push_cast; ring),
      toNat_emod (v := n - 1) (by omega) (-1) (by push_cast [Nat.cast_sub (by omega : 1 ≤ n)]; ring)]
    refine ⟨_, ?_, ?_, rfl⟩ <;> split_ifs <;> omega
  · rw [toNat_emod (v := n - q) (by omega) (-1) (by push_cast [Nat.cast_sub (by omega : q ≤ n)]; ring),
      wrap64_nonneg (n := n) (z := ((n - 1 : Nat) : Int) + o) (by omega) (by omega)]
    refine ⟨_, ?_, ?_, rfl⟩ <;> split_ifs <;> omega

/-! The windows of all processes have the same extents. -/

theorem layer_extents (h : c.Good) {y y' : List Nat} (hy : InGrid c.d y) (hy' : InGrid c.d y') {s : List Int} {m : Nat}
    (hf : WinTab.Fits c.L s m) :
    extents (faceLo (c.lo y) (c.hi y) s m) (faceHi (c.lo y) (c.hi y) s m) =
      extents (faceLo (c.lo y') (c.hi y') s m) (faceHi (c.lo y') (c.hi y') s m) := by
  obtain ⟨b1, l1, l2, _⟩ := layer_box h hy hf
  obtain ⟨b2, l3, l4, _⟩ := layer_box h hy' hf
  have key : ∀ y, InGrid c.d y → ∀ k, k < c.dims.length →
      (faceHi (c.lo y) (c.hi y) s m).getD k 0 - (faceLo (c.lo y) (c.hi y) s m).getD k 0 =
        if s.getD k 0 = 0 then c.L.getD k 0 else m := by
    intro y hy k hk
    obtain ⟨e1, e2, e3, _⟩ := layer_axis h hy hf hk
    rw [e1, e2, Nat.add_mul, Nat.one_mul]
    split_ifs <;> omega
  apply List.ext_getElem (by rw [b1.length_extents, b2.length_extents, l1, l3])
  intro k k1 k2
  rw [b1.length_extents, l1] at k1
  have e1 := key y hy k k1
  have e2 := key y' hy' k k1
  rw [getD_of_lt (by omega), getD_of_lt (by omega)] at e1 e2
  simp only [extents, List.getElem_zipWith]
  rw [e1, e2]

/-- If the cells that are read are those of the periodic stencil, the extents along which the offset is negative are powers of
two. -/
theorem wrap_of (h : c.Good) (hcells : c.dims.prod ≤ 2 ^ 31) {kv : List Int × R} (hkv : kv ∈ c.st)
    (H : ∀ x, InGrid c.d x → ∀ g, InBox (c.lo x) (c.hi x) g → shift64 c.dims g kv.1 = shiftMod c.dims g kv.1 ∨
      ∃ y m bi, InGrid c.d y ∧ StdMap.find c.tab.gh (sideOf kv.1) = some m ∧
        InBox (faceLo (c.lo y) (c.hi y) (sideOf kv.1) m) (faceHi (c.lo y) (c.hi y) (sideOf kv.1) m)
          (shiftMod c.dims g kv.1) ∧
        (winIt c y (sideOf kv.1) m 0).computeBigIndexInt
          ((shift64 c.dims g kv.1).map (fun n : Nat => (n : Int))) = .ok bi ∧
        szOfInt bi = flatOf false (faceLo (c.lo y) (c.hi y) (sideOf kv.1) m)
          (faceHi (c.lo y) (c.hi y) (sideOf kv.1) m) (shiftMod c.dims g kv.1)) : WrapExact c.dims kv.1 := by
  intro i hneg
  by_contra hdvd
  have hlen := (h.st kv hkv).1
  obtain ⟨hmL, hi⟩ := fits_axis h hkv (i := i) (by omega)
  obtain ⟨_, s2, s3, s4, s5⟩ := axis_sizes h hi
  have hoL := natAbs_le_ghostWidth kv.1 i
  have hLn := Nat.le_mul_of_pos_left (c.L.getD i 0) s3
  have hdvd' : ¬ c.dims.getD i 0 ∣ 2 ^ 64 := by
    rw [getD_of_lt hi] at hdvd ⊢
    exact hdvd
  obtain ⟨w, m, hw, hm, hfit⟩ := window_any h hkv (countP_ne (i := i) (by omega))
  obtain ⟨x0, hx0, _⟩ := h.coords (r := 0) (procs_pos h)
  obtain ⟨b0, l1, l2, hle⟩ := layer_box h hx0 hfit
  generalize hE : extents (faceLo (c.lo x0) (c.hi x0) (sideOf kv.1) m) (faceHi (c.lo x0) (c.hi x0) (sideOf kv.1) m) = E
  have hEl : E.length = c.dims.length := by rw [← hE, b0.length_extents, l1]
  have hsl : (strides false E).length = c.dims.length := by rw [length_strides, hEl]
  -- the indices agree modulo 2^32
  have key : ∀ x, InGrid c.d x → ∀ g, InBox (c.lo x) (c.hi x) g →
      dot (strides false E) (shift64 c.dims g kv.1) % 2 ^ 32 = dot (strides false E) (shiftMod c.dims g kv.1) % 2 ^ 32 := by
    intro x hx g hg
    rcases H x hx g hg with e | ⟨y, m', bi, hy, hm', hin, e1, e2⟩
    · rw [e]
    · rw [hm, Option.some_inj] at hm'
      subst hm'
      have hG := h.grid hx hg
      have t64 := shift64_inGrid hG hlen
      obtain ⟨b1, k1, k2, k3⟩ := layer_box h hy hfit
      rw [← hE, layer_extents h hx0 hy hfit]
      refine same_index b1 (Nat.lt_of_le_of_lt (winVol_le h hy hfit) h.loc) (by rw [t64.length_eq, k1])
        (fun n hn => ?_) (fun l hl => ?_) hin e1 e2
      · obtain ⟨k, hk, rfl⟩ := List.getElem_of_mem hn
        have k4 : k < c.dims.length := by rw [← t64.length_eq]; exact hk
        have := (inGrid_iff_getElem.1 t64).2 k k4 hk
        have := h.dint _ (List.getElem_mem k4)
        unfold W; omega
      · obtain ⟨k, hk, rfl⟩ := List.getElem_of_mem hl
        have k4 : k < c.dims.length := by omega
        have := k3 k k4
        have := (List.forall₂_iff_get.1 b1).2 k hk (by omega)
        simp only [List.get_eq_getElem] at this
        rw [← getD_of_lt (z := 0), ← getD_of_lt (z := 0)] at this
        have := (axis_sizes h k4).2.2.2.2
        rw [← getD_of_lt (z := 0)]
        unfold W; omega
  -- two cells that differ along axis i
  have cell : ∀ v, v < c.dims.getD i 0 → ∃ x, InGrid c.d x ∧
      InBox (c.lo x) (c.hi x) ((List.range c.dims.length).map fun k => if k = i then v else 0) := by
    intro v hv
    have hx := tuple_grid h (fun k => if k = i then v / c.L.getD i 0 else 0) (fun k hk => by
      have := (axis_sizes h hk).2.2.1
      split
      · rename_i e
        subst e
        rw [Nat.div_lt_iff_lt_mul s4, ← s2]
        exact hv
      · exact this)
    refine ⟨_, hx, tuple_box h hx _ (fun k hk => ?_)⟩
    rw [getD_tuple _ hk]
    have := (axis_sizes h hk).2.2.2.1
    split
    · rename_i e
      subst e
      exact ⟨Nat.div_mul_le_self _ _, Nat.lt_of_lt_of_eq (Nat.lt_mul_div_succ v s4) (Nat.mul_comm _ _)⟩
    · omega
  have hn0 : 0 < c.dims.getD i 0 := by omega
  obtain ⟨x1, hx1, hg1⟩ := cell 0 hn0
  obtain ⟨x2, hx2, hg2⟩ := cell (c.dims.getD i 0 - 1) (by omega)
  have q1 := key x1 hx1 _ hg1
  have q2 := key x2 hx2 _ hg2
  have hG1 := h.grid hx1 hg1
  have hG2 := h.grid hx2 hg2
  have same : ∀ k, k ≠ i → ((List.range c.dims.length).map fun k => if k = i then 0 else 0).getD k 0 =
      ((List.range c.dims.length).map fun k => if k = i then c.dims.getD i 0 - 1 else 0).getD k 0 := by
    intro k hk
    by_cases hkn : k < c.dims.length
    · rw [getD_tuple _ hkn, getD_tuple _ hkn, if_neg hk, if_neg hk]
    · rw [getD_ge (by simp; omega), getD_ge (by simp; omega)]
  generalize hg1e : ((List.range c.dims.length).map fun k => if k = i then 0 else 0) = g1 at *
  generalize hg2e : ((List.range c.dims.length).map fun k => if k = i then c.dims.getD i 0 - 1 else 0) = g2 at *
  have v1 : g1.getD i 0 = 0 := by rw [← hg1e, getD_tuple _ hi, if_pos rfl]
  have v2 : g2.getD i 0 = c.dims.getD i 0 - 1 := by rw [← hg2e, getD_tuple _ hi, if_pos rfl]
  have r1 := dot_axis (ss := strides false E) (t := shift64 c.dims g1 kv.1) (t' := shift64 c.dims g2 kv.1) (i := i)
    (by rw [(shift64_inGrid hG1 hlen).length_eq, hsl]) (by rw [(shift64_inGrid hG2 hlen).length_eq, hsl]) (fun k hk => by
      by_cases hkn : k < c.dims.length
      · rw [getD_shift64 k hkn hG1.length_eq hlen, getD_shift64 k hkn hG2.length_eq hlen, same k hk]
      · rw [getD_ge (by rw [(shift64_inGrid hG1 hlen).length_eq]; omega), getD_ge (by rw [(shift64_inGrid hG2 hlen).length_eq]; omega)])
  have r2 := dot_axis (ss := strides false E) (t := shiftMod c.dims g1 kv.1) (t' := shiftMod c.dims g2 kv.1) (i := i)
    (by rw [(shiftMod_inGrid hG1 hlen).length_eq, hsl]) (by rw [(shiftMod_inGrid hG2 hlen).length_eq, hsl]) (fun k hk => by
      by_cases hkn : k < c.dims.length
      · rw [getD_shiftMod k hkn hG1.length_eq hlen, getD_shiftMod k hkn hG2.length_eq hlen, same k hk]
      · rw [getD_ge (by rw [(shiftMod_inGrid hG1 hlen).length_eq]; omega), getD_ge (by rw [(shiftMod_inGrid hG2 hlen).length_eq]; omega)])
  rw [getD_shift64 i hi hG1.length_eq hlen, getD_shift64 i hi hG2.length_eq hlen, v1, v2] at r1
  rw [getD_shiftMod i hi hG1.length_eq hlen, getD_shiftMod i hi hG2.length_eq hlen, v1, v2] at r2
  obtain ⟨e, he0, hen, he⟩ := axis_wrap s5 hneg (by omega) hdvd'
  have hstr : (strides false E).getD i 0 = (E.take i).prod := by
    have := strides_getElem? false E i (by omega)
    rw [List.getD_eq_getElem?_getD, this]
    rfl
  have hS : 0 < (E.take i).prod :=
    prod_pos_of fun d hd => by
      have := List.mem_of_mem_take hd
      rw [← hE] at this
      exact b0.extents_pos d this
  have hSn : (E.take i).prod * c.dims.getD i 0 ≤ c.dims.prod := by
    refine prod_take_mul_le hi hEl (fun k hk => ?_) h.good.pos
    have e' : E.getD k 0 = (faceHi (c.lo x0) (c.hi x0) (sideOf kv.1) m).getD k 0 -
        (faceLo (c.lo x0) (c.hi x0) (sideOf kv.1) m).getD k 0 := by
      rw [← hE, getD_of_lt (by rw [b0.length_extents]; omega), getD_of_lt (by omega), getD_of_lt (by omega)]
      simp [extents]
    have := hle k hk
    omega
  rw [hstr] at r1 r2
  generalize (E.take i).prod = S at *
  have r3 : (S : Int) * e = ((dot (strides false E) (shift64 c.dims g1 kv.1) : Int) - dot (strides false E) (shiftMod c.dims g1 kv.1)) -
      ((dot (strides false E) (shift64 c.dims g2 kv.1) : Int) - dot (strides false E) (shiftMod c.dims g2 kv.1)) := by
    rw [← he]
    linarith
  have r4 : (S : Int) * e % 2 ^ 32 = 0 := by rw [r3]; omega
  have r5 : ((S : Int) * e).natAbs ≤ 2 ^ 31 := by
    rw [Int.natAbs_mul, Int.natAbs_natCast]
    exact Nat.le_trans (Nat.mul_le_mul_left _ hen) (Nat.le_trans hSn hcells)
  have r6 : (S : Int) * e ≠ 0 := mul_ne_zero (by omega) he0
  omega

end Fidi
