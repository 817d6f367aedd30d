import Verif.Lemmas.FilterWrap
import Verif.Lemmas.NeighborRank

/-
The filter on one process, for offsets of any shape that fit the grid.
-/
namespace Fidi
open Spec
variable {R : Type} {c : Cfg R} {x : List Nat} {f : Filter R}

/-! Sums of components. -/

theorem sign_step (o : Int) : o - o.sign = if o < 0 then o + 1 else if 1 ≤ o then o - 1 else o := by
  rcases lt_trichotomy o 0 with h | h | h
  · rw [if_pos h, Int.sign_eq_neg_one_of_neg h]; omega
  · subst h; rfl
  · rw [if_neg (by omega), if_pos (by omega), Int.sign_eq_one_of_pos h]

theorem detour_cons (o : Int) (l : List Int) : detour (o :: l) = (o - o.sign) + detour l := by
  simp [detour]

theorem detour_bound {dims : List Nat} {off : List Int}
    (h : List.Forall₂ (fun n (o : Int) => 0 < n ∧ (o ≠ 0 → o.natAbs ≤ n)) dims off) :
    (detour off).natAbs + 1 ≤ dims.prod := by
  induction h with
  | nil => simp [detour]
  | @cons n o dims off h1 _ ih =>
    rw [detour_cons, sign_step, List.prod_cons]
    obtain ⟨hn, ho⟩ := h1
    have h2 : (if o < 0 then o + 1 else if 1 ≤ o then o - 1 else o).natAbs + 1 ≤ n := by
      split
      · have := ho (by omega); omega
      · split
        · have := ho (by omega); omega
        · omega
    generalize (if o < 0 then o + 1 else if 1 ≤ o then o - 1 else o) = z at h2
    have h3 : (z + detour off).natAbs ≤ z.natAbs + (detour off).natAbs := Int.natAbs_add_le _ _
    have h4 : (z.natAbs + 1) * ((detour off).natAbs + 1) ≤ n * dims.prod := Nat.mul_le_mul h2 ih
    nlinarith [Nat.zero_le (z.natAbs * (detour off).natAbs)]

theorem detour_nonneg {off : List Int} (h : ∀ o ∈ off, -1 ≤ o) :
    0 ≤ detour off ∧ ∀ o ∈ off, o ≤ detour off + 1 := by
  induction off with
  | nil => simp [detour]
  | cons a l ih =>
    obtain ⟨h1, h2⟩ := ih fun o ho => h o (by simp [ho])
    have h3 := h a (by simp)
    rw [detour_cons, sign_step]
    have h4 : 0 ≤ (if a < 0 then a + 1 else if 1 ≤ a then a - 1 else a) ∧
        a ≤ (if a < 0 then a + 1 else if 1 ≤ a then a - 1 else a) + 1 := by
      split
      · omega
      · split <;> omega
    generalize (if a < 0 then a + 1 else if 1 ≤ a then a - 1 else a) = z at h4
    refine ⟨by omega, ?_⟩
    intro o ho
    rcases List.mem_cons.1 ho with rfl | ho
    · omega
    · have := h2 o ho; omega

theorem mul_le_prod {l : List Nat} (hp : ∀ n ∈ l, 0 < n) {i j : Nat} (hij : i < j) (hj : j < l.length) :
    l.getD i 0 * l.getD j 0 ≤ l.prod := by
  induction l generalizing i j with
  | nil => simp at hj
  | cons n l ih =>
    have hp' : ∀ k ∈ l, 0 < k := fun k hk => hp k (by simp [hk])
    obtain ⟨j, rfl⟩ : ∃ k, j = k + 1 := ⟨j - 1, by omega⟩
    have hj' : j < l.length := by simpa using hj
    rw [List.prod_cons, List.getD_cons_succ]
    cases i with
    | zero =>
      rw [List.getD_cons_zero, getD_of_lt hj']
      exact Nat.mul_le_mul_left _ (Nat.le_of_dvd (prod_pos_of hp') (List.dvd_prod (List.getElem_mem hj')))
    | succ i =>
      rw [List.getD_cons_succ]
      exact Nat.le_trans (ih hp' (by omega) hj') (Nat.le_mul_of_pos_left _ (hp n (by simp)))

theorem mul_le_prod' {l : List Nat} (hp : ∀ n ∈ l, 0 < n) {i j : Nat} (hij : i ≠ j) (hi : i < l.length)
    (hj : j < l.length) : l.getD i 0 * l.getD j 0 ≤ l.prod := by
  rcases Nat.lt_or_gt_of_ne hij with h | h
  · exact mul_le_prod hp h hj
  · rw [Nat.mul_comm]; exact mul_le_prod hp h hi

/-! The sub-domain is the grid. -/

theorem one_L (h : c.Good) (h1 : c.nprocs = 1) : c.L = c.dims := by
  have hd := ones_of_prod (h.good.valid.2.trans h1)
  have hl := h.good.length_eq
  apply List.ext_getElem h.lenL
  intro i i1 i2
  have b := hd _ (List.getElem_mem (by omega : i < c.d.length))
  simp [Cfg.L, localExtents, b]

theorem one_fits (h : c.Good) (h1 : c.nprocs = 1) {kv : List Int × R} (hkv : kv ∈ c.st) {i : Nat}
    (hi : kv.1.getD i 0 ≠ 0) : (kv.1.getD i 0).natAbs ≤ c.dims.getD i 0 := by
  obtain ⟨hlen, _, hfit⟩ := h.st kv hkv
  have i0 : i < c.dims.length := by rw [← hlen]; exact lt_of_getD_ne hi
  have i1 : i < c.L.length := by rw [h.lenL]; exact i0
  have i2 : i < (sideOf kv.1).length := by rw [length_sideOf, hlen]; exact i0
  have h3 := (hfit.2 i i1 i2 (by
    have := getD_sideOf kv.1 i
    rw [getD_of_lt i2] at this
    rw [this]
    intro hc
    exact hi (Int.sign_eq_zero_iff_zero.1 (by omega)))).2
  rw [← getD_of_lt (z := 0) i1, one_L h h1] at h3
  exact Nat.le_trans (natAbs_le_ghostWidth kv.1 i) h3

theorem one_detour (h : c.Good) (h1 : c.nprocs = 1) {kv : List Int × R} (hkv : kv ∈ c.st) :
    (detour kv.1).natAbs < 2 ^ 31 := by
  have h2 : (detour kv.1).natAbs + 1 ≤ c.dims.prod := by
    refine detour_bound (List.forall₂_iff_get.2 ⟨(h.st kv hkv).1.symm, fun i i1 i2 => ?_⟩)
    simp only [List.get_eq_getElem]
    refine ⟨h.good.pos _ (List.getElem_mem i1), fun hne => ?_⟩
    have := one_fits h h1 hkv (i := i) (by rw [getD_of_lt i2]; exact hne)
    rwa [getD_of_lt i2, getD_of_lt i1] at this
  have := h.loc
  rw [one_L h h1] at this
  omega

/-- An offset without detour can be added to the index of any cell. -/
theorem one_tame (h : c.Good) (h1 : c.nprocs = 1) {kv : List Int × R} (hkv : kv ∈ c.st) (h0 : detour kv.1 = 0) :
    Tame c.dims kv.1 := by
  obtain ⟨hlen, hint, _⟩ := h.st kv hkv
  refine ⟨hlen, fun i hi => ?_⟩
  have i2 : i < kv.1.length := by omega
  have hb := hint _ (List.getElem_mem i2)
  have hn := h.dint _ (List.getElem_mem hi)
  refine ⟨by rw [getD_of_lt i2]; have := hb.1; omega, ?_⟩
  by_cases h2 : kv.1.getD i 0 ≤ 1
  · rw [getD_of_lt hi]; omega
  · -- another component is negative
    have h3 : ∃ j, j < kv.1.length ∧ kv.1.getD j 0 < -1 := by
      by_contra hc
      push Not at hc
      have := (detour_nonneg (off := kv.1) (fun o ho => by
        obtain ⟨j, hj, rfl⟩ := List.getElem_of_mem ho
        have := hc j hj
        rwa [getD_of_lt hj] at this)).2 _ (List.getElem_mem i2)
      rw [← getD_of_lt (z := 0) i2] at this
      omega
    obtain ⟨j, hj, hneg⟩ := h3
    have e1 := one_fits h h1 hkv (i := i) (by omega)
    have e2 := one_fits h h1 hkv (i := j) (by omega)
    have hij : i ≠ j := by rintro rfl; omega
    have e3 := mul_le_prod' h.good.pos hij hi (by omega)
    have e4 := h.loc
    rw [one_L h h1] at e4
    have e5 : c.dims.getD i 0 * 2 ≤ c.dims.getD i 0 * c.dims.getD j 0 := Nat.mul_le_mul_left _ (by omega)
    omega

/-! The neighbour. -/

theorem rankOfInt_ones {d : List Nat} (hd : ∀ k ∈ d, k = 1) {t : List Int} (h : t.length = d.length) :
    rankOfInt d t = t.sum := by
  induction d generalizing t with
  | nil =>
    obtain rfl := List.length_eq_zero_iff.1 h
    rfl
  | cons n d ih =>
    match t, h with
    | y :: t, h =>
      have h' : t.length = d.length := by simpa using h
      rw [rankOfInt_cons n d y t h', ih (fun k hk => hd k (by simp [hk])) h', List.sum_cons,
        List.prod_eq_one (fun k hk => hd k (by simp [hk]))]
      simp

/-- The rank computed for the neighbour. -/
theorem one_rank (h : c.Good) (h1 : c.nprocs = 1) (hx : InGrid c.d x) {kv : List Int × R} (hkv : kv ∈ c.st) {np : Int}
    {k : Nat} : (movedDecomp np c.dims c.d k).getNeighborRank (rankOf c.d x : Nat) kv.1 =
      .ok (detour kv.1, movedDecomp np c.dims c.d (rankOf c.d x)) := by
  obtain ⟨hlen, hint, _⟩ := h.st kv hkv
  have hd := ones_of_prod (h.good.valid.2.trans h1)
  have hl := h.good.length_eq
  have hxl := hx.length_eq
  have e := neighborRank_eq_any h.good hx (dir := kv.1) (by omega) (np := np) (k := k)
  have hc : shiftedCoords c.d x kv.1 = kv.1.map fun o => o - o.sign := by
    unfold shiftedCoords
    apply List.ext_getElem (by simp; omega)
    intro i i1 i2
    have i3 : i < c.d.length := by simpa using i1
    have i4 : i < kv.1.length := by simpa using i2
    simp only [List.getElem_map, List.getElem_range]
    have a := (inGrid_iff_getElem.1 hx).2 i i3 (by omega)
    have b := hd _ (List.getElem_mem i3)
    have hb := hint _ (List.getElem_mem i4)
    have hx0 : x.getD i 0 = 0 := by rw [getD_of_lt (by omega)]; omega
    rw [hx0, getD_of_lt i3, b, getD_of_lt i4, shiftIndex_any (by decide) (by decide) (by have := hb.1; omega)
      (by have := hb.2; push_cast; omega) (by have := hb.2; omega), sign_step]
    push_cast
    simp only [Int.zero_add]
  rw [hc, rankOfInt_ones hd (by simp; omega)] at e
  change _ = Except.ok (Int.bmod (detour kv.1) W32) at e
  have hb := one_detour h h1 hkv
  have e2 : Int.bmod (detour kv.1) W32 = detour kv.1 := by
    unfold W32
    rw [Int.bmod_def]
    split <;> omega
  rw [e2] at e
  cases e3 : (movedDecomp np c.dims c.d k).getNeighborRank (rankOf c.d x : Nat) kv.1 with
  | error u => rw [e3] at e; cases e
  | ok p =>
    obtain ⟨r, cd⟩ := p
    rw [e3] at e
    have e4 : r = detour kv.1 := Except.ok.inj e
    have e5 := neighborRank_moved e3
    rw [e4, e5, szOfInt_ofNat]
    have := rankOf_lt hx
    rw [h.good.valid.2, h1] at this
    unfold W
    omega

/-- An offset with a detour: the branch asks for the data of a process that does not exist. -/
theorem one_never [Add R] [Mul R] (h : c.Good) (h1 : c.nprocs = 1) {kv : List Int × R} (hkv : kv ∈ c.st)
    (h0 : detour kv.1 ≠ 0) :
    ∃ x, InGrid c.d x ∧ ∀ (f f' : Filter R) (get : Filter.Getter R), Shape c x c.tab f →
      (∀ nr win n data, get nr win n = .ok data → 0 ≤ nr ∧ nr < c.nprocs) → f.applyEntry get kv ≠ .ok f' := by
  refine ⟨_, tuple_grid h (fun _ => 0) (fun k hk => (axis_sizes h hk).2.2.1), fun f f' get hs hget he => ?_⟩
  have hx := tuple_grid h (fun _ => 0) (fun k hk => (axis_sizes h hk).2.2.1)
  have hc : kv.1.countP (· ≠ 0) ≠ 0 := by
    intro hc
    apply h0
    unfold detour
    apply List.sum_eq_zero
    intro z hz
    obtain ⟨o, ho, rfl⟩ := List.mem_map.1 hz
    have := List.countP_eq_zero.1 hc o ho
    have : o = 0 := by simpa using this
    rw [this]; rfl
  obtain ⟨nr, cd, win, n, data, e1, e2⟩ := entry_rank h hs hkv hc he
  obtain ⟨k0, hk0⟩ := hs.dcmp
  rw [hk0, hs.rk, one_rank h h1 hx hkv] at e1
  have e3 := Except.ok.inj e1
  rw [Prod.mk.injEq] at e3
  have := hget _ _ _ _ e2
  omega

/-! Windows. -/

theorem no_window_any (h : c.Good) {off : List Int} (h0 : off.countP (· ≠ 0) = 0) :
    StdMap.find c.tab.wins (sideOf off) = none ∧ StdMap.find c.tab.gh (sideOf off) = none := by
  have : StdMap.find c.tab.wins (sideOf off) = none := by
    cases e : StdMap.find c.tab.wins (sideOf off) with
    | none => rfl
    | some w =>
      obtain ⟨o, _, hn, hs⟩ := (tab_fold (c.st.map Prod.fst)).2.1 _ _ e
      have := (sideOf_zero_iff off).2 h0
      rw [hs, sideOf_zero_iff] at this
      exact absurd this hn
  exact ⟨this, (h.tab_ok.find_none this).2⟩

theorem fits_any (h : c.Good) {kv : List Int × R} (hkv : kv ∈ c.st) :
    WinTab.Fits c.L (sideOf kv.1) ((StdMap.find c.tab.gh (sideOf kv.1)).getD 0) := by
  by_cases h0 : kv.1.countP (· ≠ 0) = 0
  · rw [(no_window_any h h0).2]
    refine ⟨by rw [length_sideOf, (h.st kv hkv).1, h.lenL], ?_⟩
    intro i _ h2 hn
    exact absurd ((sideOf_zero_iff kv.1).2 h0 _ (List.getElem_mem h2)) hn
  · obtain ⟨w, m, _, hm, hf⟩ := window_any h hkv h0
    rw [hm, Option.getD_some]
    exact hf

theorem prepare_one (h : c.Good) (h1 : c.nprocs = 1) (hx : InGrid c.d x) (hs : Shape c x c.tab f)
    {kv : List Int × R} (hkv : kv ∈ c.st) (h0 : detour kv.1 = 0) :
    f.prepare kv.1 = .ok ((sideOf kv.1, ((rankOf c.d x : Nat) : Int),
        winIt c x (sideOf kv.1) ((StdMap.find c.tab.gh (sideOf kv.1)).getD 0) 0),
      { f with dcmp := movedDecomp c.nprocs c.dims c.d (rankOf c.d x) }) := by
  obtain ⟨k, hk⟩ := hs.dcmp
  have hr : ((rankOf c.d x : Nat) : Int) = 0 := by
    have := rankOf_lt hx
    rw [h.good.valid.2, h1] at this
    omega
  unfold Filter.prepare
  rw [getSideFromOffset_eq f kv.1 (by rw [hs.ndims]; exact (h.st kv hkv).1) (h.st kv hkv).2.1, M.ok_bind, hk, hs.rk,
    one_rank h h1 hx hkv, M.ok_bind, h0, ← hr]
  dsimp only
  have e := getWindowIter_eq h (f := { f with dcmp := movedDecomp c.nprocs c.dims c.d (rankOf c.d x) })
    hx (sideOf kv.1) (rankOf c.d x) hs.ndims rfl (by dsimp only; rw [hs.gh]; exact fits_any h hkv)
  dsimp only at e
  rw [hs.gh] at e
  have e' : f.winNumGhosts = c.tab.gh := hs.gh
  rw [hs.rk] at e
  rw [e', e, M.ok_bind]
  rfl

/-! One branch of the stencil and the whole. -/

section
variable [Add R] [Mul R]

theorem applyEntry_one (h : c.Good) (h1 : c.nprocs = 1) (hx : InGrid c.d x) {u out : List Nat → R}
    {get : Filter.Getter R} (hget : Serves c u get) (hf : Holds c x u f)
    (ho : f.outData = boxData (c.lo x) (c.hi x) out) {kv : List Int × R} (hkv : kv ∈ c.st) (h0 : detour kv.1 = 0) :
    ∃ f', f.applyEntry get kv = .ok f' ∧ Holds c x u f' ∧
      f'.outData = boxData (c.lo x) (c.hi x) fun g => out g + kv.2 * u (shift64 c.dims g kv.1) := by
  have hin : ∀ g, InBox (c.lo x) (c.hi x) g → InBox (c.lo x) (c.hi x) (shift64 c.dims g kv.1) :=
    fun g hg => one_box h h1 hx (shift64_inGrid (h.grid hx hg) (h.st kv hkv).1)
  have ht := one_tame h h1 hkv h0
  unfold Filter.applyEntry
  rw [prepare_one h h1 hx hf.shape hkv h0, M.ok_bind]
  dsimp only
  have hs1 := hf.shape.setDcmp (rankOf c.d x)
  generalize hf1 : ({ f with dcmp := movedDecomp c.nprocs c.dims c.d (rankOf c.d x) } : Filter R) = f1 at hs1 ⊢
  have d1 : f1.inData = f.inData := by rw [← hf1]
  have d2 : f1.outData = f.outData := by rw [← hf1]
  have d3 : f1.bufs = f.bufs := by rw [← hf1]
  have dw : f.windows = c.tab.wins := hf.shape.wins
  rw [dw]
  cases hw : StdMap.find c.tab.wins (sideOf kv.1) with
  | none =>
    dsimp only
    rw [update_eq h hx hs1 (d1.trans hf.data) (d2.trans ho) ht kv.2 _ none (fun g hg hn => absurd (hin g hg) hn)]
    refine ⟨_, rfl, ⟨?_, d1.trans hf.data, ?_⟩, rfl⟩
    · refine hs1.setData _ _ _ ?_ ?_
      · rw [d1, hf.data, length_boxData, h.vol hx]
      · rw [length_boxData, h.vol hx]
    · intro s w m e1 e2
      dsimp only
      rw [d3]; exact hf.mirror s w m e1 e2
  | some w =>
    dsimp only
    obtain ⟨_, _, m, hg, hfit⟩ := h.tab_ok.link _ _ hw
    have hfetch := fetch_eq h hx hs1 (sideOf kv.1) w m hw hg get ((rankOf c.d x : Nat) : Int)
      ((boxData (faceLo (c.lo x) (c.hi x) (sideOf kv.1) m) (faceHi (c.lo x) (c.hi x) (sideOf kv.1) m) u).map some)
      (by rw [List.length_map, length_boxData]; rfl) (hget _ hx _ _ _ hw hg)
    rw [hfetch, M.ok_bind]
    dsimp only
    obtain ⟨_, ⟨b, hb, hbl⟩⟩ := hs1.buflen _ _ _ hw hg
    have hs2 := hs1.setBuf (2 * w + 1) b
      ((boxData (faceLo (c.lo x) (c.hi x) (sideOf kv.1) m) (faceHi (c.lo x) (c.hi x) (sideOf kv.1) m) u).map some) hb
      (by rw [List.length_map, length_boxData, hbl]; rfl)
    rw [update_eq h hx hs2 (d1.trans hf.data) (d2.trans ho) ht kv.2 _ (some (2 * w + 1))
      (fun g hg hn => absurd (hin g hg) hn)]
    refine ⟨_, rfl, ⟨?_, d1.trans hf.data, ?_⟩, rfl⟩
    · refine hs2.setData _ _ _ ?_ ?_
      · dsimp only
        rw [d1, hf.data, length_boxData, h.vol hx]
      · rw [length_boxData, h.vol hx]
    · intro s w' m e1 e2
      dsimp only
      rw [List.getElem?_set_ne (by omega), d3]; exact hf.mirror s w' m e1 e2

variable [Zero R]

theorem world_one (h : c.Good) (h1 : c.nprocs = 1) (h0 : ∀ kv ∈ c.st, detour kv.1 = 0) {w : World R}
    {u : List Nat → R} (hw : Ranks c (fun x f => Holds c x u f) w) :
    ∃ w', w.applyFilter = .ok w' ∧ Ranks c (fun x f => Holds c x u f ∧
      f.outData = boxData (c.lo x) (c.hi x) (stencilStep64 c.dims c.st u)) w' := by
  refine ranks_mapM h hw _ fun x f hx hf => ?_
  have hget := get_serves h hw
  unfold Filter.applyFilter
  rw [zeroOut_eq h hx hf.shape, M.ok_bind]
  dsimp only
  have est : f.stencil = c.st := hf.shape.st
  rw [est]
  exact foldlM_inv c.st (Filter.applyEntry w.get)
    (fun pre f' => Holds c x u f' ∧ f'.outData = boxData (c.lo x) (c.hi x) (stencilStep64 c.dims pre u))
    _ ⟨⟨by
        have := hf.shape.setData (volume (c.lo x) (c.hi x)) f.inData (boxData (c.lo x) (c.hi x) fun _ => 0)
          (by rw [hf.data, length_boxData, h.vol hx]) (by rw [length_boxData, h.vol hx])
        rw [est] at this
        exact this, hf.data, hf.mirror⟩, rfl⟩
    (by
      intro pre kv f1 hkv ⟨a1, a2⟩
      obtain ⟨f2, e, a, b⟩ := applyEntry_one h h1 hx hget a1 a2 hkv (h0 kv hkv)
      refine ⟨f2, e, a, ?_⟩
      rw [b]
      unfold stencilStep64
      simp only [List.foldl_append, List.foldl_cons, List.foldl_nil])

end

/-! Where the two displacements differ. -/

theorem wrap64_dvd {z : Int} {n : Nat} (h : n ∣ 2 ^ 64) : (z % 2 ^ 64).toNat % n = (z % (n : Int)).toNat := by
  have hd : (n : Int) ∣ 2 ^ 64 := by exact_mod_cast h
  have h1 : 0 ≤ z % 2 ^ 64 := Int.emod_nonneg _ (by decide)
  have e := Int.emod_emod_of_dvd z hd
  obtain ⟨a, ha⟩ : ∃ a : Nat, z % 2 ^ 64 = a := ⟨(z % 2 ^ 64).toNat, by omega⟩
  rw [ha] at e ⊢
  rw [← e, Int.toNat_natCast, ← Int.natCast_mod, Int.toNat_natCast]

theorem wrap64_nonneg {z : Int} {n : Nat} (h0 : 0 ≤ z) (h : z < 2 ^ 64) :
    (z % 2 ^ 64).toNat % n = (z % (n : Int)).toNat := by
  obtain ⟨a, ha⟩ : ∃ a : Nat, z = a := ⟨z.toNat, by omega⟩
  rw [Int.emod_eq_of_lt h0 h, ha, ← Int.natCast_mod, Int.toNat_natCast, Int.toNat_natCast]

/-- A negative index is wrapped correctly exactly if the extent divides 2^64. -/
theorem wrap64_neg_iff {z : Int} {n : Nat} (hn : 0 < n) (h0 : z < 0) (h : -(2 : Int) ^ 64 ≤ z) :
    (z % 2 ^ 64).toNat % n = (z % (n : Int)).toNat ↔ n ∣ 2 ^ 64 := by
  refine ⟨fun e => ?_, wrap64_dvd⟩
  have e1 : z % 2 ^ 64 = z + 2 ^ 64 := by
    rw [← Int.add_emod_right, Int.emod_eq_of_lt (by omega) (by omega)]
  obtain ⟨a, ha⟩ : ∃ a : Nat, z + 2 ^ 64 = a := ⟨(z + 2 ^ 64).toNat, by omega⟩
  have h2 : 0 ≤ z % (n : Int) := Int.emod_nonneg _ (by omega)
  rw [e1, ha, Int.toNat_natCast] at e
  have e2 : (a : Int) % n = z % n := by
    rw [← Int.natCast_mod, e]
    omega
  have e3 : (n : Int) ∣ a - z := Int.ModEq.dvd (Int.ModEq.symm e2)
  have e4 : (a : Int) - z = 2 ^ 64 := by omega
  rw [e4] at e3
  exact_mod_cast e3

theorem shift64_eq_any {d x : List Nat} {dir : List Int} (h : InGrid d x) (hd : ∀ n ∈ d, n < 2 ^ 31)
    (hl : dir.length = d.length) (hi : ∀ o ∈ dir, o < 2 ^ 31) (hw : WrapExact d dir) :
    shift64 d x dir = shiftMod d x dir := by
  have l1 := (shift64_inGrid h hl).length_eq
  have l2 := (shiftMod_inGrid h hl).length_eq
  have hxl := h.length_eq
  apply ext_of_getElem? (by rw [l1, l2])
  intro i hi'
  have i1 : i < d.length := by omega
  have i2 : i < dir.length := by omega
  have i3 : i < x.length := by omega
  rw [shift64_getElem i i1 i3 i2, shiftMod_getElem i i1 i3 i2]
  by_cases hneg : dir[i] < 0
  · have := hw i (by rw [getD_of_lt i2]; exact hneg)
    rw [getD_of_lt i1] at this
    rw [wrap64_dvd this]
  · have a := (inGrid_iff_getElem.1 h).2 i i1 i3
    have b := hd _ (List.getElem_mem i1)
    have e := hi _ (List.getElem_mem i2)
    rw [wrap64_nonneg (by omega) (by omega)]

theorem shift_ne_any {dims : List Nat} {off : List Int} (hp : ∀ n ∈ dims, 0 < n) (hl : off.length = dims.length)
    (hi : ∀ o ∈ off, -(2 : Int) ^ 31 < o) (hw : ¬ WrapExact dims off) :
    shift64 dims (List.replicate dims.length 0) off ≠ shiftMod dims (List.replicate dims.length 0) off := by
  intro e
  apply hw
  intro i hneg
  have i2 : i < off.length := lt_of_getD_ne (by omega)
  have i1 : i < dims.length := by omega
  have e' := congrArg (fun l : List Nat => l.getD i 0) e
  rw [getD_shift64 i i1 (by simp) hl, getD_shiftMod i i1 (by simp) hl] at e'
  have hz : (List.replicate dims.length 0).getD i 0 = 0 := by simp [i1]
  have hn := hp _ (List.getElem_mem i1)
  have ho := hi _ (List.getElem_mem i2)
  rw [hz, getD_of_lt i1, getD_of_lt i2] at e'
  rw [getD_of_lt i2] at hneg
  rw [getD_of_lt i1]
  exact (wrap64_neg_iff hn (by push_cast; omega) (by push_cast; omega)).1 e'

end Fidi
