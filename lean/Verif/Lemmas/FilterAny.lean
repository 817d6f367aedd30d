import Verif.Spec.FilterAny
import Verif.Lemmas.FilterOne

/-
One branch of the stencil with an offset of any shape that fits, on any number of processes.
-/
namespace Fidi
open Spec
variable {R : Type} {c : Cfg R} {x y : List Nat} {f f' : Filter R}

/-! The neighbour. -/

theorem rankOfInt_abs {d D : List Nat} {t : List Int} (h : List.Forall₂ (fun k n => k ≤ n) d D)
    (ht : List.Forall₂ (fun (z : Int) (n : Nat) => z.natAbs < n) t D) : (rankOfInt d t).natAbs < D.prod := by
  induction h generalizing t with
  | nil => cases ht; simp [rankOfInt]
  | @cons k n d D hkn hd ih =>
    cases ht with
    | @cons z _ t _ hz ht =>
      have hl : t.length = d.length := by rw [ht.length_eq, hd.length_eq]
      rw [rankOfInt_cons k d z t hl, List.prod_cons]
      have h1 := ih ht
      have h2 : d.prod ≤ D.prod := prod_le_prod_of hd
      have h3 : (z * ((d.prod : Nat) : Int)).natAbs ≤ z.natAbs * D.prod := by
        rw [Int.natAbs_mul, Int.natAbs_natCast]
        exact Nat.mul_le_mul_left _ h2
      have h4 := Int.natAbs_add_le (z * ((d.prod : Nat) : Int)) (rankOfInt d t)
      have h5 : (z.natAbs + 1) * D.prod ≤ n * D.prod := Nat.mul_le_mul_right _ hz
      rw [Nat.add_mul, Nat.one_mul] at h5
      omega

theorem fits_axis (h : c.Good) {kv : List Int × R} (hkv : kv ∈ c.st) {i : Nat} (hi : kv.1.getD i 0 ≠ 0) :
    ghostWidth kv.1 ≤ c.L.getD i 0 ∧ i < c.dims.length := by
  obtain ⟨hlen, _, hfit⟩ := h.st kv hkv
  have i0 : i < c.dims.length := by rw [← hlen]; exact lt_of_getD_ne hi
  have i1 : i < c.L.length := by rw [h.lenL]; exact i0
  have i2 : i < (sideOf kv.1).length := by rw [length_sideOf, hlen]; exact i0
  have h3 := (hfit.2 i i1 i2 (by
    have := getD_sideOf kv.1 i
    rw [getD_of_lt i2] at this
    rw [this]
    intro hc
    exact hi (Int.sign_eq_zero_iff_zero.1 (by omega)))).2
  rw [← getD_of_lt (z := 0) i1] at h3
  exact ⟨h3, i0⟩

/-- The coordinate along an axis from which the rank of the neighbour is computed. -/
theorem coord_any (h : c.Good) (hx : InGrid c.d x) {kv : List Int × R} (hkv : kv ∈ c.st) {i : Nat} (hi : i < c.dims.length) :
    (shiftedCoords c.d x kv.1).getD i 0 = wrapOnce (c.d.getD i 0) (x.getD i 0 + kv.1.getD i 0) ∧
      (wrapOnce (c.d.getD i 0) (x.getD i 0 + kv.1.getD i 0)).natAbs < c.dims.getD i 0 := by
  obtain ⟨s1, s2, s3, s4, s5⟩ := axis_sizes h hi
  have hd : i < c.d.length := by rw [h.good.length_eq]; exact hi
  have hxd := h.ltD hx hi
  have hab : (kv.1.getD i 0).natAbs ≤ c.L.getD i 0 := by
    by_cases h0 : kv.1.getD i 0 = 0
    · rw [h0]; simp
    · exact Nat.le_trans (natAbs_le_ghostWidth kv.1 i) (fits_axis h hkv h0).1
  have hsum : c.d.getD i 0 + c.L.getD i 0 ≤ c.dims.getD i 0 + 1 := by
    rw [s2]
    nlinarith [Nat.mul_le_mul s3 s4, Nat.sub_add_cancel s3, Nat.sub_add_cancel s4,
      Nat.zero_le ((c.d.getD i 0 - 1) * (c.L.getD i 0 - 1))]
  have hLd : c.L.getD i 0 ≤ c.dims.getD i 0 := by rw [s2]; exact Nat.le_mul_of_pos_left _ s3
  have hdd : c.d.getD i 0 ≤ c.dims.getD i 0 := by rw [s2]; exact Nat.le_mul_of_pos_right _ s4
  constructor
  · unfold shiftedCoords
    rw [getD_of_lt (by simpa using hd)]
    simp only [List.getElem_map, List.getElem_range]
    rw [shiftIndex_any (by omega) (by omega) (by omega) (by omega) (by omega)]
    rfl
  · unfold wrapOnce
    split
    · omega
    · split <;> omega

theorem length_shiftedCoords (d x : List Nat) (dir : List Int) : (shiftedCoords d x dir).length = d.length := by
  simp [shiftedCoords]

theorem rank_bound (h : c.Good) (hx : InGrid c.d x) {kv : List Int × R} (hkv : kv ∈ c.st) :
    (rankOfInt c.d (shiftedCoords c.d x kv.1)).natAbs < c.dims.prod := by
  have hl := h.good.length_eq
  apply rankOfInt_abs
  · refine List.forall₂_iff_get.2 ⟨hl, fun i i1 i2 => ?_⟩
    simp only [List.get_eq_getElem]
    obtain ⟨s1, s2, s3, s4, s5⟩ := axis_sizes h i2
    rw [getD_of_lt i2, getD_of_lt i1] at s2
    rw [s2]
    exact Nat.le_mul_of_pos_right _ s4
  · refine List.forall₂_iff_get.2 ⟨by rw [length_shiftedCoords, hl], fun i i1 i2 => ?_⟩
    simp only [List.get_eq_getElem]
    obtain ⟨e1, e2⟩ := coord_any h hx hkv i2
    rw [← e1, getD_of_lt i1, getD_of_lt i2] at e2
    exact e2

/-- The rank computed for the neighbour. -/
theorem any_rank (h : c.Good) (hcells : c.dims.prod ≤ 2 ^ 31) (hx : InGrid c.d x) {kv : List Int × R} (hkv : kv ∈ c.st)
    {np : Int} {k : Nat} : (movedDecomp np c.dims c.d k).getNeighborRank (rankOf c.d x : Nat) kv.1 =
      .ok (rankOfInt c.d (shiftedCoords c.d x kv.1), movedDecomp np c.dims c.d (rankOf c.d x)) := by
  obtain ⟨hlen, hint, _⟩ := h.st kv hkv
  have hl := h.good.length_eq
  have e := neighborRank_eq_any h.good hx (dir := kv.1) (by omega) (np := np) (k := k)
  have hb := rank_bound h hx hkv
  have e2 : Int.bmod (rankOfInt c.d (shiftedCoords c.d x kv.1)) W32 = rankOfInt c.d (shiftedCoords c.d x kv.1) := by
    unfold W32
    rw [Int.bmod_def]
    split <;> omega
  rw [e2] at e
  cases e3 : (movedDecomp np c.dims c.d k).getNeighborRank (rankOf c.d x : Nat) kv.1 with
  | error u => rw [e3] at e; cases e
  | ok p =>
    obtain ⟨r, cd⟩ := p
    rw [e3] at e
    have e4 : r = rankOfInt c.d (shiftedCoords c.d x kv.1) := Except.ok.inj e
    have e5 := neighborRank_moved e3
    rw [e4, e5, szOfInt_ofNat]
    have := h.rank_lt hx
    have := h.np2
    unfold W
    omega

theorem prepare_any (h : c.Good) (hcells : c.dims.prod ≤ 2 ^ 31) (hx : InGrid c.d x) (hy : InGrid c.d y)
    (hs : Shape c x c.tab f) {kv : List Int × R} (hkv : kv ∈ c.st)
    (hn : rankOfInt c.d (shiftedCoords c.d x kv.1) = (rankOf c.d y : Nat)) :
    f.prepare kv.1 = .ok ((sideOf kv.1, ((rankOf c.d y : Nat) : Int),
        winIt c y (sideOf kv.1) ((StdMap.find c.tab.gh (sideOf kv.1)).getD 0) 0),
      { f with dcmp := movedDecomp c.nprocs c.dims c.d (rankOf c.d y) }) := by
  obtain ⟨k, hk⟩ := hs.dcmp
  unfold Filter.prepare
  rw [getSideFromOffset_eq f kv.1 (by rw [hs.ndims]; exact (h.st kv hkv).1) (h.st kv hkv).2.1, M.ok_bind, hk, hs.rk,
    any_rank h hcells hx hkv, M.ok_bind, hn]
  dsimp only
  have e := getWindowIter_eq h (f := { f with dcmp := movedDecomp c.nprocs c.dims c.d (rankOf c.d x) })
    hy (sideOf kv.1) (rankOf c.d x) hs.ndims rfl (by dsimp only; rw [hs.gh]; exact fits_any h hkv)
  dsimp only at e
  rw [hs.gh] at e
  have e' : f.winNumGhosts = c.tab.gh := hs.gh
  rw [hs.rk] at e
  rw [e', e, M.ok_bind]
  rfl

/-! One branch that ends normally, and the whole. -/

section
variable [Add R] [Mul R]

/-- The cells of the window of the process at `y` on the side opposite to the offset. -/
def InWindow (c : Cfg R) (y : List Nat) (off : List Int) (t : List Nat) : Prop :=
  InBox (faceLo (c.lo y) (c.hi y) (sideOf off) ((StdMap.find c.tab.gh (sideOf off)).getD 0))
    (faceHi (c.lo y) (c.hi y) (sideOf off) ((StdMap.find c.tab.gh (sideOf off)).getD 0)) t

theorem applyEntry_any (h : c.Good) (hcells : c.dims.prod ≤ 2 ^ 31) (hx : InGrid c.d x) (hy : InGrid c.d y)
    {u out : List Nat → R} {get : Filter.Getter R} (hget : Serves c u get) (hf : Holds c x u f)
    (ho : f.outData = boxData (c.lo x) (c.hi x) out) {kv : List Int × R} (hkv : kv ∈ c.st) (ht : Tame c.dims kv.1)
    (hn : rankOfInt c.d (shiftedCoords c.d x kv.1) = (rankOf c.d y : Nat))
    (hcell : ∀ g, InBox (c.lo x) (c.hi x) g → ¬ InBox (c.lo x) (c.hi x) (shift64 c.dims g kv.1) →
      kv.1.countP (· ≠ 0) ≠ 0 ∧ InWindow c y kv.1 (shift64 c.dims g kv.1)) :
    ∃ f', f.applyEntry get kv = .ok f' ∧ Holds c x u f' ∧
      f'.outData = boxData (c.lo x) (c.hi x) fun g => out g + kv.2 * u (shift64 c.dims g kv.1) := by
  unfold Filter.applyEntry
  rw [prepare_any h hcells hx hy hf.shape hkv hn, M.ok_bind]
  dsimp only
  have hs1 := hf.shape.setDcmp (rankOf c.d y)
  generalize hf1 : ({ f with dcmp := movedDecomp c.nprocs c.dims c.d (rankOf c.d y) } : Filter R) = f1 at hs1 ⊢
  have d1 : f1.inData = f.inData := by rw [← hf1]
  have d2 : f1.outData = f.outData := by rw [← hf1]
  have d3 : f1.bufs = f.bufs := by rw [← hf1]
  have dw : f.windows = c.tab.wins := hf.shape.wins
  rw [dw]
  cases hw : StdMap.find c.tab.wins (sideOf kv.1) with
  | none =>
    dsimp only
    rw [update_eq h hx hs1 (d1.trans hf.data) (d2.trans ho) ht kv.2 _ none (fun g hg hn => by
      obtain ⟨h0, _⟩ := hcell g hg hn
      obtain ⟨w, m, hw', _⟩ := window_any h hkv h0
      rw [hw] at hw'; cases hw')]
    refine ⟨_, rfl, ⟨?_, d1.trans hf.data, ?_⟩, rfl⟩
    · refine hs1.setData _ _ _ ?_ ?_
      · rw [d1, hf.data, length_boxData, h.vol hx]
      · rw [length_boxData, h.vol hx]
    · intro s w m e1 e2
      dsimp only
      rw [d3]; exact hf.mirror s w m e1 e2
  | some w =>
    dsimp only
    obtain ⟨_, _, m, hg, hfit⟩ := h.tab_ok.link _ _ hw
    have hvol := winVol_indep h hx hy hfit
    have hfetch := fetch_eq h hx hs1 (sideOf kv.1) w m hw hg get ((rankOf c.d y : Nat) : Int)
      ((boxData (faceLo (c.lo y) (c.hi y) (sideOf kv.1) m) (faceHi (c.lo y) (c.hi y) (sideOf kv.1) m) u).map some)
      (by rw [List.length_map, length_boxData, hvol]; rfl) (by rw [hvol]; exact hget _ hy _ _ _ hw hg)
    rw [hfetch, M.ok_bind]
    dsimp only
    obtain ⟨_, ⟨b, hb, hbl⟩⟩ := hs1.buflen _ _ _ hw hg
    have hs2 := hs1.setBuf (2 * w + 1) b
      ((boxData (faceLo (c.lo y) (c.hi y) (sideOf kv.1) m) (faceHi (c.lo y) (c.hi y) (sideOf kv.1) m) u).map some) hb
      (by rw [List.length_map, length_boxData, hbl, hvol]; rfl)
    have hlt : 2 * w + 1 < f1.bufs.length := by
      by_contra hc
      rw [List.getElem?_eq_none (by omega)] at hb; simp at hb
    rw [update_eq h hx hs2 (d1.trans hf.data) (d2.trans ho) ht kv.2 _ (some (2 * w + 1)) (fun g hg' hn' => by
      obtain ⟨_, hin⟩ := hcell g hg' hn'
      unfold InWindow at hin
      rw [hg, Option.getD_some] at hin
      have hv : volume (faceLo (c.lo y) (c.hi y) (sideOf kv.1) m) (faceHi (c.lo y) (c.hi y) (sideOf kv.1) m) < 2 ^ 31 :=
        Nat.lt_of_le_of_lt (winVol_le h hy hfit) h.loc
      refine ⟨2 * w + 1,
        (boxData (faceLo (c.lo y) (c.hi y) (sideOf kv.1) m) (faceHi (c.lo y) (c.hi y) (sideOf kv.1) m) u).map some,
        flatOf false (faceLo (c.lo y) (c.hi y) (sideOf kv.1) m) (faceHi (c.lo y) (c.hi y) (sideOf kv.1) m)
          (shift64 c.dims g kv.1), rfl, ?_, ?_, by dsimp only; rw [List.getElem?_set_self hlt], ?_⟩
      · rw [hg, Option.getD_some]
        exact itAt_bigInt hv (h.faceW hy hfit) hin 0
      · have := flatOf_lt false hin
        unfold W; omega
      · rw [List.getElem?_map, boxData_at u hin]; rfl)]
    refine ⟨_, rfl, ⟨?_, d1.trans hf.data, ?_⟩, rfl⟩
    · refine hs2.setData _ _ _ ?_ ?_
      · dsimp only
        rw [d1, hf.data, length_boxData, h.vol hx]
      · rw [length_boxData, h.vol hx]
    · intro s w' m e1 e2
      dsimp only
      rw [List.getElem?_set_ne (by omega), d3]; exact hf.mirror s w' m e1 e2

/-- What the loop over the cells adds to every cell, if it ends normally: the weight times the value of the displaced cell, or
times an element of the data received. -/
theorem update_value (h : c.Good) (hx : InGrid c.d x) (hs : Shape c x c.tab f) {off : List Int}
    (hol : off.length = c.dims.length) {val : R} {wit : MultiArrayIter} {dst : Nat} {u out : List Nat → R}
    (hin : f.inData = boxData (c.lo x) (c.hi x) u) (hout : f.outData = boxData (c.lo x) (c.hi x) out)
    (he : f.update off val wit (some dst) = .ok f') {g : List Nat} (hg : InBox (c.lo x) (c.hi x) g) :
    ∃ v, f'.outData[flatOf false (c.lo x) (c.hi x) g]? = some (out g + val * v) ∧
      ((InBox (c.lo x) (c.hi x) (shift64 c.dims g off) ∧ v = u (shift64 c.dims g off)) ∨
        ∃ bi b, wit.computeBigIndexInt ((shift64 c.dims g off).map (fun n : Nat => (n : Int))) = .ok bi ∧
          f.bufs[dst]? = some b ∧ b[szOfInt bi]? = some (some v)) := by
  obtain ⟨k, hk⟩ := getMit_shape hs
  unfold Filter.update at he
  rw [hk, M.ok_bind, itAt_terms (h.box hx) (h.volW hx), itAt_begin] at he
  obtain ⟨⟨mit, o'⟩, e, he⟩ := (M.bind_ok_iff _ _ _).1 he
  have he' := Except.ok.inj he
  have hfl : flatOf false (c.lo x) (c.hi x) g < volume (c.lo x) (c.hi x) := flatOf_lt false hg
  obtain ⟨⟨_, _, hfin⟩, _⟩ := forUp_ok_index (fun i (p : MultiArrayIter × List R) => p.1 = itAt (c.lo x) (c.hi x) i ∧
      (∀ j, i ≤ j → p.2[j]? = f.outData[j]?) ∧
      (flatOf false (c.lo x) (c.hi x) g < i → ∃ v, p.2[flatOf false (c.lo x) (c.hi x) g]? = some (out g + val * v) ∧
      ((InBox (c.lo x) (c.hi x) (shift64 c.dims g off) ∧ v = u (shift64 c.dims g off)) ∨
        ∃ bi b, wit.computeBigIndexInt ((shift64 c.dims g off).map (fun n : Nat => (n : Int))) = .ok bi ∧
          f.bufs[dst]? = some b ∧ b[szOfInt bi]? = some (some v)))) _ _ _ e ⟨rfl, fun _ _ => rfl, by omega⟩ (by
      rintro i ⟨m, o⟩ s1 hi ⟨h1, h2, h3⟩ hb
      dsimp only at h1 h2 h3
      subst h1
      unfold Filter.updateBody at hb
      dsimp only at hb
      have hti := tupleAt_inBox false (h.box hx) i
      rw [itAt_indices (h.box hx) (h.volW hx) (h.hi_ltW hx), M.ok_bind] at hb
      obtain ⟨⟨ind, inside⟩, e1, hb⟩ := (M.bind_ok_iff _ _ _).1 hb
      obtain ⟨hio, hib⟩ := offset_ok h hx hs hol hti e1
      subst hio
      dsimp only at hb
      -- the new value of the i-th element
      have key : ∃ v, s1 = ((itAt (c.lo x) (c.hi x) i).next,
            o.set i (out (tupleAt false (c.lo x) (c.hi x) i) + val * v)) ∧ i < o.length ∧
          ((InBox (c.lo x) (c.hi x) (shift64 c.dims (tupleAt false (c.lo x) (c.hi x) i) off) ∧
            v = u (shift64 c.dims (tupleAt false (c.lo x) (c.hi x) i) off)) ∨
          ∃ bi b, wit.computeBigIndexInt ((shift64 c.dims (tupleAt false (c.lo x) (c.hi x) i) off).map
              (fun n : Nat => (n : Int))) = .ok bi ∧
            f.bufs[dst]? = some b ∧ b[szOfInt bi]? = some (some v)) := by
        have hoi : o[i]? = some (out (tupleAt false (c.lo x) (c.hi x) i)) := by
          rw [h2 i (Nat.le_refl _), hout]
          have := boxData_at out hti
          rwa [flatOf_tupleAt false (h.box hx), Nat.mod_eq_of_lt hi] at this
        have hil : i < o.length := by
          by_contra hc
          rw [List.getElem?_eq_none (by omega)] at hoi
          cases hoi
        cases inside with
        | true =>
          rw [if_pos rfl] at hb
          obtain ⟨bi, a1, hb⟩ := (M.bind_ok_iff _ _ _).1 hb
          obtain ⟨v, a2, hb⟩ := (M.bind_ok_iff _ _ _).1 hb
          obtain ⟨o1, a3, hb⟩ := (M.bind_ok_iff _ _ _).1 hb
          have a3 := rd_ok a3
          rw [hoi, Option.some_inj] at a3
          subst a3
          rw [wr_of_lt hil, M.ok_bind] at hb
          refine ⟨v, (Except.ok.inj hb).symm, hil, Or.inl ⟨hib rfl, ?_⟩⟩
          have hbx := hib rfl
          rw [itAt_bigInt (by have := h.vol hx; have := h.loc; omega) (h.hi_ltW hx) hbx] at a1
          have a1 := Except.ok.inj a1
          have a2 := rd_ok a2
          rw [← a1, szOfInt_ofNat (Nat.lt_trans (flatOf_lt false hbx) (h.volW hx)), hin, boxData_at u hbx,
            Option.some_inj] at a2
          exact a2.symm
        | false =>
          rw [if_neg (by decide)] at hb
          obtain ⟨bi, a1, hb⟩ := (M.bind_ok_iff _ _ _).1 hb
          obtain ⟨b, a2, hb⟩ := (M.bind_ok_iff _ _ _).1 hb
          obtain ⟨v, a3, hb⟩ := (M.bind_ok_iff _ _ _).1 hb
          obtain ⟨o1, a4, hb⟩ := (M.bind_ok_iff _ _ _).1 hb
          have a4 := rd_ok a4
          rw [hoi, Option.some_inj] at a4
          subst a4
          rw [wr_of_lt hil, M.ok_bind] at hb
          refine ⟨v, (Except.ok.inj hb).symm, hil, Or.inr ⟨bi, b, a1, rd_ok a2, ?_⟩⟩
          unfold rdBuf at a3
          obtain ⟨w, a5, a6⟩ := (M.bind_ok_iff _ _ _).1 a3
          have a5 := rd_ok a5
          cases w with
          | none => cases a6
          | some w => rw [a5, ← Except.ok.inj a6]
      obtain ⟨v, rfl, hil, hv⟩ := key
      refine ⟨itAt_next (by have := h.volW hx; omega), fun j hj => ?_, fun hlt => ?_⟩
      · rw [List.getElem?_set_ne (by omega)]
        exact h2 j (by omega)
      · by_cases hgi : flatOf false (c.lo x) (c.hi x) g = i
        · have : tupleAt false (c.lo x) (c.hi x) i = g := by rw [← hgi, tupleAt_flatOf false hg]
          rw [this] at hv ⊢
          refine ⟨v, ?_, hv⟩
          rw [hgi, List.getElem?_set_self hil]
        · rw [List.getElem?_set_ne (by omega)]
          exact h3 (by omega))
  rw [← he']
  exact hfin hfl

/-- What a branch of the stencil adds to every cell, if it ends normally and its neighbour is the process at `y`. -/
theorem entry_value (h : c.Good) (hcells : c.dims.prod ≤ 2 ^ 31) (hx : InGrid c.d x) (hy : InGrid c.d y)
    {u out : List Nat → R} {get : Filter.Getter R} (hget : Serves c u get) (hf : Holds c x u f)
    (ho : f.outData = boxData (c.lo x) (c.hi x) out) {kv : List Int × R} (hkv : kv ∈ c.st)
    (h0 : kv.1.countP (· ≠ 0) ≠ 0)
    (hn : rankOfInt c.d (shiftedCoords c.d x kv.1) = (rankOf c.d y : Nat)) (he : f.applyEntry get kv = .ok f')
    {g : List Nat} (hg : InBox (c.lo x) (c.hi x) g) :
    ∃ t, f'.outData[flatOf false (c.lo x) (c.hi x) g]? = some (out g + kv.2 * u t) ∧
      ((InBox (c.lo x) (c.hi x) t ∧ t = shift64 c.dims g kv.1) ∨
        InWindow c y kv.1 t ∧ ∃ m bi, StdMap.find c.tab.gh (sideOf kv.1) = some m ∧
          (winIt c y (sideOf kv.1) m 0).computeBigIndexInt
            ((shift64 c.dims g kv.1).map (fun n : Nat => (n : Int))) = .ok bi ∧
          szOfInt bi = flatOf false (faceLo (c.lo y) (c.hi y) (sideOf kv.1) m)
            (faceHi (c.lo y) (c.hi y) (sideOf kv.1) m) t) := by
  obtain ⟨w, m, hw, hm, hfit⟩ := window_any h hkv h0
  unfold Filter.applyEntry at he
  rw [prepare_any h hcells hx hy hf.shape hkv hn, M.ok_bind] at he
  dsimp only at he
  have hs1 := hf.shape.setDcmp (rankOf c.d y)
  have dw : f.windows = c.tab.wins := hf.shape.wins
  have d1 : f.inData = _ := hf.data
  generalize hf1 : ({ f with dcmp := movedDecomp c.nprocs c.dims c.d (rankOf c.d y) } : Filter R) = f1 at hs1 he
  have d1 : f1.inData = boxData (c.lo x) (c.hi x) u := by rw [← hf1]; exact hf.data
  have d2 : f1.outData = boxData (c.lo x) (c.hi x) out := by rw [← hf1]; exact ho
  rw [dw, hw] at he
  dsimp only at he
  have hvol := winVol_indep h hx hy hfit
  have hfetch := fetch_eq h hx hs1 (sideOf kv.1) w m hw hm get ((rankOf c.d y : Nat) : Int)
    ((boxData (faceLo (c.lo y) (c.hi y) (sideOf kv.1) m) (faceHi (c.lo y) (c.hi y) (sideOf kv.1) m) u).map some)
    (by rw [List.length_map, length_boxData, hvol]; rfl) (by rw [hvol]; exact hget _ hy _ _ _ hw hm)
  rw [hfetch, M.ok_bind] at he
  dsimp only at he
  obtain ⟨_, ⟨b, hb, hbl⟩⟩ := hs1.buflen _ _ _ hw hm
  have hs2 := hs1.setBuf (2 * w + 1) b
    ((boxData (faceLo (c.lo y) (c.hi y) (sideOf kv.1) m) (faceHi (c.lo y) (c.hi y) (sideOf kv.1) m) u).map some) hb
    (by rw [List.length_map, length_boxData, hbl, hvol]; rfl)
  have hlt : 2 * w + 1 < f1.bufs.length := by
    by_contra hc
    rw [List.getElem?_eq_none (by omega)] at hb; simp at hb
  obtain ⟨v, e1, e2⟩ := update_value h hx hs2 (h.st kv hkv).1 d1 d2 he hg
  rcases e2 with ⟨a1, a2⟩ | ⟨bi, b', a1, a2, a3⟩
  · exact ⟨_, a2 ▸ e1, Or.inl ⟨a1, rfl⟩⟩
  · dsimp only at a2
    rw [List.getElem?_set_self hlt, Option.some_inj] at a2
    subst a2
    rw [List.getElem?_map] at a3
    obtain ⟨hbx, _, _, _⟩ := layer_box h hy hfit
    have hbl : szOfInt bi < volume (faceLo (c.lo y) (c.hi y) (sideOf kv.1) m) (faceHi (c.lo y) (c.hi y) (sideOf kv.1) m) := by
      by_contra hc
      rw [List.getElem?_eq_none (by rw [length_boxData]; omega)] at a3
      cases a3
    have hti := tupleAt_inBox false hbx (szOfInt bi)
    have e3 := boxData_at u hti
    have e4 := flatOf_tupleAt false hbx (szOfInt bi)
    rw [Nat.mod_eq_of_lt hbl] at e4
    rw [e4] at e3
    rw [e3, Option.map_some, Option.some_inj, Option.some_inj] at a3
    subst a3
    refine ⟨_, e1, Or.inr ⟨?_, m, bi, hm, ?_, e4.symm⟩⟩
    · unfold InWindow
      rw [hm]
      exact hti
    · rw [hm] at a1
      exact a1

variable [Zero R]

/-- All branches of the stencil, if every process can serve the cells its neighbours need. -/
theorem world_any (h : c.Good) (hcells : c.dims.prod ≤ 2 ^ 31)
    (hcond : ∀ kv ∈ c.st, Tame c.dims kv.1 ∧ ∀ x, InGrid c.d x → ∃ y, InGrid c.d y ∧
      rankOfInt c.d (shiftedCoords c.d x kv.1) = (rankOf c.d y : Nat) ∧
      ∀ g, InBox (c.lo x) (c.hi x) g → ¬ InBox (c.lo x) (c.hi x) (shift64 c.dims g kv.1) →
        kv.1.countP (· ≠ 0) ≠ 0 ∧ InWindow c y kv.1 (shift64 c.dims g kv.1)) {w : World R}
    {u : List Nat → R} (hw : Ranks c (fun x f => Holds c x u f) w) :
    ∃ w', w.applyFilter = .ok w' ∧ Ranks c (fun x f => Holds c x u f ∧
      f.outData = boxData (c.lo x) (c.hi x) (stencilStep64 c.dims c.st u)) w' := by
  refine ranks_mapM h hw _ fun x f hx hf => ?_
  have hget := get_serves h hw
  unfold Filter.applyFilter
  rw [zeroOut_eq h hx hf.shape, M.ok_bind]
  dsimp only
  have est : f.stencil = c.st := hf.shape.st
  rw [est]
  exact foldlM_inv c.st (Filter.applyEntry w.get)
    (fun pre f' => Holds c x u f' ∧ f'.outData = boxData (c.lo x) (c.hi x) (stencilStep64 c.dims pre u))
    _ ⟨⟨by
        have := hf.shape.setData (volume (c.lo x) (c.hi x)) f.inData (boxData (c.lo x) (c.hi x) fun _ => 0)
          (by rw [hf.data, length_boxData, h.vol hx]) (by rw [length_boxData, h.vol hx])
        rw [est] at this
        exact this, hf.data, hf.mirror⟩, rfl⟩
    (by
      intro pre kv f1 hkv ⟨a1, a2⟩
      obtain ⟨ht, hc⟩ := hcond kv hkv
      obtain ⟨y, hy, hn, hcell⟩ := hc x hx
      obtain ⟨f2, e, a, b⟩ := applyEntry_any h hcells hx hy hget a1 a2 hkv ht hn hcell
      refine ⟨f2, e, a, ?_⟩
      rw [b]
      unfold stencilStep64
      simp only [List.foldl_append, List.foldl_cons, List.foldl_nil])

end
end Fidi
