import Verif.Lemmas.FilterSum

/-
Lemmas about `saveVTK`.
-/
namespace Fidi
open Spec
variable {R : Type} {c : Cfg R} {x : List Nat} {f : Filter R}

/-! Positions in the grid. -/

theorem inGrid_getElem : ∀ {ds t : List Nat}, InGrid ds t → ∀ i (h1 : i < ds.length) (h2 : i < t.length), t[i] < ds[i]
  | [], [], _, i, h1, _ => absurd h1 (Nat.not_lt_zero i)
  | _ :: _, _ :: _, h, 0, _, _ => h.1
  | _ :: _, _ :: _, h, i + 1, h1, h2 => inGrid_getElem h.2 i (by simpa using h1) (by simpa using h2)

theorem colMajor_eq_flatOf {dims g : List Nat} (hg : InGrid dims g) :
    colMajor dims g = flatOf false (List.replicate dims.length 0) dims g := by
  rw [flatOf_eq_cellPos _ _ _ (by simp) (by simp [hg.length_eq])]
  unfold cellPos
  rw [extents_zero]
  congr 1
  apply List.ext_getElem (by simp [hg.length_eq])
  intro i h1 h2
  simp

theorem boxLt_zero {dims : List Nat} (hp : ∀ n ∈ dims, 0 < n) : BoxLt (List.replicate dims.length 0) dims := by
  refine List.forall₂_iff_get.2 ⟨by simp, ?_⟩
  intro i h1 h2
  simp only [List.get_eq_getElem, List.getElem_replicate]
  exact hp _ (List.getElem_mem h2)

theorem colMajor_lt {dims g : List Nat} (hg : InGrid dims g) : colMajor dims g < dims.prod := by
  rw [colMajor_eq_flatOf hg, ← volume_zero]
  exact flatOf_lt false (inBox_zero.2 hg)

theorem colMajor_inj {dims g g' : List Nat} (hg : InGrid dims g) (hg' : InGrid dims g')
    (h : colMajor dims g = colMajor dims g') : g = g' := by
  rw [colMajor_eq_flatOf hg, colMajor_eq_flatOf hg'] at h
  rw [← tupleAt_flatOf false (inBox_zero.2 hg), h, tupleAt_flatOf false (inBox_zero.2 hg')]

theorem colMajor_surj {dims : List Nat} (hp : ∀ n ∈ dims, 0 < n) {p : Nat} (h : p < dims.prod) :
    ∃ g, InGrid dims g ∧ colMajor dims g = p := by
  have hb := boxLt_zero hp
  have hg := inBox_zero.1 (tupleAt_inBox false hb p)
  refine ⟨_, hg, ?_⟩
  rw [colMajor_eq_flatOf hg, flatOf_tupleAt false hb, volume_zero, Nat.mod_eq_of_lt h]

/-! Rank 0. -/

theorem rankOf_zero : ∀ d : List Nat, rankOf d (List.replicate d.length 0) = 0 := by
  have : ∀ d : List Nat, (d.zip (List.replicate d.length 0)).foldl (fun acc p => acc * p.1 + p.2) 0 = 0 := by
    intro d
    induction d with
    | nil => rfl
    | cons k d ih => simpa [List.replicate_succ] using ih
  exact this

theorem zero_inGrid {d : List Nat} (hp : ∀ n ∈ d, 0 < n) : InGrid d (List.replicate d.length 0) := by
  induction d with
  | nil => trivial
  | cons k d ih => exact ⟨hp k (by simp), ih fun n hn => hp n (by simp [hn])⟩

theorem lo_root (h : c.Good) (hx : InGrid c.d x) (h0 : rankOf c.d x = 0) : c.lo x = List.replicate c.dims.length 0 := by
  have hz := zero_inGrid h.good.d_pos
  have := rankOf_inj hx hz (by rw [h0, rankOf_zero])
  subst this
  apply List.ext_getElem
  · rw [h.len_lo hz]; simp
  · intro i h1 h2
    simp [Cfg.lo, subLo]

/-- The indices computed on rank 0 for the cells of another rank. -/
theorem shifted_tuple (h : c.Good) {x0 : List Nat} (hx0 : InGrid c.d x0) (h0 : rankOf c.d x0 = 0) (hx : InGrid c.d x)
    (i : Nat) : List.zipWith (· + ·) (c.lo x) (tupleAt false (c.lo x0) (c.hi x0) i) = tupleAt false (c.lo x) (c.hi x) i := by
  unfold tupleAt
  rw [h.ext hx, h.ext hx0, lo_root h hx0 h0]
  congr 1
  apply List.ext_getElem
  · simp [digitsOf, h.lenL]
  · intro j h1 h2
    simp

theorem Cfg.Good.prod (h : c.Good) : c.L.prod * c.nprocs = c.dims.prod := by
  have := localExtents_prod_mul h.good.valid.1
  rw [h.good.valid.2] at this
  exact this

theorem Cfg.Good.prodW (h : c.Good) : c.dims.prod < W := by
  rw [← h.prod]
  have h1 := h.loc
  have h2 := h.np2
  have : c.L.prod * c.nprocs ≤ 2 ^ 31 * 2 ^ 30 := Nat.mul_le_mul (by omega) h2
  unfold W
  omega

theorem totalCells_eq (h : c.Good) (hs : Shape c x c.tab f) : f.totalCells = .ok c.dims.prod := by
  unfold Filter.totalCells
  rw [hs.ndims, hs.gdims]
  obtain ⟨s, e, rfl⟩ := forUp_inv (Nat.zero_le c.dims.length) (fun i n => n = (c.dims.take i).prod)
    (fun i ntot => do pure (szMul ntot (← rd c.dims i))) 1 (by simp) (by
      rintro i _ _ hi rfl
      rw [rd_of_lt hi, M.ok_bind]
      refine ⟨_, rfl, ?_⟩
      have e : (c.dims.take (i + 1)).prod = (c.dims.take i).prod * c.dims[i] := by
        rw [List.take_succ_eq_append_getElem hi, List.prod_append]; simp
      have hle : (c.dims.take (i + 1)).prod ≤ c.dims.prod := by
        apply Nat.le_of_dvd (prod_pos_of h.good.pos)
        conv_rhs => rw [← List.take_append_drop (i + 1) c.dims, List.prod_append]
        exact Nat.dvd_mul_right _ _
      have := h.prodW
      rw [szMul_of_lt (by rw [← e]; omega), e])
  rw [e, List.take_length]

/-- The iterator over the whole grid. -/
theorem gridIt_eq (h : c.Good) :
    MultiArrayIter.new (List.replicate c.dims.length 0) c.dims false = .ok (itAt (List.replicate c.dims.length 0) c.dims 0) := by
  unfold MultiArrayIter.new
  rw [build_eq none _ _ false]
  · rfl
  · intro e
    have := congrArg List.length e
    simp at this
    exact h.good.ne this
  · simp
  · have := h.good.len
    simp; omega

theorem globalInds_eq (beg loc g0 : List Nat) (n : Nat) (h1 : beg.length = n) (h2 : loc.length = n) (h3 : g0.length = n)
    (hb : ∀ i (h1 : i < beg.length) (h2 : i < loc.length), beg[i] + loc[i] < W) :
    forUp 0 n g0 (Filter.globalIndsBody beg loc) = .ok (List.zipWith (· + ·) beg loc) := by
  rw [forUp_fill n g0 h3 (fun i => beg.getD i 0 + loc.getD i 0)]
  · congr 1
    apply List.ext_getElem (by simp [h1, h2])
    intro i h4 h5
    have h6 : i < n := by simpa using h4
    simp [List.getElem?_eq_getElem (by omega : i < beg.length), List.getElem?_eq_getElem (by omega : i < loc.length)]
  · intro i v hi hv _
    unfold Filter.globalIndsBody
    rw [rd_of_lt (by omega), M.ok_bind, rd_of_lt (by omega), M.ok_bind, wr_of_lt (by omega),
      szAdd_of_lt (hb i (by omega) (by omega)), getD_of_lt (by omega), getD_of_lt (by omega)]

/-- The field is right on the cells in `P`. -/
def FieldOn (c : Cfg R) (v : List Nat → R) (P : List Nat → Prop) (field : List R) : Prop :=
  field.length = c.dims.prod ∧ ∀ g, InGrid c.dims g → P g → field[colMajor c.dims g]? = some (v g)

theorem FieldOn.set {v : List Nat → R} {P Q : List Nat → Prop} {field : List R} (hf : FieldOn c v P field)
    {g : List Nat} (hg : InGrid c.dims g) (hq : ∀ g', Q g' → P g' ∨ g' = g) :
    FieldOn c v Q (field.set (colMajor c.dims g) (v g)) := by
  refine ⟨by simp [hf.1], ?_⟩
  intro g' hg' hQ
  by_cases he : g' = g
  · subst he
    rw [List.getElem?_set_self (by rw [hf.1]; exact colMajor_lt hg)]
  · rw [List.getElem?_set_ne (fun h => he (colMajor_inj hg' hg h.symm))]
    exact hf.2 g' hg' ((hq g' hQ).resolve_right he)

/-- The loop over the cells of one chunk. -/
theorem chunk_eq (h : c.Good) {x0 : List Nat} (hx0 : InGrid c.d x0) (h0 : rankOf c.d x0 = 0) (hs : Shape c x0 c.tab f)
    (hx : InGrid c.d x) {v : List Nat → R} {recv : List R} (hp : c.dims.prod ≤ 2 ^ 31)
    (hr : ∀ i, i < c.L.prod → recv[rankOf c.d x * c.L.prod + i]? = some (v (tupleAt false (c.lo x) (c.hi x) i)))
    {P : List Nat → Prop} {gi : List Nat} {field : List R} (hgi : gi.length = c.dims.length) (hf : FieldOn c v P field)
    (k : Nat) :
    ∃ gi' field', forUp 0 (volume (c.lo x0) (c.hi x0)) (itAt (c.lo x0) (c.hi x0) 0, gi, field)
        (f.chunkBody recv (c.L.prod : Nat) (itAt (List.replicate c.dims.length 0) c.dims k) (rankOf c.d x) (c.lo x)) =
      .ok (itAt (c.lo x0) (c.hi x0) (volume (c.lo x0) (c.hi x0)), gi', field') ∧ gi'.length = c.dims.length ∧
      FieldOn c v (fun g => P g ∨ InBox (c.lo x) (c.hi x) g) field' := by
  obtain ⟨⟨m, gi', field'⟩, e, h1, h2, h3⟩ := forUp_inv (Nat.zero_le (volume (c.lo x0) (c.hi x0)))
    (fun i (p : MultiArrayIter × List Nat × List R) => p.1 = itAt (c.lo x0) (c.hi x0) i ∧ p.2.1.length = c.dims.length ∧
      FieldOn c v (fun g => P g ∨ ∃ j < i, g = tupleAt false (c.lo x) (c.hi x) j) p.2.2)
    (f.chunkBody recv (c.L.prod : Nat) (itAt (List.replicate c.dims.length 0) c.dims k) (rankOf c.d x) (c.lo x))
    (itAt (c.lo x0) (c.hi x0) 0, gi, field) ⟨rfl, hgi, hf.1, fun g hg hP => hf.2 g hg (by simpa using hP)⟩ (by
      rintro i ⟨m, gi, field⟩ _ hi ⟨h1, h2, h3⟩
      dsimp only at h1 h2 h3
      subst h1
      have hin := tupleAt_inBox false (h.box hx) i
      have hg := sub_inGrid h.good.valid.1 hx hin
      have htl : (tupleAt false (c.lo x0) (c.hi x0) i).length = c.dims.length := by
        rw [(tupleAt_inBox false (h.box hx0) i).length_lo, h.len_lo hx0]
      have hsh := shifted_tuple h hx0 h0 hx i
      have hil : i < c.L.prod := by rw [h.vol hx0] at hi; exact hi
      have hrank := h.rank_lt hx
      have hbig : rankOf c.d x * c.L.prod + c.L.prod ≤ c.dims.prod := by
        rw [← h.prod, Nat.mul_comm c.L.prod, ← Nat.succ_mul]
        exact Nat.mul_le_mul_right _ hrank
      unfold Filter.chunkBody
      dsimp only
      rw [itAt_indices (h.box hx0) (h.volW hx0) (h.hi_ltW hx0), M.ok_bind, hs.ndims,
        globalInds_eq _ _ _ _ (h.len_lo hx) htl h2 (by
          intro j h1 h2
          have h4 : j < (List.zipWith (· + ·) (c.lo x) (tupleAt false (c.lo x0) (c.hi x0) i)).length := by
            simp; omega
          have h5 : (c.lo x)[j] + (tupleAt false (c.lo x0) (c.hi x0) i)[j] =
            (List.zipWith (· + ·) (c.lo x) (tupleAt false (c.lo x0) (c.hi x0) i))[j] := by simp
          have h6 : (List.zipWith (· + ·) (c.lo x) (tupleAt false (c.lo x0) (c.hi x0) i))[j] ∈
            tupleAt false (c.lo x) (c.hi x) i := by rw [← hsh]; exact List.getElem_mem h4
          rw [h5]
          obtain ⟨l, hl, e⟩ := List.mem_iff_getElem.1 h6
          rw [← e]
          have h7 : l < c.dims.length := by rw [← hg.length_eq]; exact hl
          have := inGrid_getElem hg l h7 hl
          have := h.dint _ (List.getElem_mem h7)
          unfold W
          omega), M.ok_bind, hsh]
      rw [itAt_big (by rw [volume_zero]; exact h.prodW) (fun n hn => by
        have := h.dint n hn; unfold W; omega) (inBox_zero.2 hg), M.ok_bind, ← colMajor_eq_flatOf hg]
      have hmul : ((rankOf c.d x : Nat) : Int) * ((c.L.prod : Nat) : Int) = ((rankOf c.d x * c.L.prod : Nat) : Int) := by
        push_cast; rfl
      rw [hmul, mkInt_ok (by rw [intLim_eq]; omega) (by rw [intLim_eq]; omega), M.ok_bind,
        szOfInt_ofNat (by unfold W; omega), szAdd_of_lt (by unfold W; omega), rd_of_some (hr i hil), M.ok_bind,
        wr_of_lt (by rw [h3.1]; exact colMajor_lt hg), M.ok_bind]
      refine ⟨_, rfl, ?_, ?_, ?_⟩
      · exact itAt_next (by have := h.volW hx0; omega)
      · exact hg.length_eq
      · apply h3.set hg
        rintro g' (hP | ⟨j, hj, rfl⟩)
        · exact .inl (.inl hP)
        · by_cases hji : j = i
          · subst hji; exact .inr rfl
          · exact .inl (.inr ⟨j, by omega, rfl⟩))
  dsimp only at h1 h2 h3
  refine ⟨gi', field', by rw [e, h1], h2, h3.1, ?_⟩
  rintro g hg (hP | hin)
  · exact h3.2 g hg (.inl hP)
  · refine h3.2 g hg (.inr ⟨flatOf false (c.lo x) (c.hi x) g, ?_, (tupleAt_flatOf false hin).symm⟩)
    rw [h.vol hx0, ← h.vol hx]
    exact flatOf_lt false hin

/-- What rank 0 makes of the gathered data. -/
theorem assemble_eq [Zero R] (h : c.Good) {x0 : List Nat} (hx0 : InGrid c.d x0) (h0 : rankOf c.d x0 = 0)
    (hs : Shape c x0 c.tab f) {v : List Nat → R} {recv : List R} (hp : c.dims.prod ≤ 2 ^ 31)
    (hr : ∀ x, InGrid c.d x → ∀ i, i < c.L.prod →
      recv[rankOf c.d x * c.L.prod + i]? = some (v (tupleAt false (c.lo x) (c.hi x) i))) :
    ∃ field f', f.assemble recv = .ok (field, f') ∧ FieldOn c v (fun _ => True) field := by
  unfold Filter.assemble
  rw [totalCells_eq h hs, M.ok_bind, hs.ndims, hs.gdims, gridIt_eq h, M.ok_bind, hs.sz, hs.outLen, intOfSz_small h.loc,
    Int.toNat_natCast]
  obtain ⟨⟨f', gi, field⟩, e, h1, h2, h3⟩ := forUp_inv (Nat.zero_le c.nprocs)
    (fun r (p : Filter R × List Nat × List R) => Shape c x0 c.tab p.1 ∧ p.2.1.length = c.dims.length ∧
      FieldOn c v (fun g => ∃ x, InGrid c.d x ∧ rankOf c.d x < r ∧ InBox (c.lo x) (c.hi x) g) p.2.2)
    (Filter.rankBody recv (c.L.prod : Nat) (itAt (List.replicate c.dims.length 0) c.dims 0))
    (f, List.replicate c.dims.length 0, List.replicate c.dims.prod 0)
    ⟨hs, by simp, by simp, fun g _ ⟨x, _, hlt, _⟩ => absurd hlt (Nat.not_lt_zero _)⟩ (by
      rintro r ⟨f, gi, field⟩ _ hr' ⟨h1, h2, h3⟩
      dsimp only at h1 h2 h3
      obtain ⟨x, hx, rfl⟩ := h.coords hr'
      obtain ⟨k, hk⟩ := h1.dcmp
      unfold Filter.rankBody
      dsimp only
      rw [hk, getBegIndices_eq h.good x hx, M.ok_bind]
      dsimp only
      have hs2 := h1.setDcmp (rankOf c.d x)
      generalize hg : ({ f with dcmp := movedDecomp c.nprocs c.dims c.d (rankOf c.d x) } : Filter R) = fr at hs2
      obtain ⟨k2, hk2⟩ := getMit_shape hs2
      rw [hk2, M.ok_bind, itAt_terms (h.box hx0) (h.volW hx0), itAt_begin]
      obtain ⟨gi', field', e, h4, h5⟩ := chunk_eq h hx0 h0 hs2 hx hp (hr x hx) h2 h3 0
      have e' : c.lo x = subLo (localExtents c.dims c.d) x := rfl
      rw [← e', e, M.ok_bind]
      refine ⟨_, rfl, ?_, h4, h5.1, ?_⟩
      · exact by subst hg; exact (kept_mit hs2 _ f.outData hs2.outLen).shape
      · rintro g hg' ⟨y, hy, hlt, hin⟩
        by_cases hyx : rankOf c.d y < rankOf c.d x
        · exact h5.2 g hg' (.inl ⟨y, hy, hyx, hin⟩)
        · have : y = x := rankOf_inj hy hx (by omega)
          subst this
          exact h5.2 g hg' (.inr hin))
  rw [e, M.ok_bind]
  refine ⟨field, f', rfl, h3.1, ?_⟩
  intro g hg _
  have hq := quot_inGrid h.good.valid.1 hg
  have hlen : (List.zipWith (· / ·) g c.L).length = c.L.length := by
    rw [h.lenL, ← h.good.length_eq]; exact hq.length_eq
  exact h3.2 g hg ⟨_, hq, h.rank_lt hq, (inBox_sub_iff h.lpos hlen).2 ⟨by rw [h.lenL]; exact hg.length_eq, rfl⟩⟩

/-! The gathered data. -/

theorem flatten_get {α : Type} (n : Nat) : ∀ (l : List (List α)), (∀ p ∈ l, p.length = n) → ∀ (r i : Nat) (p : List α),
    l[r]? = some p → i < n → l.flatten[r * n + i]? = p[i]?
  | [], _, _, _, _, h, _ => by simp at h
  | q :: l, hl, 0, i, p, h, hi => by
    simp at h; subst h
    rw [List.flatten_cons, Nat.zero_mul, Nat.zero_add, List.getElem?_append_left (by rw [hl q (by simp)]; exact hi)]
  | q :: l, hl, r + 1, i, p, h, hi => by
    have hq := hl q (by simp)
    rw [List.flatten_cons, Nat.succ_mul, List.getElem?_append_right (by omega), hq,
      show r * n + n + i - n = r * n + i by omega]
    exact flatten_get n l (fun p hp => hl p (by simp [hp])) r i p (by simpa using h) hi

theorem Cfg.Good.Lpos (h : c.Good) : 0 < c.L.prod := prod_pos_of h.lpos

theorem gatherSend_eq (h : c.Good) (hs : Shape c x c.tab f) : f.gatherSend = .ok f.outData := by
  have hl := hs.outLen
  have hp := h.Lpos
  unfold Filter.gatherSend
  dsimp only
  rw [if_neg (by intro e; rw [e] at hl; simp at hl; omega), hl, intOfSz_small h.loc, M.pure_eq,
    if_neg (by omega), Int.toNat_natCast, List.take_of_length_le (by omega)]

theorem gathered_eq [Zero R] (h : c.Good) {w : World R} (hw : Ranks c (fun x f => Shape c x c.tab f) w) {x0 : List Nat}
    (h0 : rankOf c.d x0 = 0) (hs : Shape c x0 c.tab f) : w.gathered f = .ok (w.map Filter.outData).flatten := by
  have hsend : w.mapM Filter.gatherSend = .ok (w.map Filter.outData) := by
    have : ∀ l : List (Filter R), (∀ f ∈ l, f.gatherSend = .ok f.outData) →
        l.mapM Filter.gatherSend = .ok (l.map Filter.outData) := by
      intro l
      induction l with
      | nil => intro _; rfl
      | cons a l ih =>
        intro hl
        rw [List.mapM_cons, hl a (by simp), M.ok_bind, ih (fun f hf => hl f (by simp [hf])), M.ok_bind]
        rfl
    apply this
    intro f hf
    obtain ⟨x, hx, _, hs⟩ := hw.mem h hf
    exact gatherSend_eq h hs
  have hlen : ∀ f ∈ w, f.outData.length = c.L.prod := by
    intro f hf
    obtain ⟨x, hx, _, hs⟩ := hw.mem h hf
    exact hs.outLen
  have htot : (w.map Filter.outData).flatten.length = c.dims.prod := by
    rw [← h.prod, ← hw.1]
    have : ∀ l : List (Filter R), (∀ f ∈ l, f.outData.length = c.L.prod) →
        (l.map Filter.outData).flatten.length = c.L.prod * l.length := by
      intro l
      induction l with
      | nil => intro _; simp
      | cons a l ih =>
        intro hl
        rw [List.map_cons, List.flatten_cons, List.length_append, hl a (by simp), ih (fun f hf => hl f (by simp [hf])),
          List.length_cons, Nat.mul_succ, Nat.add_comm]
    exact this w hlen
  unfold World.gathered
  rw [hsend, M.ok_bind]
  dsimp only
  rw [hs.outLen, intOfSz_small h.loc, if_neg]
  · unfold Filter.recvSize
    rw [totalCells_eq h hs, M.ok_bind, hs.rk, h0, if_pos (by simp), M.pure_eq, M.ok_bind, htot,
      if_neg (by omega)]
    simp
  · rw [List.any_eq_true]
    rintro ⟨p, hp, hne⟩
    obtain ⟨f, hf, rfl⟩ := List.mem_map.1 hp
    simp [hlen f hf] at hne

/-- `saveVTK` hands over the whole field, if the addresses of empty buffers do no harm. -/
theorem saveField_eq [Zero R] (h : c.Good) {w : World R} (hw : Ranks c (fun x f => Shape c x c.tab f) w)
    {v : List Nat → R} (hv : ∀ x f, InGrid c.d x → w[rankOf c.d x]? = some f → f.outData = boxData (c.lo x) (c.hi x) v)
    (hp : c.dims.prod ≤ 2 ^ 31) :
    ∃ field w', w.saveField = .ok (field, w') ∧ FieldOn c v (fun _ => True) field := by
  have hz := zero_inGrid h.good.d_pos
  obtain ⟨f, hf, hs⟩ := Ranks.exists (h := h) hw hz
  rw [rankOf_zero] at hf
  obtain ⟨f', l, rfl⟩ : ∃ f' l, w = f' :: l := by
    cases w with
    | nil => simp at hf
    | cons a l => exact ⟨a, l, rfl⟩
  obtain rfl : f' = f := by simpa using hf
  unfold World.saveField
  dsimp only
  rw [gathered_eq h hw (rankOf_zero _) hs, M.ok_bind]
  obtain ⟨field, f2, e, hF⟩ := assemble_eq h hz (rankOf_zero _) hs
    (recv := ((f' :: l).map Filter.outData).flatten) (v := v) hp (by
      intro x hx i hi
      obtain ⟨g, hg, hsg⟩ := Ranks.exists (h := h) hw hx
      rw [flatten_get c.L.prod _ (by
        intro p hp
        obtain ⟨f, hf, rfl⟩ := List.mem_map.1 hp
        obtain ⟨x, hx, _, hs⟩ := hw.mem h hf
        exact hs.outLen) _ i g.outData (by rw [List.getElem?_map, hg]; rfl) hi, hv x g hx hg]
      simp [boxData, h.vol hx, hi])
  rw [e, M.ok_bind]
  exact ⟨field, _, rfl, hF⟩

/-- If rank 0 gets through the assembly, no product `rk * nLocal` overflowed. -/
theorem assemble_no_overflow [Zero R] (h : c.Good) {x0 : List Nat} (hx0 : InGrid c.d x0) (hs : Shape c x0 c.tab f)
    {recv field : List R} {f' : Filter R} (he : f.assemble recv = .ok (field, f')) (r : Nat) (hr : r < c.nprocs) :
    r * c.L.prod < 2 ^ 31 := by
  unfold Filter.assemble at he
  dsimp only at he
  rw [hs.outLen, intOfSz_small h.loc] at he
  obtain ⟨n, _, he⟩ := (M.bind_ok_iff _ _ _).1 he
  obtain ⟨git, _, he⟩ := (M.bind_ok_iff _ _ _).1 he
  obtain ⟨p, e, _⟩ := (M.bind_ok_iff _ _ _).1 he
  rw [hs.sz, Int.toNat_natCast, forUp_split (Nat.zero_le r) (Nat.le_of_lt hr)] at e
  obtain ⟨⟨f1, gi1, fl1⟩, e1, e2⟩ := (M.bind_ok_iff _ _ _).1 e
  have hs1 := forUp_ok_inv (fun (p : Filter R × List Nat × List R) => Shape c x0 c.tab p.1) _ _ _ e1 hs
    (fun i s s1 hk hb => (rankBody_kept hk hb).shape)
  dsimp only at hs1
  rw [forUp_of_lt hr] at e2
  obtain ⟨s2, e2, _⟩ := (M.bind_ok_iff _ _ _).1 e2
  unfold Filter.rankBody at e2
  dsimp only at e2
  obtain ⟨⟨b, cd⟩, e3, e2⟩ := (M.bind_ok_iff _ _ _).1 e2
  obtain ⟨k, hk⟩ := hs1.dcmp
  rw [hk] at e3
  have e4 := begIndices_moved e3
  subst e4
  dsimp only at e2
  have hs2 := hs1.setDcmp (szOfInt r)
  generalize ({ f1 with dcmp := movedDecomp c.nprocs c.dims c.d (szOfInt r) } : Filter R) = g at e2 hs2
  obtain ⟨k2, hk2⟩ := getMit_shape hs2
  rw [hk2, M.ok_bind, itAt_terms (h.box hx0) (h.volW hx0)] at e2
  obtain ⟨p2, e5, _⟩ := (M.bind_ok_iff _ _ _).1 e2
  obtain ⟨⟨m, gi, fl⟩, s4, e6⟩ := forUp_ok_body _ _ _ e5 0 (Nat.le_refl 0) (by rw [h.vol hx0]; exact h.Lpos)
  unfold Filter.chunkBody at e6
  dsimp only at e6
  obtain ⟨_, _, e6⟩ := (M.bind_ok_iff _ _ _).1 e6
  obtain ⟨_, _, e6⟩ := (M.bind_ok_iff _ _ _).1 e6
  obtain ⟨_, _, e6⟩ := (M.bind_ok_iff _ _ _).1 e6
  obtain ⟨q, e7, _⟩ := (M.bind_ok_iff _ _ _).1 e6
  unfold mkInt inInt at e7
  by_contra hc
  rw [if_neg] at e7
  · cases e7
  · have : ((r : Nat) : Int) * ((c.L.prod : Nat) : Int) = ((r * c.L.prod : Nat) : Int) := by push_cast; rfl
    rw [this, intLim_eq]
    simp only [Bool.and_eq_true, decide_eq_true_eq, not_and, not_lt]
    intro _
    omega

end Fidi
