import Verif.Lemmas.FilterState
import Verif.Lemmas.Upwind

/-
The data of a `Filter`: fields on boxes, filling of the data and of the windows.
-/
namespace Fidi
open Spec
variable {R : Type}

/-! Fields on boxes. -/

/-- The values of `u` on the cells of a box, in column-major order. -/
def boxData (lo hi : List Nat) (u : List Nat → R) : List R :=
  (List.range (volume lo hi)).map fun i => u (tupleAt false lo hi i)

@[simp] theorem length_boxData (lo hi : List Nat) (u : List Nat → R) : (boxData lo hi u).length = volume lo hi := by
  simp [boxData]

theorem boxData_at {lo hi t : List Nat} (u : List Nat → R) (ht : InBox lo hi t) :
    (boxData lo hi u)[flatOf false lo hi t]? = some (u t) := by
  have := flatOf_lt false ht
  simp [boxData, this, tupleAt_flatOf false ht]

theorem boxData_congr {lo hi : List Nat} (hb : BoxLt lo hi) {u v : List Nat → R}
    (h : ∀ t, InBox lo hi t → u t = v t) : boxData lo hi u = boxData lo hi v := by
  unfold boxData
  apply List.map_congr_left
  intro i _
  exact h _ (tupleAt_inBox false hb i)

theorem boxData_inj {lo hi : List Nat} {u v : List Nat → R} (h : boxData lo hi u = boxData lo hi v) (t : List Nat)
    (ht : InBox lo hi t) : u t = v t := by
  have h1 := boxData_at u ht
  rw [h, boxData_at v ht, Option.some_inj] at h1
  exact h1.symm

theorem exists_boxData [Zero R] {lo hi : List Nat} (hb : BoxLt lo hi) (data : List R) (hl : data.length = volume lo hi) :
    ∃ u, data = boxData lo hi u := by
  refine ⟨fun t => data.getD (flatOf false lo hi t) 0, ?_⟩
  apply List.ext_getElem (by simp [hl])
  intro i h1 h2
  have h3 : i < volume lo hi := by omega
  simp only [boxData, List.getElem_map, List.getElem_range]
  rw [flatOf_tupleAt false hb, Nat.mod_eq_of_lt h3]
  simp [h1]

/-- The position used by the iterators is the column-major one. -/
theorem flatOf_eq_cellPos (lo hi t : List Nat) (h1 : lo.length = hi.length) (h2 : t.length = lo.length) :
    flatOf false lo hi t = cellPos lo hi t := by
  unfold flatOf cellPos
  have key : ∀ (ns xs : List Nat), xs.length = ns.length → dot (strides false ns) xs = colMajor ns xs := by
    intro ns xs hl
    simp only [strides, Bool.false_eq_true, if_false]
    rw [dotC_eq _ _ hl, ← rankOf_eq_dot _ _ (by simp [hl])]
    have : ∀ (ns xs : List Nat), xs.length = ns.length → rankOf ns.reverse xs.reverse = colMajor ns xs := by
      intro ns
      induction ns with
      | nil => intro xs h; rw [List.length_eq_zero_iff.1 h]; rfl
      | cons n ns ih =>
        intro xs h
        cases xs with
        | nil => simp at h
        | cons x xs =>
          have h' : xs.length = ns.length := by simpa using h
          have := ih xs h'
          unfold rankOf at this ⊢
          rw [List.reverse_cons, List.reverse_cons, List.zip_append (by simp [h']), List.foldl_append, this]
          simp only [List.zip_cons_cons, List.zip_nil_left, List.foldl_cons, List.foldl_nil, colMajor]
          rw [Nat.mul_comm, Nat.add_comm]
    exact this ns xs hl
  exact key _ _ (by simp [extents, h1, h2])

/-! Loops driven by an iterator. -/

/-- The iterator over a box at position `k`. -/
def itAt (lo hi : List Nat) (k : Nat) : MultiArrayIter := { builtIter lo hi false with bigIndex := k }

theorem itAt_terms {lo hi : List Nat} (hb : BoxLt lo hi) (hv : volume lo hi < W) (k : Nat) :
    (itAt lo hi k).getNumberOfTerms = volume lo hi := by
  unfold itAt MultiArrayIter.getNumberOfTerms
  rw [builtIter_eq false hb hv]

theorem itAt_begin (lo hi : List Nat) (k : Nat) : (itAt lo hi k).begin' = itAt lo hi 0 := rfl

theorem itAt_next {lo hi : List Nat} {k : Nat} (h : k + 1 < W) : (itAt lo hi k).next = itAt lo hi (k + 1) := by
  unfold itAt MultiArrayIter.next
  simp only [szAdd_of_lt h]

theorem itAt_indices {lo hi : List Nat} (hb : BoxLt lo hi) (hv : volume lo hi < W) (hs : ∀ h ∈ hi, h < W) (k : Nat) :
    (itAt lo hi k).getIndices = .ok (tupleAt false lo hi k) := getIndices_built false hb hv hs k

theorem itAt_big {lo hi t : List Nat} (hv : volume lo hi < W) (hs : ∀ h ∈ hi, h < W) (h : InBox lo hi t) (k : Nat) :
    (itAt lo hi k).computeBigIndexSz t = .ok (flatOf false lo hi t) := computeBigIndexSz_built false hv hs h k

/-- A loop that carries the iterator along is the loop without it. -/
theorem iter_loop {σ : Type} {lo hi : List Nat} (hv : volume lo hi < W)
    (body : Nat → MultiArrayIter × σ → M (MultiArrayIter × σ)) (step : Nat → σ → M σ) (s : σ)
    (hbody : ∀ i s, i < volume lo hi → body i (itAt lo hi i, s) = (step i s >>= fun s' => pure ((itAt lo hi i).next, s'))) :
    forUp 0 (volume lo hi) (itAt lo hi 0, s) body =
      (forUp 0 (volume lo hi) s step >>= fun s' => pure (itAt lo hi (volume lo hi), s')) := by
  have key : ∀ n, n ≤ volume lo hi → forUp 0 n (itAt lo hi 0, s) body =
      (forUp 0 n s step >>= fun s' => pure (itAt lo hi n, s')) := by
    intro n
    induction n with
    | zero => intro _; rw [forUp_of_ge (Nat.le_refl _), forUp_of_ge (Nat.le_refl _)]; rfl
    | succ n ih =>
      intro hn
      rw [forUp_succ (Nat.zero_le n), forUp_succ (Nat.zero_le n), ih (by omega), bind_assoc, bind_assoc]
      congr 1
      funext s'
      simp only [M.pure_eq, M.ok_bind]
      rw [hbody n s' (by omega), itAt_next (by omega)]
      rfl
  exact key _ (Nat.le_refl _)

/-! Modifications that keep the shape. -/

variable {c : Cfg R} {x : List Nat} {t : WinTab} {f : Filter R}

theorem Shape.setData (hs : Shape c x t f) (k : Nat) (a b : List R) (ha : a.length = c.L.prod) (hb : b.length = c.L.prod) :
    Shape c x t { f with mit := some (itAt (c.lo x) (c.hi x) k), inData := a, outData := b } :=
  { hs with mit := ⟨k, rfl⟩, inLen := ha, outLen := hb }

theorem Shape.setDcmp (hs : Shape c x t f) (k : Nat) :
    Shape c x t { f with dcmp := movedDecomp c.nprocs c.dims c.d k } :=
  { hs with dcmp := ⟨k, rfl⟩ }

theorem Shape.setIter (hs : Shape c x t f) (s : List Int) (w m k : Nat) (hw : StdMap.find t.wins s = some w)
    (hm : StdMap.find t.gh s = some m) :
    Shape c x t { f with winIter := StdMap.set f.winIter s (winIt c x s m k) } :=
  { hs with
    iter := by
      intro s' w' m' hw' hm'
      simp only [StdMap.find_set]
      by_cases e : s' = s
      · subst e
        rw [if_pos rfl]
        rw [hm, Option.some_inj] at hm'
        exact ⟨k, by rw [hm']⟩
      · rw [if_neg e]; exact hs.iter _ _ _ hw' hm'
    noIter := by
      intro s' hw'
      simp only [StdMap.find_set]
      by_cases e : s' = s
      · subst e; rw [hw] at hw'; simp at hw'
      · rw [if_neg e]; exact hs.noIter _ hw' }

theorem Shape.setBuf (hs : Shape c x t f) (j : Nat) (b b' : Buf R) (hb : f.bufs[j]? = some b)
    (hl : b'.length = b.length) : Shape c x t { f with bufs := f.bufs.set j b' } :=
  { hs with
    nbufs := by simpa using hs.nbufs
    buflen := by
      intro s w m hw hm
      obtain ⟨⟨b1, e1, l1⟩, ⟨b2, e2, l2⟩⟩ := hs.buflen s w m hw hm
      have hj : j < f.bufs.length := by
        by_contra hc
        rw [List.getElem?_eq_none (by omega)] at hb; simp at hb
      constructor
      · by_cases e : j = 2 * w
        · subst e
          rw [hb, Option.some_inj] at e1
          subst e1
          exact ⟨b', by simp [hj], by omega⟩
        · exact ⟨b1, by simp only [List.getElem?_set_ne e]; exact e1, l1⟩
      · by_cases e : j = 2 * w + 1
        · subst e
          rw [hb, Option.some_inj] at e2
          subst e2
          exact ⟨b', by simp [hj], by omega⟩
        · exact ⟨b2, by simp only [List.getElem?_set_ne e]; exact e2, l2⟩ }

/-- The source window of every side holds `u`. -/
def Mirror (c : Cfg R) (x : List Nat) (t : WinTab) (u : List Nat → R) (f : Filter R) : Prop :=
  ∀ s w m, StdMap.find t.wins s = some w → StdMap.find t.gh s = some m →
    f.bufs[2 * w]? = some ((boxData (faceLo (c.lo x) (c.hi x) s m) (faceHi (c.lo x) (c.hi x) s m) u).map some)

theorem Cfg.Good.volW (h : c.Good) (hx : InGrid c.d x) : volume (c.lo x) (c.hi x) < W := by
  rw [h.vol hx]; have := h.loc; unfold W; omega

theorem Cfg.Good.winW (h : c.Good) (hx : InGrid c.d x) {s : List Int} {m : Nat} (hf : WinTab.Fits c.L s m) :
    volume (faceLo (c.lo x) (c.hi x) s m) (faceHi (c.lo x) (c.hi x) s m) < W := by
  have := winVol_le h hx hf
  have := h.loc
  unfold winVol at *
  unfold W; omega

theorem Cfg.Good.faceW (h : c.Good) (hx : InGrid c.d x) {s : List Int} {m : Nat} (hf : WinTab.Fits c.L s m) :
    ∀ v ∈ faceHi (c.lo x) (c.hi x) s m, v < W := by
  intro v hv
  have := (h.face hx hf).hi_le (h.box hx) (b := 2 ^ 31 - 1) (fun v hv => by have := h.hi_lt hx v hv; omega) v hv
  unfold W; omega

theorem fillBody_eq (h : c.Good) (hx : InGrid c.d x) {s : List Int} {m : Nat} (hf : WinTab.Fits c.L s m)
    (u : List Nat → R) (k i : Nat) (b : Buf R) :
    Filter.fillBody (itAt (c.lo x) (c.hi x) k) (boxData (c.lo x) (c.hi x) u) i
      (itAt (faceLo (c.lo x) (c.hi x) s m) (faceHi (c.lo x) (c.hi x) s m) i, b) =
    (wr b i (some (u (tupleAt false (faceLo (c.lo x) (c.hi x) s m) (faceHi (c.lo x) (c.hi x) s m) i))) >>= fun s' =>
      pure ((itAt (faceLo (c.lo x) (c.hi x) s m) (faceHi (c.lo x) (c.hi x) s m) i).next, s')) := by
  have hbox := (h.face hx hf).boxLt (h.box hx)
  have hin := (h.face hx hf).sub (h.box hx) (tupleAt_inBox false hbox i)
  unfold Filter.fillBody
  dsimp only
  rw [itAt_indices hbox (h.winW hx hf) (h.faceW hx hf)]
  simp only [M.ok_bind]
  rw [itAt_big (h.volW hx) (h.hi_ltW hx) hin]
  simp only [M.ok_bind]
  rw [rd_of_some (boxData_at u hin)]
  simp only [M.ok_bind]

theorem fillWindow_eq (h : c.Good) (hx : InGrid c.d x) (ht : t.OK c.L) (hs : Shape c x t f) (u : List Nat → R)
    (s : List Int) (w m : Nat) (hw : StdMap.find t.wins s = some w) (hm : StdMap.find t.gh s = some m) :
    ∃ k, f.fillWindow (boxData (c.lo x) (c.hi x) u) s = .ok { f with
      winIter := StdMap.set f.winIter s (winIt c x s m k)
      bufs := f.bufs.set (2 * w)
        ((boxData (faceLo (c.lo x) (c.hi x) s m) (faceHi (c.lo x) (c.hi x) s m) u).map some) } := by
  obtain ⟨_, hd, m', hm', hf⟩ := ht.link _ _ hw
  rw [hm, Option.some_inj] at hm'
  subst hm'
  obtain ⟨k0, hk0⟩ := hs.iter _ _ _ hw hm
  obtain ⟨k1, hk1⟩ := hs.mit
  obtain ⟨⟨b, hb, hbl⟩, _⟩ := hs.buflen _ _ _ hw hm
  have hbox := (h.face hx hf).boxLt (h.box hx)
  refine ⟨winVol c x s m, ?_⟩
  have e1 : winIt c x s m k0 = itAt (faceLo (c.lo x) (c.hi x) s m) (faceHi (c.lo x) (c.hi x) s m) k0 := rfl
  have e3 : f.getMit = .ok (itAt (c.lo x) (c.hi x) k1) := by unfold Filter.getMit; rw [hk1]; rfl
  have e4 : StdMap.find f.winData s = some (2 * w, 2 * w + 1) := by rw [hs.wdata]; exact hd
  have e2 := iter_loop (h.winW hx hf)
    (Filter.fillBody (itAt (c.lo x) (c.hi x) k1) (boxData (c.lo x) (c.hi x) u))
    (fun i b => wr b i (some (u (tupleAt false (faceLo (c.lo x) (c.hi x) s m) (faceHi (c.lo x) (c.hi x) s m) i)))) b
    (fun i b _ => fillBody_eq h hx hf u k1 i b)
  rw [forUp_fill (volume (faceLo (c.lo x) (c.hi x) s m) (faceHi (c.lo x) (c.hi x) s m)) b hbl
    (fun i => some (u (tupleAt false (faceLo (c.lo x) (c.hi x) s m) (faceHi (c.lo x) (c.hi x) s m) i)))
    _ (fun i v hi hv _ => wr_of_lt (by omega)), M.ok_bind, M.pure_eq] at e2
  have hlt : 2 * w < f.bufs.length := by
    by_contra hc
    rw [List.getElem?_eq_none (by omega)] at hb; simp at hb
  unfold Filter.fillWindow
  rw [e4, hk0]
  dsimp only
  rw [e3, M.ok_bind, rd_of_some hb, M.ok_bind, e1, itAt_terms hbox (h.winW hx hf), itAt_begin, e2, M.ok_bind]
  dsimp only
  rw [wr_of_lt hlt, M.ok_bind, M.pure_eq, boxData, List.map_map]
  rfl

/-- What filling the windows does: every source window holds `u`, the rest of the data is unchanged. -/
theorem fillWindows_ok (h : c.Good) (hx : InGrid c.d x) (ht : t.OK c.L) (hs : Shape c x t f) (u : List Nat → R) :
    ∃ f', f.fillWindows (boxData (c.lo x) (c.hi x) u) = .ok f' ∧ Shape c x t f' ∧ Mirror c x t u f' ∧
      f'.inData = f.inData ∧ f'.outData = f.outData ∧
      (∀ w, f'.bufs[2 * w + 1]? = f.bufs[2 * w + 1]?) := by
  unfold Filter.fillWindows
  obtain ⟨f', e, h1, h2, h3, h4, h5⟩ := foldlM_inv f.winData (fun self kv => self.fillWindow (boxData (c.lo x) (c.hi x) u) kv.1)
    (fun pre f' => Shape c x t f' ∧ f'.inData = f.inData ∧ f'.outData = f.outData ∧
      (∀ w, f'.bufs[2 * w + 1]? = f.bufs[2 * w + 1]?) ∧
      ∀ s ∈ pre.map Prod.fst, ∀ w m, StdMap.find t.wins s = some w → StdMap.find t.gh s = some m →
        f'.bufs[2 * w]? = some ((boxData (faceLo (c.lo x) (c.hi x) s m) (faceHi (c.lo x) (c.hi x) s m) u).map some)) f
    ⟨hs, rfl, rfl, fun _ => rfl, by simp⟩
    (by
      rintro pre ⟨s, p⟩ f1 hm ⟨h1, h2, h3, h4, h5⟩
      rw [hs.wdata, StdMap.mem_iff_find ht.sorted] at hm
      obtain ⟨w, hw⟩ := ht.data _ _ hm
      obtain ⟨_, _, m, hm', hf⟩ := ht.link _ _ hw
      obtain ⟨k, e⟩ := fillWindow_eq h hx ht h1 u s w m hw hm'
      obtain ⟨⟨b, hb, hbl⟩, _⟩ := h1.buflen _ _ _ hw hm'
      refine ⟨_, e, ?_, h2, h3, ?_, ?_⟩
      · refine (h1.setIter s w m k hw hm').setBuf (2 * w) b _ hb ?_
        rw [List.length_map, length_boxData, hbl]; rfl
      · intro w'
        simp only [List.getElem?_set_ne (by omega : 2 * w ≠ 2 * w' + 1)]
        exact h4 w'
      · intro s' hs' w' m' hw' hm''
        have hlt : 2 * w < f1.bufs.length := by
          by_contra hc
          rw [List.getElem?_eq_none (by omega)] at hb; simp at hb
        by_cases es : s' = s
        · subst es
          rw [hw, Option.some_inj] at hw'
          rw [hm', Option.some_inj] at hm''
          subst hw' hm''
          simp [hlt]
        · have : w ≠ w' := fun e => es (ht.inj _ _ _ (e ▸ hw' : StdMap.find t.wins s' = some w) hw)
          simp only [List.getElem?_set_ne (by omega : 2 * w ≠ 2 * w')]
          rw [List.map_append, List.mem_append] at hs'
          rcases hs' with hs' | hs'
          · exact h5 s' hs' w' m' hw' hm''
          · simp at hs'; exact absurd hs' es)
  refine ⟨f', e, h1, ?_, h2, h3, h4⟩
  intro s w m hw hm
  apply h5 s _ w m hw hm
  have := (ht.link _ _ hw).2.1
  rw [← StdMap.mem_iff_find ht.sorted, ← hs.wdata] at this
  exact List.mem_map.2 ⟨_, this, rfl⟩

/-- A filter whose input data and source windows hold the field `u`. -/
structure Holds (c : Cfg R) (x : List Nat) (u : List Nat → R) (f : Filter R) : Prop where
  shape : Shape c x c.tab f
  data : f.inData = boxData (c.lo x) (c.hi x) u
  mirror : Mirror c x c.tab u f

theorem setWith_ok (h : c.Good) (hx : InGrid c.d x) (hs : Shape c x c.tab f) (val : List Nat → M R) (u : List Nat → R)
    (hv : ∀ t, InBox (c.lo x) (c.hi x) t → val t = .ok (u t)) :
    ∃ f', f.setWith val = .ok f' ∧ Holds c x u f' ∧ f'.outData = f.outData := by
  obtain ⟨k, hk⟩ := hs.mit
  unfold Filter.setWith Filter.getMit
  rw [hk]
  simp only [M.pure_eq, M.ok_bind]
  have e0 : ({ builtIter (c.lo x) (c.hi x) false with bigIndex := k } : MultiArrayIter) = itAt (c.lo x) (c.hi x) k := rfl
  rw [e0, itAt_terms (h.box hx) (h.volW hx), itAt_begin]
  rw [iter_loop (h.volW hx) (Filter.setBody val)
    (fun i d => wr d i (u (tupleAt false (c.lo x) (c.hi x) i))) f.inData
    (by
      intro i d hi
      unfold Filter.setBody
      dsimp only
      rw [itAt_indices (h.box hx) (h.volW hx) (h.hi_ltW hx)]
      simp only [M.ok_bind]
      rw [hv _ (tupleAt_inBox false (h.box hx) i)]
      simp only [M.ok_bind])]
  rw [forUp_fill _ _ (by rw [hs.inLen, h.vol hx]) (fun i => u (tupleAt false (c.lo x) (c.hi x) i))
    _ (fun i v hi hv _ => wr_of_lt (by omega))]
  simp only [M.pure_eq, M.ok_bind]
  obtain ⟨f', e, h1, h2, h3, h4, _⟩ := fillWindows_ok h hx h.tab_ok
    (hs.setData (volume (c.lo x) (c.hi x)) (boxData (c.lo x) (c.hi x) u) f.outData
      (by rw [length_boxData, h.vol hx]) hs.outLen) u
  exact ⟨f', e, ⟨h1, h3, h2⟩, h4⟩

theorem setInDataByIndices_ok (h : c.Good) (hx : InGrid c.d x) (hs : Shape c x c.tab f) (u : List Nat → R) :
    ∃ f', f.setInDataByIndices u = .ok f' ∧ Holds c x u f' ∧ f'.outData = f.outData :=
  setWith_ok h hx hs _ u (fun _ _ => rfl)

theorem copyOutToIn_ok (h : c.Good) (hx : InGrid c.d x) (hs : Shape c x c.tab f) (u : List Nat → R)
    (hu : f.outData = boxData (c.lo x) (c.hi x) u) :
    ∃ f', f.copyOutToIn = .ok f' ∧ Holds c x u f' ∧ f'.outData = f.outData := by
  obtain ⟨k, hk⟩ := hs.mit
  unfold Filter.copyOutToIn Filter.getMit
  rw [hk]
  simp only [M.pure_eq, M.ok_bind]
  have e0 : ({ builtIter (c.lo x) (c.hi x) false with bigIndex := k } : MultiArrayIter) = itAt (c.lo x) (c.hi x) k := rfl
  rw [e0, itAt_terms (h.box hx) (h.volW hx)]
  rw [forUp_fill _ f.inData (by rw [hs.inLen, h.vol hx]) (fun i => u (tupleAt false (c.lo x) (c.hi x) i))
    _ (by
      intro i v hi hv _
      have : f.outData[i]? = some (u (tupleAt false (c.lo x) (c.hi x) i)) := by
        rw [hu]; simp [boxData, hi]
      rw [rd_of_some this]
      exact wr_of_lt (by omega))]
  simp only [M.ok_bind]
  obtain ⟨f', e, h1, h2, h3, h4, _⟩ := fillWindows_ok h hx h.tab_ok
    (hs.setData k (boxData (c.lo x) (c.hi x) u) f.outData
      (by rw [length_boxData, h.vol hx]) hs.outLen) u
  have e5 : f.mit = some (itAt (c.lo x) (c.hi x) k) := hk
  rw [← e5, hu] at e
  rw [← e5, hu]
  exact ⟨f', e, ⟨h1, h3, h2⟩, by rw [h4]; exact hu⟩

end Fidi
