import Verif.Model.FilterPrint
import Verif.Spec.Print
import Verif.Lemmas.FilterCalls
import Verif.Lemmas.Mains
import Verif.Lemmas.FilterSave
import Mathlib.Tactic.Linarith

/-
What the print methods write.
-/
namespace Fidi
open Spec
variable {R : Type} {c : Cfg R} {x : List Nat} {f f' : Filter R}

/-! The cells of a box. -/

theorem mem_cellList : ∀ {lo hi : List Nat}, lo.length = hi.length → ∀ t, t ∈ cellList lo hi ↔ InBox lo hi t
  | [], [], _, t => by cases t <;> simp [cellList, InBox]
  | l :: lo, h :: hi, hl, t => by
    have ih := mem_cellList (lo := lo) (hi := hi) (by simpa using hl)
    cases t with
    | nil => simp [cellList, InBox]
    | cons a t =>
      simp only [cellList, List.mem_flatMap, List.mem_map, List.mem_range'_1, List.cons.injEq, InBox, ih]
      constructor
      · rintro ⟨t', h1, a', h2, rfl, rfl⟩
        exact ⟨h2.1, by omega, h1⟩
      · rintro ⟨h1, h2, h3⟩
        exact ⟨t, h3, a, ⟨h1, by omega⟩, rfl, rfl⟩

theorem length_cellList : ∀ {lo hi : List Nat}, lo.length = hi.length → (cellList lo hi).length = volume lo hi
  | [], [], _ => rfl
  | l :: lo, h :: hi, hl => by
    have ih := length_cellList (lo := lo) (hi := hi) (by simpa using hl)
    simp only [cellList, List.length_flatMap, List.length_map, List.length_range']
    rw [List.map_const', List.sum_replicate, ih]
    simp [volume, extents, Nat.mul_comm]

/-- Each cell is at its column-major position. -/
theorem cellList_at : ∀ {lo hi t : List Nat}, InBox lo hi t → (cellList lo hi)[cellPos lo hi t]? = some t
  | [], [], [], _ => rfl
  | l :: lo, h :: hi, a :: t, ht => by
    obtain ⟨h1, h2, h3⟩ := ht
    have ih := cellList_at h3
    have e : cellPos (l :: lo) (h :: hi) (a :: t) = (a - l) + (h - l) * cellPos lo hi t := rfl
    rw [e]
    simp only [cellList]
    generalize cellPos lo hi t = p at ih ⊢
    generalize cellList lo hi = ts at ih ⊢
    clear e h3
    induction ts generalizing p with
    | nil => simp at ih
    | cons b ts ih2 =>
      rw [List.flatMap_cons]
      cases p with
      | zero =>
        simp only [List.getElem?_cons_zero, Option.some_inj] at ih
        subst ih
        rw [Nat.mul_zero, Nat.add_zero, List.getElem?_append_left (by simp; omega), List.getElem?_map,
          List.getElem?_range' (by omega)]
        simp
        omega
      | succ p =>
        rw [List.getElem?_cons_succ] at ih
        rw [List.getElem?_append_right (by simp [Nat.mul_succ]; omega)]
        have : (a - l + (h - l) * (p + 1)) - ((List.range' l (h - l)).map (· :: b)).length = (a - l) + (h - l) * p := by
          simp [Nat.mul_succ]; omega
        rw [this]
        exact ih2 p ih

theorem cellList_eq {lo hi : List Nat} (hb : BoxLt lo hi) :
    cellList lo hi = (List.range (volume lo hi)).map (tupleAt false lo hi) := by
  apply List.ext_getElem?
  intro i
  by_cases hi' : i < volume lo hi
  · have hin := tupleAt_inBox false hb i
    have e := cellList_at hin
    rw [← flatOf_eq_cellPos _ _ _ hb.length_eq hin.length_lo, flatOf_tupleAt false hb, Nat.mod_eq_of_lt hi'] at e
    rw [e, List.getElem?_map, List.getElem?_range hi']
    rfl
  · rw [List.getElem?_eq_none (by rw [length_cellList hb.length_eq]; omega), List.getElem?_eq_none (by simp; omega)]

theorem nodup_cellList : ∀ (lo hi : List Nat), (cellList lo hi).Nodup
  | [], _ => by simp [cellList]
  | _ :: _, [] => by simp [cellList]
  | l :: lo, h :: hi => by
    simp only [cellList]
    rw [List.nodup_flatMap]
    refine ⟨fun t _ => (List.nodup_range' ).map (fun a b e => by simpa using e), ?_⟩
    refine (nodup_cellList lo hi).imp ?_
    intro t t' hne
    rw [Function.onFun, List.disjoint_left]
    intro s h1 h2
    obtain ⟨_, _, rfl⟩ := List.mem_map.1 h1
    obtain ⟨_, _, e⟩ := List.mem_map.1 h2
    exact hne (List.cons.inj e).2.symm

/-! The texts. -/

theorem blanks_eq {α : Type} [ToString α] {shw : α → Str} (hs : ∀ a, shw a = (toString a).toList) (v : List α) :
    Filter.listText shw v.length v = .ok (blanks v) := by
  unfold Filter.listText
  have key : ∀ n, n ≤ v.length → forUp 0 n ([] : Str) (fun j s => do
      pure (s ++ shw (← rd v j) ++ [' '])) = .ok (blanks (v.take n)) := by
    intro n
    induction n with
    | zero => intro _; rw [forUp_of_ge (Nat.le_refl _)]; rfl
    | succ n ih =>
      intro hn
      rw [forUp_succ (Nat.zero_le _), ih (by omega), M.ok_bind, rd_of_lt (by omega : n < v.length), M.ok_bind, M.pure_eq,
        List.take_succ_eq_append_getElem (by omega), hs]
      simp only [blanks, List.flatMap_append, List.flatMap_cons, List.flatMap_nil, List.append_nil, List.append_assoc]
  rw [key _ (Nat.le_refl _), List.take_length]

theorem mapM_of_ok {α β : Type} (g : α → M β) (k : α → β) (l : List α) (h : ∀ a ∈ l, g a = .ok (k a)) :
    l.mapM g = .ok (l.map k) := by
  induction l with
  | nil => rfl
  | cons a l ih =>
    rw [List.mapM_cons, h a (by simp), M.ok_bind, ih (fun b hb => h b (by simp [hb])), M.ok_bind]
    rfl

theorem showSz_eq (n : Nat) : showSz n = (toString n).toList := by
  rw [showSz, ← String.toList_ofList (l := Nat.toDigits 10 n)]
  rfl

theorem showInt_eq_nat (n : Nat) : showInt (n : Int) = (toString n).toList := by
  rw [← toString_int]
  rfl

theorem lineText_eq [DoubleText R] {f : Filter R} {rk : Nat} (hrk : f.rk = (rk : Int)) (name : String) {t : List Nat}
    (ht : t.length = f.ndims) (v : R) :
    f.lineText name (t, v) = .ok (cellLine DoubleText.showDouble rk name t v) := by
  unfold Filter.lineText
  dsimp only
  rw [← ht, hrk, blanks_eq showSz_eq t, M.ok_bind, showInt_eq_nat]
  unfold cellLine
  simp only [String.toList_append, List.append_assoc]
  rfl

/-! The data. -/

/-- A loop that collects. -/
theorem forUp_collect {α : Type} (n : Nat) (g : Nat → M α) (k : Nat → α) (h : ∀ i < n, g i = .ok (k i)) :
    forUp 0 n ([] : List α) (fun i acc => g i >>= fun a => pure (acc ++ [a])) = .ok ((List.range n).map k) := by
  induction n with
  | zero => rw [forUp_of_ge (Nat.le_refl _)]; rfl
  | succ n ih =>
    rw [forUp_succ (Nat.zero_le _), ih (fun i hi => h i (by omega)), M.ok_bind, h n (by omega), M.ok_bind, M.pure_eq,
      List.range_succ, List.map_append]
    rfl

theorem boxData_get {lo hi : List Nat} (u : List Nat → R) {i : Nat} (h : i < volume lo hi) :
    (boxData lo hi u)[i]? = some (u (tupleAt false lo hi i)) := by
  simp [boxData, h]

theorem printData_eq (h : c.Good) (hx : InGrid c.d x) (hs : Shape c x c.tab f) (input : Bool) (u : List Nat → R)
    (hu : (if input then f.inData else f.outData) = boxData (c.lo x) (c.hi x) u) :
    f.printData input = .ok ((cellList (c.lo x) (c.hi x)).map fun t => (t, u t),
      { f with mit := some (itAt (c.lo x) (c.hi x) (volume (c.lo x) (c.hi x))) }) := by
  obtain ⟨k, hk⟩ := getMit_shape hs
  unfold Filter.printData
  rw [hk, M.ok_bind, itAt_terms (h.box hx) (h.volW hx), itAt_begin,
    iter_loop (h.volW hx) _ (fun i lines => (do
        let v ← if input then rd f.inData i else rd f.outData i
        pure (tupleAt false (c.lo x) (c.hi x) i, v)) >>= fun a => pure (lines ++ [a])) []
      (by
        intro i lines hi
        dsimp only
        rw [itAt_indices (h.box hx) (h.volW hx) (h.hi_ltW hx), M.ok_bind]
        cases input <;> simp only [bind_assoc, pure_bind, Bool.false_eq_true, if_true, if_false]),
    forUp_collect _ _ (fun i => (tupleAt false (c.lo x) (c.hi x) i, u (tupleAt false (c.lo x) (c.hi x) i)))
      (by
        intro i hi
        have e := boxData_get u hi
        rw [← hu] at e
        cases input with
        | true => simp only [if_true] at e ⊢; rw [rd_of_some e, M.ok_bind]; rfl
        | false => simp only [Bool.false_eq_true, if_false] at e ⊢; rw [rd_of_some e, M.ok_bind]; rfl),
    M.ok_bind, M.pure_eq, M.ok_bind, cellList_eq (h.box hx), List.map_map]
  rfl

/-- What `printInData` and `printOutData` write. -/
theorem printDataText_eq [DoubleText R] (h : c.Good) (hx : InGrid c.d x) (hs : Shape c x c.tab f) (input : Bool)
    (u : List Nat → R) (hu : (if input then f.inData else f.outData) = boxData (c.lo x) (c.hi x) u) :
    f.printDataText input = .ok (("[" ++ toString (rankOf c.d x) ++ "] " ++ (if input then "inData" else "outData") ++
        ": \n").toList ++ listing DoubleText.showDouble (rankOf c.d x) (if input then "inData" else "outData") f.lo f.hi u,
      { f with mit := some (itAt (c.lo x) (c.hi x) (volume (c.lo x) (c.hi x))) }) := by
  unfold Filter.printDataText
  rw [printData_eq h hx hs input u hu, M.ok_bind]
  dsimp only
  rw [mapM_of_ok _ (fun p => cellLine DoubleText.showDouble (rankOf c.d x) (if input then "inData" else "outData") p.1 p.2)]
  · rw [M.ok_bind, M.pure_eq, hs.rk, showInt_eq_nat, List.map_map, hs.lo, hs.hi]
    simp only [String.toList_append, List.append_assoc, listing, List.flatMap_def]
    rfl
  · rintro ⟨t, v⟩ hm
    obtain ⟨t', ht', e⟩ := List.mem_map.1 hm
    rw [Prod.mk.injEq] at e
    obtain ⟨rfl, rfl⟩ := e
    rw [mem_cellList (h.box hx).length_eq] at ht'
    exact lineText_eq hs.rk _ (by rw [ht'.length_lo, h.len_lo hx, hs.ndims]) _

/-! The windows. -/

theorem printWindow_eq (h : c.Good) (hx : InGrid c.d x) (hs : Shape c x c.tab f) {s : List Int} {w m : Nat}
    (hw : StdMap.find c.tab.wins s = some w) (hm : StdMap.find c.tab.gh s = some m) (src : Bool) (u : List Nat → R)
    (hu : f.bufs[if src then 2 * w else 2 * w + 1]? =
      some ((boxData (faceLo (c.lo x) (c.hi x) s m) (faceHi (c.lo x) (c.hi x) s m) u).map some)) :
    f.printWindow s src = .ok
      ((cellList (faceLo (c.lo x) (c.hi x) s m) (faceHi (c.lo x) (c.hi x) s m)).map fun t => (t, u t),
      { f with winIter := StdMap.set f.winIter s (winIt c x s m (winVol c x s m)) }) := by
  obtain ⟨_, hd, m', hm', hf⟩ := h.tab_ok.link _ _ hw
  rw [hm, Option.some_inj] at hm'
  subst hm'
  obtain ⟨k0, hk0⟩ := hs.iter _ _ _ hw hm
  have hbox := (h.face hx hf).boxLt (h.box hx)
  have hd' : StdMap.find f.winData s = some (2 * w, 2 * w + 1) := by rw [hs.wdata]; exact hd
  have e1 : winIt c x s m k0 = itAt (faceLo (c.lo x) (c.hi x) s m) (faceHi (c.lo x) (c.hi x) s m) k0 := rfl
  unfold Filter.printWindow
  rw [hd', hk0]
  dsimp only
  rw [rd_of_some hu, M.ok_bind, e1, itAt_terms hbox (h.winW hx hf), itAt_begin,
    iter_loop (h.winW hx hf) _ (fun i lines => (do
        let v ← rdBuf ((boxData (faceLo (c.lo x) (c.hi x) s m) (faceHi (c.lo x) (c.hi x) s m) u).map some) i
        pure (tupleAt false (faceLo (c.lo x) (c.hi x) s m) (faceHi (c.lo x) (c.hi x) s m) i, v)) >>= fun a =>
          pure (lines ++ [a])) []
      (by
        intro i lines hi
        dsimp only
        rw [itAt_indices hbox (h.winW hx hf) (h.faceW hx hf), M.ok_bind]
        simp only [bind_assoc, pure_bind]),
    forUp_collect _ _ (fun i => (tupleAt false (faceLo (c.lo x) (c.hi x) s m) (faceHi (c.lo x) (c.hi x) s m) i,
        u (tupleAt false (faceLo (c.lo x) (c.hi x) s m) (faceHi (c.lo x) (c.hi x) s m) i)))
      (by
        intro i hi
        have e := boxData_get u hi
        unfold rdBuf
        rw [rd_of_some (by rw [List.getElem?_map, e]; rfl), M.ok_bind]
        rfl),
    M.ok_bind, M.pure_eq, M.ok_bind, cellList_eq hbox, List.map_map]
  rfl

/-- What `printSrcDataWindow` and `printDstDataWindow` write. -/
theorem printWindowText_eq [DoubleText R] (h : c.Good) (hx : InGrid c.d x) (hs : Shape c x c.tab f) {s : List Int} {w m : Nat}
    (hw : StdMap.find c.tab.wins s = some w) (hm : StdMap.find c.tab.gh s = some m) (src : Bool) (u : List Nat → R)
    (hu : f.bufs[if src then 2 * w else 2 * w + 1]? =
      some ((boxData (faceLo (c.lo x) (c.hi x) s m) (faceHi (c.lo x) (c.hi x) s m) u).map some)) :
    f.printWindowText s src = .ok
      (("[" ++ toString (rankOf c.d x) ++ (if src then "] srcData for side: " else "] dstData for side: \n")).toList ++
        blanks s ++ "\n".toList ++ listing DoubleText.showDouble (rankOf c.d x) (if src then "srcData" else "dstData")
          (faceLo f.lo f.hi s m) (faceHi f.lo f.hi s m) u,
      { f with winIter := StdMap.set f.winIter s (winIt c x s m (winVol c x s m)) }) := by
  obtain ⟨_, hd, m', hm', hf⟩ := h.tab_ok.link _ _ hw
  rw [hm, Option.some_inj] at hm'
  subst hm'
  have hbox := (h.face hx hf).boxLt (h.box hx)
  have hsl : s.length = f.ndims := by rw [hf.1, h.lenL, hs.ndims]
  unfold Filter.printWindowText
  rw [printWindow_eq h hx hs hw hm src u hu, M.ok_bind]
  dsimp only
  rw [← hsl, blanks_eq (fun z => (toString_int z).symm) s, M.ok_bind,
    mapM_of_ok _ (fun p => cellLine DoubleText.showDouble (rankOf c.d x) (if src then "srcData" else "dstData") p.1 p.2)]
  · rw [M.ok_bind, M.pure_eq, hs.rk, showInt_eq_nat, List.map_map, hs.lo, hs.hi]
    simp only [String.toList_append, List.append_assoc, listing, List.flatMap_def]
    rfl
  · rintro ⟨t, v⟩ hm'
    obtain ⟨t', ht', e⟩ := List.mem_map.1 hm'
    rw [Prod.mk.injEq] at e
    obtain ⟨rfl, rfl⟩ := e
    rw [mem_cellList hbox.length_eq] at ht'
    refine lineText_eq hs.rk _ ?_ _
    rw [ht'.length_lo, length_faceLo (h.box hx).length_eq.symm (h.face hx hf).1, h.len_lo hx, hs.ndims]

/-! What `applyFilter` leaves in the destination windows. -/

theorem foldlM_ok_prefix {α σ : Type} (P : List α → σ → Prop) (f : σ → α → M σ) :
    ∀ (l pre : List α) (s s' : σ), l.foldlM f s = .ok s' → P pre s →
      (∀ pre s a s1, a ∈ l → P pre s → f s a = .ok s1 → P (pre ++ [a]) s1) → P (pre ++ l) s'
  | [], pre, s, s', h, h0, _ => by
    obtain rfl := Except.ok.inj h
    simpa using h0
  | a :: l, pre, s, s', h, h0, hf => by
    rw [List.foldlM_cons] at h
    obtain ⟨s1, e1, e2⟩ := (M.bind_ok_iff _ _ _).1 h
    have := foldlM_ok_prefix P f l (pre ++ [a]) s1 s' e2 (hf _ _ _ _ (by simp) h0 e1)
      (fun pre s b s1 hb => hf pre s b s1 (by simp [hb]))
    simpa using this

theorem update_bufs [Add R] [Mul R] {off : List Int} {val : R} {wit : MultiArrayIter} {dst : Option Nat}
    (h : f.update off val wit dst = .ok f') : f'.bufs = f.bufs := by
  unfold Filter.update at h
  obtain ⟨mit, _, h⟩ := (M.bind_ok_iff _ _ _).1 h
  obtain ⟨⟨mit', out⟩, _, h⟩ := (M.bind_ok_iff _ _ _).1 h
  obtain rfl := Except.ok.inj h
  rfl

theorem sideOf_inj {n : Nat} {a b : List Int} (ha : UnitOffset n a) (hb : UnitOffset n b) (h : sideOf a = sideOf b) : a = b := by
  apply List.ext_getElem (by rw [ha.1, hb.1])
  intro i h1 h2
  have e : (sideOf a)[i]? = (sideOf b)[i]? := by rw [h]
  simp only [sideOf, List.getElem?_map, List.getElem?_eq_getElem h1, List.getElem?_eq_getElem h2, Option.map_some,
    Option.some_inj] at e
  rcases ha.2 _ (List.getElem_mem h1) with e1 | e1 | e1 <;> rcases hb.2 _ (List.getElem_mem h2) with e2 | e2 | e2 <;>
    rw [e1, e2] at e ⊢ <;> revert e <;> decide

/-- The destination window of the side of `off` holds the layer of the neighbour in this direction. -/
def Received (c : Cfg R) (x : List Nat) (u : List Nat → R) (off : List Int) (f : Filter R) : Prop :=
  ∀ w, StdMap.find c.tab.wins (sideOf off) = some w → f.bufs[2 * w + 1]? = some ((boxData
    (faceLo (c.lo (shiftMod c.d x off)) (c.hi (shiftMod c.d x off)) (sideOf off) 1)
    (faceHi (c.lo (shiftMod c.d x off)) (c.hi (shiftMod c.d x off)) (sideOf off) 1) u).map some)

theorem applyFilter_received [Zero R] [Add R] [Mul R] (h : c.Unit) (hx : InGrid c.d x) {u : List Nat → R}
    {get : Filter.Getter R} (hget : Serves c u get) (hf : Holds c x u f) (he : f.applyFilter get = .ok f') :
    Holds c x u f' ∧ ∀ kv ∈ c.st, Received c x u kv.1 f' := by
  unfold Filter.applyFilter at he
  obtain ⟨f1, e1, he⟩ := (M.bind_ok_iff _ _ _).1 he
  have k1 := zeroOut_kept hf.shape e1
  have h1 := k1.holds hf
  rw [h1.shape.st] at he
  have := foldlM_ok_prefix (fun pre f => (∀ kv ∈ pre, kv ∈ c.st) ∧ Holds c x u f ∧ ∀ kv ∈ pre, Received c x u kv.1 f) _ _ []
    _ _ he ⟨by simp, h1, by simp⟩ (by
      rintro pre f2 kv f3 hkv ⟨hpre, h2, h3⟩ e
      have k2 := applyEntry_kept h.toGood h2.shape e
      refine ⟨?_, k2.holds h2, ?_⟩
      · intro kv' hm
        rcases List.mem_append.1 hm with hm | hm
        · exact hpre _ hm
        · rw [List.mem_singleton.1 hm]; exact hkv
      have hyG := shiftMod_inGrid hx (h.offLen hkv)
      unfold Filter.applyEntry at e
      rw [prepare_eq h hx h2.shape hkv, M.ok_bind] at e
      dsimp only at e
      have hs1 := h2.shape.setDcmp (rankOf c.d (shiftMod c.d x kv.1))
      generalize hg1 : ({ f2 with dcmp := movedDecomp c.nprocs c.dims c.d (rankOf c.d (shiftMod c.d x kv.1)) } : Filter R) = g1
        at hs1 e
      have d3 : g1.bufs = f2.bufs := by rw [← hg1]
      rw [h2.shape.wins] at e
      cases hw : StdMap.find c.tab.wins (sideOf kv.1) with
      | none =>
        rw [hw] at e
        dsimp only at e
        have eb := update_bufs e
        intro kv' hm w hw'
        rw [eb, d3]
        rcases List.mem_append.1 hm with hm | hm
        · exact h3 _ hm w hw'
        · rw [List.mem_singleton.1 hm, hw] at hw'; cases hw'
      | some w =>
        rw [hw] at e
        dsimp only at e
        have h0 : kv.1.countP (· ≠ 0) ≠ 0 := by
          intro h0
          have := (h.no_window h0).1
          rw [hw] at this; simp at this
        obtain ⟨w', hw', hg⟩ := h.window hkv h0
        rw [hw, Option.some_inj] at hw'
        subst hw'
        have hfit := h.fits hkv
        rw [hg, Option.getD_some] at hfit
        have hvol := winVol_indep h.toGood hx hyG hfit
        rw [fetch_eq h.toGood hx hs1 (sideOf kv.1) w 1 hw hg get
          ((rankOf c.d (shiftMod c.d x kv.1) : Nat) : Int) ((boxData
            (faceLo (c.lo (shiftMod c.d x kv.1)) (c.hi (shiftMod c.d x kv.1)) (sideOf kv.1) 1)
            (faceHi (c.lo (shiftMod c.d x kv.1)) (c.hi (shiftMod c.d x kv.1)) (sideOf kv.1) 1) u).map some)
          (by rw [List.length_map, length_boxData, hvol]; rfl)
          (by rw [hvol]; exact hget _ hyG _ _ _ hw hg), M.ok_bind] at e
        dsimp only at e
        have eb := update_bufs e
        dsimp only at eb
        obtain ⟨_, ⟨b, hb, _⟩⟩ := hs1.buflen _ _ _ hw hg
        have hlt : 2 * w + 1 < g1.bufs.length := by
          by_contra hc
          rw [List.getElem?_eq_none (by omega)] at hb; simp at hb
        intro kv' hm w' hw'
        have hkv' : kv' ∈ c.st := by
          rcases List.mem_append.1 hm with hm | hm
          · exact hpre _ hm
          · rw [List.mem_singleton.1 hm]; exact hkv
        rw [eb]
        by_cases hww : w' = w
        · subst hww
          have := sideOf_inj (h.unit kv' hkv') (h.unit kv hkv) (h.toGood.tab_ok.inj _ _ _ hw' hw)
          rw [this]
          simp [hlt]
        · rw [List.getElem?_set_ne (by omega), d3]
          rcases List.mem_append.1 hm with hm | hm
          · exact h3 _ hm w' hw'
          · rw [List.mem_singleton.1 hm, hw, Option.some_inj] at hw'
            exact absurd hw'.symm hww)
  exact ⟨this.2.1, fun kv hkv => this.2.2 kv (by simpa using hkv)⟩

/-! The layer of the neighbour is the own layer displaced by a sub-domain. -/

theorem shift_axis {L d : Nat} (x r : Nat) (o : Int) (hd : 0 < d) (hr : r < L) :
    (((x * L + r : Nat) : Int) + o * L) % ((d * L : Nat) : Int) = ((((x : Int) + o) % d).toNat * L + r : Nat) := by
  have hdz : (0 : Int) < d := by omega
  have h1 := Int.emod_nonneg ((x : Int) + o) (by omega : (d : Int) ≠ 0)
  have h2 := Int.emod_lt_of_pos ((x : Int) + o) hdz
  have h3 := Int.mul_ediv_add_emod ((x : Int) + o) d
  generalize hq : ((x : Int) + o) / d = q at h3
  generalize hk : ((x : Int) + o) % d = k at h1 h2 h3 ⊢
  obtain ⟨k, rfl⟩ := Int.eq_ofNat_of_zero_le h1
  have hkL : k * L + r < d * L := by
    have : (k + 1) * L ≤ d * L := Nat.mul_le_mul_right _ (by omega)
    rw [Nat.add_mul, Nat.one_mul] at this
    omega
  have e : (((x * L + r : Nat) : Int) + o * L) = ((k * L + r : Nat) : Int) + ((d * L : Nat) : Int) * q := by
    have : ((x : Int) + o) * L = (d * q + k) * L := by rw [h3]
    push_cast
    linarith [this, Int.add_mul (x : Int) o L, Int.add_mul ((d : Int) * q) k L, Int.mul_right_comm (d : Int) q L]
  rw [e, Int.add_mul_emod_self_left, Int.toNat_natCast, Int.emod_eq_of_lt (by omega) (by omega)]

theorem getD_tupleAt {lo hi : List Nat} (hb : BoxLt lo hi) (k i : Nat) (hi' : i < lo.length) :
    (tupleAt false lo hi k).getD i 0 =
      lo.getD i 0 + (digitsOf (strides false (extents lo hi)) (extents lo hi) k).getD i 0 := by
  have hl := (digits_inGrid false (extents lo hi) hb.extents_pos k).length_eq
  rw [hb.length_extents] at hl
  unfold tupleAt
  rw [getD_of_lt (by rw [List.length_zipWith, hl]; omega), getD_of_lt hi', getD_of_lt (by omega), List.getElem_zipWith]

theorem neighbour_tuple (h : c.Good) (hx : InGrid c.d x) {off s : List Int} (hol : off.length = c.dims.length) {m : Nat}
    (hf : WinTab.Fits c.L s m) (k : Nat) :
    tupleAt false (faceLo (c.lo (shiftMod c.d x off)) (c.hi (shiftMod c.d x off)) s m)
        (faceHi (c.lo (shiftMod c.d x off)) (c.hi (shiftMod c.d x off)) s m) k =
      shiftMod c.dims (tupleAt false (faceLo (c.lo x) (c.hi x) s m) (faceHi (c.lo x) (c.hi x) s m) k)
        (List.zipWith (fun o (l : Nat) => o * (l : Int)) off c.L) := by
  have hol' : off.length = c.d.length := by rw [h.good.length_eq]; exact hol
  have hyG := shiftMod_inGrid hx hol'
  have hbx := (h.face hx hf).boxLt (h.box hx)
  have hby := (h.face hyG hf).boxLt (h.box hyG)
  have hinx := tupleAt_inBox false hbx k
  have hiny := tupleAt_inBox false hby k
  have lx := length_faceLo (m := m) (h.box hx).length_eq.symm (h.face hx hf).1
  have ly := length_faceLo (m := m) (h.box hyG).length_eq.symm (h.face hyG hf).1
  rw [h.len_lo hx] at lx
  rw [h.len_lo hyG] at ly
  have hcell := h.grid hx ((h.face hx hf).sub (h.box hx) hinx)
  have hzl : (List.zipWith (fun o (l : Nat) => o * (l : Int)) off c.L).length = c.dims.length := by
    rw [List.length_zipWith, hol, h.lenL]; omega
  apply List.ext_getElem
  · rw [hiny.length_lo, ly, (shiftMod_inGrid hcell hzl).length_eq]
  intro i h1 h2
  have hi : i < c.dims.length := by rw [hiny.length_lo, ly] at h1; exact h1
  have sl : s.length = c.dims.length := by rw [hf.1, h.lenL]
  rw [← getD_of_lt (z := 0) h1, ← getD_of_lt (z := 0) h2, getD_tupleAt hby k i (by omega),
    getD_shiftMod i hi hcell.length_eq hzl, getD_tupleAt hbx k i (by omega), face_extents h hx hf, face_extents h hyG hf,
    getD_faceLo i (by rw [h.len_lo hyG]; exact hi) (by rw [h.len_lo hyG, h.len_hi hyG]) (by rw [h.len_lo hyG, sl]),
    getD_faceLo i (by rw [h.len_lo hx]; exact hi) (by rw [h.len_lo hx, h.len_hi hx]) (by rw [h.len_lo hx, sl]),
    h.getD_lo hyG hi, h.getD_hi hyG hi, h.getD_lo hx hi, h.getD_hi hx hi,
    getD_shiftMod i (by rw [h.good.length_eq]; exact hi) hx.length_eq hol',
    getD_of_lt (l := List.zipWith (fun o (l : Nat) => o * (l : Int)) off c.L) (by omega), List.getElem_zipWith,
    ← getD_of_lt (l := off) (z := 0) (by omega), ← getD_of_lt (l := c.L) (z := 0) (by rw [h.lenL]; exact hi),
    h.getD_L hi]
  have hE := digits_inGrid false _ hbx.extents_pos k
  rw [face_extents h hx hf] at hE
  have hdg := inGrid_getElem hE i (by rw [List.length_zipWith, h.lenL, sl]; omega)
    (by rw [hE.length_eq, List.length_zipWith, h.lenL, sl]; omega)
  rw [List.getElem_zipWith, ← getD_of_lt (l := c.L) (z := 0), h.getD_L hi, ← getD_of_lt (z := 0),
    ← getD_of_lt (l := s) (z := 0)] at hdg
  have hfi := hf.2 i (by rw [h.lenL]; exact hi) (by omega)
  rw [← getD_of_lt (l := c.L) (z := 0), h.getD_L hi, ← getD_of_lt (l := s) (z := 0)] at hfi
  generalize (digitsOf (strides false _) _ k).getD i 0 = g at hdg ⊢
  obtain ⟨q, hq⟩ := h.dvdD hi
  have hdp : 0 < c.d.getD i 0 := Nat.pos_of_ne_zero (by
    intro e
    have := h.posD hi
    rw [hq, e] at this
    omega)
  rw [hq] at hdg hfi ⊢
  rw [Nat.mul_div_cancel_left _ hdp] at hdg hfi ⊢
  generalize c.d.getD i 0 = d at hdp hdg hfi ⊢
  generalize s.getD i 0 = si at hdg hfi ⊢
  generalize x.getD i 0 = xi
  generalize off.getD i 0 = o
  by_cases hs : 0 < si
  · have hm := hfi (by omega)
    rw [if_neg (by omega)] at hdg
    rw [if_pos hs, if_pos hs]
    have e1 : (xi + 1) * q - m + g = xi * q + (q - m + g) := by rw [Nat.add_mul, Nat.one_mul]; omega
    have e2 : ∀ a : Nat, (a + 1) * q - m + g = a * q + (q - m + g) := by
      intro a; rw [Nat.add_mul, Nat.one_mul]; omega
    rw [e2, e2, shift_axis xi (q - m + g) o hdp (by omega), Int.toNat_natCast]
  · rw [if_neg hs, if_neg hs]
    have : g < q := by
      split at hdg
      · exact hdg
      · have := hfi (by assumption); omega
    rw [shift_axis xi g o hdp this, Int.toNat_natCast]

theorem neighbour_data (h : c.Good) (hx : InGrid c.d x) {off s : List Int} (hol : off.length = c.dims.length) {m : Nat}
    (hf : WinTab.Fits c.L s m) (u : List Nat → R) :
    boxData (faceLo (c.lo (shiftMod c.d x off)) (c.hi (shiftMod c.d x off)) s m)
        (faceHi (c.lo (shiftMod c.d x off)) (c.hi (shiftMod c.d x off)) s m) u =
      boxData (faceLo (c.lo x) (c.hi x) s m) (faceHi (c.lo x) (c.hi x) s m)
        fun t => u (shiftMod c.dims t (List.zipWith (fun o (l : Nat) => o * (l : Int)) off c.L)) := by
  have hyG := shiftMod_inGrid hx (by rw [h.good.length_eq]; exact hol : off.length = c.d.length)
  have hv := winVol_indep h hx hyG hf
  unfold winVol at hv
  unfold boxData
  rw [hv]
  apply List.map_congr_left
  intro i _
  rw [neighbour_tuple h hx hol hf]

/-! Windows that nothing was written to. -/

theorem none_append {bs : List (List (Option R))} {n k : Nat} {b : List (Option R)}
    (h : ∀ b ∈ bs, ∀ e ∈ b, e = none) (hb : b ∈ bs ++ [List.replicate n none, List.replicate k none]) :
    ∀ e ∈ b, e = none := by
  rcases List.mem_append.1 hb with hb | hb
  · exact h b hb
  · rcases List.mem_cons.1 hb with hb | hb
    · rw [hb]; intro e he; exact (List.mem_replicate.1 he).2
    · rw [List.mem_singleton.1 hb]; intro e he; exact (List.mem_replicate.1 he).2

theorem addWindow_none {kv : List Int × R} (hf : ∀ b ∈ f.bufs, ∀ e ∈ b, e = none) (he : f.addWindow kv = .ok f') :
    ∀ b ∈ f'.bufs, ∀ e ∈ b, e = none := by
  unfold Filter.addWindow at he
  dsimp only at he
  obtain ⟨n, _, he⟩ := (M.bind_ok_iff _ _ _).1 he
  by_cases h0 : n = 0
  · rw [if_pos h0] at he
    obtain rfl := Except.ok.inj he
    exact hf
  rw [if_neg h0] at he
  obtain ⟨s, _, he⟩ := (M.bind_ok_iff _ _ _).1 he
  obtain ⟨g, _, he⟩ := (M.bind_ok_iff _ _ _).1 he
  unfold Filter.newWindow at he
  obtain ⟨⟨sit, f2⟩, e2, he⟩ := (M.bind_ok_iff _ _ _).1 he
  have eb : f2.bufs = f.bufs := by
    unfold Filter.getWindowIter at e2
    obtain ⟨⟨l, cd⟩, _, e2⟩ := (M.bind_ok_iff _ _ _).1 e2
    obtain ⟨⟨v, cd2⟩, _, e2⟩ := (M.bind_ok_iff _ _ _).1 e2
    obtain ⟨⟨l', v'⟩, _, e2⟩ := (M.bind_ok_iff _ _ _).1 e2
    obtain ⟨it, _, e2⟩ := (M.bind_ok_iff _ _ _).1 e2
    have := Except.ok.inj e2
    rw [Prod.mk.injEq] at this
    rw [← this.2]
  dsimp only at he
  split at he
  · cases he
  · obtain rfl := Except.ok.inj he
    dsimp only
    rw [eb]
    intro b hb
    exact none_append hf hb

theorem new_none [Zero R] [Div R] [NatCast R] [LT R] [DecidableLT R] [HasMax R] {rk sz : Int} {dims : List Nat}
    {xmins xmaxs : List R} {st : StdMap (List Int) R} (h : Filter.new rk sz dims xmins xmaxs st = .ok f) :
    ∀ b ∈ f.bufs, ∀ e ∈ b, e = none := by
  unfold Filter.new at h
  obtain ⟨⟨valid, cd⟩, _, h⟩ := (M.bind_ok_iff _ _ _).1 h
  dsimp only at h
  split at h
  · obtain ⟨⟨l, cd2⟩, _, h⟩ := (M.bind_ok_iff _ _ _).1 h
    obtain ⟨⟨v, cd3⟩, _, h⟩ := (M.bind_ok_iff _ _ _).1 h
    obtain ⟨mit, _, h⟩ := (M.bind_ok_iff _ _ _).1 h
    exact foldlM_ok_inv (fun f => ∀ b ∈ f.bufs, ∀ e ∈ b, e = none) _ _ _ _ h (by simp [Filter.initial])
      (fun s a s1 _ hs e => addWindow_none hs e)
  · obtain rfl := Except.ok.inj h
    simp [Filter.initial]

theorem volume_pos {lo hi : List Nat} (hb : BoxLt lo hi) : 0 < volume lo hi := by
  have := flatOf_lt false (tupleAt_inBox false hb 0)
  omega

theorem printWindow_none (h : c.Good) (hx : InGrid c.d x) (hs : Shape c x c.tab f) {s : List Int} {w m : Nat}
    (hw : StdMap.find c.tab.wins s = some w) (hm : StdMap.find c.tab.gh s = some m) (src : Bool) {b : Buf R}
    (hb : f.bufs[if src then 2 * w else 2 * w + 1]? = some b) (hn : ∀ e ∈ b, e = none) :
    f.printWindow s src = .error .uninitialized := by
  obtain ⟨_, hd, m', hm', hf⟩ := h.tab_ok.link _ _ hw
  rw [hm, Option.some_inj] at hm'
  subst hm'
  obtain ⟨k0, hk0⟩ := hs.iter _ _ _ hw hm
  have hbox := (h.face hx hf).boxLt (h.box hx)
  have hd' : StdMap.find f.winData s = some (2 * w, 2 * w + 1) := by rw [hs.wdata]; exact hd
  have e1 : winIt c x s m k0 = itAt (faceLo (c.lo x) (c.hi x) s m) (faceHi (c.lo x) (c.hi x) s m) k0 := rfl
  have hl : b.length = winVol c x s m := by
    obtain ⟨⟨b1, e1, l1⟩, ⟨b2, e2, l2⟩⟩ := hs.buflen _ _ _ hw hm
    cases src
    · simp only [Bool.false_eq_true, if_false] at hb; rw [hb, Option.some_inj] at e2; rw [e2, l2]
    · simp only [if_true] at hb; rw [hb, Option.some_inj] at e1; rw [e1, l1]
  have hp : 0 < b.length := by rw [hl]; exact volume_pos hbox
  have h0 : rdBuf b 0 = .error .uninitialized := by
    unfold rdBuf
    rw [rd_of_lt hp, M.ok_bind, hn _ (List.getElem_mem hp)]
    rfl
  unfold Filter.printWindow
  rw [hd', hk0]
  dsimp only
  rw [rd_of_some hb, M.ok_bind, e1, itAt_terms hbox (h.winW hx hf), itAt_begin]
  obtain ⟨n, hn'⟩ : ∃ n, volume (faceLo (c.lo x) (c.hi x) s m) (faceHi (c.lo x) (c.hi x) s m) = n + 1 :=
    ⟨_, (Nat.succ_pred_eq_of_pos (volume_pos hbox)).symm⟩
  rw [hn', forUp_error (i := 0) (Nat.le_refl _) (by omega) _ _ _ .uninitialized (forUp_of_ge (Nat.le_refl _) _ _)]
  · rfl
  · dsimp only
    rw [itAt_indices hbox (h.winW hx hf) (h.faceW hx hf), M.ok_bind, h0]
    rfl

end Fidi
