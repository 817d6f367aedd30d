import Verif.Model.FilterCalls
import Verif.Lemmas.FilterSetup

/-
What every call that ends normally preserves.
-/
namespace Fidi
open Spec

/-! Partial correctness of loops. -/

theorem forUp_ok_inv {σ : Type} {a b : Nat} (P : σ → Prop) (f : Nat → σ → M σ) (s s' : σ)
    (h : forUp a b s f = .ok s') (h0 : P s) (hf : ∀ i s s1, P s → f i s = .ok s1 → P s1) : P s' := by
  by_cases hab : a ≤ b
  case neg =>
    rw [forUp_of_ge (by omega)] at h
    exact Except.ok.inj h ▸ h0
  have key : ∀ k s', forUp a (a + k) s f = .ok s' → P s' := by
    intro k
    induction k with
    | zero => intro s' h; rw [forUp_of_ge (by omega)] at h; exact Except.ok.inj h ▸ h0
    | succ k ih =>
      intro s' h
      rw [← Nat.add_assoc, forUp_succ (by omega)] at h
      obtain ⟨s1, e1, e2⟩ := (M.bind_ok_iff _ _ _).1 h
      exact hf _ _ _ (ih s1 e1) e2
  obtain ⟨k, rfl⟩ := Nat.exists_eq_add_of_le hab
  exact key k s' h

theorem foldlM_ok_inv {α σ : Type} (P : σ → Prop) (f : σ → α → M σ) (l : List α) (s s' : σ)
    (h : l.foldlM f s = .ok s') (h0 : P s) (hf : ∀ s a s1, a ∈ l → P s → f s a = .ok s1 → P s1) : P s' := by
  induction l generalizing s with
  | nil => exact Except.ok.inj h ▸ h0
  | cons a l ih =>
    rw [List.foldlM_cons] at h
    obtain ⟨s1, e1, e2⟩ := (M.bind_ok_iff _ _ _).1 h
    exact ih s1 e2 (hf _ _ _ (by simp) h0 e1) (fun s a s1 ha => hf s a s1 (by simp [ha]))

theorem mapM_ok_get {α β : Type} (g : α → M β) : ∀ (l : List α) (l' : List β), l.mapM g = .ok l' →
    l'.length = l.length ∧ ∀ (i : Nat) (a : α), l[i]? = some a → ∃ b, g a = .ok b ∧ l'[i]? = some b
  | [], l', h => by
    rw [List.mapM_nil] at h
    obtain rfl := Except.ok.inj h
    exact ⟨rfl, by simp⟩
  | a :: l, l', h => by
    rw [List.mapM_cons] at h
    obtain ⟨b, e1, h⟩ := (M.bind_ok_iff _ _ _).1 h
    obtain ⟨bs, e2, h⟩ := (M.bind_ok_iff _ _ _).1 h
    obtain rfl := Except.ok.inj h
    obtain ⟨hl, hg⟩ := mapM_ok_get g l bs e2
    refine ⟨by simp [hl], ?_⟩
    intro i a' ha
    cases i with
    | zero => simp at ha; subst ha; exact ⟨b, e1, rfl⟩
    | succ i => simpa using hg i a' (by simpa using ha)

theorem rd_ok {α : Type} {v : List α} {i : Nat} {x : α} (h : rd v i = .ok x) : v[i]? = some x := by
  by_cases hi : i < v.length
  · rw [rd_of_lt hi] at h; rw [List.getElem?_eq_getElem hi, Except.ok.inj h]
  · rw [rd_of_ge (by omega)] at h; cases h

theorem wr_ok {α : Type} {v v' : List α} {i : Nat} {x : α} (h : wr v i x = .ok v') : i < v.length ∧ v' = v.set i x := by
  by_cases hi : i < v.length
  · rw [wr_of_lt hi] at h; exact ⟨hi, (Except.ok.inj h).symm⟩
  · rw [wr_of_ge (by omega)] at h; cases h

/-! Queries of the decomposition only move its iterator. -/

theorem moveMit_moved {np : Int} {dims d : List Nat} {k : Nat} {rk : Int} {inds : List Nat} {cd : CubeDecomp}
    (h : (movedDecomp np dims d k).moveMit rk = .ok (inds, cd)) : cd = movedDecomp np dims d (szOfInt rk) := by
  unfold CubeDecomp.moveMit at h
  dsimp only [movedDecomp] at h
  obtain ⟨i, _, h⟩ := (M.bind_ok_iff _ _ _).1 h
  have := Except.ok.inj h
  rw [Prod.mk.injEq] at this
  rw [← this.2]
  rfl

theorem begIndices_moved {np : Int} {dims d : List Nat} {k : Nat} {rk : Int} {r : List Nat} {cd : CubeDecomp}
    (h : (movedDecomp np dims d k).getBegIndices rk = .ok (r, cd)) : cd = movedDecomp np dims d (szOfInt rk) := by
  unfold CubeDecomp.getBegIndices at h
  obtain ⟨⟨i, cd'⟩, e, h⟩ := (M.bind_ok_iff _ _ _).1 h
  obtain ⟨r', _, h⟩ := (M.bind_ok_iff _ _ _).1 h
  have := Except.ok.inj h
  rw [Prod.mk.injEq] at this
  rw [← this.2]
  exact moveMit_moved e

theorem endIndices_moved {np : Int} {dims d : List Nat} {k : Nat} {rk : Int} {r : List Nat} {cd : CubeDecomp}
    (h : (movedDecomp np dims d k).getEndIndices rk = .ok (r, cd)) : cd = movedDecomp np dims d (szOfInt rk) := by
  unfold CubeDecomp.getEndIndices at h
  obtain ⟨⟨i, cd'⟩, e, h⟩ := (M.bind_ok_iff _ _ _).1 h
  obtain ⟨r', _, h⟩ := (M.bind_ok_iff _ _ _).1 h
  have := Except.ok.inj h
  rw [Prod.mk.injEq] at this
  rw [← this.2]
  exact moveMit_moved e

theorem neighborRank_moved {np : Int} {dims d : List Nat} {k : Nat} {rk r : Int} {dir : List Int} {cd : CubeDecomp}
    (h : (movedDecomp np dims d k).getNeighborRank rk dir = .ok (r, cd)) : cd = movedDecomp np dims d (szOfInt rk) := by
  unfold CubeDecomp.getNeighborRank at h
  obtain ⟨⟨i, cd'⟩, e, h⟩ := (M.bind_ok_iff _ _ _).1 h
  obtain ⟨r', _, h⟩ := (M.bind_ok_iff _ _ _).1 h
  have e2 := moveMit_moved e
  subst e2
  dsimp only [movedDecomp] at h
  obtain ⟨b, _, h⟩ := (M.bind_ok_iff _ _ _).1 h
  have := Except.ok.inj h
  rw [Prod.mk.injEq] at this
  rw [← this.2]
  rfl

/-! Calls of one rank. -/

variable {R : Type} {c : Cfg R} {x : List Nat} {f f' : Filter R}

/-- The shape, the input data and the source windows are kept. -/
structure Kept (c : Cfg R) (x : List Nat) (f f' : Filter R) : Prop where
  shape : Shape c x c.tab f'
  data : f'.inData = f.inData
  src : ∀ w, f'.bufs[2 * w]? = f.bufs[2 * w]?

theorem Kept.refl (h : Shape c x c.tab f) : Kept c x f f := ⟨h, rfl, fun _ => rfl⟩

theorem Kept.trans {f1 f2 f3 : Filter R} (h : Kept c x f1 f2) (h' : Kept c x f2 f3) : Kept c x f1 f3 :=
  ⟨h'.shape, by rw [h'.data, h.data], fun w => by rw [h'.src, h.src]⟩

theorem Kept.holds {u : List Nat → R} (h : Kept c x f f') (hh : Holds c x u f) : Holds c x u f' :=
  ⟨h.shape, by rw [h.data, hh.data], fun s w m hw hm => by rw [h.src, hh.mirror s w m hw hm]⟩

theorem kept_mit (hs : Shape c x c.tab f) (k : Nat) (out : List R) (ho : out.length = c.L.prod) :
    Kept c x f { f with mit := some (itAt (c.lo x) (c.hi x) k), outData := out } :=
  ⟨hs.setData k f.inData out hs.inLen ho, rfl, fun _ => rfl⟩

theorem getMit_shape (hs : Shape c x c.tab f) : ∃ k, f.getMit = .ok (itAt (c.lo x) (c.hi x) k) := by
  obtain ⟨k, hk⟩ := hs.mit
  exact ⟨k, by unfold Filter.getMit; rw [hk]; rfl⟩

/-- The invariant of a loop driven by `mit`: the position, whatever it is. -/
def AtSome (lo hi : List Nat) (it : MultiArrayIter) : Prop := ∃ k, it = itAt lo hi k

theorem AtSome.next {lo hi : List Nat} {it : MultiArrayIter} (h : AtSome lo hi it) : AtSome lo hi it.next := by
  obtain ⟨k, rfl⟩ := h
  exact ⟨_, rfl⟩

section
variable [Zero R]

theorem zeroOut_kept (hs : Shape c x c.tab f) (h : f.zeroOut = .ok f') : Kept c x f f' := by
  obtain ⟨k, hk⟩ := getMit_shape hs
  unfold Filter.zeroOut at h
  rw [hk, M.ok_bind] at h
  obtain ⟨⟨mit, out⟩, e, h⟩ := (M.bind_ok_iff _ _ _).1 h
  obtain rfl := Except.ok.inj h
  have := forUp_ok_inv (fun (p : MultiArrayIter × List R) => AtSome (c.lo x) (c.hi x) p.1 ∧ p.2.length = c.L.prod) _ _ _ e
    ⟨⟨0, rfl⟩, hs.outLen⟩ (by
      rintro i ⟨m, o⟩ s1 ⟨h1, h2⟩ hb
      obtain ⟨o', e', hb⟩ := (M.bind_ok_iff _ _ _).1 hb
      obtain rfl := Except.ok.inj hb
      obtain ⟨_, rfl⟩ := wr_ok e'
      exact ⟨h1.next, by simpa using h2⟩)
  obtain ⟨⟨k', rfl⟩, h2⟩ := this
  exact kept_mit hs k' out h2

variable [Add R] [Mul R]

omit [Zero R] in
theorem update_kept (hs : Shape c x c.tab f) {off : List Int} {val : R} {wit : MultiArrayIter} {dst : Option Nat}
    (h : f.update off val wit dst = .ok f') : Kept c x f f' := by
  obtain ⟨k, hk⟩ := getMit_shape hs
  unfold Filter.update at h
  rw [hk, M.ok_bind] at h
  obtain ⟨⟨mit, out⟩, e, h⟩ := (M.bind_ok_iff _ _ _).1 h
  obtain rfl := Except.ok.inj h
  have := forUp_ok_inv (fun (p : MultiArrayIter × List R) => AtSome (c.lo x) (c.hi x) p.1 ∧ p.2.length = c.L.prod) _ _ _ e
    ⟨⟨0, rfl⟩, hs.outLen⟩ (by
      rintro i ⟨m, o⟩ s1 ⟨h1, h2⟩ hb
      unfold Filter.updateBody at hb
      dsimp only at hb
      obtain ⟨inds, _, hb⟩ := (M.bind_ok_iff _ _ _).1 hb
      obtain ⟨⟨ind, inside⟩, _, hb⟩ := (M.bind_ok_iff _ _ _).1 hb
      dsimp only at hb
      cases inside with
      | true =>
        rw [if_pos rfl] at hb
        obtain ⟨_, _, hb⟩ := (M.bind_ok_iff _ _ _).1 hb
        obtain ⟨_, _, hb⟩ := (M.bind_ok_iff _ _ _).1 hb
        obtain ⟨_, _, hb⟩ := (M.bind_ok_iff _ _ _).1 hb
        obtain ⟨_, e', hb⟩ := (M.bind_ok_iff _ _ _).1 hb
        obtain rfl := Except.ok.inj hb
        obtain ⟨_, rfl⟩ := wr_ok e'
        exact ⟨h1.next, by simpa using h2⟩
      | false =>
        rw [if_neg (by decide)] at hb
        cases dst with
        | none => obtain rfl := Except.ok.inj hb; exact ⟨h1.next, h2⟩
        | some d =>
          dsimp only at hb
          obtain ⟨_, _, hb⟩ := (M.bind_ok_iff _ _ _).1 hb
          obtain ⟨_, _, hb⟩ := (M.bind_ok_iff _ _ _).1 hb
          obtain ⟨_, _, hb⟩ := (M.bind_ok_iff _ _ _).1 hb
          obtain ⟨_, _, hb⟩ := (M.bind_ok_iff _ _ _).1 hb
          obtain ⟨_, e', hb⟩ := (M.bind_ok_iff _ _ _).1 hb
          obtain rfl := Except.ok.inj hb
          obtain ⟨_, rfl⟩ := wr_ok e'
          exact ⟨h1.next, by simpa using h2⟩)
  obtain ⟨⟨k', rfl⟩, h2⟩ := this
  exact kept_mit hs k' out h2

omit [Zero R] [Add R] [Mul R] in
theorem windowIter_kept (hs : Shape c x c.tab f) {r : Int} {s : List Int} {it : MultiArrayIter}
    (h : f.getWindowIter r s = .ok (it, f')) : Kept c x f f' := by
  obtain ⟨k, hk⟩ := hs.dcmp
  unfold Filter.getWindowIter at h
  obtain ⟨⟨l, cd⟩, e1, h⟩ := (M.bind_ok_iff _ _ _).1 h
  obtain ⟨⟨u, cd2⟩, e2, h⟩ := (M.bind_ok_iff _ _ _).1 h
  rw [hk] at e1
  have e3 := begIndices_moved e1
  subst e3
  have e4 := endIndices_moved e2
  subst e4
  obtain ⟨⟨l', u'⟩, _, h⟩ := (M.bind_ok_iff _ _ _).1 h
  obtain ⟨it', _, h⟩ := (M.bind_ok_iff _ _ _).1 h
  have := Except.ok.inj h
  rw [Prod.mk.injEq] at this
  rw [← this.2]
  exact ⟨hs.setDcmp _, rfl, fun _ => rfl⟩

omit [Zero R] [Add R] [Mul R] in
theorem prepare_kept (hs : Shape c x c.tab f) {off : List Int} {p : List Int × Int × MultiArrayIter}
    (h : f.prepare off = .ok (p, f')) : Kept c x f f' := by
  obtain ⟨k, hk⟩ := hs.dcmp
  unfold Filter.prepare at h
  obtain ⟨s, _, h⟩ := (M.bind_ok_iff _ _ _).1 h
  obtain ⟨⟨nr, cd⟩, e1, h⟩ := (M.bind_ok_iff _ _ _).1 h
  rw [hk] at e1
  have e3 := neighborRank_moved e1
  subst e3
  obtain ⟨⟨it, f2⟩, e2, h⟩ := (M.bind_ok_iff _ _ _).1 h
  have := Except.ok.inj h
  rw [Prod.mk.injEq] at this
  rw [← this.2]
  have h1 := windowIter_kept (hs.setDcmp (szOfInt f.rk)) e2
  exact ⟨h1.shape, h1.data, h1.src⟩

omit [Zero R] [Add R] [Mul R] in
theorem fetch_kept (h : c.Good) (hs : Shape c x c.tab f) {get : Filter.Getter R} {r : Int} {s : List Int} {d : Nat}
    (he : f.fetch get r s = .ok (d, f')) : Kept c x f f' := by
  unfold Filter.fetch at he
  obtain ⟨⟨n, win, dst⟩, e1, he⟩ := (M.bind_ok_iff _ _ _).1 he
  obtain ⟨data, _, he⟩ := (M.bind_ok_iff _ _ _).1 he
  obtain ⟨f2, e2, he⟩ := (M.bind_ok_iff _ _ _).1 he
  have := Except.ok.inj he
  rw [Prod.mk.injEq] at this
  rw [← this.2]
  have hd : ∃ w, dst = 2 * w + 1 := by
    unfold Filter.fetchArgs at e1
    split at e1
    · rename_i wit wn src dst' h1 h2 h3
      rw [hs.wins] at h2
      rw [hs.wdata] at h3
      have e4 := (h.tab_ok.link _ _ h2).2.1
      rw [e4, Option.some_inj, Prod.mk.injEq] at h3
      have e5 := Except.ok.inj e1
      simp only [Prod.mk.injEq] at e5
      exact ⟨wn, by omega⟩
    · cases e1
  obtain ⟨w, rfl⟩ := hd
  unfold Filter.storeGot at e2
  dsimp only at e2
  obtain ⟨b, e3, e2⟩ := (M.bind_ok_iff _ _ _).1 e2
  by_cases hc : b.length < data.length
  · rw [if_pos hc] at e2; cases e2
  rw [if_neg hc] at e2
  obtain ⟨bs, e4, e2⟩ := (M.bind_ok_iff _ _ _).1 e2
  obtain rfl := Except.ok.inj e2
  obtain ⟨_, rfl⟩ := wr_ok e4
  refine ⟨hs.setBuf (2 * w + 1) b _ (rd_ok e3) ?_, rfl, ?_⟩
  · rw [List.length_append, List.length_drop]; omega
  · intro w'
    exact List.getElem?_set_ne (by omega)

omit [Zero R] in
theorem applyEntry_kept (h : c.Good) (hs : Shape c x c.tab f) {get : Filter.Getter R} {kv : List Int × R}
    (he : f.applyEntry get kv = .ok f') : Kept c x f f' := by
  unfold Filter.applyEntry at he
  obtain ⟨⟨⟨s, nr, it⟩, f1⟩, e1, he⟩ := (M.bind_ok_iff _ _ _).1 he
  have k1 := prepare_kept hs e1
  dsimp only at he
  split at he
  · obtain ⟨⟨d, f2⟩, e2, he⟩ := (M.bind_ok_iff _ _ _).1 he
    have k2 := fetch_kept h k1.shape e2
    exact (k1.trans k2).trans (update_kept k2.shape he)
  · exact k1.trans (update_kept k1.shape he)

theorem applyFilter_kept (h : c.Good) (hs : Shape c x c.tab f) {get : Filter.Getter R}
    (he : f.applyFilter get = .ok f') : Kept c x f f' := by
  unfold Filter.applyFilter at he
  obtain ⟨f1, e1, he⟩ := (M.bind_ok_iff _ _ _).1 he
  have k1 := zeroOut_kept hs e1
  exact foldlM_ok_inv (Kept c x f) _ _ _ _ he k1
    (fun s a s1 _ hk e => hk.trans (applyEntry_kept h hk.shape e))

omit [Mul R] in
theorem localSum_kept (hs : Shape c x c.tab f) {input : Bool} {r : R} (he : f.localSum input = .ok (r, f')) :
    Kept c x f f' := by
  obtain ⟨k, hk⟩ := getMit_shape hs
  unfold Filter.localSum at he
  rw [hk, M.ok_bind] at he
  obtain ⟨⟨mit, out⟩, e, he⟩ := (M.bind_ok_iff _ _ _).1 he
  have := Except.ok.inj he
  rw [Prod.mk.injEq] at this
  rw [← this.2]
  have := forUp_ok_inv (fun (p : MultiArrayIter × R) => AtSome (c.lo x) (c.hi x) p.1) _ _ _ e
    ⟨0, rfl⟩ (by
      rintro i ⟨m, o⟩ s1 h1 hb
      dsimp only at hb
      cases input
      all_goals
        obtain ⟨_, _, hb⟩ := (M.bind_ok_iff _ _ _).1 hb
        obtain rfl := Except.ok.inj hb
        exact h1.next)
  obtain ⟨k', rfl⟩ := this
  exact kept_mit hs k' f.outData hs.outLen

omit [Zero R] [Add R] [Mul R] in
theorem printData_kept (hs : Shape c x c.tab f) {input : Bool} {r : List (List Nat × R)}
    (he : f.printData input = .ok (r, f')) : Kept c x f f' := by
  obtain ⟨k, hk⟩ := getMit_shape hs
  unfold Filter.printData at he
  rw [hk, M.ok_bind] at he
  obtain ⟨⟨mit, out⟩, e, he⟩ := (M.bind_ok_iff _ _ _).1 he
  have := Except.ok.inj he
  rw [Prod.mk.injEq] at this
  rw [← this.2]
  have := forUp_ok_inv (fun (p : MultiArrayIter × List (List Nat × R)) => AtSome (c.lo x) (c.hi x) p.1) _ _ _ e
    ⟨0, rfl⟩ (by
      rintro i ⟨m, o⟩ s1 h1 hb
      dsimp only at hb
      obtain ⟨_, _, hb⟩ := (M.bind_ok_iff _ _ _).1 hb
      cases input
      all_goals
        obtain ⟨_, _, hb⟩ := (M.bind_ok_iff _ _ _).1 hb
        obtain rfl := Except.ok.inj hb
        exact h1.next)
  obtain ⟨k', rfl⟩ := this
  exact kept_mit hs k' f.outData hs.outLen

omit [Zero R] [Add R] [Mul R] in
theorem printWindow_kept (h : c.Good) (hs : Shape c x c.tab f) {side : List Int} {src : Bool}
    {r : List (List Nat × R)} (he : f.printWindow side src = .ok (r, f')) : Kept c x f f' := by
  unfold Filter.printWindow at he
  split at he
  case h_2 => cases he
  rename_i s d wit h1 h2
  obtain ⟨data, _, he⟩ := (M.bind_ok_iff _ _ _).1 he
  obtain ⟨⟨wit', out⟩, e, he⟩ := (M.bind_ok_iff _ _ _).1 he
  have := Except.ok.inj he
  rw [Prod.mk.injEq] at this
  rw [← this.2]
  rw [hs.wdata] at h1
  obtain ⟨w, hw⟩ := h.tab_ok.data _ _ h1
  obtain ⟨_, _, m, hm, _⟩ := h.tab_ok.link _ _ hw
  obtain ⟨k, hk⟩ := hs.iter _ _ _ hw hm
  rw [hk, Option.some_inj] at h2
  subst h2
  have := forUp_ok_inv (fun (p : MultiArrayIter × List (List Nat × R)) => ∃ k, p.1 = winIt c x side m k) _ _ _ e
    ⟨0, rfl⟩ (by
      rintro i ⟨mi, o⟩ s1 ⟨k1, h1⟩ hb
      dsimp only at hb
      obtain ⟨_, _, hb⟩ := (M.bind_ok_iff _ _ _).1 hb
      obtain ⟨_, _, hb⟩ := (M.bind_ok_iff _ _ _).1 hb
      obtain rfl := Except.ok.inj hb
      dsimp only at h1
      subst h1
      exact ⟨_, rfl⟩)
  obtain ⟨k', hk'⟩ := this
  dsimp only at hk'
  subst hk'
  exact ⟨hs.setIter side w m k' hw hm, rfl, fun _ => rfl⟩

omit [Add R] [Mul R] [Zero R] in
/-- One round of `assemble` keeps everything but the positions of the iterators. -/
theorem rankBody_kept (hs : Shape c x c.tab f) {recv fl : List R} {n : Int} {git : MultiArrayIter} {i : Nat}
    {gi : List Nat} {s1 : Filter R × List Nat × List R}
    (hb : Filter.rankBody recv n git i (f, gi, fl) = .ok s1) : Kept c x f s1.1 := by
  unfold Filter.rankBody at hb
  dsimp only at hb
  obtain ⟨⟨b, cd⟩, e1, hb⟩ := (M.bind_ok_iff _ _ _).1 hb
  obtain ⟨k, hk'⟩ := hs.dcmp
  rw [hk'] at e1
  have e3 := begIndices_moved e1
  subst e3
  have hk2 : Kept c x f { f with dcmp := movedDecomp c.nprocs c.dims c.d (szOfInt i) } :=
    ⟨hs.setDcmp _, rfl, fun _ => rfl⟩
  dsimp only at hb
  generalize hg : ({ f with dcmp := movedDecomp c.nprocs c.dims c.d (szOfInt i) } : Filter R) = g at hb hk2
  obtain ⟨k2, hk3⟩ := getMit_shape hk2.shape
  rw [hk3, M.ok_bind] at hb
  obtain ⟨⟨mit, gi2, fl2⟩, e4, hb⟩ := (M.bind_ok_iff _ _ _).1 hb
  obtain rfl := Except.ok.inj hb
  have := forUp_ok_inv (fun (p : MultiArrayIter × List Nat × List R) => AtSome (c.lo x) (c.hi x) p.1) _ _ _ e4
    ⟨0, rfl⟩ (by
      rintro i ⟨m, o, o2⟩ s1 h1 hb
      unfold Filter.chunkBody at hb
      dsimp only at hb
      obtain ⟨_, _, hb⟩ := (M.bind_ok_iff _ _ _).1 hb
      obtain ⟨_, _, hb⟩ := (M.bind_ok_iff _ _ _).1 hb
      obtain ⟨_, _, hb⟩ := (M.bind_ok_iff _ _ _).1 hb
      obtain ⟨_, _, hb⟩ := (M.bind_ok_iff _ _ _).1 hb
      obtain ⟨_, _, hb⟩ := (M.bind_ok_iff _ _ _).1 hb
      obtain ⟨_, _, hb⟩ := (M.bind_ok_iff _ _ _).1 hb
      obtain rfl := Except.ok.inj hb
      exact h1.next)
  obtain ⟨k', hk4⟩ := this
  dsimp only at hk4
  subst hk4
  have := hk2.trans (kept_mit hk2.shape k' g.outData hk2.shape.outLen)
  subst hg
  exact this

omit [Add R] [Mul R] in
/-- `assemble` keeps everything but the positions of the iterators. -/
theorem assemble_kept (hs : Shape c x c.tab f) {recv field : List R} (he : f.assemble recv = .ok (field, f')) :
    Kept c x f f' := by
  unfold Filter.assemble at he
  obtain ⟨n, _, he⟩ := (M.bind_ok_iff _ _ _).1 he
  obtain ⟨git, _, he⟩ := (M.bind_ok_iff _ _ _).1 he
  obtain ⟨⟨f2, gi, fl⟩, e, he⟩ := (M.bind_ok_iff _ _ _).1 he
  have := Except.ok.inj he
  rw [Prod.mk.injEq] at this
  rw [← this.2]
  refine forUp_ok_inv (fun (p : Filter R × List Nat × List R) => Kept c x f p.1) _ _ _ e (Kept.refl hs) ?_
  rintro i ⟨f1, gi1, fl1⟩ s1 hk hb
  exact hk.trans (rankBody_kept hk.shape hb)

end

/-- `setInData` and `setInDataByIndices` that end normally evaluated the callback on every cell. -/
theorem setWith_partial (h : c.Good) (hx : InGrid c.d x) (hs : Shape c x c.tab f) [Zero R] {val : List Nat → M R}
    (he : f.setWith val = .ok f') :
    ∃ u, (∀ t, InBox (c.lo x) (c.hi x) t → val t = .ok (u t)) ∧ Holds c x u f' ∧ f'.outData = f.outData := by
  have hv : ∀ t, InBox (c.lo x) (c.hi x) t → ∃ v, val t = .ok v := by
    intro t ht
    obtain ⟨k, hk⟩ := getMit_shape hs
    unfold Filter.setWith at he
    rw [hk, M.ok_bind, itAt_terms (h.box hx) (h.volW hx), itAt_begin,
      iter_loop (h.volW hx) (Filter.setBody val)
        (fun i d => val (tupleAt false (c.lo x) (c.hi x) i) >>= fun v => wr d i v) f.inData
        (by
          intro i d hi
          unfold Filter.setBody
          dsimp only
          rw [itAt_indices (h.box hx) (h.volW hx) (h.hi_ltW hx)]
          simp only [M.ok_bind, bind_assoc])] at he
    obtain ⟨p, e, _⟩ := (M.bind_ok_iff _ _ _).1 he
    obtain ⟨d, e, _⟩ := (M.bind_ok_iff _ _ _).1 e
    obtain ⟨si, si', e⟩ := forUp_ok_body _ _ _ e (flatOf false (c.lo x) (c.hi x) t) (Nat.zero_le _) (flatOf_lt false ht)
    obtain ⟨v, e, _⟩ := (M.bind_ok_iff _ _ _).1 e
    rw [tupleAt_flatOf false ht] at e
    exact ⟨v, e⟩
  classical
  have hu : ∀ t, InBox (c.lo x) (c.hi x) t →
      val t = .ok (if ht : InBox (c.lo x) (c.hi x) t then (hv t ht).choose else 0) := by
    intro t ht
    rw [dif_pos ht]
    exact (hv t ht).choose_spec
  refine ⟨_, hu, ?_⟩
  obtain ⟨f2, e2, h2, h3⟩ := setWith_ok h hx hs val _ hu
  rw [e2] at he
  obtain rfl := Except.ok.inj he
  exact ⟨h2, h3⟩

/-- The data and the source windows hold some field. -/
def Settled (c : Cfg R) (x : List Nat) (f : Filter R) : Prop := ∃ u, Holds c x u f

section
variable [Zero R] [One R] [Add R] [Sub R] [Mul R] [Div R] [NatCast R]

theorem localCall_kept (h : c.Good) (hx : InGrid c.d x) (hs : Shape c x c.tab f) {k : LocalCall R}
    (he : k.run f = .ok f') :
    Shape c x c.tab f' ∧ (Settled c x f → Settled c x f') ∧ (k.Sets → Settled c x f') := by
  have of_settled : Settled c x f' → Shape c x c.tab f' ∧ (Settled c x f → Settled c x f') ∧ (k.Sets → Settled c x f') :=
    fun h => ⟨h.choose_spec.shape, fun _ => h, fun _ => h⟩
  have of_kept : Kept c x f f' → (Settled c x f → Settled c x f') := fun hk ⟨u, hu⟩ => ⟨u, hk.holds hu⟩
  cases k with
  | setInData g =>
    obtain ⟨u, _, hu, _⟩ := setWith_partial h hx hs he
    exact of_settled ⟨u, hu⟩
  | setInDataByIndices g =>
    obtain ⟨u, _, hu, _⟩ := setWith_partial h hx hs he
    exact of_settled ⟨u, hu⟩
  | copyOutToIn =>
    obtain ⟨u, hu⟩ := exists_boxData (h.box hx) f.outData (by rw [hs.outLen, h.vol hx])
    obtain ⟨f2, e2, h2, _⟩ := copyOutToIn_ok h hx hs u hu
    have he' : f.copyOutToIn = .ok f' := he
    rw [e2] at he'
    obtain rfl := Except.ok.inj he'
    exact of_settled ⟨u, h2⟩
  | printData input =>
    obtain ⟨⟨l, f2⟩, e, he⟩ := (M.bind_ok_iff _ _ _).1 he
    obtain rfl := Except.ok.inj he
    have hk := printData_kept hs e
    exact ⟨hk.shape, of_kept hk, fun h => h.elim⟩
  | printWindow side src =>
    obtain ⟨⟨l, f2⟩, e, he⟩ := (M.bind_ok_iff _ _ _).1 he
    obtain rfl := Except.ok.inj he
    have hk := printWindow_kept h hs e
    exact ⟨hk.shape, of_kept hk, fun h => h.elim⟩

omit [Zero R] [One R] [Add R] [Sub R] [Mul R] [Div R] [NatCast R] in
theorem ranks_mapM_kept (h : c.Good) {w w' : World R} (hw : Ranks c (fun x f => Shape c x c.tab f) w)
    (g : Filter R → M (Filter R)) (hg : ∀ x f f', InGrid c.d x → Shape c x c.tab f → g f = .ok f' → Kept c x f f')
    (he : w.mapM g = .ok w') : Ranks c (fun x f' => ∃ f, w[rankOf c.d x]? = some f ∧ Kept c x f f') w' := by
  obtain ⟨hl, hget⟩ := mapM_ok_get g w w' he
  refine ⟨by rw [hl, hw.1], ?_⟩
  intro x f' hx hf'
  obtain ⟨f, hf, hp⟩ := Ranks.exists (h := h) hw hx
  obtain ⟨f2, e2, h2⟩ := hget _ _ hf
  rw [h2, Option.some_inj] at hf'
  subst hf'
  exact ⟨f, hf, hg x f f2 hx hp e2⟩

/-- Every call keeps the shape of all ranks, and the ranks that are settled; a call that sets the data settles. -/
theorem call_kept (h : c.Good) {w w' : World R} (hw : Ranks c (fun x f => Shape c x c.tab f) w) {k : Call R}
    (he : k.run w = .ok w') :
    Ranks c (fun x f' => Shape c x c.tab f' ∧
      ((∃ f, w[rankOf c.d x]? = some f ∧ Settled c x f) → Settled c x f') ∧
      (∀ l, k = .on (rankOf c.d x) l → l.Sets → Settled c x f')) w' := by
  have of_kept : Ranks c (fun x f' => ∃ f, w[rankOf c.d x]? = some f ∧ Kept c x f f') w' → (∀ r l, k ≠ .on r l) →
      Ranks c (fun x f' => Shape c x c.tab f' ∧
      ((∃ f, w[rankOf c.d x]? = some f ∧ Settled c x f) → Settled c x f') ∧
      (∀ l, k = .on (rankOf c.d x) l → l.Sets → Settled c x f')) w' := by
    intro hr hk
    refine ⟨hr.1, fun x f' hx hf' => ?_⟩
    obtain ⟨f, hf, hkept⟩ := hr.2 x f' hx hf'
    refine ⟨hkept.shape, ?_, fun l hl => absurd hl (hk _ l)⟩
    rintro ⟨f1, hf1, u, hu⟩
    rw [hf, Option.some_inj] at hf1
    subst hf1
    exact ⟨u, hkept.holds hu⟩
  cases k with
  | on r l =>
    obtain ⟨f, e1, he⟩ := (M.bind_ok_iff _ _ _).1 he
    obtain ⟨f2, e2, he⟩ := (M.bind_ok_iff _ _ _).1 he
    obtain ⟨hr, rfl⟩ := wr_ok he
    have hf := rd_ok e1
    refine ⟨by rw [List.length_set, hw.1], ?_⟩
    intro x f' hx hf'
    by_cases hrx : r = rankOf c.d x
    · subst hrx
      rw [List.getElem?_set_self hr, Option.some_inj] at hf'
      subst hf'
      obtain ⟨a1, a2, a3⟩ := localCall_kept h hx (hw.2 x f hx hf) e2
      refine ⟨a1, ?_, ?_⟩
      · rintro ⟨f1, hf1, hset⟩
        rw [hf, Option.some_inj] at hf1
        subst hf1
        exact a2 hset
      · intro l' hl' hs
        injection hl' with _ hl'
        subst hl'
        exact a3 hs
    · rw [List.getElem?_set_ne hrx] at hf'
      refine ⟨hw.2 x f' hx hf', ?_, ?_⟩
      · rintro ⟨f1, hf1, hset⟩
        rw [hf', Option.some_inj] at hf1
        subst hf1
        exact hset
      · intro l' hl'
        injection hl' with hl' _
        exact absurd hl' hrx
  | applyFilter =>
    exact of_kept (ranks_mapM_kept h hw _ (fun x f f' _ hs e => applyFilter_kept h hs e) he) (by simp)
  | checkSum input =>
    refine of_kept (ranks_mapM_kept h hw _ (fun x f f' _ hs e => ?_) he) (by simp)
    obtain ⟨⟨l, f2⟩, e2, e3⟩ := (M.bind_ok_iff _ _ _).1 e
    obtain rfl := Except.ok.inj e3
    exact localSum_kept hs e2
  | saveVTK =>
    obtain ⟨⟨fl, w2⟩, e, he⟩ := (M.bind_ok_iff _ _ _).1 he
    obtain rfl := Except.ok.inj he
    refine of_kept ?_ (by simp)
    unfold World.saveField at e
    cases w with
    | nil => cases e
    | cons root others =>
      dsimp only at e
      obtain ⟨recv, _, e⟩ := (M.bind_ok_iff _ _ _).1 e
      obtain ⟨⟨field, root'⟩, e2, e⟩ := (M.bind_ok_iff _ _ _).1 e
      have := Except.ok.inj e
      rw [Prod.mk.injEq] at this
      obtain ⟨_, rfl⟩ := this
      refine ⟨by simpa using hw.1, ?_⟩
      intro x f' hx hf'
      dsimp only at hf'
      rcases Nat.eq_zero_or_pos (rankOf c.d x) with h0 | h0
      · rw [h0] at hf' ⊢
        rw [List.getElem?_cons_zero, Option.some_inj] at hf'
        subst hf'
        exact ⟨root, rfl, assemble_kept (hw.2 x root hx (by rw [h0]; rfl)) e2⟩
      · obtain ⟨r, hr⟩ : ∃ r, rankOf c.d x = r + 1 := ⟨rankOf c.d x - 1, by omega⟩
        rw [hr, List.getElem?_cons_succ] at hf'
        refine ⟨f', by rw [hr, List.getElem?_cons_succ]; exact hf', Kept.refl ?_⟩
        exact hw.2 x f' hx (by rw [hr, List.getElem?_cons_succ]; exact hf')

/-- Every sequence of calls keeps the shape of all ranks. -/
theorem calls_shape (h : c.Good) {w w' : World R} (hw : Ranks c (fun x f => Shape c x c.tab f) w) {ks : List (Call R)}
    (he : runCalls w ks = .ok w') : Ranks c (fun x f => Shape c x c.tab f) w' :=
  foldlM_ok_inv _ _ _ _ _ he hw fun _ _ _ _ hs e => by
    have := call_kept h hs e
    exact ⟨this.1, fun x f hx hf => (this.2 x f hx hf).1⟩

/-- A rank that is settled remains so. -/
theorem calls_settled (h : c.Good) {w w' : World R} (hw : Ranks c (fun x f => Shape c x c.tab f) w) {x : List Nat}
    (hx : InGrid c.d x) (hset : ∃ f, w[rankOf c.d x]? = some f ∧ Settled c x f) {ks : List (Call R)}
    (he : runCalls w ks = .ok w') : ∃ f, w'[rankOf c.d x]? = some f ∧ Settled c x f :=
  (foldlM_ok_inv (fun w => Ranks c (fun x f => Shape c x c.tab f) w ∧ ∃ f, w[rankOf c.d x]? = some f ∧ Settled c x f)
    _ _ _ _ he ⟨hw, hset⟩ fun _ _ s1 _ hs e => by
      have := call_kept h hs.1 e
      refine ⟨⟨this.1, fun x f hx hf => (this.2 x f hx hf).1⟩, ?_⟩
      obtain ⟨f, hf, hp⟩ := Ranks.exists (h := h) this hx
      exact ⟨f, hf, hp.2.1 hs.2⟩).2

/-- After a call that sets the data of a rank and any further calls the rank is settled. -/
theorem calls_set (h : c.Good) {w w' : World R} (hw : Ranks c (fun x f => Shape c x c.tab f) w) {x : List Nat}
    (hx : InGrid c.d x) {before after : List (Call R)} {l : LocalCall R} (hl : l.Sets)
    (he : runCalls w (before ++ .on (rankOf c.d x) l :: after) = .ok w') :
    ∃ f, w'[rankOf c.d x]? = some f ∧ Settled c x f := by
  unfold runCalls at he
  rw [List.foldlM_append] at he
  obtain ⟨w1, e1, he⟩ := (M.bind_ok_iff _ _ _).1 he
  rw [List.foldlM_cons] at he
  obtain ⟨w2, e2, he⟩ := (M.bind_ok_iff _ _ _).1 he
  have h1 := calls_shape h hw e1
  have h2 := call_kept h h1 e2
  obtain ⟨f, hf, hp⟩ := Ranks.exists (h := h) h2 hx
  exact calls_settled h ⟨h2.1, fun x f hx hf => (h2.2 x f hx hf).1⟩ hx ⟨f, hf, hp.2.2 l rfl hl⟩ he

end
end Fidi
