import Verif.Lemmas.FilterAny

/-
The value of one branch of a stencil whose other weights are 0.
-/
namespace Fidi
open Spec
variable {R : Type} {c : Cfg R} {x y : List Nat} {f f' : Filter R} [Semiring R]

theorem set_same {l : List R} {i : Nat} {a : R} (h : l[i]? = some a) : l.set i a = l := by
  obtain ⟨hi, rfl⟩ := List.getElem?_eq_some_iff.1 h
  exact List.set_getElem_self hi

/-- The loop over the cells with weight 0. -/
theorem update_zero {off : List Int} {wit : MultiArrayIter} {dst : Option Nat} (h : f.update off 0 wit dst = .ok f') :
    f'.outData = f.outData := by
  unfold Filter.update at h
  obtain ⟨m0, _, h⟩ := (M.bind_ok_iff _ _ _).1 h
  obtain ⟨⟨mit, out⟩, e, h⟩ := (M.bind_ok_iff _ _ _).1 h
  obtain rfl := Except.ok.inj h
  exact forUp_ok_inv (fun (p : MultiArrayIter × List R) => p.2 = f.outData) _ _ _ e rfl (by
      rintro i ⟨m, o⟩ s1 h1 hb
      unfold Filter.updateBody at hb
      dsimp only at hb h1
      obtain ⟨inds, _, hb⟩ := (M.bind_ok_iff _ _ _).1 hb
      obtain ⟨⟨ind, inside⟩, _, hb⟩ := (M.bind_ok_iff _ _ _).1 hb
      dsimp only at hb
      cases inside with
      | true =>
        rw [if_pos rfl] at hb
        obtain ⟨_, _, hb⟩ := (M.bind_ok_iff _ _ _).1 hb
        obtain ⟨_, _, hb⟩ := (M.bind_ok_iff _ _ _).1 hb
        obtain ⟨_, e2, hb⟩ := (M.bind_ok_iff _ _ _).1 hb
        obtain ⟨_, e', hb⟩ := (M.bind_ok_iff _ _ _).1 hb
        obtain rfl := Except.ok.inj hb
        obtain ⟨_, rfl⟩ := wr_ok e'
        dsimp only
        rw [zero_mul, add_zero, set_same (rd_ok e2), h1]
      | false =>
        rw [if_neg (by decide)] at hb
        cases dst with
        | none => obtain rfl := Except.ok.inj hb; exact h1
        | some d =>
          dsimp only at hb
          obtain ⟨_, _, hb⟩ := (M.bind_ok_iff _ _ _).1 hb
          obtain ⟨_, _, hb⟩ := (M.bind_ok_iff _ _ _).1 hb
          obtain ⟨_, _, hb⟩ := (M.bind_ok_iff _ _ _).1 hb
          obtain ⟨_, e2, hb⟩ := (M.bind_ok_iff _ _ _).1 hb
          obtain ⟨_, e', hb⟩ := (M.bind_ok_iff _ _ _).1 hb
          obtain rfl := Except.ok.inj hb
          obtain ⟨_, rfl⟩ := wr_ok e'
          dsimp only
          rw [zero_mul, add_zero, set_same (rd_ok e2), h1])

omit [Semiring R] in
theorem prepare_out {off : List Int} {p : List Int × Int × MultiArrayIter} (h : f.prepare off = .ok (p, f')) :
    f'.outData = f.outData := by
  unfold Filter.prepare at h
  obtain ⟨s, _, h⟩ := (M.bind_ok_iff _ _ _).1 h
  obtain ⟨⟨nr, cd⟩, e1, h⟩ := (M.bind_ok_iff _ _ _).1 h
  obtain ⟨⟨it, f2⟩, e2, h⟩ := (M.bind_ok_iff _ _ _).1 h
  have := Except.ok.inj h
  rw [Prod.mk.injEq] at this
  rw [← this.2]
  unfold Filter.getWindowIter at e2
  obtain ⟨⟨l, cd⟩, _, e2⟩ := (M.bind_ok_iff _ _ _).1 e2
  obtain ⟨⟨u, cd2⟩, _, e2⟩ := (M.bind_ok_iff _ _ _).1 e2
  obtain ⟨⟨l', u'⟩, _, e2⟩ := (M.bind_ok_iff _ _ _).1 e2
  obtain ⟨it', _, e2⟩ := (M.bind_ok_iff _ _ _).1 e2
  have := Except.ok.inj e2
  rw [Prod.mk.injEq] at this
  rw [← this.2]

omit [Semiring R] in
theorem fetch_out {get : Filter.Getter R} {r : Int} {s : List Int} {d : Nat} (he : f.fetch get r s = .ok (d, f')) :
    f'.outData = f.outData := by
  unfold Filter.fetch at he
  obtain ⟨⟨n, win, dst⟩, e1, he⟩ := (M.bind_ok_iff _ _ _).1 he
  obtain ⟨data, _, he⟩ := (M.bind_ok_iff _ _ _).1 he
  obtain ⟨f2, e2, he⟩ := (M.bind_ok_iff _ _ _).1 he
  have := Except.ok.inj he
  rw [Prod.mk.injEq] at this
  rw [← this.2]
  unfold Filter.storeGot at e2
  dsimp only at e2
  obtain ⟨b, e3, e2⟩ := (M.bind_ok_iff _ _ _).1 e2
  by_cases hc : b.length < data.length
  · rw [if_pos hc] at e2; cases e2
  rw [if_neg hc] at e2
  obtain ⟨bs, e4, e2⟩ := (M.bind_ok_iff _ _ _).1 e2
  obtain rfl := Except.ok.inj e2
  rfl

/-- A branch of weight 0. -/
theorem applyEntry_zero {get : Filter.Getter R} {kv : List Int × R} (h0 : kv.2 = 0) (he : f.applyEntry get kv = .ok f') :
    f'.outData = f.outData := by
  unfold Filter.applyEntry at he
  obtain ⟨⟨⟨s, nr, it⟩, f1⟩, e1, he⟩ := (M.bind_ok_iff _ _ _).1 he
  dsimp only at he
  rw [h0] at he
  split at he
  · obtain ⟨⟨d, f2⟩, e2, he⟩ := (M.bind_ok_iff _ _ _).1 he
    rw [update_zero he, fetch_out e2, prepare_out e1]
  · rw [update_zero he, prepare_out e1]

/-- The values of a stencil whose weights are 0 but for one offset, if all its branches end normally. -/
theorem world_value_many (h : c.Good) (hcells : c.dims.prod ≤ 2 ^ 31) {off : List Int} {a : R} {pre post : List (List Int × R)}
    (hst : c.st = pre ++ (off, a) :: post) (hpre : ∀ kv ∈ pre, kv.2 = 0) (hpost : ∀ kv ∈ post, kv.2 = 0)
    (h0 : off.countP (· ≠ 0) ≠ 0) {w w' : World R} {u : List Nat → R} (hw : Ranks c (fun x f => Holds c x u f) w)
    (he : w.applyFilter = .ok w') (hx : InGrid c.d x) :
    ∃ y f', InGrid c.d y ∧ rankOfInt c.d (shiftedCoords c.d x off) = (rankOf c.d y : Nat) ∧
      w'[rankOf c.d x]? = some f' ∧ Shape c x c.tab f' ∧ ∀ g, InBox (c.lo x) (c.hi x) g →
      ∃ t, f'.outData[flatOf false (c.lo x) (c.hi x) g]? = some (0 + a * u t) ∧
        ((InBox (c.lo x) (c.hi x) t ∧ t = shift64 c.dims g off) ∨
          InWindow c y off t ∧ ∃ m bi, StdMap.find c.tab.gh (sideOf off) = some m ∧
            (winIt c y (sideOf off) m 0).computeBigIndexInt
              ((shift64 c.dims g off).map (fun n : Nat => (n : Int))) = .ok bi ∧
            szOfInt bi = flatOf false (faceLo (c.lo y) (c.hi y) (sideOf off) m)
              (faceHi (c.lo y) (c.hi y) (sideOf off) m) t) := by
  obtain ⟨f, hf, hp⟩ := hw.exists (h := h) hx
  obtain ⟨f', e, hf'⟩ := (mapM_ok_get _ _ _ he).2 _ _ hf
  have hkv : (off, a) ∈ c.st := by rw [hst]; simp
  have est : f.stencil = c.st := hp.shape.st
  unfold Filter.applyFilter at e
  obtain ⟨fz, hz, hzo, hzs⟩ : ∃ fz, f.zeroOut = .ok fz ∧ fz.outData = boxData (c.lo x) (c.hi x) (fun _ => 0) ∧
      fz.stencil = c.st := ⟨_, zeroOut_eq h hx hp.shape, rfl, est⟩
  rw [hz, M.ok_bind] at e
  have hzk := (zeroOut_kept hp.shape hz).holds hp
  rw [hzs, hst, List.foldlM_append] at e
  obtain ⟨f1, ep, e⟩ := (M.bind_ok_iff _ _ _).1 e
  rw [List.foldlM_cons] at e
  obtain ⟨f2, e0, e'⟩ := (M.bind_ok_iff _ _ _).1 e
  clear e
  have hz1 := foldlM_ok_inv (fun g : Filter R => Holds c x u g ∧ g.outData = fz.outData) _ _ _ _ ep ⟨hzk, rfl⟩
    fun s kv s1 hm hs hs1 => ⟨(applyEntry_kept h hs.1.shape hs1).holds hs.1, (applyEntry_zero (hpre kv hm) hs1).trans hs.2⟩
  have hs2 := applyEntry_kept h hz1.1.shape e0
  have hz3 := foldlM_ok_inv (fun g : Filter R => Shape c x c.tab g ∧ g.outData = f2.outData) _ _ _ _ e' ⟨hs2.shape, rfl⟩
    fun s kv s1 hm hs hs1 => ⟨(applyEntry_kept h hs.1 hs1).shape, (applyEntry_zero (hpost kv hm) hs1).trans hs.2⟩
  obtain ⟨nr, cd, win, n, data, e1, e2⟩ := entry_rank h hz1.1.shape hkv h0 e0
  obtain ⟨k0, hk0⟩ := hz1.1.shape.dcmp
  rw [hk0, hz1.1.shape.rk, any_rank h hcells hx hkv] at e1
  have e3 := Except.ok.inj e1
  rw [Prod.mk.injEq] at e3
  obtain ⟨b1, b2⟩ := get_rank e2
  rw [hw.1] at b2
  obtain ⟨y, hy, hry⟩ := h.coords (r := nr.toNat) (by omega)
  have hn : rankOfInt c.d (shiftedCoords c.d x off) = (rankOf c.d y : Nat) := by
    rw [hry]
    have := e3.1
    dsimp only at this
    omega
  refine ⟨y, f', hy, hn, hf', hz3.1, fun g hg => ?_⟩
  rw [hz3.2]
  exact entry_value h hcells hx hy (get_serves h hw) hz1.1 (hz1.2.trans hzo) hkv h0 hn e0 hg

end Fidi
