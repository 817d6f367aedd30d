import Verif.Lemmas.FilterBase
import Mathlib.Data.List.Lex

/-
The state of a constructed `Filter`: window table, shape invariant, constructor.
-/
namespace Fidi
open Spec

/-! The window table: what the constructor records, the same on every rank. -/

/-- Ghost widths, window handles and buffers per side, and the number of windows created. -/
structure WinTab where
  gh : StdMap (List Int) Nat
  wins : StdMap (List Int) Nat
  wdata : StdMap (List Int) (Nat × Nat)
  n : Nat

namespace WinTab

/-- The effect of one branch of the stencil. -/
def step (t : WinTab) (off : List Int) : WinTab :=
  if off.countP (· ≠ 0) = 0 then t
  else
    { gh := StdMap.insert t.gh (sideOf off) (ghostWidth off)
      wins := StdMap.insert t.wins (sideOf off) t.n
      wdata := StdMap.insert t.wdata (sideOf off) (2 * t.n, 2 * t.n + 1)
      n := t.n + 1 }

/-- No window. -/
def empty : WinTab := ⟨[], [], [], 0⟩

/-- Layers of `m` cells along the faces `s` fit in a sub-domain of extents `L`. -/
def Fits (L : List Nat) (s : List Int) (m : Nat) : Prop :=
  s.length = L.length ∧ ∀ i (_ : i < L.length) (_ : i < s.length), s[i] ≠ 0 → 1 ≤ m ∧ m ≤ L[i]

/-- Consistency of the table. -/
structure OK (L : List Nat) (t : WinTab) : Prop where
  sorted : StdMap.Sorted t.wdata
  wsorted : StdMap.Sorted t.wins
  link : ∀ s w, StdMap.find t.wins s = some w → w < t.n ∧ StdMap.find t.wdata s = some (2 * w, 2 * w + 1) ∧
    ∃ m, StdMap.find t.gh s = some m ∧ Fits L s m
  data : ∀ s p, StdMap.find t.wdata s = some p → ∃ w, StdMap.find t.wins s = some w
  ghs : ∀ s m, StdMap.find t.gh s = some m → ∃ w, StdMap.find t.wins s = some w
  inj : ∀ s s' w, StdMap.find t.wins s = some w → StdMap.find t.wins s' = some w → s = s'

theorem ok_empty (L : List Nat) : OK L empty where
  sorted := StdMap.sorted_nil
  wsorted := StdMap.sorted_nil
  link := by intro s w h; simp [empty, StdMap.find] at h
  data := by intro s w h; simp [empty, StdMap.find] at h
  ghs := by intro s w h; simp [empty, StdMap.find] at h
  inj := by intro s s' w h; simp [empty, StdMap.find] at h

theorem OK.find_none {L : List Nat} {t : WinTab} (h : OK L t) {s : List Int} (hs : StdMap.find t.wins s = none) :
    StdMap.find t.wdata s = none ∧ StdMap.find t.gh s = none := by
  constructor
  · cases e : StdMap.find t.wdata s with
    | none => rfl
    | some p => obtain ⟨w, hw⟩ := h.data s p e; rw [hs] at hw; simp at hw
  · cases e : StdMap.find t.gh s with
    | none => rfl
    | some p => obtain ⟨w, hw⟩ := h.ghs s p e; rw [hs] at hw; simp at hw

theorem ok_step {L : List Nat} {t : WinTab} (h : OK L t) (off : List Int)
    (hf : off.countP (· ≠ 0) ≠ 0 → Fits L (sideOf off) (ghostWidth off)) : OK L (t.step off) := by
  unfold step
  by_cases h0 : off.countP (· ≠ 0) = 0
  · rw [if_pos h0]; exact h
  rw [if_neg h0]
  have hfit := hf h0
  generalize sideOf off = s0 at *
  cases hw : StdMap.find t.wins s0 with
  | none =>
    obtain ⟨hd, hg⟩ := h.find_none hw
    refine ⟨StdMap.sorted_insert h.sorted _ _, StdMap.sorted_insert h.wsorted _ _, ?_, ?_, ?_, ?_⟩
    · intro s w e
      simp only [StdMap.find_insert, hw, hd, hg, Option.getD_none] at e ⊢
      split at e
      · rename_i hs
        simp only [Option.some_inj] at e
        subst e
        rw [hs, if_pos rfl, if_pos rfl]
        exact ⟨by omega, rfl, _, rfl, hfit⟩
      · rename_i hs
        obtain ⟨a, b, m, c, d⟩ := h.link s w e
        rw [if_neg hs, if_neg hs]
        exact ⟨by omega, b, m, c, d⟩
    · intro s p e
      simp only [StdMap.find_insert, hw, hd, Option.getD_none] at e ⊢
      split at e <;> rename_i hs
      · exact ⟨_, if_pos hs⟩
      · rw [if_neg hs]; exact h.data s p e
    · intro s p e
      simp only [StdMap.find_insert, hw, hg, Option.getD_none] at e ⊢
      split at e <;> rename_i hs
      · exact ⟨_, if_pos hs⟩
      · rw [if_neg hs]; exact h.ghs s p e
    · intro s s' w e e'
      simp only [StdMap.find_insert, hw, Option.getD_none] at e e'
      split at e <;> split at e'
      · simp_all
      · simp only [Option.some_inj] at e; subst e
        have := (h.link _ _ e').1; omega
      · simp only [Option.some_inj] at e'; subst e'
        have := (h.link _ _ e).1; omega
      · exact h.inj s s' w e e'
  | some w0 =>
    obtain ⟨hlt, hd, m0, hg, hm0⟩ := h.link _ _ hw
    refine ⟨StdMap.sorted_insert h.sorted _ _, StdMap.sorted_insert h.wsorted _ _, ?_, ?_, ?_, ?_⟩
    · intro s w e
      simp only [StdMap.find_insert, hw, hd, hg, Option.getD_some] at e ⊢
      split at e
      · rename_i hs
        simp only [Option.some_inj] at e
        subst e
        rw [hs, if_pos rfl, if_pos rfl]
        exact ⟨by omega, rfl, _, rfl, hm0⟩
      · rename_i hs
        obtain ⟨a, b, m, c, d⟩ := h.link s w e
        rw [if_neg hs, if_neg hs]
        exact ⟨by omega, b, m, c, d⟩
    · intro s p e
      simp only [StdMap.find_insert, hw, hd, Option.getD_some] at e ⊢
      split at e <;> rename_i hs
      · exact ⟨_, if_pos hs⟩
      · rw [if_neg hs]; exact h.data s p e
    · intro s p e
      simp only [StdMap.find_insert, hw, hg, Option.getD_some] at e ⊢
      split at e <;> rename_i hs
      · exact ⟨_, if_pos hs⟩
      · rw [if_neg hs]; exact h.ghs s p e
    · intro s s' w e e'
      simp only [StdMap.find_insert, hw, Option.getD_some] at e e'
      split at e <;> split at e'
      · simp_all
      · simp only [Option.some_inj] at e; subst e
        rename_i hs _
        rw [hs]; exact h.inj _ _ _ hw e'
      · simp only [Option.some_inj] at e'; subst e'
        rename_i hs
        rw [hs]; exact h.inj _ _ _ e hw
      · exact h.inj s s' w e e'

end WinTab

/-! Configuration. -/

/-- What all ranks have in common. -/
structure Cfg (R : Type) where
  nprocs : Nat
  dims : List Nat
  d : List Nat
  xmins : List R
  xmaxs : List R
  st : StdMap (List Int) R

namespace Cfg
variable {R : Type}

/-- Extents of the sub-domains. -/
def L (c : Cfg R) : List Nat := localExtents c.dims c.d
/-- First cell of a sub-domain. -/
def lo (c : Cfg R) (x : List Nat) : List Nat := subLo c.L x
/-- One past the last cell of a sub-domain. -/
def hi (c : Cfg R) (x : List Nat) : List Nat := subHi c.L x
/-- The window table. -/
def tab (c : Cfg R) : WinTab := (c.st.map Prod.fst).foldl WinTab.step WinTab.empty

/-- Sizes are in range and the stencil fits the sub-domains. -/
structure Good (c : Cfg R) : Prop where
  good : GoodDecomp c.nprocs c.dims c.d
  np2 : c.nprocs ≤ 2 ^ 30
  dint : ∀ n ∈ c.dims, n < 2 ^ 31
  loc : c.L.prod < 2 ^ 31
  st : ∀ kv ∈ c.st, kv.1.length = c.dims.length ∧ IntOffset kv.1 ∧ WinTab.Fits c.L (sideOf kv.1) (ghostWidth kv.1)

variable {c : Cfg R}

theorem Good.lenL (h : c.Good) : c.L.length = c.dims.length := by
  rw [L, length_localExtents h.good.valid.1, h.good.length_eq]

theorem Good.lpos (h : c.Good) : ∀ l ∈ c.L, 0 < l := localExtents_pos h.good.valid.1 h.good.pos

theorem Good.len_x (h : c.Good) {x : List Nat} (hx : InGrid c.d x) : x.length = c.dims.length := by
  rw [hx.length_eq, h.good.length_eq]

theorem Good.len_lo (h : c.Good) {x : List Nat} (hx : InGrid c.d x) : (c.lo x).length = c.dims.length := by
  simp [lo, subLo, h.lenL, h.len_x hx]

theorem Good.len_hi (h : c.Good) {x : List Nat} (hx : InGrid c.d x) : (c.hi x).length = c.dims.length := by
  simp [hi, subHi, h.lenL, h.len_x hx]

theorem Good.lo_get (h : c.Good) {x : List Nat} (hx : InGrid c.d x) (i : Nat) (h1 : i < (c.lo x).length) :
    (c.lo x)[i] = x[i]'(by rw [h.len_x hx, ← h.len_lo hx]; exact h1) *
      c.L[i]'(by rw [h.lenL, ← h.len_lo hx]; exact h1) := by
  simp [lo, subLo]

theorem Good.hi_get (h : c.Good) {x : List Nat} (hx : InGrid c.d x) (i : Nat) (h1 : i < (c.hi x).length) :
    (c.hi x)[i] = (x[i]'(by rw [h.len_x hx, ← h.len_hi hx]; exact h1) + 1) *
      c.L[i]'(by rw [h.lenL, ← h.len_hi hx]; exact h1) := by
  simp [hi, subHi]

theorem Good.box (h : c.Good) {x : List Nat} (hx : InGrid c.d x) : BoxLt (c.lo x) (c.hi x) := by
  refine List.forall₂_iff_get.2 ⟨by rw [h.len_lo hx, h.len_hi hx], ?_⟩
  intro i h1 h2
  simp only [List.get_eq_getElem]
  rw [h.lo_get hx, h.hi_get hx]
  have h3 : i < c.L.length := by rw [h.lenL, ← h.len_lo hx]; exact h1
  have := h.lpos _ (List.getElem_mem h3)
  rw [Nat.add_mul, Nat.one_mul]
  omega

theorem Good.ext (h : c.Good) {x : List Nat} (hx : InGrid c.d x) : extents (c.lo x) (c.hi x) = c.L := by
  apply List.ext_getElem
  · simp [extents, h.len_lo hx, h.len_hi hx, h.lenL]
  · intro i h1 h2
    have h3 : i < (c.lo x).length := by rw [h.len_lo hx, ← h.lenL]; exact h2
    have h4 : i < (c.hi x).length := by rw [h.len_hi hx, ← h.lenL]; exact h2
    simp only [extents, List.getElem_zipWith]
    rw [h.lo_get hx i h3, h.hi_get hx i h4, Nat.add_mul, Nat.one_mul, Nat.add_sub_cancel_left]

theorem Good.vol (h : c.Good) {x : List Nat} (hx : InGrid c.d x) : volume (c.lo x) (c.hi x) = c.L.prod := by
  rw [volume, h.ext hx]

theorem Good.hi_le (h : c.Good) {x : List Nat} (hx : InGrid c.d x) (i : Nat) (h1 : i < (c.hi x).length)
    (h2 : i < c.dims.length) : (c.hi x)[i] ≤ c.dims[i] := by
  rw [h.hi_get hx i h1]
  exact sub_bound h.good.valid.1 hx i _ _ h2

theorem Good.hi_lt (h : c.Good) {x : List Nat} (hx : InGrid c.d x) : ∀ v ∈ c.hi x, v < 2 ^ 31 := by
  intro v hv
  obtain ⟨i, hi', rfl⟩ := List.mem_iff_getElem.1 hv
  have h2 : i < c.dims.length := by rw [← h.len_hi hx]; exact hi'
  have := h.hi_le hx i hi' h2
  have := h.dint _ (List.getElem_mem h2)
  omega

theorem Good.hi_ltW (h : c.Good) {x : List Nat} (hx : InGrid c.d x) : ∀ v ∈ c.hi x, v < W := by
  intro v hv
  have := h.hi_lt hx v hv
  unfold W; omega

theorem Good.face (h : c.Good) {x : List Nat} (hx : InGrid c.d x) {s : List Int} {m : Nat} (hf : WinTab.Fits c.L s m) :
    FaceFits (c.lo x) (c.hi x) s m := by
  refine ⟨by rw [hf.1, h.lenL, h.len_lo hx], ?_⟩
  intro i h1 h2 h3 h0
  have h4 : i < c.L.length := by rw [← hf.1]; exact h3
  have := hf.2 i h4 h3 h0
  have e : c.L[i] = (c.hi x)[i] - (c.lo x)[i] := by
    rw [h.lo_get hx i h1, h.hi_get hx i h2, Nat.add_mul, Nat.one_mul, Nat.add_sub_cancel_left]
  rw [← e]; exact this

theorem Good.tab_ok (h : c.Good) : c.tab.OK c.L := by
  unfold tab
  have : ∀ (l : List (List Int)) (t : WinTab), (∀ o ∈ l, WinTab.Fits c.L (sideOf o) (ghostWidth o)) → t.OK c.L →
      (l.foldl WinTab.step t).OK c.L := by
    intro l
    induction l with
    | nil => intro t _ ht; exact ht
    | cons a l ih =>
      intro t hl ht
      exact ih _ (fun o ho => hl o (by simp [ho])) (WinTab.ok_step ht a fun _ => hl a (by simp))
  apply this _ _ _ (WinTab.ok_empty _)
  intro o ho
  obtain ⟨kv, hkv, rfl⟩ := List.mem_map.1 ho
  exact (h.st kv hkv).2.2

end Cfg

/-- The iterator of the window along the faces `s` of the sub-domain at `x`, at position `k`. -/
def winIt {R : Type} (c : Cfg R) (x : List Nat) (s : List Int) (m k : Nat) : MultiArrayIter :=
  { builtIter (faceLo (c.lo x) (c.hi x) s m) (faceHi (c.lo x) (c.hi x) s m) false with bigIndex := k }

/-- Number of cells of the window. -/
def winVol {R : Type} (c : Cfg R) (x : List Nat) (s : List Int) (m : Nat) : Nat :=
  volume (faceLo (c.lo x) (c.hi x) s m) (faceHi (c.lo x) (c.hi x) s m)

/-- Everything about a constructed filter except its data. `t` is the part of the window table created so far. -/
structure Shape {R : Type} (c : Cfg R) (x : List Nat) (t : WinTab) (f : Filter R) : Prop where
  ndims : f.ndims = c.dims.length
  gdims : f.globalDims = c.dims
  xmins : f.xmins = c.xmins
  xmaxs : f.xmaxs = c.xmaxs
  rk : f.rk = ((rankOf c.d x : Nat) : Int)
  sz : f.sz = (c.nprocs : Int)
  valid : f.validDecomp = true
  dcmp : ∃ k, f.dcmp = movedDecomp c.nprocs c.dims c.d k
  lo : f.lo = c.lo x
  hi : f.hi = c.hi x
  mit : ∃ k, f.mit = some { builtIter (c.lo x) (c.hi x) false with bigIndex := k }
  inLen : f.inData.length = c.L.prod
  outLen : f.outData.length = c.L.prod
  st : f.stencil = c.st
  gh : f.winNumGhosts = t.gh
  wins : f.windows = t.wins
  wdata : f.winData = t.wdata
  winBuf : f.winBuf = (List.range t.n).map (2 * ·)
  nbufs : f.bufs.length = 2 * t.n
  trace : f.trace = (List.range t.n).flatMap fun w => [.allocMem (2 * w), .allocMem (2 * w + 1), .winCreate w (2 * w)]
  iter : ∀ s w m, StdMap.find t.wins s = some w → StdMap.find t.gh s = some m →
    ∃ k, StdMap.find f.winIter s = some (winIt c x s m k)
  noIter : ∀ s, StdMap.find t.wins s = none → StdMap.find f.winIter s = none
  buflen : ∀ s w m, StdMap.find t.wins s = some w → StdMap.find t.gh s = some m →
    (∃ b, f.bufs[2 * w]? = some b ∧ b.length = winVol c x s m) ∧
    (∃ b, f.bufs[2 * w + 1]? = some b ∧ b.length = winVol c x s m)

variable {R : Type} {c : Cfg R}

theorem getWindowIter_eq (h : c.Good) {f : Filter R} {y : List Nat} (hy : InGrid c.d y) (s : List Int) (k : Nat)
    (hn : f.ndims = c.dims.length) (hd : f.dcmp = movedDecomp c.nprocs c.dims c.d k)
    (hf : WinTab.Fits c.L s ((StdMap.find f.winNumGhosts s).getD 0)) :
    f.getWindowIter ((rankOf c.d y : Nat) : Int) s =
      .ok (winIt c y s ((StdMap.find f.winNumGhosts s).getD 0) 0,
        { f with dcmp := movedDecomp c.nprocs c.dims c.d (rankOf c.d y) }) := by
  unfold Filter.getWindowIter
  rw [hd, getBegIndices_eq h.good y hy]
  simp only [M.ok_bind]
  rw [getEndIndices_eq h.good y hy]
  simp only [M.ok_bind]
  generalize (StdMap.find f.winNumGhosts s).getD 0 = m at *
  have hbox := h.box hy
  have hlen := h.len_lo hy
  have hface := h.face hy hf
  have e := windowBody_loop (n := f.ndims) (by rw [hlen, hn]) hbox (h.hi_ltW hy) hface
  unfold Cfg.lo Cfg.hi Cfg.L at e
  rw [e]
  simp only [M.ok_bind]
  have hfl : (faceLo (c.lo y) (c.hi y) s m).length = c.dims.length := by
    rw [length_faceLo hbox.length_eq.symm hface.1, hlen]
  have hfh : (faceHi (c.lo y) (c.hi y) s m).length = c.dims.length := by
    rw [length_faceHi hbox.length_eq.symm hface.1, hlen]
  unfold MultiArrayIter.new
  unfold Cfg.lo Cfg.hi Cfg.L at hfl hfh
  rw [build_eq none _ _ false]
  · simp only [M.ok_bind, M.pure_eq]
    rfl
  · intro e0
    rw [e0] at hfl
    exact h.good.ne (List.length_eq_zero_iff.1 hfl.symm)
  · rw [hfl, hfh]
  · rw [hfl]; exact h.good.len

theorem winVol_le (h : c.Good) {x : List Nat} (hx : InGrid c.d x) {s : List Int} {m : Nat} (hf : WinTab.Fits c.L s m) :
    winVol c x s m ≤ c.L.prod := by
  rw [← h.vol hx]
  exact (h.face hx hf).volume_le (h.box hx)

theorem winIt_terms (h : c.Good) {x : List Nat} (hx : InGrid c.d x) {s : List Int} {m : Nat} (hf : WinTab.Fits c.L s m)
    (k : Nat) : (winIt c x s m k).getNumberOfTerms = winVol c x s m := by
  have hv := winVol_le h hx hf
  have := h.loc
  unfold winIt winVol MultiArrayIter.getNumberOfTerms at *
  rw [builtIter_eq false ((h.face hx hf).boxLt (h.box hx)) (by unfold W; omega)]

theorem getElem?_append_pair {α : Type} (l : List α) (a b : α) (n : Nat) (hl : l.length = n) :
    (l ++ [a, b])[n]? = some a ∧ (l ++ [a, b])[n + 1]? = some b := by
  subst hl
  constructor
  · rw [List.getElem?_append_right (Nat.le_refl _), Nat.sub_self]; rfl
  · rw [List.getElem?_append_right (by omega), Nat.add_sub_cancel_left]; rfl

theorem newWindow_eq (h : c.Good) {x : List Nat} (hx : InGrid c.d x) {f : Filter R} (s : List Int) (k : Nat)
    (hrk : f.rk = ((rankOf c.d x : Nat) : Int))
    (hn : f.ndims = c.dims.length) (hd : f.dcmp = movedDecomp c.nprocs c.dims c.d k)
    (m : Nat) (hm : StdMap.find f.winNumGhosts s = some m) (hf : WinTab.Fits c.L s m) :
    f.newWindow s = .ok { f with
      dcmp := movedDecomp c.nprocs c.dims c.d (rankOf c.d x)
      bufs := f.bufs ++ [List.replicate (winVol c x s m) none, List.replicate (winVol c x s m) none]
      winBuf := f.winBuf ++ [f.bufs.length]
      trace := f.trace ++ [.allocMem f.bufs.length, .allocMem (f.bufs.length + 1), .winCreate f.winBuf.length f.bufs.length]
      winData := StdMap.insert f.winData s (f.bufs.length, f.bufs.length + 1)
      windows := StdMap.insert f.windows s f.winBuf.length
      winIter := StdMap.insert f.winIter s (winIt c x s m 0) } := by
  unfold Filter.newWindow
  have e := getWindowIter_eq h (f := f) hx s k hn hd (by rw [hm]; exact hf)
  rw [hm, Option.getD_some, ← hrk] at e
  have h1 := winVol_le h hx hf
  have h2 := h.loc
  have e2 : intOfSz (winIt c x s m 0).getNumberOfTerms = (winVol c x s m : Int) := by
    rw [winIt_terms h hx hf, intOfSz_of_lt (by unfold intLim; omega)]
  generalize winVol c x s m = v at *
  generalize winIt c x s m 0 = it at *
  rw [e, M.ok_bind]
  dsimp only
  rw [e2, if_neg (by omega)]
  simp only [M.pure_eq, Int.toNat_natCast]

theorem addWindow_shape (h : c.Good) {x : List Nat} (hx : InGrid c.d x) {t : WinTab} (ht : t.OK c.L) {f : Filter R}
    (hs : Shape c x t f) (kv : List Int × R) (hkv : kv ∈ c.st) :
    ∃ f', f.addWindow kv = .ok f' ∧ Shape c x (t.step kv.1) f' ∧ f'.inData = f.inData ∧ f'.outData = f.outData := by
  obtain ⟨hlen, hint, hfit⟩ := h.st kv hkv
  obtain ⟨k, hk⟩ := hs.dcmp
  unfold Filter.addWindow WinTab.step
  dsimp only
  rw [getNumberOfNonZeroElements_eq kv.1 (by rw [hlen]; exact h.good.len)]
  simp only [M.ok_bind]
  by_cases h0 : kv.1.countP (· ≠ 0) = 0
  · rw [if_pos h0, if_pos h0]
    exact ⟨f, rfl, hs, rfl, rfl⟩
  rw [if_neg h0, if_neg h0, getSideFromOffset_eq f kv.1 (by rw [hlen, hs.ndims]) hint]
  simp only [M.ok_bind]
  rw [getNumberOfGhostsFromOffset_eq kv.1 hint]
  simp only [M.ok_bind]
  generalize sideOf kv.1 = s at *
  generalize ghostWidth kv.1 = m0 at *
  have hg : StdMap.find (StdMap.insert f.winNumGhosts s m0) s = some ((StdMap.find t.gh s).getD m0) := by
    rw [StdMap.find_insert, if_pos rfl, hs.gh]
  have hm : WinTab.Fits c.L s ((StdMap.find t.gh s).getD m0) := by
    cases e : StdMap.find t.gh s with
    | none => exact hfit
    | some m =>
      obtain ⟨w, hw⟩ := ht.ghs _ _ e
      obtain ⟨_, _, m', hm', hf'⟩ := ht.link _ _ hw
      rw [e] at hm'
      simp only [Option.some_inj] at hm'
      subst hm'
      exact hf'
  rw [newWindow_eq h hx (f := { f with winNumGhosts := StdMap.insert f.winNumGhosts s m0 }) s k hs.rk hs.ndims hk _ hg hm]
  refine ⟨_, rfl, ?_, rfl, rfl⟩
  generalize hmm : (StdMap.find t.gh s).getD m0 = m at *
  have hbl := hs.nbufs
  have hwl : f.winBuf.length = t.n := by rw [hs.winBuf]; simp
  obtain ⟨b1, b2⟩ := getElem?_append_pair f.bufs (List.replicate (winVol c x s m) none)
    (List.replicate (winVol c x s m) none) (2 * t.n) hbl
  have bo : ∀ j, j < 2 * t.n → (f.bufs ++ [List.replicate (winVol c x s m) none,
      List.replicate (winVol c x s m) none])[j]? = f.bufs[j]? := by
    intro j hj
    rw [List.getElem?_append_left (by omega)]
  refine { ndims := hs.ndims, gdims := hs.gdims, xmins := hs.xmins, xmaxs := hs.xmaxs, rk := hs.rk, sz := hs.sz,
           valid := hs.valid, dcmp := ⟨_, rfl⟩, lo := hs.lo, hi := hs.hi, mit := hs.mit, inLen := hs.inLen,
           outLen := hs.outLen, st := hs.st, gh := ?_, wins := ?_, wdata := ?_, winBuf := ?_, nbufs := ?_,
           trace := ?_, iter := ?_, noIter := ?_, buflen := ?_ }
  · simp only [hs.gh]
  · simp only [hs.wins, hwl]
  · simp only [hs.wdata, hbl]
  · simp only [hs.winBuf, hbl, List.range_succ, List.map_append, List.map_cons, List.map_nil]
  · simp only [List.length_append, hbl, List.length_cons, List.length_nil]; omega
  · simp only [hs.trace, hbl, hwl, List.range_succ, List.flatMap_append, List.flatMap_cons, List.flatMap_nil,
      List.append_nil]
  · intro s' w m' hw hm'
    simp only [StdMap.find_insert] at hw hm' ⊢
    by_cases e : s' = s
    · subst e
      rw [if_pos rfl] at hw hm' ⊢
      rw [hmm, Option.some_inj] at hm'
      subst hm'
      cases hw0 : StdMap.find t.wins s' with
      | none =>
        rw [hs.noIter _ hw0]
        exact ⟨0, rfl⟩
      | some w0 =>
        obtain ⟨_, _, m1, hm1, _⟩ := ht.link _ _ hw0
        obtain ⟨k1, hk1⟩ := hs.iter _ _ _ hw0 hm1
        rw [hm1, Option.getD_some] at hmm
        subst hmm
        exact ⟨k1, by rw [hk1]; rfl⟩
    · rw [if_neg e] at hw hm' ⊢
      exact hs.iter _ _ _ hw hm'
  · intro s' hw
    simp only [StdMap.find_insert] at hw ⊢
    by_cases e : s' = s
    · rw [if_pos e] at hw; simp at hw
    · rw [if_neg e] at hw ⊢
      exact hs.noIter _ hw
  · intro s' w m' hw hm'
    simp only [StdMap.find_insert] at hw hm' ⊢
    by_cases e : s' = s
    · subst e
      rw [if_pos rfl] at hw hm'
      rw [hmm, Option.some_inj] at hm'
      subst hm'
      cases hw0 : StdMap.find t.wins s' with
      | none =>
        rw [hw0, Option.getD_none, Option.some_inj] at hw
        subst hw
        rw [b1, b2]
        exact ⟨⟨_, rfl, by simp⟩, ⟨_, rfl, by simp⟩⟩
      | some w0 =>
        obtain ⟨hlt, _, m1, hm1, _⟩ := ht.link _ _ hw0
        rw [hm1, Option.getD_some] at hmm
        subst hmm
        rw [hw0, Option.getD_some, Option.some_inj] at hw
        subst hw
        rw [bo _ (by omega), bo _ (by omega)]
        exact hs.buflen _ _ _ hw0 hm1
    · rw [if_neg e] at hw hm'
      have hlt := (ht.link _ _ hw).1
      rw [bo _ (by omega), bo _ (by omega)]
      exact hs.buflen _ _ _ hw hm'

/-- The constructor on the rank at coordinates `x`, once the decomposition is known. -/
theorem new_shape [Zero R] [Div R] [NatCast R] [LT R] [DecidableLT R] [HasMax R] (h : c.Good) {x : List Nat}
    (hx : InGrid c.d x) (hb : CubeDecomp.build R CubeDecomp.empty c.nprocs c.dims =
      .ok (true, movedDecomp c.nprocs c.dims c.d 0)) :
    ∃ f, Filter.new ((rankOf c.d x : Nat) : Int) c.nprocs c.dims c.xmins c.xmaxs c.st = .ok f ∧ Shape c x c.tab f ∧
      f.inData = List.replicate c.L.prod 0 ∧ f.outData = List.replicate c.L.prod 0 := by
  unfold Filter.new
  dsimp only [Filter.initial]
  rw [hb]
  simp only [M.ok_bind, if_true]
  rw [getBegIndices_eq h.good x hx]
  simp only [M.ok_bind]
  rw [getEndIndices_eq h.good x hx]
  simp only [M.ok_bind]
  have hbox := h.box hx
  have hl := h.len_lo hx
  have hh := h.len_hi hx
  have e := build_eq none (c.lo x) (c.hi x) false
    (by intro e0; rw [e0] at hl; exact h.good.ne (List.length_eq_zero_iff.1 hl.symm)) (by omega)
    (by rw [hl]; exact h.good.len)
  unfold Cfg.lo Cfg.hi Cfg.L at e
  rw [e]
  simp only [M.ok_bind]
  have hn : (builtIter (c.lo x) (c.hi x) false).getNumberOfTerms = c.L.prod := by
    have := h.loc
    have h1 := h.vol hx
    unfold MultiArrayIter.getNumberOfTerms
    rw [builtIter_eq false hbox (by unfold W; omega), h1]
  unfold Cfg.lo Cfg.hi Cfg.L at hn
  rw [hn]
  have hr : ∀ n, resize ([] : List R) n 0 = List.replicate n 0 := by intro n; simp [resize]
  rw [hr]
  obtain ⟨f', e', h1, h2, h3⟩ := foldlM_inv c.st Filter.addWindow
    (fun pre f => Shape c x ((pre.map Prod.fst).foldl WinTab.step WinTab.empty) f ∧
      f.inData = List.replicate c.L.prod 0 ∧ f.outData = List.replicate c.L.prod 0 ∧
      ((pre.map Prod.fst).foldl WinTab.step WinTab.empty).OK c.L)
    { ndims := c.dims.length, globalDims := c.dims, xmins := c.xmins, xmaxs := c.xmaxs,
      rk := ((rankOf c.d x : Nat) : Int), sz := c.nprocs, validDecomp := true,
      dcmp := movedDecomp c.nprocs c.dims c.d (rankOf c.d x),
      lo := subLo (localExtents c.dims c.d) x, hi := subHi (localExtents c.dims c.d) x,
      mit := some (builtIter (subLo (localExtents c.dims c.d) x) (subHi (localExtents c.dims c.d) x) false),
      inData := List.replicate (localExtents c.dims c.d).prod 0,
      outData := List.replicate (localExtents c.dims c.d).prod 0, stencil := c.st, winNumGhosts := [], windows := [],
      winData := [], winIter := [], bufs := [], winBuf := [], trace := [] }
    (by
      refine ⟨?_, rfl, rfl, WinTab.ok_empty _⟩
      refine { ndims := rfl, gdims := rfl, xmins := rfl, xmaxs := rfl, rk := rfl, sz := rfl, valid := rfl,
               dcmp := ⟨_, rfl⟩, lo := rfl, hi := rfl, mit := ⟨0, rfl⟩, inLen := by simp [Cfg.L],
               outLen := by simp [Cfg.L], st := rfl, gh := rfl, wins := rfl, wdata := rfl, winBuf := rfl,
               nbufs := rfl, trace := rfl, iter := ?_, noIter := ?_, buflen := ?_ }
      · intro s w m hw; simp [WinTab.empty, StdMap.find] at hw
      · intro s _; rfl
      · intro s w m hw; simp [WinTab.empty, StdMap.find] at hw)
    (by
      rintro pre a f ha ⟨h1, h2, h3, h4⟩
      obtain ⟨f', e, hs, i1, i2⟩ := addWindow_shape h hx h4 h1 a ha
      refine ⟨f', e, ?_, by rw [i1, h2], by rw [i2, h3], ?_⟩
      · simpa using hs
      · simpa using WinTab.ok_step h4 a.1 fun _ => (h.st a ha).2.2)
  refine ⟨f', e', ?_, h2, h3.1⟩
  exact h1

end Fidi
