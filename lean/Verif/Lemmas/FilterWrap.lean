import Verif.Lemmas.FilterSetup

/-
The filter on one process, for any extents: negative indices are reduced modulo 2^64 first.
-/
namespace Fidi
open Spec
variable {R : Type} {c : Cfg R}

/-! Any number of processes, if the cells read are in the sub-domain or are the neighbours. -/

section
variable [Zero R] [Add R] [Mul R]

theorem world_apply64 (h : c.Unit) (hc : ∀ x, InGrid c.d x → c.Cells x) {w : World R} {u : List Nat → R}
    (hw : Ranks c (fun x f => Holds c x u f) w) :
    ∃ w', w.applyFilter = .ok w' ∧ Ranks c (fun x f => Holds c x u f ∧
      f.outData = boxData (c.lo x) (c.hi x) (stencilStep64 c.dims c.st u)) w' :=
  ranks_mapM h.toGood hw _ fun x _ hx hf => applyFilter64_ok h hx (get_serves h.toGood hw) hf (hc x hx)

theorem stencilIter64_succ (dims : List Nat) (st : List (List Int × R)) (n : Nat) (u : List Nat → R) :
    stencilIter64 dims st (stencilStep64 dims st u) n = stencilIter64 dims st u (n + 1) := by
  induction n generalizing u with
  | zero => rfl
  | succ n ih => show stencilStep64 _ _ _ = stencilStep64 _ _ _; rw [ih]

theorem world_iterate64 (h : c.Unit) (hc : ∀ x, InGrid c.d x → c.Cells x) (n : Nat) {w : World R} {u : List Nat → R}
    (hw : Ranks c (fun x f => Holds c x u f) w) :
    ∃ w', w.iterate n = .ok w' ∧ Ranks c (fun x f => Holds c x (stencilIter64 c.dims c.st u n) f) w' := by
  induction n generalizing w u with
  | zero => exact ⟨w, rfl, hw⟩
  | succ n ih =>
    obtain ⟨w1, e1, h1⟩ := world_apply64 h hc hw
    obtain ⟨w2, e2, h2⟩ := world_copy h.toGood h1
    obtain ⟨w3, e3, h3⟩ := ih (u := stencilStep64 c.dims c.st u) ⟨h2.1, fun x f hx hf => (h2.2 x f hx hf).1⟩
    refine ⟨w3, ?_, ?_⟩
    · unfold World.iterate
      rw [e1, M.ok_bind, e2, M.ok_bind, e3]
    · rw [stencilIter64_succ] at h3; exact h3

end

/-! One process. -/

theorem ones_of_prod {d : List Nat} (h : d.prod = 1) : ∀ k ∈ d, k = 1 :=
  fun _ hk => Nat.dvd_one.1 (h ▸ List.dvd_prod hk)

theorem valid_one (dims : List Nat) : ∃ d, ValidDecomp 1 dims d := by
  refine ⟨List.replicate dims.length 1, ?_, by simp⟩
  refine List.forall₂_iff_get.2 ⟨by simp, fun i h1 h2 => ?_⟩
  simp

/-- The only sub-domain is the grid. -/
theorem one_box (h : c.Good) (h1 : c.nprocs = 1) {x : List Nat} (hx : InGrid c.d x) {t : List Nat}
    (ht : InGrid c.dims t) : InBox (c.lo x) (c.hi x) t := by
  have hd := ones_of_prod (h.good.valid.2.trans h1)
  have hl := h.good.length_eq
  have hxl := hx.length_eq
  obtain ⟨htl, ht⟩ := inGrid_iff_getElem.1 ht
  refine inBox_iff_getElem.2 ⟨by rw [htl, h.len_lo hx], by rw [h.len_hi hx, h.len_lo hx], ?_⟩
  intro i i1 i2 i3
  rw [h.lo_get hx, h.hi_get hx]
  rw [h.len_lo hx] at i1
  have hx0 : x[i]'(by omega) = 0 := by
    have a := (inGrid_iff_getElem.1 hx).2 i (by omega) (by omega)
    have b := hd _ (List.getElem_mem (by omega : i < c.d.length))
    omega
  have hL : c.L[i]'(by rw [h.lenL]; omega) = c.dims[i] := by
    have b := hd _ (List.getElem_mem (by omega : i < c.d.length))
    simp [Cfg.L, localExtents, b]
  rw [hx0, hL]
  have := ht i i1 (by omega)
  omega

theorem one_cells (h : c.Unit) (h1 : c.nprocs = 1) {x : List Nat} (hx : InGrid c.d x) : c.Cells x :=
  fun kv hkv _ hg hn => absurd (one_box h.toGood h1 hx (shift64_inGrid (h.toGood.grid hx hg) (h.unit kv hkv).1)) hn

theorem unit_of_range [Div R] [NatCast R] [LT R] [DecidableLT R] [HasMax R] {dims : List Nat}
    (hr : InRange 1 dims) (xmins xmaxs : List R) (st : StdMap (List Int) R)
    (hu : ∀ kv ∈ st, UnitOffset dims.length kv.1) :
    ∃ d, Cfg.Unit ⟨1, dims, d, xmins, xmaxs, st⟩ ∧
      CubeDecomp.build R CubeDecomp.empty 1 dims = .ok (true, movedDecomp 1 dims d 0) := by
  obtain ⟨d, hg, hb⟩ := build_found (R := R) hr.procs1 (by decide) hr.ne hr.pos hr.axes hr.cells (valid_one dims)
  refine ⟨d, ?_, hb⟩
  exact { good_of_range hr hg xmins xmaxs st (fun kv hkv => unit_offsetFits hg.valid.1 hr.pos (hu kv hkv)) with
    unit := hu
    halo := fun kv hkv i j _ _ _ => by
      left
      show d.getD i 1 = 1
      by_cases hi : i < d.length
      · rw [getD_of_lt hi]; exact ones_of_prod hg.valid.2 _ (List.getElem_mem hi)
      · simp [Nat.le_of_not_lt hi] }

/-! Where the two displacements differ. -/

theorem wrap_neg_iff {n : Nat} (hn : 0 < n) : (2 ^ 64 - 1) % n = n - 1 ↔ n ∣ 2 ^ 64 := by
  constructor
  · intro h
    have := Nat.div_add_mod (2 ^ 64 - 1) n
    rw [h] at this
    refine ⟨(2 ^ 64 - 1) / n + 1, ?_⟩
    rw [Nat.mul_add, Nat.mul_one]
    omega
  · exact wrap_neg hn

theorem shift_ne {dims : List Nat} {off : List Int} (hp : ∀ n ∈ dims, 0 < n) (hu : UnitOffset dims.length off)
    (hw : ¬ WrapExact dims off) : shift64 dims (List.replicate dims.length 0) off ≠
      shiftMod dims (List.replicate dims.length 0) off := by
  intro e
  apply hw
  intro i hneg
  have hol := hu.1
  have hi : i < dims.length := by
    by_contra hc
    rw [List.getD_eq_getElem?_getD, List.getElem?_eq_none (by omega)] at hneg
    simp at hneg
  have ho : off.getD i 0 = -1 := by
    rcases unitD hu i with h | h | h <;> omega
  have e' := congrArg (fun l : List Nat => l.getD i 0) e
  rw [getD_shift64 i hi (by simp) hu.1, getD_shiftMod i hi (by simp) hu.1, ho] at e'
  have hz : (List.replicate dims.length 0).getD i 0 = 0 := by simp [hi]
  have hn := hp _ (List.getElem_mem hi)
  rw [hz, getD_of_lt hi] at e'
  rw [getD_of_lt hi]
  have e1 : ((((0 : Nat) : Int) + -1) % 2 ^ 64).toNat = 2 ^ 64 - 1 := by decide
  have e2 : ((((0 : Nat) : Int) + -1) % (dims[i] : Int)).toNat = dims[i] - 1 := by
    have e2 : (((0 : Nat) : Int) + -1) = -1 := by norm_num
    rw [e2, ← Int.add_emod_right, Int.emod_eq_of_lt (by omega) (by omega)]
    omega
  rw [e1, e2] at e'
  exact (wrap_neg_iff hn).1 e'

end Fidi
