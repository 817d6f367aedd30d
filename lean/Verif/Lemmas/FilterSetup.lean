import Verif.Lemmas.FilterWorld

/-
From the hypotheses of the property theorems to the invariant of the distributed filter.
-/
namespace Fidi
open Spec
variable {R : Type}

theorem localExtents_prod_mul {dims d : List Nat} (h : List.Forall₂ (fun n k => k ∣ n) dims d) :
    (localExtents dims d).prod * d.prod = dims.prod := by
  induction h with
  | nil => rfl
  | cons h _ ih =>
    simp only [localExtents, List.zipWith_cons_cons, List.prod_cons] at ih ⊢
    rw [Nat.mul_mul_mul_comm, ih, Nat.div_mul_cancel h]

theorem unit_int {n : Nat} {off : List Int} (h : UnitOffset n off) : IntOffset off := by
  intro o ho
  rcases h.2 o ho with rfl | rfl | rfl <;> decide

theorem unit_fits {n : Nat} {off : List Int} {L : List Nat} (h : UnitOffset n off) (hl : L.length = n)
    (hL : ∀ l ∈ L, 0 < l) : WinTab.Fits L (sideOf off) (ghostWidth off) := by
  refine ⟨by rw [length_sideOf, h.1, hl], ?_⟩
  intro i h1 h2 hn
  have h0 : off.countP (· ≠ 0) ≠ 0 := by
    intro h0
    exact hn ((sideOf_zero_iff off).2 h0 _ (List.getElem_mem h2))
  rw [ghostWidth_unit h h0]
  exact ⟨Nat.le_refl _, hL _ (List.getElem_mem h1)⟩

theorem axis_unit {n : Nat} {off : List Int} (h : AxisOffset n off) : UnitOffset n off := ⟨h.1, h.2.1⟩

theorem axis_oneHalo {n : Nat} {off : List Int} (h : AxisOffset n off) (d L : List Nat) : OneHalo d L off := by
  obtain ⟨a, ha⟩ := h.2.2
  intro i j hij hi hj
  have h1 : i = a := by by_contra hc; exact hi (ha i hc)
  have h2 : j = a := by by_contra hc; exact hj (ha j hc)
  omega

theorem unit_offsetFits {dims d : List Nat} (hd : List.Forall₂ (fun n k => k ∣ n) dims d) (hp : ∀ n ∈ dims, 0 < n)
    {off : List Int} (h : UnitOffset dims.length off) : OffsetFits dims d off := by
  refine ⟨h.1, unit_int h, ?_⟩
  intro i hi
  have hl : i < off.length := by
    by_contra hc
    exact hi (by simp [Nat.le_of_not_lt hc])
  have hl2 : i < (localExtents dims d).length := by
    rw [length_localExtents hd, ← hd.length_eq, ← h.1]; exact hl
  have h0 : off.countP (· ≠ 0) ≠ 0 := by
    intro h0
    have := List.countP_eq_zero.1 h0 _ (List.getElem_mem hl)
    rw [getD_of_lt hl] at hi
    simp at this
    exact hi this
  rw [ghostWidth_unit h h0, getD_of_lt hl2]
  exact localExtents_pos hd hp _ (List.getElem_mem hl2)

theorem ghostWidth_pos {off : List Int} {o : Int} (ho : o ∈ off) (h : o ≠ 0) : 1 ≤ ghostWidth off := by
  unfold ghostWidth
  have key : ∀ (l : List Int) (m : Nat), m ≤ l.foldl (fun m o => max m o.natAbs) m := by
    intro l
    induction l with
    | nil => intro m; exact Nat.le_refl _
    | cons a l ih => intro m; exact Nat.le_trans (Nat.le_max_left _ _) (ih _)
  have : ∀ (l : List Int) (m : Nat), o ∈ l → o.natAbs ≤ l.foldl (fun m o => max m o.natAbs) m := by
    intro l
    induction l with
    | nil => intro m h; simp at h
    | cons a l ih =>
      intro m h
      rcases List.mem_cons.1 h with rfl | h
      · exact Nat.le_trans (Nat.le_max_right _ _) (key l _)
      · exact ih _ h
  have := this off 0 ho
  omega

theorem good_of_range {nprocs : Nat} {dims d : List Nat} (hr : InRange nprocs dims) (hg : GoodDecomp nprocs dims d)
    (xmins xmaxs : List R) (st : StdMap (List Int) R) (hf : ∀ kv ∈ st, OffsetFits dims d kv.1) :
    Cfg.Good ⟨nprocs, dims, d, xmins, xmaxs, st⟩ where
  good := hg
  np2 := hr.procs
  dint := hr.ext
  loc := by
    show (localExtents dims d).prod < 2 ^ 31
    have h1 := localExtents_prod_mul hg.valid.1
    rw [hg.valid.2] at h1
    have h2 := hr.loc
    rw [← h1] at h2
    exact Nat.lt_of_mul_lt_mul_right h2
  st := by
    intro kv hkv
    obtain ⟨h1, h2, h3⟩ := hf kv hkv
    refine ⟨h1, h2, ?_⟩
    have hL : (localExtents dims d).length = dims.length := by rw [length_localExtents hg.valid.1, hg.length_eq]
    refine ⟨by rw [length_sideOf, h1]; exact hL.symm, ?_⟩
    intro i i1 i2 hn
    have e : (sideOf kv.1)[i] = -(kv.1.getD i 0).sign := by rw [← getD_sideOf, getD_of_lt i2]
    have hne : kv.1.getD i 0 ≠ 0 := by
      intro h0
      rw [e, h0] at hn; exact hn rfl
    have i3 : i < kv.1.length := by rw [← length_sideOf]; exact i2
    have := h3 i hne
    rw [getD_of_lt (show i < (localExtents dims d).length from i1)] at this
    refine ⟨?_, this⟩
    rw [getD_of_lt i3] at hne
    exact ghostWidth_pos (List.getElem_mem i3) hne

/-- Everything the theorems on unit stencils need. -/
theorem fine_of_range [Div R] [NatCast R] [LT R] [DecidableLT R] [HasMax R] {nprocs : Nat} {dims : List Nat}
    (hr : InRange nprocs dims) (hex : ∃ d, ValidDecomp nprocs dims d) (xmins xmaxs : List R) (st : StdMap (List Int) R)
    (hu : ∀ kv ∈ st, UnitOffset dims.length kv.1)
    (hh : ∀ d, ValidDecomp nprocs dims d → ∀ kv ∈ st, OneHalo d (localExtents dims d) kv.1)
    (hw : ∀ kv ∈ st, WrapExact dims kv.1) :
    ∃ d, Cfg.Fine ⟨nprocs, dims, d, xmins, xmaxs, st⟩ ∧
      CubeDecomp.build R CubeDecomp.empty nprocs dims = .ok (true, movedDecomp nprocs dims d 0) := by
  have hp := hr.procs
  obtain ⟨d, hg, hb⟩ := build_found (R := R) hr.procs1 (by omega) hr.ne hr.pos hr.axes hr.cells hex
  refine ⟨d, ?_, hb⟩
  exact { good_of_range hr hg xmins xmaxs st (fun kv hkv => unit_offsetFits hg.valid.1 hr.pos (hu kv hkv)) with
    unit := hu
    halo := fun kv hkv => hh d hg.valid kv hkv
    wrap := hw }

/-- The values of the ranks at their cells. -/
theorem holds_cell {c : Cfg R} (h : c.Good) {x g : List Nat} (hx : InGrid c.d x) {v : List Nat → R}
    (hg : InBox (c.lo x) (c.hi x) g) : (boxData (c.lo x) (c.hi x) v)[cellPos (c.lo x) (c.hi x) g]? = some (v g) := by
  rw [← flatOf_eq_cellPos _ _ _ (by rw [h.len_lo hx, h.len_hi hx]) hg.length_lo]
  exact boxData_at v hg

end Fidi
