import Verif.Lemmas.FilterData

/-
One branch of the stencil.
-/
namespace Fidi
open Spec
variable {R : Type} {c : Cfg R} {x : List Nat} {t : WinTab} {f : Filter R}

/-! Geometry: where the displaced cell is. -/

theorem face_axis {n d x g : Nat} {s : Int} (hd : d ∣ n) (hn : 0 < n) (hx : x < d)
    (hs : (s = 1 ∧ g + 1 = (x + 1) * (n / d)) ∨ (s = -1 ∧ g = x * (n / d))) :
    (s = 1 → (((g : Int) + s) % (n : Int)).toNat = (((x : Int) + s) % (d : Int)).toNat * (n / d)) ∧
    (s = -1 → (((g : Int) + s) % (n : Int)).toNat + 1 = ((((x : Int) + s) % (d : Int)).toNat + 1) * (n / d)) := by
  obtain ⟨L, rfl⟩ := hd
  have hd0 : 0 < d := by omega
  rw [Nat.mul_div_cancel_left _ hd0] at *
  have hL : 0 < L := Nat.pos_of_mul_pos_left hn
  rcases hs with ⟨rfl, hg⟩ | ⟨rfl, hg⟩
  · refine ⟨fun _ => ?_, fun h => absurd h (by decide)⟩
    have e1 : ((g : Int) + 1) = ((g + 1 : Nat) : Int) := by push_cast; rfl
    have e2 : ((x : Int) + 1) = ((x + 1 : Nat) : Int) := by push_cast; rfl
    rw [e1, e2, hg, ← Int.natCast_mod, ← Int.natCast_mod, Int.toNat_natCast, Int.toNat_natCast, Nat.mul_mod_mul_right]
  · refine ⟨fun h => absurd h (by decide), fun _ => ?_⟩
    have hA : ∀ m : Nat, 0 < m → ((-1 : Int) % (m : Int)).toNat = m - 1 := by
      intro m hm
      rw [← Int.add_emod_right, Int.emod_eq_of_lt (by omega) (by omega)]
      omega
    rcases Nat.eq_zero_or_pos x with rfl | hx0
    · rw [Nat.zero_mul] at hg
      subst hg
      have e1 : ((0 : Nat) : Int) + -1 = -1 := by norm_num
      rw [e1, hA d hd0, hA (d * L) hn, Nat.sub_add_cancel hn, Nat.sub_add_cancel hd0]
    · obtain ⟨y, rfl⟩ : ∃ y, x = y + 1 := ⟨x - 1, by omega⟩
      have hg1 : 1 ≤ g := by rw [hg, Nat.add_mul]; omega
      have hlt : (y + 1) * L < d * L := Nat.mul_lt_mul_of_pos_right hx hL
      have e1 : ((g : Int) + -1) = ((g - 1 : Nat) : Int) := by omega
      have e2 : (((y + 1 : Nat) : Int) + -1) = ((y : Nat) : Int) := by push_cast; ring
      rw [e1, e2, ← Int.natCast_mod, ← Int.natCast_mod, Int.toNat_natCast, Int.toNat_natCast]
      rw [Nat.mod_eq_of_lt (by omega), Nat.mod_eq_of_lt (by omega)]
      omega

/-- A displacement by at most one cell that leaves the sub-domain along an axis starts at its boundary, and the axis
is decomposed. -/
theorem leave_axis {n d x g : Nat} {s : Int} (hd : d ∣ n) (hn : 0 < n) (hx : x < d)
    (h1 : x * (n / d) ≤ g) (h2 : g < (x + 1) * (n / d)) (hs : s = -1 ∨ s = 0 ∨ s = 1)
    (hout : ¬ (x * (n / d) ≤ (((g : Int) + s) % (n : Int)).toNat ∧
      (((g : Int) + s) % (n : Int)).toNat < (x + 1) * (n / d))) :
    d ≠ 1 ∧ ((s = 1 ∧ g + 1 = (x + 1) * (n / d)) ∨ (s = -1 ∧ g = x * (n / d))) := by
  have hb : (x + 1) * (n / d) ≤ n := by
    calc (x + 1) * (n / d) ≤ d * (n / d) := Nat.mul_le_mul_right _ hx
      _ = n := Nat.mul_div_cancel' hd
  have h3 := Int.emod_lt_of_pos ((g : Int) + s) (by omega : (0 : Int) < n)
  have h4 := Int.emod_nonneg ((g : Int) + s) (by omega : (n : Int) ≠ 0)
  constructor
  · rintro rfl
    obtain rfl : x = 0 := by omega
    apply hout
    simp only [Nat.zero_mul, Nat.zero_add, Nat.one_mul, Nat.div_one]
    omega
  · rcases hs with rfl | rfl | rfl
    · right
      refine ⟨rfl, ?_⟩
      by_contra hne
      apply hout
      rw [Int.emod_eq_of_lt (by omega) (by omega)]
      omega
    · exfalso
      apply hout
      rw [Int.add_zero, Int.emod_eq_of_lt (by omega) (by omega)]
      omega
    · left
      refine ⟨rfl, ?_⟩
      by_contra hne
      apply hout
      rw [Int.emod_eq_of_lt (by omega) (by omega)]
      omega

theorem getD_of_lt {α : Type} {l : List α} {i : Nat} {z : α} (h : i < l.length) : l.getD i z = l[i] := by
  simp [h]

theorem inBox_iff_getD {lo hi t : List Nat} :
    InBox lo hi t ↔ t.length = lo.length ∧ hi.length = lo.length ∧
      ∀ i, i < lo.length → lo.getD i 0 ≤ t.getD i 0 ∧ t.getD i 0 < hi.getD i 0 := by
  rw [inBox_iff_getElem]
  constructor
  · rintro ⟨h1, h2, h3⟩
    refine ⟨h1, h2, fun i hi => ?_⟩
    have a : i < t.length := by omega
    rw [getD_of_lt hi, getD_of_lt a, getD_of_lt (by omega)]
    exact h3 i hi (by omega) a
  · rintro ⟨h1, h2, h3⟩
    refine ⟨h1, h2, fun i a b c => ?_⟩
    have := h3 i a
    rwa [getD_of_lt a, getD_of_lt b, getD_of_lt c] at this

theorem getD_shiftMod {d x : List Nat} {dir : List Int} (i : Nat)
    (h1 : i < d.length) (h2 : x.length = d.length) (h3 : dir.length = d.length) :
    (shiftMod d x dir).getD i 0 = (((x.getD i 0 : Int) + dir.getD i 0) % (d.getD i 0 : Int)).toNat := by
  have e := shiftMod_getElem (d := d) (x := x) (dir := dir) i h1 (by omega) (by omega)
  rw [List.getD_eq_getElem?_getD, e, Option.getD_some, getD_of_lt h1, getD_of_lt (by omega), getD_of_lt (by omega)]

theorem length_sideOf (off : List Int) : (sideOf off).length = off.length := by simp [sideOf]

theorem getD_sideOf (off : List Int) (i : Nat) : (sideOf off).getD i 0 = -(off.getD i 0).sign := by
  rw [List.getD_eq_getElem?_getD, List.getD_eq_getElem?_getD, sideOf, List.getElem?_map]
  cases off[i]? <;> simp

theorem getD_faceLo {lo hi : List Nat} {s : List Int} {m : Nat} (i : Nat) (h1 : i < lo.length) (h2 : hi.length = lo.length)
    (h3 : s.length = lo.length) :
    (faceLo lo hi s m).getD i 0 = if 0 < s.getD i 0 then hi.getD i 0 - m else lo.getD i 0 := by
  rw [List.getD_eq_getElem?_getD, getElem?_faceLo i h1 (by omega) (by omega), Option.getD_some, getD_of_lt h1,
    getD_of_lt (by omega), getD_of_lt (by omega)]

theorem getD_faceHi {lo hi : List Nat} {s : List Int} {m : Nat} (i : Nat) (h1 : i < lo.length) (h2 : hi.length = lo.length)
    (h3 : s.length = lo.length) :
    (faceHi lo hi s m).getD i 0 = if s.getD i 0 < 0 then lo.getD i 0 + m else hi.getD i 0 := by
  rw [List.getD_eq_getElem?_getD, getElem?_faceHi i h1 (by omega) (by omega), Option.getD_some, getD_of_lt h1,
    getD_of_lt (by omega), getD_of_lt (by omega)]

namespace Cfg.Good

theorem getD_L (h : c.Good) {i : Nat} (hi : i < c.dims.length) : c.L.getD i 0 = c.dims.getD i 0 / c.d.getD i 0 := by
  have h1 : i < c.L.length := by rw [h.lenL]; exact hi
  have h2 : i < c.d.length := by rw [h.good.length_eq]; exact hi
  rw [getD_of_lt h1, getD_of_lt hi, getD_of_lt h2]
  simp [Cfg.L, localExtents]

theorem getD_lo (h : c.Good) (hx : InGrid c.d x) {i : Nat} (hi : i < c.dims.length) :
    (c.lo x).getD i 0 = x.getD i 0 * (c.dims.getD i 0 / c.d.getD i 0) := by
  have h1 : i < (c.lo x).length := by rw [h.len_lo hx]; exact hi
  have h2 : i < x.length := by rw [h.len_x hx]; exact hi
  have h3 : i < c.L.length := by rw [h.lenL]; exact hi
  rw [← h.getD_L hi, getD_of_lt h1, h.lo_get hx i h1, getD_of_lt h2, getD_of_lt h3]

theorem getD_hi (h : c.Good) (hx : InGrid c.d x) {i : Nat} (hi : i < c.dims.length) :
    (c.hi x).getD i 0 = (x.getD i 0 + 1) * (c.dims.getD i 0 / c.d.getD i 0) := by
  have h1 : i < (c.hi x).length := by rw [h.len_hi hx]; exact hi
  have h2 : i < x.length := by rw [h.len_x hx]; exact hi
  have h3 : i < c.L.length := by rw [h.lenL]; exact hi
  rw [← h.getD_L hi, getD_of_lt h1, h.hi_get hx i h1, getD_of_lt h2, getD_of_lt h3]

theorem dvdD (h : c.Good) {i : Nat} (hi : i < c.dims.length) : c.d.getD i 0 ∣ c.dims.getD i 0 := by
  have h2 : i < c.d.length := by rw [h.good.length_eq]; exact hi
  rw [getD_of_lt hi, getD_of_lt h2]
  exact (List.forall₂_iff_get.1 h.good.valid.1).2 i hi h2

theorem posD (h : c.Good) {i : Nat} (hi : i < c.dims.length) : 0 < c.dims.getD i 0 := by
  rw [getD_of_lt hi]; exact h.good.pos _ (List.getElem_mem hi)

theorem ltD (h : c.Good) (hx : InGrid c.d x) {i : Nat} (hi : i < c.dims.length) : x.getD i 0 < c.d.getD i 0 := by
  have h1 : i < c.d.length := by rw [h.good.length_eq]; exact hi
  have h2 : i < x.length := by rw [h.len_x hx]; exact hi
  rw [getD_of_lt h1, getD_of_lt h2]
  exact (inGrid_iff_getElem.1 hx).2 i h1 h2

theorem boxD (h : c.Good) (hx : InGrid c.d x) {g : List Nat} (hg : InBox (c.lo x) (c.hi x) g) {i : Nat}
    (hi : i < c.dims.length) : x.getD i 0 * (c.dims.getD i 0 / c.d.getD i 0) ≤ g.getD i 0 ∧
      g.getD i 0 < (x.getD i 0 + 1) * (c.dims.getD i 0 / c.d.getD i 0) := by
  have := (inBox_iff_getD.1 hg).2.2 i (by rw [h.len_lo hx]; exact hi)
  rwa [h.getD_lo hx hi, h.getD_hi hx hi] at this

theorem grid (h : c.Good) (hx : InGrid c.d x) {g : List Nat} (hg : InBox (c.lo x) (c.hi x) g) : InGrid c.dims g :=
  sub_inGrid h.good.valid.1 hx hg

end Cfg.Good

theorem unitD {n : Nat} {off : List Int} (hu : UnitOffset n off) (i : Nat) :
    off.getD i 0 = -1 ∨ off.getD i 0 = 0 ∨ off.getD i 0 = 1 := by
  by_cases h : i < off.length
  · rw [getD_of_lt h]; exact hu.2 _ (List.getElem_mem h)
  · right; left; simp [Nat.le_of_not_lt h]

/-- Cell `g` is at the boundary of the sub-domain at `x` towards the offset, along axis `i`. -/
def AtEdge (c : Cfg R) (x g : List Nat) (off : List Int) (i : Nat) : Prop :=
  (off.getD i 0 = 1 ∧ g.getD i 0 + 1 = (x.getD i 0 + 1) * (c.dims.getD i 0 / c.d.getD i 0)) ∨
  (off.getD i 0 = -1 ∧ g.getD i 0 = x.getD i 0 * (c.dims.getD i 0 / c.d.getD i 0))

theorem leave_exists (h : c.Good) (hx : InGrid c.d x) {off : List Int} (hu : UnitOffset c.dims.length off)
    {g : List Nat} (hg : InBox (c.lo x) (c.hi x) g) (hout : ¬ InBox (c.lo x) (c.hi x) (shiftMod c.dims g off)) :
    ∃ a, a < c.dims.length ∧ c.d.getD a 0 ≠ 1 ∧ AtEdge c x g off a := by
  by_contra hcon
  apply hout
  have hgG := h.grid hx hg
  have l := (shiftMod_inGrid hgG hu.1).length_eq
  rw [inBox_iff_getD, h.len_lo hx, h.len_hi hx]
  refine ⟨l, rfl, fun i hi => ?_⟩
  by_contra hno
  apply hcon
  refine ⟨i, hi, ?_⟩
  have b := h.boxD hx hg hi
  rw [getD_shiftMod i hi hgG.length_eq hu.1, h.getD_lo hx hi, h.getD_hi hx hi] at hno
  exact leave_axis (h.dvdD hi) (h.posD hi) (h.ltD hx hi) b.1 b.2 (unitD hu i) hno

theorem edge_all (h : c.Good) (hx : InGrid c.d x) {off : List Int} (hu : UnitOffset c.dims.length off)
    (hh : OneHalo c.d c.L off) {g : List Nat} (hg : InBox (c.lo x) (c.hi x) g)
    (hout : ¬ InBox (c.lo x) (c.hi x) (shiftMod c.dims g off)) (i : Nat) (hi : i < c.dims.length) :
    off.getD i 0 = 0 ∨ AtEdge c x g off i := by
  obtain ⟨a, ha, hda, hba⟩ := leave_exists h hx hu hg hout
  have hoa : off.getD a 0 ≠ 0 := by rcases hba with ⟨e, _⟩ | ⟨e, _⟩ <;> omega
  by_cases e0 : off.getD i 0 = 0
  · exact Or.inl e0
  right
  by_cases eai : a = i
  · subst eai; exact hba
  have hL1 : c.dims.getD i 0 / c.d.getD i 0 = 1 := by
    rw [← h.getD_L hi]
    have h1 : a < c.d.length := by rw [h.good.length_eq]; exact ha
    have h2 : i < c.L.length := by rw [h.lenL]; exact hi
    have := hh a i eai hoa e0
    rw [getD_of_lt h1, getD_of_lt h2] at this
    rw [getD_of_lt h1] at hda
    rw [getD_of_lt h2]
    exact this.resolve_left hda
  have b := h.boxD hx hg hi
  unfold AtEdge
  rw [hL1] at b ⊢
  rcases unitD hu i with e | e | e
  · right; exact ⟨e, by omega⟩
  · exact absurd e e0
  · left; exact ⟨e, by omega⟩

/-- Outside of the sub-domain the displaced cell lies in the window of the neighbour. -/
theorem halo_cell (h : c.Good) (hx : InGrid c.d x) {off : List Int} (hu : UnitOffset c.dims.length off)
    (hh : OneHalo c.d c.L off) {g : List Nat} (hg : InBox (c.lo x) (c.hi x) g)
    (hout : ¬ InBox (c.lo x) (c.hi x) (shiftMod c.dims g off)) :
    InBox (faceLo (c.lo (shiftMod c.d x off)) (c.hi (shiftMod c.d x off)) (sideOf off) 1)
      (faceHi (c.lo (shiftMod c.d x off)) (c.hi (shiftMod c.d x off)) (sideOf off) 1) (shiftMod c.dims g off) := by
  have hol : off.length = c.d.length := by rw [h.good.length_eq]; exact hu.1
  have hgG := h.grid hx hg
  have hyG := shiftMod_inGrid hx hol
  have ls := (shiftMod_inGrid hgG hu.1).length_eq
  have l3 := h.len_lo hyG
  have l4 := h.len_hi hyG
  have l5 : (sideOf off).length = c.dims.length := by rw [length_sideOf]; exact hu.1
  rw [inBox_iff_getD, length_faceLo (by rw [l3, l4]) (by rw [l3, l5]), length_faceHi (by rw [l3, l4]) (by rw [l3, l5]), l3]
  refine ⟨ls, rfl, fun i hi => ?_⟩
  rw [getD_faceLo i (by rw [l3]; exact hi) (by rw [l3, l4]) (by rw [l3, l5]),
    getD_faceHi i (by rw [l3]; exact hi) (by rw [l3, l4]) (by rw [l3, l5]), getD_sideOf,
    getD_shiftMod i hi hgG.length_eq hu.1, h.getD_lo hyG hi, h.getD_hi hyG hi,
    getD_shiftMod i (by rw [h.good.length_eq]; exact hi) hx.length_eq hol]
  have b := h.boxD hx hg hi
  have hk := h.dvdD hi
  have hp := h.posD hi
  have hxi := h.ltD hx hi
  rcases edge_all h hx hu hh hg hout i hi with e | hb
  · rw [e]
    simp only [Int.sign_zero, Int.neg_zero, Int.lt_irrefl, if_false]
    exact adj_axis hk hp hxi b.1 b.2 (Or.inl rfl)
  · have hadj := adj_axis hk hp hxi b.1 b.2 (Or.inr hb)
    have hfa := face_axis hk hp hxi hb
    rcases hb with ⟨e, _⟩ | ⟨e, _⟩
    · have := hfa.1 e
      rw [e] at hadj this ⊢
      have sg : -(1 : Int).sign = -1 := by decide
      rw [sg, if_neg (by decide : ¬ (0 : Int) < -1), if_pos (by decide : (-1 : Int) < 0)]
      omega
    · have := hfa.2 e
      rw [e] at hadj this ⊢
      have sg : -(-1 : Int).sign = 1 := by decide
      rw [sg, if_pos (by decide : (0 : Int) < 1), if_neg (by decide : ¬ (1 : Int) < 0)]
      omega

/-! The number of cells of a window is the same on every rank. -/

/-- Extents of a window. -/
theorem face_extents (h : c.Good) {z : List Nat} (hz : InGrid c.d z) {s : List Int} {m : Nat} (hf : WinTab.Fits c.L s m) :
    extents (faceLo (c.lo z) (c.hi z) s m) (faceHi (c.lo z) (c.hi z) s m) =
      List.zipWith (fun l (s : Int) => if s = 0 then l else m) c.L s := by
  have l1 := h.len_lo hz
  have l2 := h.len_hi hz
  have l3 := h.lenL
  have l4 := hf.1
  have l5 : (faceLo (c.lo z) (c.hi z) s m).length = c.dims.length := by rw [length_faceLo (by omega) (by omega), l1]
  have l6 : (faceHi (c.lo z) (c.hi z) s m).length = c.dims.length := by rw [length_faceHi (by omega) (by omega), l1]
  apply List.ext_getElem
  · simp [extents, l5, l6, l3, l4]
  intro i h1 h2
  have hi : i < c.dims.length := by simp [l3, l4] at h2; exact h2
  have e1 := getElem?_faceLo (lo := c.lo z) (hi := c.hi z) (s := s) (m := m) i (by omega) (by omega) (by omega)
  have e2 := getElem?_faceHi (lo := c.lo z) (hi := c.hi z) (s := s) (m := m) i (by omega) (by omega) (by omega)
  rw [List.getElem?_eq_getElem (by omega), Option.some_inj] at e1 e2
  simp only [extents, List.getElem_zipWith]
  rw [e1, e2, h.lo_get hz i (by omega), h.hi_get hz i (by omega), Nat.add_mul, Nat.one_mul]
  have hfi := hf.2 i (by omega) (by omega)
  generalize z[i]'(by rw [h.len_x hz]; exact hi) * c.L[i]'(by omega) = q
  generalize c.L[i]'(by omega) = l at *
  generalize s[i]'(by omega) = si at *
  by_cases e0 : si = 0
  · simp [e0]
  · rw [if_neg e0]
    have := hfi e0
    split <;> split <;> omega

theorem winVol_indep (h : c.Good) {y : List Nat} (hx : InGrid c.d x) (hy : InGrid c.d y) {s : List Int} {m : Nat}
    (hf : WinTab.Fits c.L s m) : winVol c x s m = winVol c y s m := by
  unfold winVol volume
  rw [face_extents h hx hf, face_extents h hy hf]

/-! The window table of a stencil of unit offsets. -/

theorem ghostWidth_unit {n : Nat} {off : List Int} (hu : UnitOffset n off) (h0 : off.countP (· ≠ 0) ≠ 0) :
    ghostWidth off = 1 := by
  unfold ghostWidth
  have key : ∀ (l : List Int) (m : Nat), (∀ o ∈ l, o = -1 ∨ o = 0 ∨ o = 1) → m ≤ 1 →
      l.foldl (fun m o => max m o.natAbs) m = if m = 1 ∨ l.countP (· ≠ 0) ≠ 0 then 1 else 0 := by
    intro l
    induction l with
    | nil => intro m _ hm; simp; split <;> omega
    | cons o l ih =>
      intro m hl hm
      simp only [List.foldl_cons]
      have ho := hl o (by simp)
      rw [ih _ (fun o' h' => hl o' (by simp [h'])) (by rcases ho with rfl | rfl | rfl <;> simp <;> omega)]
      rw [List.countP_cons]
      rcases ho with rfl | rfl | rfl
      · have : max m (Int.natAbs (-1)) = 1 := by simp; omega
        rw [this]; simp
      · have : max m (Int.natAbs 0) = m := by simp
        rw [this]; simp
      · have : max m (Int.natAbs 1) = 1 := by simp; omega
        rw [this]; simp
  rw [key off 0 hu.2 (by omega), if_pos (Or.inr h0)]

theorem sideOf_zero_iff (off : List Int) : (∀ s ∈ sideOf off, s = 0) ↔ off.countP (· ≠ 0) = 0 := by
  rw [List.countP_eq_zero]
  simp only [sideOf, List.mem_map, forall_exists_index, and_imp, forall_apply_eq_imp_iff₂]
  constructor
  · intro h o ho
    have := h o ho
    have : o.sign = 0 := by omega
    simp [Int.sign_eq_zero_iff_zero.1 this]
  · intro h o ho
    have := h o ho
    simp only [ne_eq, decide_not, Bool.not_eq_true', decide_eq_false_iff_not, not_not] at this
    simp [this]

/-- What the table knows after some offsets. -/
theorem tab_fold (l : List (List Int)) :
    let t := l.foldl WinTab.step WinTab.empty
    (∀ o ∈ l, o.countP (· ≠ 0) ≠ 0 → ∃ w, StdMap.find t.wins (sideOf o) = some w) ∧
    (∀ s w, StdMap.find t.wins s = some w → ∃ o ∈ l, o.countP (· ≠ 0) ≠ 0 ∧ s = sideOf o) ∧
    (∀ s m, StdMap.find t.gh s = some m → ∃ o ∈ l, o.countP (· ≠ 0) ≠ 0 ∧ s = sideOf o ∧ m = ghostWidth o) := by
  intro t
  have key : ∀ (post pre : List (List Int)) (t : WinTab),
      ((∀ o ∈ pre, o.countP (· ≠ 0) ≠ 0 → ∃ w, StdMap.find t.wins (sideOf o) = some w) ∧
       (∀ s w, StdMap.find t.wins s = some w → ∃ o ∈ pre, o.countP (· ≠ 0) ≠ 0 ∧ s = sideOf o) ∧
       (∀ s m, StdMap.find t.gh s = some m → ∃ o ∈ pre, o.countP (· ≠ 0) ≠ 0 ∧ s = sideOf o ∧ m = ghostWidth o)) →
      ((∀ o ∈ pre ++ post, o.countP (· ≠ 0) ≠ 0 → ∃ w, StdMap.find (post.foldl WinTab.step t).wins (sideOf o) = some w) ∧
       (∀ s w, StdMap.find (post.foldl WinTab.step t).wins s = some w →
          ∃ o ∈ pre ++ post, o.countP (· ≠ 0) ≠ 0 ∧ s = sideOf o) ∧
       (∀ s m, StdMap.find (post.foldl WinTab.step t).gh s = some m →
          ∃ o ∈ pre ++ post, o.countP (· ≠ 0) ≠ 0 ∧ s = sideOf o ∧ m = ghostWidth o)) := by
    intro post
    induction post with
    | nil => intro pre t h; simpa using h
    | cons o post ih =>
      intro pre t ⟨h1, h2, h3⟩
      rw [show pre ++ o :: post = (pre ++ [o]) ++ post by simp, List.foldl_cons]
      apply ih
      unfold WinTab.step
      by_cases h0 : o.countP (· ≠ 0) = 0
      · rw [if_pos h0]
        refine ⟨?_, ?_, ?_⟩
        · intro o' ho' hn
          rcases List.mem_append.1 ho' with h | h
          · exact h1 o' h hn
          · rw [List.mem_singleton.1 h] at hn; exact absurd h0 hn
        · intro s w e
          obtain ⟨o', a, b⟩ := h2 s w e
          exact ⟨o', by simp [a], b⟩
        · intro s w e
          obtain ⟨o', a, b⟩ := h3 s w e
          exact ⟨o', by simp [a], b⟩
      · rw [if_neg h0]
        refine ⟨?_, ?_, ?_⟩
        · intro o' ho' hn
          simp only [StdMap.find_insert]
          split
          · exact ⟨_, rfl⟩
          · rename_i hne
            rcases List.mem_append.1 ho' with h | h
            · exact h1 o' h hn
            · rw [List.mem_singleton.1 h] at hne; exact absurd rfl hne
        · intro s w e
          simp only [StdMap.find_insert] at e
          split at e
          · exact ⟨o, by simp, h0, by assumption⟩
          · obtain ⟨o', a, b⟩ := h2 s w e
            exact ⟨o', by simp [a], b⟩
        · intro s w e
          simp only [StdMap.find_insert] at e
          split at e
          · rename_i hs
            cases hg : StdMap.find t.gh (sideOf o) with
            | none =>
              rw [hg] at e
              simp at e
              exact ⟨o, by simp, h0, hs, e.symm⟩
            | some m =>
              rw [hg] at e
              simp at e
              obtain ⟨o', a, b, b1, b2⟩ := h3 _ _ hg
              exact ⟨o', by simp [a], b, by rw [hs]; exact b1, by rw [← e]; exact b2⟩
          · obtain ⟨o', a, b⟩ := h3 s w e
            exact ⟨o', by simp [a], b⟩
  have := key l [] WinTab.empty ⟨by simp, by intro s w e; simp [WinTab.empty, StdMap.find] at e,
    by intro s w e; simp [WinTab.empty, StdMap.find] at e⟩
  simpa using this

end Fidi
