import Verif.Lemmas.FilterWrap

/-
The filter on any number of processes, for any extents: a negative index that is reduced to a cell of another process makes
the code read outside of the data received.
-/
namespace Fidi
open Spec

/-! Positions of tuples that need not be in the box. -/

theorem dot_single {ss xs : List Nat} {j : Nat} (hj : j < ss.length) (hl : xs.length = ss.length)
    (h0 : ∀ i, i < xs.length → i ≠ j → xs.getD i 0 = 0) : dot ss xs = ss.getD j 0 * xs.getD j 0 := by
  induction ss generalizing xs j with
  | nil => simp at hj
  | cons s ss ih =>
    cases xs with
    | nil => simp at hl
    | cons y xs =>
      have hz : ∀ (l : List Nat) (m : List Nat), (∀ i, i < m.length → m.getD i 0 = 0) → dot l m = 0 := by
        intro l
        induction l with
        | nil => intro m _; simp [dot]
        | cons a l ih' =>
          intro m hm
          cases m with
          | nil => simp [dot]
          | cons b m =>
            have b0 := hm 0 (by simp)
            have := ih' m (fun i hi => by have := hm (i + 1) (by simpa using hi); simpa using this)
            unfold dot at this ⊢
            simp only [List.zipWith_cons_cons, List.sum_cons, this]
            simp at b0
            simp [b0]
      have e : dot (s :: ss) (y :: xs) = s * y + dot ss xs := by simp [dot]
      rw [e]
      cases j with
      | zero =>
        rw [hz ss xs (fun i hi => by have := h0 (i + 1) (by simpa using hi) (by omega); simpa using this)]
        simp
      | succ j =>
        have y0 := h0 0 (by simp) (by omega)
        simp at y0
        rw [ih (j := j) (by simpa using hj) (by simpa using hl)
          (fun i hi hne => by have := h0 (i + 1) (by simpa using hi) (by omega); simpa using this), y0]
        simp

theorem prod_take_mul_le {es ds : List Nat} {j : Nat} (hj : j < ds.length) (hl : es.length = ds.length)
    (hle : ∀ i, i < ds.length → es.getD i 0 ≤ ds.getD i 0) (hp : ∀ n ∈ ds, 0 < n) :
    (es.take j).prod * ds.getD j 0 ≤ ds.prod := by
  induction ds generalizing es j with
  | nil => simp at hj
  | cons d ds ih =>
    cases es with
    | nil => simp at hl
    | cons e es =>
      have hpd : 0 < ds.prod := prod_pos_of fun n hn => hp n (by simp [hn])
      cases j with
      | zero => simpa using Nat.le_mul_of_pos_right d hpd
      | succ j =>
        have h0 := hle 0 (by simp)
        simp at h0
        have := ih (es := es) (j := j) (by simpa using hj) (by simpa using hl)
          (fun i hi => by have := hle (i + 1) (by simpa using hi); simpa using this) (fun n hn => hp n (by simp [hn]))
        simp only [List.take_succ_cons, List.prod_cons, List.getD_cons_succ]
        rw [Nat.mul_assoc]
        exact Nat.mul_le_mul h0 this

theorem itAt_bigInt_any {lo hi t : List Nat} (hb : BoxLt lo hi) (hv : volume lo hi < W) (hl : t.length = lo.length)
    (ht : ∀ n ∈ t, n < W) (k : Nat) : (itAt lo hi k).computeBigIndexInt (t.map fun n : Nat => (n : Int)) =
      .ok (intOfSz (dot (strides false (extents lo hi)) (List.zipWith (fun x l => szSub x l) t lo) % W)) := by
  unfold itAt
  rw [builtIter_eq false hb hv]
  unfold MultiArrayIter.computeBigIndexInt
  rw [bigIndexAcc_eq _ _ _ (by simp [hb.length_extents]) rfl (by simp [hl])]
  have e : List.zipWith (fun (x : Int) l => szSub (szOfInt x) l) (t.map fun n : Nat => (n : Int)) lo =
      List.zipWith (fun x l => szSub x l) t lo := by
    apply List.ext_getElem (by simp)
    intro i h1 h2
    simp only [List.getElem_zipWith, List.getElem_map]
    rw [szOfInt_ofNat (ht _ (List.getElem_mem _))]
  simp only [M.ok_bind]
  rw [e]
  rfl

theorem szSub_wrap {a b : Nat} (h : a < b) (hb : b < W) : szSub a b = W - (b - a) := by
  unfold szSub
  rw [Nat.mod_eq_of_lt hb, Nat.mod_eq_of_lt (by omega)]
  omega

theorem szSub_zero {a : Nat} (h : a < W) : szSub a 0 = a := by
  unfold szSub
  rw [Nat.zero_mod, Nat.sub_zero, Nat.add_mod_right, Nat.mod_eq_of_lt h]

/-- A stride times a distance below the box, modulo 2^64. -/
theorem mul_wrap {s q : Nat} (h0 : 0 < s * q) (h1 : s * q < W) : s * (W - q) % W = W - s * q := by
  have hs : 0 < s := Nat.pos_of_mul_pos_right h0
  have hq : q ≤ W := Nat.le_of_lt (Nat.lt_of_le_of_lt (Nat.le_mul_of_pos_left q hs) h1)
  obtain ⟨s, rfl⟩ : ∃ s', s = s' + 1 := ⟨s - 1, by omega⟩
  have e : (s + 1) * (W - q) = (W - (s + 1) * q) + W * s := by
    rw [Nat.mul_sub]
    have : (s + 1) * W = W * s + W := by ring
    omega
  rw [e, Nat.add_mul_mod_self_left, Nat.mod_eq_of_lt (by omega)]

theorem intOfSz_wrap {q : Nat} (h0 : 0 < q) (h1 : q ≤ 2 ^ 31) : intOfSz (W - q) = -(q : Int) := by
  unfold intOfSz
  have e : ((W - q : Nat) : Int) = -(q : Int) + (W32 : Int) * 2 ^ 32 := by unfold W W32; omega
  rw [e, Int.add_mul_bmod_self_left, Int.bmod_eq_of_le] <;> (unfold W32; omega)

theorem szOfInt_neg {q : Nat} (h0 : 0 < q) (h1 : q < W) : szOfInt (-(q : Int)) = W - q := by
  unfold szOfInt
  rw [← Int.add_emod_right, Int.emod_eq_of_lt (by omega) (by omega)]
  omega

/-! The first process. -/

variable {R : Type} {c : Cfg R} {f : Filter R}

/-- Coordinates of the first process, and the first cell. -/
def Cfg.first (c : Cfg R) : List Nat := List.replicate c.dims.length 0

theorem first_getD (i : Nat) : c.first.getD i 0 = 0 := by
  unfold Cfg.first
  by_cases h : i < c.dims.length
  · simp [h]
  · simp [Nat.le_of_not_lt h]

theorem first_grid (h : c.Good) : InGrid c.d c.first := by
  refine inGrid_iff_getElem.2 ⟨by simp [Cfg.first, h.good.length_eq], fun i h1 h2 => ?_⟩
  have := h.good.d_pos _ (List.getElem_mem h1)
  simpa [Cfg.first] using this

theorem first_lo (h : c.Good) : c.lo c.first = c.first := by
  have hx := first_grid h
  apply ext_of_getElem? (by rw [h.len_lo hx]; simp [Cfg.first])
  intro i hi
  have hi' : i < c.dims.length := by simpa [Cfg.first] using hi
  have e1 := h.getD_lo hx hi'
  rw [first_getD, Nat.zero_mul, getD_of_lt (by rw [h.len_lo hx]; exact hi')] at e1
  have e2 : c.first.getD i 0 = 0 := first_getD i
  rw [getD_of_lt hi] at e2
  rw [List.getElem?_eq_getElem (by rw [h.len_lo hx]; exact hi'), List.getElem?_eq_getElem hi, e1, e2]

theorem first_hi (h : c.Good) {i : Nat} (hi : i < c.dims.length) : (c.hi c.first).getD i 0 = c.L.getD i 0 := by
  rw [h.getD_hi (first_grid h) hi, first_getD, h.getD_L hi, Nat.zero_add, Nat.one_mul]

theorem first_cell (h : c.Good) : InBox (c.lo c.first) (c.hi c.first) c.first := by
  have hx := first_grid h
  rw [inBox_iff_getD, h.len_lo hx, h.len_hi hx]
  refine ⟨by simp [Cfg.first], rfl, fun i hi => ?_⟩
  rw [first_lo h, first_hi h hi, first_getD]
  have h1 : i < c.L.length := by rw [h.lenL]; exact hi
  refine ⟨Nat.le_refl _, ?_⟩
  rw [getD_of_lt h1]
  exact h.lpos _ (List.getElem_mem h1)

theorem tupleAt_first {lo hi : List Nat} (hb : BoxLt lo hi) : tupleAt false lo hi 0 = lo := by
  unfold tupleAt
  have hl := hb.length_extents
  apply ext_of_getElem? (by simp [digitsOf, hl])
  intro i hi'
  have h1 : i < (digitsOf (strides false (extents lo hi)) (extents lo hi) 0).length := by simp [digitsOf, hl, hi']
  rw [List.getElem?_zipWith, List.getElem?_eq_getElem hi', List.getElem?_eq_getElem h1]
  simp [digitsOf]

/-! Offsets along one axis. -/

theorem neg_axis {n : Nat} {off : List Int} (ha : AxisOffset n off) {j : Nat} (hj : off.getD j 0 < 0) :
    j < n ∧ off.getD j 0 = -1 ∧ ∀ i, i ≠ j → off.getD i 0 = 0 := by
  have hu := axis_unit ha
  refine ⟨?_, by rcases unitD hu j with e | e | e <;> omega, ?_⟩
  · by_contra hc
    rw [List.getD_eq_getElem?_getD, List.getElem?_eq_none (by rw [hu.1]; omega)] at hj
    simp at hj
  · obtain ⟨a, ha'⟩ := ha.2.2
    have : j = a := by
      by_contra hc
      rw [ha' j hc] at hj
      omega
    subst this
    exact ha'

theorem wrap_minus : ((((0 : Nat) : Int) + -1) % 2 ^ 64).toNat = 2 ^ 64 - 1 := by decide

theorem wrap_same {g n : Nat} (hg : g < n) (hn : n < 2 ^ 31) : (((g : Int) + 0) % 2 ^ 64).toNat % n = g := by
  rw [Int.add_zero, Int.emod_eq_of_lt (by omega) (by omega), Int.toNat_natCast, Nat.mod_eq_of_lt hg]

/-- If the wrapped index is a cell of the first sub-domain, the code reads that cell. -/
theorem cell_local (h : c.Unit) {kv : List Int × R} (hkv : kv ∈ c.st) (ha : AxisOffset c.dims.length kv.1)
    (hl : WrapLocal c.dims c.d kv.1) {x : List Nat} (hx : InGrid c.d x) (g : List Nat) (hg : InBox (c.lo x) (c.hi x) g)
    (hn : ¬ InBox (c.lo x) (c.hi x) (shift64 c.dims g kv.1)) : shift64 c.dims g kv.1 = shiftMod c.dims g kv.1 := by
  have hu := h.unit kv hkv
  have hG := h.toGood.grid hx hg
  have l1 := (shift64_inGrid hG hu.1).length_eq
  have l2 := (shiftMod_inGrid hG hu.1).length_eq
  by_contra hne
  -- an axis along which the two displaced cells differ
  have hex : ∃ j, j < c.dims.length ∧ (shift64 c.dims g kv.1).getD j 0 ≠ (shiftMod c.dims g kv.1).getD j 0 := by
    by_contra hc
    apply hne
    apply ext_of_getElem? (by rw [l1, l2])
    intro i hi
    have := not_exists.1 hc i
    rw [not_and, not_not] at this
    have := this (by omega)
    rw [getD_of_lt (by omega), getD_of_lt (by omega)] at this
    rw [List.getElem?_eq_getElem (by omega), List.getElem?_eq_getElem (by omega), this]
  obtain ⟨j, hj, hd⟩ := hex
  rw [getD_shift64 j hj hG.length_eq hu.1, getD_shiftMod j hj hG.length_eq hu.1] at hd
  have hgj : g.getD j 0 < c.dims.getD j 0 := by
    rw [getD_of_lt hj, getD_of_lt (by rw [hG.length_eq]; exact hj)]
    exact (inGrid_iff_getElem.1 hG).2 j hj _
  have hnj : c.dims.getD j 0 < 2 ^ 31 := by rw [getD_of_lt hj]; exact h.dint _ (List.getElem_mem hj)
  have e01 : c.dims.getD j 1 = c.dims.getD j 0 := by rw [getD_of_lt hj, getD_of_lt hj]
  have hneg : kv.1.getD j 0 < 0 := by
    by_contra hc
    exact hd (wrap64_eq hgj hnj (unitD hu j) fun h' => absurd h' hc)
  have hnd : ¬ c.dims.getD j 0 ∣ 2 ^ 64 := fun h' => hd (wrap64_eq hgj hnj (unitD hu j) fun _ => h')
  obtain ⟨_, em, e0⟩ := neg_axis ha hneg
  -- cell 0 along the axis
  have hg0 : g.getD j 0 = 0 := by
    by_contra hc
    apply hd
    rw [em]
    obtain ⟨a, ha'⟩ : ∃ a : Nat, g.getD j 0 = a + 1 := ⟨g.getD j 0 - 1, by omega⟩
    have e1 : ((g.getD j 0 : Nat) : Int) + -1 = (a : Int) := by omega
    rw [e1, Int.emod_eq_of_lt (by omega) (by omega), Int.emod_eq_of_lt (by omega) (by omega), Int.toNat_natCast,
      Nat.mod_eq_of_lt (by omega)]
  have hw := (hl j hneg).resolve_left (by rw [e01]; exact hnd)
  apply hn
  rw [inBox_iff_getD, h.toGood.len_lo hx, h.toGood.len_hi hx]
  refine ⟨l1, rfl, fun i hi => ?_⟩
  have hb := (inBox_iff_getD.1 hg).2.2 i (by rw [h.toGood.len_lo hx]; exact hi)
  rw [getD_shift64 i hi hG.length_eq hu.1]
  by_cases eij : i = j
  · subst eij
    rw [hg0, em, wrap_minus]
    rw [hg0] at hb
    have hx0 : x.getD i 0 = 0 := by
      have b1 := h.toGood.getD_lo hx hi
      have b2 : 0 < c.L.getD i 0 := by
        have h1 : i < c.L.length := by rw [h.toGood.lenL]; exact hi
        rw [getD_of_lt h1]
        exact h.toGood.lpos _ (List.getElem_mem h1)
      rw [h.toGood.getD_L hi] at b2
      have b3 : (c.lo x).getD i 0 = 0 := by omega
      rw [b1] at b3
      rcases Nat.mul_eq_zero.1 b3 with h' | h'
      · exact h'
      · omega
    rw [h.toGood.getD_lo hx hi, h.toGood.getD_hi hx hi, hx0, Nat.zero_mul, Nat.zero_add, Nat.one_mul, ← h.toGood.getD_L hi]
    rw [e01] at hw
    refine ⟨Nat.zero_le _, ?_⟩
    have h1 : i < c.L.length := by rw [h.toGood.lenL]; exact hi
    have e2 : c.L.getD i 1 = c.L.getD i 0 := by rw [getD_of_lt h1, getD_of_lt h1]
    rw [← e2]
    exact hw
  · rw [e0 i eij]
    have hgi : g.getD i 0 < c.dims.getD i 0 := by
      rw [getD_of_lt hi, getD_of_lt (by rw [hG.length_eq]; exact hi)]
      exact (inGrid_iff_getElem.1 hG).2 i hi _
    rw [wrap_same hgi (by rw [getD_of_lt hi]; exact h.dint _ (List.getElem_mem hi))]
    exact hb

/-! The entry of the stencil that fails. -/

theorem layer_lo (h : c.Good) {off : List Int} (hu : UnitOffset c.dims.length off) {j : Nat} (hj : j < c.dims.length)
    (em : off.getD j 0 = -1) (e0 : ∀ i, i ≠ j → off.getD i 0 = 0) {i : Nat} (hi : i < c.dims.length) :
    (faceLo (c.lo (shiftMod c.d c.first off)) (c.hi (shiftMod c.d c.first off)) (sideOf off) 1).getD i 0 =
      if i = j then c.dims.getD j 0 - 1 else 0 := by
  have hx := first_grid h
  have hol : off.length = c.d.length := by rw [h.good.length_eq]; exact hu.1
  have hyG := shiftMod_inGrid hx hol
  have l3 := h.len_lo hyG
  have l4 := h.len_hi hyG
  have l5 : (sideOf off).length = c.dims.length := by rw [length_sideOf]; exact hu.1
  rw [getD_faceLo i (by rw [l3]; exact hi) (by rw [l3, l4]) (by rw [l3, l5]), getD_sideOf, h.getD_lo hyG hi,
    h.getD_hi hyG hi, getD_shiftMod i (by rw [h.good.length_eq]; exact hi) hx.length_eq hol, first_getD]
  have hd : 0 < c.d.getD i 0 := by
    have h1 : i < c.d.length := by rw [h.good.length_eq]; exact hi
    rw [getD_of_lt h1]
    exact h.good.d_pos _ (List.getElem_mem h1)
  by_cases eij : i = j
  · subst eij
    have sg : -(-1 : Int).sign = 1 := by decide
    have e1 : (((0 : Nat) : Int) + -1) = -1 := by norm_num
    rw [em, sg, if_pos (by decide), if_pos rfl, e1, ← Int.add_emod_right, Int.emod_eq_of_lt (by omega) (by omega)]
    have e2 : (-1 + (c.d.getD i 0 : Int)).toNat + 1 = c.d.getD i 0 := by omega
    rw [e2, Nat.mul_div_cancel' (h.dvdD hi)]
  · rw [e0 i eij, if_neg eij, if_neg (by decide)]
    simp

variable [Add R] [Mul R]

theorem entry_error (h : c.Unit) {u : List Nat → R} {get : Filter.Getter R} (hget : Serves c u get)
    (hf : Holds c c.first u f) (hcells : c.dims.prod ≤ 2 ^ 31) {kv : List Int × R} (hkv : kv ∈ c.st)
    (ha : AxisOffset c.dims.length kv.1) (hl : ¬ WrapLocal c.dims c.d kv.1) :
    f.applyEntry get kv = .error .outOfBounds := by
  have hg := h.toGood
  have hx := first_grid hg
  have hu := h.unit kv hkv
  have hyG := shiftMod_inGrid hx (h.offLen hkv)
  -- the axis
  have hex : ∃ j, kv.1.getD j 0 < 0 ∧ ¬ c.dims.getD j 1 ∣ 2 ^ 64 ∧ c.L.getD j 1 ≤ (2 ^ 64 - 1) % c.dims.getD j 1 := by
    by_contra hc
    apply hl
    intro i hi
    have := not_exists.1 hc i
    by_cases h1 : c.dims.getD i 1 ∣ 2 ^ 64
    · exact Or.inl h1
    · right
      by_contra h2
      exact this ⟨hi, h1, by exact Nat.le_of_not_lt h2⟩
  obtain ⟨j, hneg, hnd, hL⟩ := hex
  obtain ⟨hj, em, e0⟩ := neg_axis ha hneg
  have hjL : j < c.L.length := by rw [hg.lenL]; exact hj
  rw [getD_of_lt hj, ← getD_of_lt (z := 0) hj] at hnd hL
  rw [getD_of_lt hjL, ← getD_of_lt (z := 0) hjL] at hL
  have hnpos : 0 < c.dims.getD j 0 := hg.posD hj
  have hnj : c.dims.getD j 0 < 2 ^ 31 := by rw [getD_of_lt hj]; exact h.dint _ (List.getElem_mem hj)
  have hwlt : (2 ^ 64 - 1) % c.dims.getD j 0 < c.dims.getD j 0 - 1 := by
    have h1 := Nat.mod_lt (2 ^ 64 - 1) hnpos
    have h2 : (2 ^ 64 - 1) % c.dims.getD j 0 ≠ c.dims.getD j 0 - 1 := fun e => hnd ((wrap_neg_iff hnpos).1 e)
    omega
  generalize hwdef : (2 ^ 64 - 1) % c.dims.getD j 0 = w at hL hwlt
  -- the cell read
  have hcG := hg.grid hx (first_cell hg)
  have tl := (shift64_inGrid hcG hu.1).length_eq
  have ht : ∀ i, i < c.dims.length → (shift64 c.dims c.first kv.1).getD i 0 = if i = j then w else 0 := by
    intro i hi
    rw [getD_shift64 i hi hcG.length_eq hu.1, first_getD]
    by_cases eij : i = j
    · subst eij
      rw [em, wrap_minus, if_pos rfl, hwdef]
    · rw [e0 i eij, if_neg eij]
      simp
  have hout : ¬ InBox (c.lo c.first) (c.hi c.first) (shift64 c.dims c.first kv.1) := by
    intro hb
    have := ((inBox_iff_getD.1 hb).2.2 j (by rw [hg.len_lo hx]; exact hj)).2
    rw [ht j hj, if_pos rfl, first_hi hg hj] at this
    omega
  -- the window
  have h0 : kv.1.countP (· ≠ 0) ≠ 0 := by
    intro h0
    have hjl : j < kv.1.length := by rw [hu.1]; exact hj
    have := List.countP_eq_zero.1 h0 _ (List.getElem_mem hjl)
    rw [getD_of_lt hjl] at em
    rw [em] at this
    simp at this
  obtain ⟨wi, hw, hgh⟩ := h.window hkv h0
  have hfit := h.fits hkv
  rw [hgh, Option.getD_some] at hfit
  have hbox := (hg.face hyG hfit).boxLt (hg.box hyG)
  have l3 := hg.len_lo hyG
  have l4 := hg.len_hi hyG
  have l5 : (sideOf kv.1).length = c.dims.length := by rw [length_sideOf]; exact hu.1
  have lfl : (faceLo (c.lo (shiftMod c.d c.first kv.1)) (c.hi (shiftMod c.d c.first kv.1)) (sideOf kv.1) 1).length =
      c.dims.length := by rw [length_faceLo (by rw [l3, l4]) (by rw [l3, l5]), l3]
  have lfh : (faceHi (c.lo (shiftMod c.d c.first kv.1)) (c.hi (shiftMod c.d c.first kv.1)) (sideOf kv.1) 1).length =
      c.dims.length := by rw [length_faceHi (by rw [l3, l4]) (by rw [l3, l5]), l3]
  have hvol : winVol c (shiftMod c.d c.first kv.1) (sideOf kv.1) 1 < 2 ^ 31 := by
    have := winVol_le hg hyG hfit
    have := h.loc
    omega
  have hlo := fun i hi => layer_lo (i := i) hg hu hj em e0 hi
  have hhi : ∀ i, i < c.dims.length → (faceHi (c.lo (shiftMod c.d c.first kv.1)) (c.hi (shiftMod c.d c.first kv.1))
      (sideOf kv.1) 1).getD i 0 ≤ c.dims.getD i 0 := by
    intro i hi
    rw [getD_faceHi i (by rw [l3]; exact hi) (by rw [l3, l4]) (by rw [l3, l5]), getD_sideOf, if_neg, hg.getD_hi hyG hi]
    · calc _ ≤ c.d.getD i 0 * (c.dims.getD i 0 / c.d.getD i 0) := Nat.mul_le_mul_right _ (hg.ltD hyG hi)
        _ = c.dims.getD i 0 := Nat.mul_div_cancel' (hg.dvdD hi)
    · by_cases eij : i = j
      · subst eij; rw [em]; decide
      · rw [e0 i eij]; decide
  have hgetbuf := hget _ hyG _ _ _ hw hgh
  generalize hF : faceLo (c.lo (shiftMod c.d c.first kv.1)) (c.hi (shiftMod c.d c.first kv.1)) (sideOf kv.1) 1 = FL
    at hbox lfl hlo hgetbuf
  generalize hF2 : faceHi (c.lo (shiftMod c.d c.first kv.1)) (c.hi (shiftMod c.d c.first kv.1)) (sideOf kv.1) 1 = FH
    at hbox lfh hhi hgetbuf
  have hwv : winVol c (shiftMod c.d c.first kv.1) (sideOf kv.1) 1 = volume FL FH := by unfold winVol; rw [hF, hF2]
  -- the index in the window
  have lel : (extents FL FH).length = c.dims.length := by rw [hbox.length_extents, lfl]
  obtain ⟨X, hX0, hX1, hidx⟩ : ∃ X : Nat, 0 < X ∧ X ≤ 2 ^ 31 ∧ (itAt FL FH 0).computeBigIndexInt
      ((shift64 c.dims c.first kv.1).map fun n : Nat => (n : Int)) = .ok (-(X : Int)) := by
    have hstr : (strides false (extents FL FH)).getD j 0 = ((extents FL FH).take j).prod := by
      have := strides_getElem? false (extents FL FH) j (by rw [lel]; exact hj)
      rw [List.getD_eq_getElem?_getD, this]
      rfl
    have hS : 0 < ((extents FL FH).take j).prod :=
      prod_pos_of fun d hd => hbox.extents_pos d (List.mem_of_mem_take hd)
    have hle : ((extents FL FH).take j).prod * c.dims.getD j 0 ≤ c.dims.prod := by
      refine prod_take_mul_le hj lel (fun i hi => ?_) hg.good.pos
      have e : (extents FL FH).getD i 0 = FH.getD i 0 - FL.getD i 0 := by
        rw [getD_of_lt (by rw [lel]; exact hi), getD_of_lt (by omega), getD_of_lt (by omega)]
        simp [extents]
      rw [e]
      have := hhi i hi
      omega
    have hlt : ((extents FL FH).take j).prod * (c.dims.getD j 0 - 1 - w) ≤ 2 ^ 31 :=
      Nat.le_trans (Nat.mul_le_mul_left _ (by omega)) (Nat.le_trans hle hcells)
    have hpos : 0 < ((extents FL FH).take j).prod * (c.dims.getD j 0 - 1 - w) := Nat.mul_pos hS (by omega)
    refine ⟨_, hpos, hlt, ?_⟩
    rw [itAt_bigInt_any hbox (by rw [← hwv]; unfold W; omega) (by rw [tl, lfl])]
    · have lz : (List.zipWith (fun x l => szSub x l) (shift64 c.dims c.first kv.1) FL).length = c.dims.length := by
        simp [tl, lfl]
      have hz : ∀ i, i < c.dims.length → (List.zipWith (fun x l => szSub x l) (shift64 c.dims c.first kv.1) FL).getD i 0 =
          if i = j then W - (c.dims.getD j 0 - 1 - w) else 0 := by
        intro i hi
        have e1 := ht i hi
        have e2 := hlo i hi
        rw [getD_of_lt (by omega)] at e1 e2
        rw [getD_of_lt (by omega), List.getElem_zipWith, e1, e2]
        by_cases eij : i = j
        · rw [if_pos eij, if_pos eij, if_pos eij, szSub_wrap hwlt (by unfold W; omega)]
        · rw [if_neg eij, if_neg eij, if_neg eij, szSub_zero (by decide)]
      rw [dot_single (j := j) (by rw [length_strides, lel]; exact hj) (by rw [lz, length_strides, lel])
        (fun i hi hne => by rw [hz i (by omega), if_neg hne]), hz j hj, if_pos rfl, hstr,
        mul_wrap hpos (by unfold W; omega), intOfSz_wrap hpos hlt]
    · intro n hn
      obtain ⟨i, hi, rfl⟩ := List.mem_iff_getElem.1 hn
      have e1 := ht i (by omega)
      rw [getD_of_lt hi] at e1
      rw [e1]
      split
      · unfold W; omega
      · decide
  -- the call
  unfold Filter.applyEntry
  rw [prepare_eq h hx hf.shape hkv, M.ok_bind]
  dsimp only
  have hs1 := hf.shape.setDcmp (rankOf c.d (shiftMod c.d c.first kv.1))
  generalize hf1 : ({ f with dcmp := movedDecomp c.nprocs c.dims c.d (rankOf c.d (shiftMod c.d c.first kv.1)) } : Filter R)
    = f1 at hs1 ⊢
  have dw : f.windows = c.tab.wins := hf.shape.wins
  rw [dw, hw]
  dsimp only
  have hvi := winVol_indep hg hx hyG hfit
  have hfetch := fetch_eq hg hx hs1 (sideOf kv.1) wi 1 hw hgh get
    ((rankOf c.d (shiftMod c.d c.first kv.1) : Nat) : Int) ((boxData FL FH u).map some)
    (by rw [List.length_map, length_boxData, hvi, hwv]) (by rw [hvi]; exact hgetbuf)
  rw [hfetch, M.ok_bind]
  dsimp only
  obtain ⟨_, ⟨b, hb, hbl⟩⟩ := hs1.buflen _ _ _ hw hgh
  have hlt : 2 * wi + 1 < f1.bufs.length := by
    by_contra hc
    rw [List.getElem?_eq_none (by omega)] at hb; simp at hb
  have hs2 := hs1.setBuf (2 * wi + 1) b ((boxData FL FH u).map some) hb
    (by rw [List.length_map, length_boxData, hbl, hvi, hwv])
  have hbuf : (f1.bufs.set (2 * wi + 1) ((boxData FL FH u).map some))[2 * wi + 1]? = some ((boxData FL FH u).map some) := by
    simp [hlt]
  generalize hf2 : ({ f1 with bufs := f1.bufs.set (2 * wi + 1) ((boxData FL FH u).map some) } : Filter R) = f2 at hs2 ⊢
  have hbuf2 : f2.bufs[2 * wi + 1]? = some ((boxData FL FH u).map some) := by rw [← hf2]; exact hbuf
  obtain ⟨k, hk⟩ := hs2.mit
  have e3 : f2.getMit = .ok (itAt (c.lo c.first) (c.hi c.first) k) := by unfold Filter.getMit; rw [hk]; rfl
  unfold Filter.update
  rw [e3, M.ok_bind, itAt_terms (hg.box hx) (hg.volW hx), itAt_begin, forUp_of_lt (hg.box hx).volume_pos]
  have hbody : ∀ v, f2.updateBody kv.1 kv.2 (winIt c (shiftMod c.d c.first kv.1) (sideOf kv.1)
      ((StdMap.find c.tab.gh (sideOf kv.1)).getD 0) 0) (some (2 * wi + 1)) 0 (itAt (c.lo c.first) (c.hi c.first) 0, v) =
      .error .outOfBounds := by
    intro v
    obtain ⟨b', e, hb'⟩ := offset_loop hg hx hs2 (unit_tame hg.dint hu) (first_cell hg)
    have hbf : b' = false := by
      cases b' with
      | false => rfl
      | true => exact absurd (hb'.1 rfl) hout
    subst hbf
    unfold Filter.updateBody
    dsimp only
    rw [itAt_indices (hg.box hx) (hg.volW hx) (hg.hi_ltW hx), M.ok_bind, tupleAt_first (hg.box hx)]
    rw [show f2.offsetBody kv.1 (c.lo c.first) = f2.offsetBody kv.1 c.first by rw [first_lo hg]]
    rw [e, M.ok_bind]
    dsimp only
    rw [if_neg (by simp)]
    rw [hgh, Option.getD_some]
    unfold winIt
    rw [hF, hF2]
    unfold itAt at hidx
    rw [hidx, M.ok_bind, szOfInt_neg hX0 (by unfold W; omega), rd_of_some hbuf2, M.ok_bind]
    unfold rdBuf
    rw [rd_of_ge (by rw [List.length_map, length_boxData, ← hwv]; unfold W; omega)]
    rfl
  rw [hbody]
  rfl

/-! All ranks. -/

variable [Zero R]

omit [Zero R] in
theorem fold_error (h : c.Unit) (ha : ∀ kv ∈ c.st, AxisOffset c.dims.length kv.1) (hcells : c.dims.prod ≤ 2 ^ 31)
    {u : List Nat → R} {get : Filter.Getter R} (hget : Serves c u get) (l : List (List Int × R)) (hsub : ∀ kv ∈ l, kv ∈ c.st)
    (hbad : ∃ kv ∈ l, ¬ WrapLocal c.dims c.d kv.1) (f : Filter R) (hf : Holds c c.first u f)
    (out : List Nat → R) (ho : f.outData = boxData (c.lo c.first) (c.hi c.first) out) :
    l.foldlM (Filter.applyEntry get) f = .error .outOfBounds := by
  induction l generalizing f out with
  | nil => obtain ⟨kv, hkv, _⟩ := hbad; simp at hkv
  | cons a l ih =>
    rw [List.foldlM_cons]
    have hmem := hsub a (by simp)
    by_cases hb : WrapLocal c.dims c.d a.1
    · obtain ⟨f', e, h1, h2⟩ := applyEntry_ok h (first_grid h.toGood) hget hf ho hmem
        (cell_local h hmem (ha a hmem) hb (first_grid h.toGood))
      rw [e, M.ok_bind]
      refine ih (fun kv hkv => hsub kv (by simp [hkv])) ?_ f' h1 _ h2
      obtain ⟨kv, hkv, hn⟩ := hbad
      rcases List.mem_cons.1 hkv with rfl | hkv
      · exact absurd hb hn
      · exact ⟨kv, hkv, hn⟩
    · rw [entry_error h hget hf hcells hmem (ha a hmem) hb]
      rfl

omit [Add R] [Mul R] [Zero R] in
theorem rankOf_first (c : Cfg R) : rankOf c.d c.first = 0 := by
  unfold rankOf Cfg.first
  generalize c.dims.length = n
  have : ∀ (d : List Nat) (n : Nat), (d.zip (List.replicate n 0)).foldl (fun acc p => acc * p.1 + p.2) 0 = 0 := by
    intro d
    induction d with
    | nil => intro n; rfl
    | cons a d ih =>
      intro n
      cases n with
      | zero => rfl
      | succ n => simp only [List.replicate_succ, List.zip_cons_cons, List.foldl_cons, Nat.zero_mul, Nat.add_zero, ih]
  exact this c.d n

theorem world_error (h : c.Unit) (ha : ∀ kv ∈ c.st, AxisOffset c.dims.length kv.1) (hcells : c.dims.prod ≤ 2 ^ 31)
    (hbad : ∃ kv ∈ c.st, ¬ WrapLocal c.dims c.d kv.1) {w : World R} {u : List Nat → R}
    (hw : Ranks c (fun x f => Holds c x u f) w) : w.applyFilter = .error .outOfBounds := by
  obtain ⟨f, hf, hh⟩ := Ranks.exists (h := h.toGood) hw (first_grid h.toGood)
  rw [rankOf_first] at hf
  have hget := get_serves h.toGood hw
  cases w with
  | nil => simp at hf
  | cons f0 w =>
    simp at hf
    subst hf
    have hx := first_grid h.toGood
    have e : Filter.applyFilter (World.get (f0 :: w)) f0 = .error .outOfBounds := by
      unfold Filter.applyFilter
      rw [zeroOut_eq h.toGood hx hh.shape, M.ok_bind]
      dsimp only
      have := fold_error h ha hcells hget c.st (fun _ h => h) hbad _
        ⟨hh.shape.setData (volume (c.lo c.first) (c.hi c.first)) f0.inData (boxData (c.lo c.first) (c.hi c.first) fun _ => 0)
          (by rw [hh.data, length_boxData, h.toGood.vol hx]) (by rw [length_boxData, h.toGood.vol hx]), hh.data, hh.mirror⟩
        (fun _ => 0) rfl
      rw [← hh.shape.st] at this
      exact this
    unfold World.applyFilter
    rw [List.mapM_cons, e]
    rfl

omit [Add R] [Mul R] [Zero R] in
theorem axis_of_range [Div R] [NatCast R] [LT R] [DecidableLT R] [HasMax R] {nprocs : Nat} {dims : List Nat}
    (hr : InRange nprocs dims) (hex : ∃ d, ValidDecomp nprocs dims d) (xmins xmaxs : List R) (st : StdMap (List Int) R)
    (ha : ∀ kv ∈ st, AxisOffset dims.length kv.1) :
    ∃ d, Cfg.Unit ⟨nprocs, dims, d, xmins, xmaxs, st⟩ ∧ ValidDecomp nprocs dims d ∧
      CubeDecomp.build R CubeDecomp.empty nprocs dims = .ok (true, movedDecomp nprocs dims d 0) := by
  have hp := hr.procs
  obtain ⟨d, hg, hb⟩ := build_found (R := R) hr.procs1 (by omega) hr.ne hr.pos hr.axes hr.cells hex
  refine ⟨d, ?_, hg.valid, hb⟩
  exact { good_of_range hr hg xmins xmaxs st (fun kv hkv => unit_offsetFits hg.valid.1 hr.pos (axis_unit (ha kv hkv))) with
    unit := fun kv hkv => axis_unit (ha kv hkv)
    halo := fun kv hkv => axis_oneHalo (ha kv hkv) d _ }

end Fidi
