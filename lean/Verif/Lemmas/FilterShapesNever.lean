import Verif.Lemmas.FilterShapes

/-
Offsets for which `applyFilter` cannot end normally: those along one axis of two cells or more, and diagonal ones that
need cells next to a face that are interior along another axis.
-/
namespace Fidi
open Spec
variable {R : Type} {c : Cfg R} {x : List Nat} {f f' : Filter R}

/-! Tuples given by a function. -/

theorem getD_tuple {n : Nat} (φ : Nat → Nat) {i : Nat} (hi : i < n) : ((List.range n).map φ).getD i 0 = φ i := by
  rw [getD_of_lt (by simpa using hi)]
  simp

theorem tuple_grid (h : c.Good) (φ : Nat → Nat) (hφ : ∀ i, i < c.dims.length → φ i < c.d.getD i 0) :
    InGrid c.d ((List.range c.dims.length).map φ) := by
  refine inGrid_iff_getElem.2 ⟨by simp [h.good.length_eq], fun i h1 h2 => ?_⟩
  have h3 : i < c.dims.length := by simpa using h2
  have := hφ i h3
  rw [getD_of_lt h1] at this
  simpa using this

theorem tuple_box (h : c.Good) (hx : InGrid c.d x) (φ : Nat → Nat)
    (hφ : ∀ i, i < c.dims.length → x.getD i 0 * c.L.getD i 0 ≤ φ i ∧ φ i < (x.getD i 0 + 1) * c.L.getD i 0) :
    InBox (c.lo x) (c.hi x) ((List.range c.dims.length).map φ) := by
  rw [inBox_iff_getD, h.len_lo hx, h.len_hi hx]
  refine ⟨by simp, rfl, fun i hi => ?_⟩
  rw [getD_tuple φ hi, h.getD_lo hx hi, h.getD_hi hx hi, ← h.getD_L hi]
  exact hφ i hi

theorem countP_ne {off : List Int} {i : Nat} (h : off.getD i 0 ≠ 0) : off.countP (· ≠ 0) ≠ 0 := by
  intro h0
  by_cases hi : i < off.length
  · have := List.countP_eq_zero.1 h0 _ (List.getElem_mem hi)
    rw [getD_of_lt hi] at h
    simp [h] at this
  · simp [Nat.le_of_not_lt hi] at h

theorem lt_of_getD_ne {off : List Int} {i : Nat} (h : off.getD i 0 ≠ 0) : i < off.length := by
  by_contra hi
  simp [Nat.le_of_not_lt hi] at h

theorem unit_short (h : c.Good) {off : List Int} (hu : UnitOffset c.dims.length off) : ShortDir c.d off := by
  refine List.forall₂_iff_get.2 ⟨by rw [h.good.length_eq]; exact hu.1.symm, ?_⟩
  intro i h1 h2
  have := h.good.d_pos _ (List.getElem_mem h1)
  have := hu.2 _ (List.getElem_mem h2)
  simp only [List.get_eq_getElem]
  omega

theorem unit_ghosts (hu : ∀ kv ∈ c.st, UnitOffset c.dims.length kv.1) {s : List Int} {m : Nat}
    (hm : StdMap.find c.tab.gh s = some m) : m = 1 := by
  obtain ⟨o, ho, h0, _, e⟩ := (tab_fold (c.st.map Prod.fst)).2.2 s m hm
  obtain ⟨kv, hkv, rfl⟩ := List.mem_map.1 ho
  rw [e, ghostWidth_unit (hu kv hkv) h0]

/-- One step of a periodic axis. -/
theorem mod_up (d l : Nat) : l % (d * l) = (1 % d) * l := by
  have := Nat.mul_mod_mul_right l 1 d
  rwa [Nat.one_mul] at this

theorem emod_toNat {a : Int} {n k : Nat} (h : a = k) : (a % (n : Int)).toNat = k % n := by
  rw [h, ← Int.natCast_mod, Int.toNat_natCast]

theorem emod_minus {n : Nat} (hn : 0 < n) : (((-1 : Int)) % (n : Int)).toNat = n - 1 := by
  rw [← Int.add_emod_right, Int.emod_eq_of_lt (by omega) (by omega)]
  omega

variable [Add R] [Mul R]

/-- An offset with components 0 and ±1 that touches an axis that is decomposed and another along which sub-domains are
wider than one cell: on some rank its branch does not end normally. -/
theorem diagonal_never (h : c.Good) (hu : ∀ kv ∈ c.st, UnitOffset c.dims.length kv.1) (hcells : c.dims.prod ≤ 2 ^ 31)
    {kv : List Int × R} (hkv : kv ∈ c.st) (hw : WrapExact c.dims kv.1) (hh : ¬ OneHalo c.d c.L kv.1) :
    ∃ x, InGrid c.d x ∧ ∀ (f f' : Filter R) (get : Filter.Getter R), Shape c x c.tab f → f.applyEntry get kv ≠ .ok f' := by
  unfold OneHalo at hh
  push Not at hh
  obtain ⟨i, j, hij, hoi, hoj, hdi, hlj⟩ := hh
  have hun := hu kv hkv
  have hi : i < c.dims.length := by rw [← hun.1]; exact lt_of_getD_ne hoi
  have hj : j < c.dims.length := by rw [← hun.1]; exact lt_of_getD_ne hoj
  have hid : i < c.d.length := by rw [h.good.length_eq]; exact hi
  have hjl : j < c.L.length := by rw [h.lenL]; exact hj
  rw [getD_of_lt hid, ← getD_of_lt (z := 0) hid] at hdi
  rw [getD_of_lt hjl, ← getD_of_lt (z := 0) hjl] at hlj
  have h0 := countP_ne hoi
  have hol : kv.1.length = c.d.length := by rw [h.good.length_eq]; exact hun.1
  obtain ⟨_, sn, sd, sl, _⟩ := axis_sizes h hj
  obtain ⟨_, tn, td, tl, _⟩ := axis_sizes h hi
  rcases unitD hun j with ej | ej | ej
  · -- down along axis j
    let φ : Nat → Nat := fun _ => 0
    let ψ : Nat → Nat := fun k => if k = j then c.L.getD k 0 - 1 else if kv.1.getD k 0 = 1 then c.L.getD k 0 - 1 else 0
    have hx := tuple_grid h φ (fun k hk => (axis_sizes h hk).2.2.1)
    have hxd : ∀ k, k < c.dims.length → ((List.range c.dims.length).map φ).getD k 0 = 0 := fun k hk => getD_tuple φ hk
    refine ⟨_, hx, fun f f' get hs => ?_⟩
    have hg := tuple_box h hx ψ (fun k hk => by
      rw [hxd k hk]
      have := (axis_sizes h hk).2.2.2.1
      simp only [ψ]
      split
      · omega
      · split <;> omega)
    have hG := h.grid hx hg
    have hyG := shiftMod_inGrid hx hol
    have hst : shift64 c.dims ((List.range c.dims.length).map ψ) kv.1 = shiftMod c.dims ((List.range c.dims.length).map ψ) kv.1 :=
      shift64_eq hG h.dint hun hw
    have ht : ∀ k, k < c.dims.length → (shift64 c.dims ((List.range c.dims.length).map ψ) kv.1).getD k 0 =
        (((ψ k : Int) + kv.1.getD k 0) % (c.dims.getD k 0 : Int)).toNat := by
      intro k hk
      rw [hst, getD_shiftMod k hk hG.length_eq hun.1, getD_tuple ψ hk]
    have hy : ∀ k, k < c.dims.length → (shiftMod c.d ((List.range c.dims.length).map φ) kv.1).getD k 0 =
        ((kv.1.getD k 0) % (c.d.getD k 0 : Int)).toNat := by
      intro k hk
      rw [getD_shiftMod k (by rw [h.good.length_eq]; exact hk) hx.length_eq hol, hxd k hk]
      simp
    -- the displaced cell is at the first cell of the layer, except along axis j
    have hout : ¬ InBox (c.lo ((List.range c.dims.length).map φ)) (c.hi ((List.range c.dims.length).map φ))
        (shift64 c.dims ((List.range c.dims.length).map ψ) kv.1) := by
      intro hin
      have := (h.boxD hx hin hi).2
      rw [ht i hi, hxd i hi, ← h.getD_L hi] at this
      have hp : 2 * c.L.getD i 0 ≤ c.dims.getD i 0 := by rw [tn]; exact Nat.mul_le_mul_right _ (by omega)
      rcases unitD hun i with ei | ei | ei
      · have e : ψ i = 0 := by simp only [ψ]; rw [if_neg hij, if_neg (by omega)]
        rw [e, ei, show (((0 : Nat) : Int) + -1) = -1 by norm_num, emod_minus (by omega)] at this
        omega
      · exact hoi ei
      · have e : ψ i = c.L.getD i 0 - 1 := by simp only [ψ]; rw [if_neg hij, if_pos ei]
        rw [e, ei, emod_toNat (k := c.L.getD i 0) (by omega), Nat.mod_eq_of_lt (by omega)] at this
        omega
    refine entry_below h hx hcells hs hkv h0 (unit_short h hun) hg hout hj (fun m hm hf k hk => ?_)
    obtain rfl := unit_ghosts hu hm
    obtain ⟨q1, _, _, _⟩ := layer_axis h hyG hf hk
    obtain ⟨_, r1, r2, r3, r4⟩ := axis_sizes h hk
    rw [q1, ht k hk, hy k hk, getD_sideOf]
    constructor
    · rintro rfl
      have e : ψ k = c.L.getD k 0 - 1 := if_pos rfl
      rw [e, ej, if_pos (by decide), emod_minus r2, emod_toNat (k := c.L.getD k 0 - 2) (by omega)]
      have h1 : c.d.getD k 0 - 1 + 1 = c.d.getD k 0 := by omega
      have h2 : c.L.getD k 0 ≤ c.dims.getD k 0 := by rw [r1]; exact Nat.le_mul_of_pos_left _ r2
      rw [h1, ← r1, Nat.mod_eq_of_lt (by omega)]
      omega
    · intro hkj
      rcases unitD hun k with ek | ek | ek
      · have e : ψ k = 0 := by simp only [ψ]; rw [if_neg hkj, if_neg (by omega)]
        rw [e, ek, if_pos (by decide), emod_minus r2, show (((0 : Nat) : Int) + -1) = -1 by norm_num,
          emod_minus (by rw [r1]; exact Nat.mul_pos r2 r3)]
        have h1 : c.d.getD k 0 - 1 + 1 = c.d.getD k 0 := by omega
        rw [h1, ← r1]
      · have e : ψ k = 0 := by simp only [ψ]; rw [if_neg hkj, if_neg (by omega)]
        rw [e, ek, if_neg (by decide)]
        simp
      · have e : ψ k = c.L.getD k 0 - 1 := by simp only [ψ]; rw [if_neg hkj, if_pos ek]
        rw [e, ek, if_neg (by decide), emod_toNat (k := c.L.getD k 0) (by omega), emod_toNat (k := 1) (by rfl), r1,
          mod_up]
  · exact absurd ej hoj
  · -- up along axis j
    let φ : Nat → Nat := fun k => if k = j then c.d.getD k 0 - 1 else 0
    let ψ : Nat → Nat := fun k => if k = j then (c.d.getD k 0 - 1) * c.L.getD k 0 else if kv.1.getD k 0 = -1 then 0 else c.L.getD k 0 - 1
    have hx := tuple_grid h φ (fun k hk => by
      have := (axis_sizes h hk).2.2.1
      simp only [φ]
      split <;> omega)
    have hxd : ∀ k, k < c.dims.length → ((List.range c.dims.length).map φ).getD k 0 = φ k := fun k hk => getD_tuple φ hk
    refine ⟨_, hx, fun f f' get hs => ?_⟩
    have hg := tuple_box h hx ψ (fun k hk => by
      rw [hxd k hk]
      have := (axis_sizes h hk).2.2.2.1
      simp only [ψ, φ]
      split
      · rw [Nat.add_mul]; omega
      · split <;> omega)
    have hG := h.grid hx hg
    have hyG := shiftMod_inGrid hx hol
    have hst : shift64 c.dims ((List.range c.dims.length).map ψ) kv.1 = shiftMod c.dims ((List.range c.dims.length).map ψ) kv.1 :=
      shift64_eq hG h.dint hun hw
    have ht : ∀ k, k < c.dims.length → (shift64 c.dims ((List.range c.dims.length).map ψ) kv.1).getD k 0 =
        (((ψ k : Int) + kv.1.getD k 0) % (c.dims.getD k 0 : Int)).toNat := by
      intro k hk
      rw [hst, getD_shiftMod k hk hG.length_eq hun.1, getD_tuple ψ hk]
    have hy : ∀ k, k < c.dims.length → (shiftMod c.d ((List.range c.dims.length).map φ) kv.1).getD k 0 =
        (((φ k : Int) + kv.1.getD k 0) % (c.d.getD k 0 : Int)).toNat := by
      intro k hk
      rw [getD_shiftMod k (by rw [h.good.length_eq]; exact hk) hx.length_eq hol, hxd k hk]
    have hout : ¬ InBox (c.lo ((List.range c.dims.length).map φ)) (c.hi ((List.range c.dims.length).map φ))
        (shift64 c.dims ((List.range c.dims.length).map ψ) kv.1) := by
      intro hin
      have := (h.boxD hx hin hi).2
      have e0 : φ i = 0 := by simp only [φ]; rw [if_neg hij]
      rw [ht i hi, hxd i hi, ← h.getD_L hi, e0] at this
      have hp : 2 * c.L.getD i 0 ≤ c.dims.getD i 0 := by rw [tn]; exact Nat.mul_le_mul_right _ (by omega)
      rcases unitD hun i with ei | ei | ei
      · have e : ψ i = 0 := by simp only [ψ]; rw [if_neg hij, if_pos ei]
        rw [e, ei, show (((0 : Nat) : Int) + -1) = -1 by norm_num, emod_minus (by omega)] at this
        omega
      · exact hoi ei
      · have e : ψ i = c.L.getD i 0 - 1 := by simp only [ψ]; rw [if_neg hij, if_neg (by omega)]
        rw [e, ei, emod_toNat (k := c.L.getD i 0) (by omega), Nat.mod_eq_of_lt (by omega)] at this
        omega
    refine entry_above h hx hcells hs hkv h0 (unit_short h hun) hg hout hj (fun m hm hf k hk => ?_)
    obtain rfl := unit_ghosts hu hm
    obtain ⟨_, q1, _, _⟩ := layer_axis h hyG hf hk
    obtain ⟨_, r1, r2, r3, r4⟩ := axis_sizes h hk
    rw [q1, ht k hk, hy k hk, getD_sideOf]
    constructor
    · rintro rfl
      have e : ψ k = (c.d.getD k 0 - 1) * c.L.getD k 0 := if_pos rfl
      have e0 : φ k = c.d.getD k 0 - 1 := if_pos rfl
      have h1 : (c.d.getD k 0 - 1) * c.L.getD k 0 + c.L.getD k 0 = c.dims.getD k 0 := by
        rw [r1, Nat.sub_mul, Nat.one_mul]
        have := Nat.le_mul_of_pos_left (c.L.getD k 0) r2
        omega
      rw [e, e0, ej, if_pos (by decide), emod_toNat (k := c.d.getD k 0) (by omega), Nat.mod_self,
        emod_toNat (k := (c.d.getD k 0 - 1) * c.L.getD k 0 + 1) (by omega), Nat.mod_eq_of_lt (by omega)]
      omega
    · intro hkj
      have e0 : φ k = 0 := by simp only [φ]; rw [if_neg hkj]
      rcases unitD hun k with ek | ek | ek
      · have e : ψ k = 0 := by simp only [ψ]; rw [if_neg hkj, if_pos ek]
        rw [e, e0, ek, if_neg (by decide), show (((0 : Nat) : Int) + -1) = -1 by norm_num, emod_minus r2,
          emod_minus (by rw [r1]; exact Nat.mul_pos r2 r3)]
        have h1 : c.d.getD k 0 - 1 + 1 = c.d.getD k 0 := by omega
        rw [h1, ← r1]
        omega
      · have e : ψ k = c.L.getD k 0 - 1 := by simp only [ψ]; rw [if_neg hkj, if_neg (by omega)]
        have h2 : c.L.getD k 0 ≤ c.dims.getD k 0 := by rw [r1]; exact Nat.le_mul_of_pos_left _ r2
        rw [e, e0, ek, if_neg (by decide), emod_toNat (k := 0) (by rfl), emod_toNat (k := c.L.getD k 0 - 1) (by omega),
          Nat.zero_mod, Nat.mod_eq_of_lt (by omega)]
        omega
      · have e : ψ k = c.L.getD k 0 - 1 := by simp only [ψ]; rw [if_neg hkj, if_neg (by omega)]
        rw [e, e0, ek, if_pos (by decide), emod_toNat (k := 1) (by rfl), emod_toNat (k := c.L.getD k 0) (by omega), r1,
          mod_up]

omit [Add R] [Mul R] in
theorem natAbs_le_ghostWidth (off : List Int) (i : Nat) : (off.getD i 0).natAbs ≤ ghostWidth off := by
  unfold ghostWidth
  have key : ∀ (l : List Int) (m : Nat), m ≤ l.foldl (fun m o => max m o.natAbs) m ∧
      ∀ i, (l.getD i 0).natAbs ≤ l.foldl (fun m o => max m o.natAbs) m := by
    intro l
    induction l with
    | nil => intro m; exact ⟨Nat.le_refl _, fun i => by simp⟩
    | cons a l ih =>
      intro m
      obtain ⟨h1, h2⟩ := ih (max m a.natAbs)
      refine ⟨Nat.le_trans (Nat.le_max_left _ _) h1, fun i => ?_⟩
      cases i with
      | zero => exact Nat.le_trans (Nat.le_max_right _ _) h1
      | succ i => exact h2 i
  exact (key off 0).2 i

omit [Add R] [Mul R] in
theorem wrap64_in {z : Int} {n k : Nat} (hz : z = k) (hk : k < n) (hn : n < 2 ^ 31) : (z % 2 ^ 64).toNat % n = k := by
  rw [hz, Int.emod_eq_of_lt (by omega) (by omega), Int.toNat_natCast, Nat.mod_eq_of_lt hk]

/-- The coordinates from which the rank of a neighbour is computed. -/
def shiftedCoords (d x : List Nat) (dir : List Int) : List Int :=
  (List.range d.length).map fun i => CubeDecomp.shiftIndex (x.getD i 0) (dir.getD i 0) (d.getD i 0)

omit [Add R] [Mul R] in
theorem neighborRank_any {nprocs : Nat} {dims d x : List Nat} (g : GoodDecomp nprocs dims d) (hx : InGrid d x)
    {dir : List Int} (hdl : dir.length = d.length) {np : Int} {k : Nat} {nr : Int} {cd : CubeDecomp}
    (he : (movedDecomp np dims d k).getNeighborRank (rankOf d x : Nat) dir = .ok (nr, cd)) :
    ({ builtIter (List.replicate dims.length 0) d true with bigIndex := rankOf d x } : MultiArrayIter).computeBigIndexInt
      (shiftedCoords d x dir) = .ok nr := by
  unfold CubeDecomp.getNeighborRank at he
  rw [moveMit_eq g x hx] at he
  simp only [M.ok_bind] at he
  have hl := hx.length_eq
  have e : (forUp 0 dims.length (List.replicate x.length (0 : Int)) fun i indOffset => do
      wr indOffset i (CubeDecomp.shiftIndex (← rd x i) (← rd dir i) (← rd d i))) = .ok (shiftedCoords d x dir) := by
    rw [forUp_fill dims.length _ (by simp [hl, g.length_eq])
      (fun i => CubeDecomp.shiftIndex (x.getD i 0) (dir.getD i 0) (d.getD i 0))]
    · unfold shiftedCoords
      rw [g.length_eq]
    · intro i v hi hv _
      have a : i < d.length := by rw [g.length_eq]; exact hi
      have b : i < x.length := by omega
      have c : i < dir.length := by omega
      rw [rd_of_lt a, rd_of_lt b, rd_of_lt c]
      simp only [M.ok_bind]
      rw [wr_of_lt (by omega), getD_of_lt a, getD_of_lt b, getD_of_lt c]
  have e2 : (movedDecomp np dims d (rankOf d x)).ndims = dims.length := rfl
  have e3 : (movedDecomp np dims d (rankOf d x)).decomp = d := rfl
  rw [e2, e3, e] at he
  simp only [M.ok_bind, movedDecomp] at he
  obtain ⟨nr', e4, he⟩ := (M.bind_ok_iff _ _ _).1 he
  have := Except.ok.inj he
  rw [Prod.mk.injEq] at this
  rw [← this.1]
  exact e4

omit [Add R] [Mul R] in
theorem shiftIndex_any {ind d : Nat} {dir : Int} (h1 : ind < 2 ^ 31) (h2 : d < 2 ^ 31) (h3 : -(2 : Int) ^ 31 < dir)
    (h4 : (ind : Int) + dir < 2 ^ 31) (h5 : dir < 2 ^ 31) :
    CubeDecomp.shiftIndex ind dir d = if (ind : Int) + dir < 0 then (ind : Int) + dir + d
      else if (d : Int) ≤ ind + dir then (ind : Int) + dir - d else ind + dir := by
  have ha : intOfSz (szAdd ind (szOfInt dir)) = (ind : Int) + dir := by
    unfold intOfSz szAdd szOfInt W W32
    rw [Int.bmod_def]
    split <;> omega
  unfold CubeDecomp.shiftIndex
  simp only [ha]
  by_cases hneg : (ind : Int) + dir < 0
  · rw [if_pos hneg, if_pos hneg]
    unfold intOfSz szAdd szOfInt W W32
    rw [Int.bmod_def]
    split <;> omega
  · rw [if_neg hneg, if_neg hneg]
    have hc : szOfInt ((ind : Int) + dir) = ((ind : Int) + dir).toNat := by
      unfold szOfInt W; omega
    rw [hc]
    by_cases hge : d ≤ ((ind : Int) + dir).toNat
    · rw [if_pos hge, if_pos (by omega)]
      unfold intOfSz szSub W W32
      rw [Int.bmod_def]
      split <;> omega
    · rw [if_neg hge, if_neg (by omega)]

omit [Add R] [Mul R] in
theorem prod_drop_mul_le {es ds : List Nat} (h : List.Forall₂ (fun e d => e ≤ d) es ds) (hp : ∀ n ∈ ds, 0 < n) {j : Nat}
    (hj : j < ds.length) : (es.drop (j + 1)).prod * ds.getD j 0 ≤ ds.prod := by
  have hle : ∀ {es ds : List Nat}, List.Forall₂ (fun e d => e ≤ d) es ds → es.prod ≤ ds.prod := by
    intro es ds h
    induction h with
    | nil => exact Nat.le_refl _
    | cons h1 _ ih => simp only [List.prod_cons]; exact Nat.mul_le_mul h1 ih
  induction h generalizing j with
  | nil => simp at hj
  | @cons e d es ds h1 h2 ih =>
    cases j with
    | zero =>
      simp only [List.drop_succ_cons, List.drop_zero, List.prod_cons, List.getD_cons_zero]
      rw [Nat.mul_comm]
      exact Nat.mul_le_mul_left _ (hle h2)
    | succ j =>
      simp only [List.drop_succ_cons, List.prod_cons, List.getD_cons_succ]
      have := ih (fun n hn => hp n (by simp [hn])) (j := j) (by simpa using hj)
      exact Nat.le_trans this (Nat.le_mul_of_pos_left _ (hp d (by simp)))

/-- An offset along one axis, of two cells or more, that fits the sub-domains: on some rank its branch does not end
normally. -/
theorem wide_never (h : c.Good) (hcells : c.dims.prod ≤ 2 ^ 31) {kv : List Int × R} (hkv : kv ∈ c.st) {a : Nat}
    (hax : ∀ k, k ≠ a → kv.1.getD k 0 = 0) (hwide : 2 ≤ (kv.1.getD a 0).natAbs) :
    ∃ x, InGrid c.d x ∧ ∀ (f f' : Filter R) (get : Filter.Getter R), Shape c x c.tab f →
      (∀ nr win n data, get nr win n = .ok data → 0 ≤ nr ∧ nr < c.nprocs) → f.applyEntry get kv ≠ .ok f' := by
  obtain ⟨hlen, hint, hfit⟩ := h.st kv hkv
  have hne : kv.1.getD a 0 ≠ 0 := by omega
  have ha : a < c.dims.length := by rw [← hlen]; exact lt_of_getD_ne hne
  have h0 := countP_ne hne
  have hol : kv.1.length = c.d.length := by rw [h.good.length_eq]; exact hlen
  obtain ⟨_, an, ad, al, a31⟩ := axis_sizes h ha
  -- the width fits
  have hmL : (kv.1.getD a 0).natAbs ≤ c.L.getD a 0 := by
    have h1 : a < c.L.length := by rw [h.lenL]; exact ha
    have h2 : a < (sideOf kv.1).length := by rw [length_sideOf, hlen]; exact ha
    have h3 := (hfit.2 a h1 h2 (by
      have := getD_sideOf kv.1 a
      rw [getD_of_lt h2] at this
      rw [this]
      intro hc
      exact hne (Int.sign_eq_zero_iff_zero.1 (by omega)))).2
    rw [getD_of_lt h1]
    exact Nat.le_trans (natAbs_le_ghostWidth kv.1 a) h3
  have hLn : c.L.getD a 0 ≤ c.dims.getD a 0 := by rw [an]; exact Nat.le_mul_of_pos_left _ ad
  obtain ⟨m, hm⟩ : ∃ m, (kv.1.getD a 0).natAbs = m := ⟨_, rfl⟩
  rw [hm] at hwide hmL
  by_cases hmd : m ≤ c.d.getD a 0
  case neg =>
    -- the rank does not exist
    have h31 : ∀ k, k < c.dims.length → c.d.getD k 0 < 2 ^ 31 := by
      intro k hk
      have h1 : k < c.d.length := by rw [h.good.length_eq]; exact hk
      rw [getD_of_lt h1]
      have := h.good.d_le _ (List.getElem_mem h1)
      have := h.np2
      omega
    have hbd : BoxLt (List.replicate c.dims.length 0) c.d := by
      have := replicate_boxLt h.good.d_pos
      rwa [h.good.length_eq] at this
    have hexd : extents (List.replicate c.dims.length 0) c.d = c.d := by
      rw [← h.good.length_eq]; exact extents_zero c.d
    have hvd : volume (List.replicate c.dims.length 0) c.d < W := by
      unfold volume
      rw [hexd, h.good.valid.2]
      have := h.np2
      unfold W; omega
    have hdd : List.Forall₂ (fun e d => e ≤ d) c.d c.dims := by
      refine List.forall₂_iff_get.2 ⟨h.good.length_eq, fun k h1 h2 => ?_⟩
      simp only [List.get_eq_getElem]
      have := (axis_sizes h h2).2.1
      have h3 := Nat.le_mul_of_pos_right (c.d.getD k 0) (axis_sizes h h2).2.2.2.1
      rw [← this, getD_of_lt h1, getD_of_lt h2] at h3
      exact h3
    by_cases hpos : 0 < kv.1.getD a 0
    · -- up from the last process
      let φ : Nat → Nat := fun k => c.d.getD k 0 - 1
      have hx := tuple_grid h φ (fun k hk => by have := (axis_sizes h hk).2.2.1; simp only [φ]; omega)
      have hxd : ∀ k, k < c.dims.length → ((List.range c.dims.length).map φ).getD k 0 = φ k := fun k hk => getD_tuple φ hk
      refine ⟨_, hx, fun f f' get hs hget he => ?_⟩
      obtain ⟨nr, cd, win, n, data, e1, e2⟩ := entry_rank h hs hkv h0 he
      obtain ⟨k0, hk0⟩ := hs.dcmp
      rw [hk0, hs.rk] at e1
      have e3 := neighborRank_any h.good hx hol e1
      let χ : Nat → Nat := fun k => if k = a then m - 1 else c.d.getD k 0 - 1
      have hc : shiftedCoords c.d ((List.range c.dims.length).map φ) kv.1 =
          ((List.range c.dims.length).map χ).map fun n : Nat => (n : Int) := by
        unfold shiftedCoords
        rw [h.good.length_eq, List.map_map]
        apply List.map_congr_left
        intro k hk
        have hk' := List.mem_range.1 hk
        have := (axis_sizes h hk').2.2.1
        have h1 := h31 k hk'
        simp only [Function.comp, χ]
        rw [hxd k hk']
        by_cases eka : k = a
        · subst eka
          have h2 : c.d.getD k 0 - 1 + m < 2 ^ 31 := by
            have : (c.d.getD k 0 - 1) + c.L.getD k 0 ≤ c.dims.getD k 0 := by
              rw [an]
              have := Nat.le_mul_of_pos_right (c.d.getD k 0 - 1) al
              have e : c.d.getD k 0 * c.L.getD k 0 = (c.d.getD k 0 - 1) * c.L.getD k 0 + c.L.getD k 0 := by
                obtain ⟨b, hb⟩ : ∃ b, c.d.getD k 0 = b + 1 := ⟨c.d.getD k 0 - 1, by omega⟩
                rw [hb, Nat.add_sub_cancel, Nat.add_mul, Nat.one_mul]
              omega
            omega
          rw [if_pos rfl, shiftIndex_any (by simp only [φ]; omega) h1 (by omega) (by simp only [φ]; omega) (by omega)]
          simp only [φ]
          rw [if_neg (by omega), if_pos (by omega)]
          omega
        · rw [if_neg eka, hax k eka, shiftIndex_any (by simp only [φ]; omega) h1 (by omega) (by simp only [φ]; omega) (by omega)]
          simp only [φ]
          rw [if_neg (by omega), if_neg (by omega)]
          omega
      have hχ : ∀ k, k < c.dims.length → ((List.range c.dims.length).map χ).getD k 0 = χ k := fun k hk => getD_tuple χ hk
      have hge : c.nprocs ≤ rankOf c.d ((List.range c.dims.length).map χ) := by
        rw [← h.good.valid.2]
        refine rankOf_ge (List.forall₂_iff_get.2 ⟨by simp [h.good.length_eq], fun k h1 h2 => ?_⟩) h.good.d_pos
          ⟨a, by rw [h.good.length_eq]; exact ha, ?_⟩
        · have hk' : k < c.dims.length := by simpa using h2
          have := hχ k hk'
          rw [getD_of_lt h2] at this
          simp only [List.get_eq_getElem]
          rw [this]
          simp only [χ]
          rw [getD_of_lt h1]
          split
          · rename_i e
            subst e
            rw [getD_of_lt h1] at hmd
            omega
          · omega
        · rw [hχ a ha, show χ a = m - 1 from if_pos rfl]
          omega
      have hlt : rankOf c.d ((List.range c.dims.length).map χ) < c.dims.prod := by
        refine rankOf_lt_of hdd (List.forall₂_iff_get.2 ⟨by simp, fun k h1 h2 => ?_⟩)
        have := hχ k h2
        rw [getD_of_lt h1] at this
        simp only [List.get_eq_getElem]
        rw [this]
        simp only [χ]
        have h3 := (List.forall₂_iff_get.1 hdd).2 k (by rw [h.good.length_eq]; exact h2) h2
        simp only [List.get_eq_getElem] at h3
        have h5 : k < c.d.length := by rw [h.good.length_eq]; exact h2
        have h4 := h.good.pos _ (List.getElem_mem h2)
        split
        · rename_i e
          subst e
          rw [getD_of_lt h2] at hLn
          omega
        · rw [getD_of_lt h5]
          omega
      rw [hc, bigInt_any true hbd hvd (by simp)] at e3
      have e4 : List.zipWith (fun (x : Int) l => szSub (szOfInt x) l)
          (((List.range c.dims.length).map χ).map fun n : Nat => (n : Int)) (List.replicate c.dims.length 0) =
          (List.range c.dims.length).map χ := by
        apply ext_of_getElem? (by simp)
        intro i hi
        have hi' : i < c.dims.length := by simpa using hi
        have h3 : χ i < W := by
          simp only [χ]
          have := h31 i hi'
          unfold W
          split <;> omega
        simp [hi', szOfInt_ofNat h3, szSub_of_le (Nat.zero_le _) h3]
      have e5 : strides true c.d = strideR c.d := rfl
      rw [e4, hexd, e5, ← rankOf_eq_dot _ _ (by simp [h.good.length_eq]), Nat.mod_eq_of_lt (by unfold W; omega),
        intOfSz_small (by omega)] at e3
      have e6 := Except.ok.inj e3
      have := hget _ _ _ _ e2
      omega
    · -- down from the first process
      let φ : Nat → Nat := fun _ => 0
      have hx := tuple_grid h φ (fun k hk => (axis_sizes h hk).2.2.1)
      have hxd : ∀ k, k < c.dims.length → ((List.range c.dims.length).map φ).getD k 0 = 0 := fun k hk => getD_tuple φ hk
      refine ⟨_, hx, fun f f' get hs hget he => ?_⟩
      obtain ⟨nr, cd, win, n, data, e1, e2⟩ := entry_rank h hs hkv h0 he
      obtain ⟨k0, hk0⟩ := hs.dcmp
      rw [hk0, hs.rk] at e1
      have e3 := neighborRank_any h.good hx hol e1
      have hstr : (strides true c.d).getD a 0 = (c.d.drop (a + 1)).prod := by
        have := strides_getElem? true c.d a (by rw [h.good.length_eq]; exact ha)
        rw [List.getD_eq_getElem?_getD, this]
        rfl
      have hS : 0 < (c.d.drop (a + 1)).prod := prod_pos_of fun d hd => h.good.d_pos d (List.mem_of_mem_drop hd)
      have hq : (c.d.drop (a + 1)).prod * (m - c.d.getD a 0) ≤ 2 ^ 31 :=
        Nat.le_trans (Nat.mul_le_mul_left _ (by omega : m - c.d.getD a 0 ≤ c.dims.getD a 0))
          (Nat.le_trans (prod_drop_mul_le hdd h.good.pos ha) hcells)
      have hcl : ∀ k, k < c.dims.length → (shiftedCoords c.d ((List.range c.dims.length).map φ) kv.1).getD k 0 =
          CubeDecomp.shiftIndex 0 (kv.1.getD k 0) (c.d.getD k 0) := by
        intro k hk
        unfold shiftedCoords
        have hk' : k < c.d.length := by rw [h.good.length_eq]; exact hk
        rw [getD_of_lt (by simpa using hk')]
        simp only [List.getElem_map, List.getElem_range]
        rw [hxd k hk]
      have := index_below true (ts := shiftedCoords c.d ((List.range c.dims.length).map φ) kv.1) hbd hvd
        (by simp [shiftedCoords, h.good.length_eq]) (a := a) (by simpa using ha) (q := m - c.d.getD a 0) (by omega)
        (by intro l hl; rw [List.eq_of_mem_replicate hl]; decide)
        (by
          intro k hk
          have hk' : k < c.dims.length := by simpa using hk
          have h1 := h31 k hk'
          have h2 := (axis_sizes h hk').2.2.1
          have h3 : (List.replicate c.dims.length 0).getD k 0 = 0 := by rw [getD_of_lt (by simpa using hk')]; simp
          rw [hcl k hk', h3]
          by_cases eka : k = a
          · subst eka
            rw [if_pos rfl, shiftIndex_any (by decide) h1 (by omega) (by omega) (by omega), if_pos (by omega)]
            omega
          · rw [if_neg eka, hax k eka, shiftIndex_any (by decide) h1 (by omega) (by omega) (by omega), if_neg (by omega),
              if_neg (by omega)]
            rfl)
        (by rw [hexd]; exact hstr) hS hq (rankOf c.d ((List.range c.dims.length).map φ))
      rw [this] at e3
      have e6 := Except.ok.inj e3
      have := hget _ _ _ _ e2
      have hpos2 : 0 < (c.d.drop (a + 1)).prod * (m - c.d.getD a 0) := Nat.mul_pos hS (by omega)
      omega
  case pos =>
    have hshort : ShortDir c.d kv.1 := by
      refine List.forall₂_iff_get.2 ⟨hol.symm, fun k h1 h2 => ?_⟩
      simp only [List.get_eq_getElem]
      rw [← getD_of_lt (z := 0) h2, ← getD_of_lt (z := 0) h1]
      by_cases eka : k = a
      · subst eka; omega
      · rw [hax k eka]; omega
    -- the displaced cell
    have hcell : ∀ (φ ψ : Nat → Nat), InGrid c.d ((List.range c.dims.length).map φ) →
        InBox (c.lo ((List.range c.dims.length).map φ)) (c.hi ((List.range c.dims.length).map φ))
          ((List.range c.dims.length).map ψ) → ∀ t : Nat, ((ψ a : Int) + kv.1.getD a 0 = t) → t < c.dims.getD a 0 →
        ∀ k, k < c.dims.length → (shift64 c.dims ((List.range c.dims.length).map ψ) kv.1).getD k 0 =
          if k = a then t else ψ k := by
      intro φ ψ hx hg t ht ht' k hk
      have hG := h.grid hx hg
      rw [getD_shift64 k hk hG.length_eq hlen, getD_tuple ψ hk]
      by_cases eka : k = a
      · subst eka
        rw [if_pos rfl]
        exact wrap64_in ht ht' a31
      · rw [if_neg eka, hax k eka]
        have h1 := (inGrid_iff_getElem.1 hG).2 k hk (by simpa using hk)
        simp only [List.getElem_map, List.getElem_range] at h1
        rw [getD_of_lt hk]
        exact wrap64_in (by simp) h1 (h.dint _ (List.getElem_mem hk))
    have hcoord : ∀ (φ : Nat → Nat), InGrid c.d ((List.range c.dims.length).map φ) →
        ∀ y : Nat, (((φ a : Int) + kv.1.getD a 0) % (c.d.getD a 0 : Int)).toNat = y →
        ∀ k, k < c.dims.length → (shiftMod c.d ((List.range c.dims.length).map φ) kv.1).getD k 0 =
          if k = a then y else φ k := by
      intro φ hx y hy k hk
      have hk' : k < c.d.length := by rw [h.good.length_eq]; exact hk
      rw [getD_shiftMod k hk' hx.length_eq hol, getD_tuple φ hk]
      by_cases eka : k = a
      · subst eka
        rw [if_pos rfl, hy]
      · rw [if_neg eka, hax k eka, emod_toNat (k := φ k) (by simp)]
        have h1 := h.ltD hx hk
        rw [getD_tuple φ hk] at h1
        exact Nat.mod_eq_of_lt h1
    have hside : ∀ k, k ≠ a → (sideOf kv.1).getD k 0 = 0 := by
      intro k hk
      rw [getD_sideOf, hax k hk]
      rfl
    have h2L : 2 * c.L.getD a 0 ≤ c.dims.getD a 0 := by rw [an]; exact Nat.mul_le_mul_right _ (by omega)
    have hlast : (c.d.getD a 0 - 1) * c.L.getD a 0 + c.L.getD a 0 = c.dims.getD a 0 := by
      rw [an]
      obtain ⟨b, hb⟩ : ∃ b, c.d.getD a 0 = b + 1 := ⟨c.d.getD a 0 - 1, by omega⟩
      rw [hb, Nat.add_sub_cancel, Nat.add_mul, Nat.one_mul]
    by_cases hpos : 0 < kv.1.getD a 0
    · have hka : kv.1.getD a 0 = m := by omega
      have hsa : (sideOf kv.1).getD a 0 = -1 := by rw [getD_sideOf, Int.sign_eq_one_of_pos hpos]
      let φ : Nat → Nat := fun _ => 0
      have hx := tuple_grid h φ (fun k hk => (axis_sizes h hk).2.2.1)
      have hxd : ∀ k, k < c.dims.length → ((List.range c.dims.length).map φ).getD k 0 = 0 := fun k hk => getD_tuple φ hk
      have hyG := shiftMod_inGrid hx hol
      refine ⟨_, hx, fun f f' get hs _ => ?_⟩
      by_cases hlt : m < c.d.getD a 0
      · let ψ : Nat → Nat := fun k => if k = a then c.L.getD k 0 - 1 else 0
        have hψa : ψ a = c.L.getD a 0 - 1 := if_pos rfl
        have hg := tuple_box h hx ψ (fun k hk => by
          rw [hxd k hk]
          have := (axis_sizes h hk).2.2.2.1
          simp only [ψ]
          split <;> omega)
        have ht := hcell φ ψ hx hg (c.L.getD a 0 - 1 + m) (by rw [hψa]; omega) (by omega)
        have hy := hcoord φ hx m (by
          rw [hka, emod_toNat (k := m) (by simp [φ]), Nat.mod_eq_of_lt hlt])
        refine entry_below h hx hcells hs hkv h0 hshort hg (fun hin => ?_) ha (fun m' hm' hf k hk => ?_)
        · have := (h.boxD hx hin ha).2
          rw [ht a ha, if_pos rfl, hxd a ha, ← h.getD_L ha] at this
          omega
        · obtain ⟨q1, _, _, _⟩ := layer_axis h hyG hf hk
          rw [q1, ht k hk, hy k hk]
          constructor
          · rintro rfl
            rw [if_pos rfl, if_pos rfl, hsa, if_neg (by decide)]
            obtain ⟨l, hl⟩ : ∃ l, c.L.getD k 0 = l + 2 := ⟨c.L.getD k 0 - 2, by omega⟩
            obtain ⟨b, rfl⟩ : ∃ b, m = b + 2 := ⟨m - 2, by omega⟩
            rw [hl]
            have e : (b + 2) * (l + 2) = b * l + 2 * b + 2 * l + 4 := by ring
            rw [e]
            omega
          · intro hka'
            rw [if_neg hka', if_neg hka', hside k hka', if_neg (by decide)]
            simp [ψ, φ, hka']
      · have hmd' : m = c.d.getD a 0 := by omega
        let ψ : Nat → Nat := fun k => c.L.getD k 0 - 1
        have hg := tuple_box h hx ψ (fun k hk => by
          rw [hxd k hk]
          have := (axis_sizes h hk).2.2.2.1
          simp only [ψ]
          omega)
        have ht := hcell φ ψ hx hg (c.L.getD a 0 - 1 + m) (by simp only [ψ]; omega) (by omega)
        have hy := hcoord φ hx 0 (by
          rw [hka, emod_toNat (k := m) (by simp [φ]), hmd', Nat.mod_self])
        refine entry_above h hx hcells hs hkv h0 hshort hg (fun hin => ?_) ha (fun m' hm' hf k hk => ?_)
        · have := (h.boxD hx hin ha).2
          rw [ht a ha, if_pos rfl, hxd a ha, ← h.getD_L ha] at this
          omega
        · obtain ⟨_, q1, q2, _⟩ := layer_axis h hyG hf hk
          rw [q1, ht k hk, hy k hk]
          constructor
          · rintro rfl
            have := q2 (by rw [hsa]; decide)
            rw [hsa, if_pos (by decide), if_pos rfl, if_pos rfl]
            omega
          · intro hka'
            rw [hside k hka', if_neg (by decide), if_neg hka', if_neg hka']
            simp only [ψ, φ]
            omega
    · have hka : kv.1.getD a 0 = -(m : Int) := by omega
      have hsa : (sideOf kv.1).getD a 0 = 1 := by rw [getD_sideOf, Int.sign_eq_neg_one_of_neg (by omega)]; rfl
      let φ : Nat → Nat := fun k => if k = a then c.d.getD k 0 - 1 else 0
      have hφa : φ a = c.d.getD a 0 - 1 := if_pos rfl
      have hx := tuple_grid h φ (fun k hk => by
        have := (axis_sizes h hk).2.2.1
        simp only [φ]
        split <;> omega)
      have hxd : ∀ k, k < c.dims.length → ((List.range c.dims.length).map φ).getD k 0 = φ k := fun k hk => getD_tuple φ hk
      have hyG := shiftMod_inGrid hx hol
      refine ⟨_, hx, fun f f' get hs _ => ?_⟩
      have hLd : c.L.getD a 0 ≤ (c.d.getD a 0 - 1) * c.L.getD a 0 := Nat.le_mul_of_pos_left _ (by omega)
      by_cases hlt : m < c.d.getD a 0
      · let ψ : Nat → Nat := fun k => if k = a then (c.d.getD k 0 - 1) * c.L.getD k 0 else c.L.getD k 0 - 1
        have hψa : ψ a = (c.d.getD a 0 - 1) * c.L.getD a 0 := if_pos rfl
        have hg := tuple_box h hx ψ (fun k hk => by
          rw [hxd k hk]
          have := (axis_sizes h hk).2.2.2.1
          simp only [ψ, φ]
          split
          · rw [Nat.add_mul]; omega
          · omega)
        have ht := hcell φ ψ hx hg ((c.d.getD a 0 - 1) * c.L.getD a 0 - m) (by rw [hψa]; omega) (by omega)
        have hy := hcoord φ hx (c.d.getD a 0 - 1 - m) (by
          rw [hka, hφa, emod_toNat (k := c.d.getD a 0 - 1 - m) (by omega), Nat.mod_eq_of_lt (by omega)])
        refine entry_above h hx hcells hs hkv h0 hshort hg (fun hin => ?_) ha (fun m' hm' hf k hk => ?_)
        · have := (h.boxD hx hin ha).1
          rw [ht a ha, if_pos rfl, hxd a ha, hφa, ← h.getD_L ha] at this
          omega
        · obtain ⟨_, q1, q2, _⟩ := layer_axis h hyG hf hk
          rw [q1, ht k hk, hy k hk]
          constructor
          · rintro rfl
            rw [hsa, if_neg (by decide), if_pos rfl, if_pos rfl]
            obtain ⟨l, hl⟩ : ∃ l, c.L.getD k 0 = l + 2 := ⟨c.L.getD k 0 - 2, by omega⟩
            obtain ⟨b, rfl⟩ : ∃ b, m = b + 2 := ⟨m - 2, by omega⟩
            obtain ⟨e, he⟩ : ∃ e, c.d.getD k 0 = e + b + 3 := ⟨c.d.getD k 0 - b - 3, by omega⟩
            rw [hl, he]
            have e1 : e + b + 3 - 1 - (b + 2) + 1 = e + 1 := by omega
            have e2 : e + b + 3 - 1 = e + b + 2 := by omega
            rw [e1, e2]
            have e3 : (e + b + 2) * (l + 2) = (e + 1) * (l + 2) + (b * l + 2 * b + l + 2) := by ring
            rw [e3]
            omega
          · intro hka'
            rw [hside k hka', if_neg (by decide), if_neg hka', if_neg hka']
            simp only [ψ, φ]
            rw [if_neg hka', if_neg hka']
            omega
      · have hmd' : m = c.d.getD a 0 := by omega
        let ψ : Nat → Nat := fun k => if k = a then (c.d.getD k 0 - 1) * c.L.getD k 0 else 0
        have hψa : ψ a = (c.d.getD a 0 - 1) * c.L.getD a 0 := if_pos rfl
        have hg := tuple_box h hx ψ (fun k hk => by
          rw [hxd k hk]
          have := (axis_sizes h hk).2.2.2.1
          simp only [ψ, φ]
          split
          · rw [Nat.add_mul]; omega
          · omega)
        have ht := hcell φ ψ hx hg ((c.d.getD a 0 - 1) * c.L.getD a 0 - m) (by rw [hψa]; omega) (by omega)
        have hy := hcoord φ hx (c.d.getD a 0 - 1) (by
          rw [hka, hφa, show (((c.d.getD a 0 - 1 : Nat) : Int) + -(m : Int)) = -1 by omega, emod_minus ad])
        refine entry_below h hx hcells hs hkv h0 hshort hg (fun hin => ?_) ha (fun m' hm' hf k hk => ?_)
        · have := (h.boxD hx hin ha).1
          rw [ht a ha, if_pos rfl, hxd a ha, hφa, ← h.getD_L ha] at this
          omega
        · obtain ⟨q1, _, q2, _⟩ := layer_axis h hyG hf hk
          rw [q1, ht k hk, hy k hk]
          constructor
          · rintro rfl
            have := q2 (by rw [hsa]; decide)
            rw [if_pos rfl, if_pos rfl, hsa, if_pos (by decide)]
            have e1 : c.d.getD k 0 - 1 + 1 = c.d.getD k 0 := by omega
            rw [e1, ← an]
            omega
          · intro hka'
            rw [if_neg hka', if_neg hka', hside k hka', if_neg (by decide)]
            simp only [ψ, φ]
            rw [if_neg hka', if_neg hka', Nat.zero_mul]

omit [Add R] [Mul R] in
theorem foldlM_ok_mem {α σ : Type} (P : σ → Prop) (f : σ → α → M σ) (l : List α) (s s' : σ) (h : l.foldlM f s = .ok s')
    (h0 : P s) (hf : ∀ s a s1, a ∈ l → P s → f s a = .ok s1 → P s1) {a : α} (ha : a ∈ l) :
    ∃ s1 s2, P s1 ∧ f s1 a = .ok s2 := by
  induction l generalizing s with
  | nil => simp at ha
  | cons b l ih =>
    rw [List.foldlM_cons] at h
    obtain ⟨s1, e1, e2⟩ := (M.bind_ok_iff _ _ _).1 h
    rcases List.mem_cons.1 ha with rfl | ha
    · exact ⟨s, s1, h0, e1⟩
    · exact ih s1 e2 (hf _ _ _ (by simp) h0 e1) (fun s a s1 ha => hf s a s1 (by simp [ha])) ha

/-- Every branch of an `applyFilter` that ends normally ends normally. -/
theorem applyFilter_entry [Zero R] (h : c.Good) (hs : Shape c x c.tab f) {get : Filter.Getter R}
    (he : f.applyFilter get = .ok f') {kv : List Int × R} (hkv : kv ∈ c.st) :
    ∃ f1 f2, Shape c x c.tab f1 ∧ f1.applyEntry get kv = .ok f2 := by
  unfold Filter.applyFilter at he
  obtain ⟨f1, e1, he⟩ := (M.bind_ok_iff _ _ _).1 he
  have k1 := zeroOut_kept hs e1
  rw [k1.shape.st] at he
  exact foldlM_ok_mem (Shape c x c.tab) _ _ _ _ he k1.shape
    (fun s a s1 _ hk e => (applyEntry_kept h hk e).shape) hkv

omit [Add R] [Mul R] in
theorem get_rank {w : World R} {nr : Int} {win : Nat} {n : Int} {data : Buf R} (h : w.get nr win n = .ok data) :
    0 ≤ nr ∧ nr < w.length := by
  unfold World.get at h
  by_cases hc : nr < 0 ∨ n < 0
  · rw [if_pos hc] at h; cases h
  · rw [if_neg hc] at h
    have h0 : 0 ≤ nr := by omega
    refine ⟨h0, ?_⟩
    by_contra hge
    have : w[nr.toNat]? = none := List.getElem?_eq_none (by omega)
    rw [this] at h
    cases h

/-- A branch that does not end normally on one rank. -/
theorem world_never [Zero R] (h : c.Good) {w : World R} {P : List Nat → Filter R → Prop} (hw : Ranks c P w)
    (hP : ∀ x f, P x f → Shape c x c.tab f) {kv : List Int × R} (hkv : kv ∈ c.st)
    (hn : ∃ x, InGrid c.d x ∧ ∀ (f f' : Filter R) (get : Filter.Getter R), Shape c x c.tab f →
      (∀ nr win n data, get nr win n = .ok data → 0 ≤ nr ∧ nr < c.nprocs) → f.applyEntry get kv ≠ .ok f')
    (w' : World R) : w.applyFilter ≠ .ok w' := by
  intro he
  obtain ⟨x, hx, hn⟩ := hn
  obtain ⟨f, hf, hp⟩ := hw.exists (h := h) hx
  obtain ⟨f', e, _⟩ := (mapM_ok_get _ _ _ he).2 _ _ hf
  obtain ⟨f1, f2, hs, e1⟩ := applyFilter_entry h (hP x f hp) e hkv
  refine hn f1 f2 w.get hs (fun nr win n data hg => ?_) e1
  rw [← hw.1]
  exact get_rank hg

end Fidi
