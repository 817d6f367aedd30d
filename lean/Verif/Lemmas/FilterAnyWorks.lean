import Verif.Lemmas.FilterAnyAxes

/-
The offsets that satisfy `OffsetWorks` are those for which every process finds the cells it needs.
-/
namespace Fidi
open Spec
variable {R : Type} {c : Cfg R} {x y : List Nat}

theorem getD_ge {α : Type} {l : List α} {i : Nat} {z : α} (h : l.length ≤ i) : l.getD i z = z := by simp [h]

theorem procs_pos (h : c.Good) : 0 < c.nprocs := by
  rw [← h.good.valid.2]
  exact prod_pos_of h.good.d_pos

/-- The width of the layers. -/
theorem window_fits (h : c.Good) {kv : List Int × R} (hkv : kv ∈ c.st) {m : Nat}
    (hm : (StdMap.find c.tab.gh (sideOf kv.1)).getD 0 = m) {i : Nat} (hi : kv.1.getD i 0 ≠ 0) : 1 ≤ m ∧ m ≤ c.L.getD i 0 := by
  have hf := fits_any h hkv
  rw [hm] at hf
  obtain ⟨_, i0⟩ := fits_axis h hkv hi
  have i1 : i < c.L.length := by rw [h.lenL]; exact i0
  have i2 : i < (sideOf kv.1).length := by rw [length_sideOf, (h.st kv hkv).1]; exact i0
  have h3 := hf.2 i i1 i2 (by
    have := getD_sideOf kv.1 i
    rw [getD_of_lt i2] at this
    rw [this]
    intro hc
    exact hi (Int.sign_eq_zero_iff_zero.1 (by omega)))
  rwa [← getD_of_lt (z := 0) i1] at h3

/-- The table keeps the width of the first offset of each side. -/
theorem gh_fold {o : List Int} (h0 : o.countP (· ≠ 0) ≠ 0) (l : List (List Int)) (t : WinTab) :
    StdMap.find (l.foldl WinTab.step t).gh (sideOf o) =
      (StdMap.find t.gh (sideOf o)).or ((l.find? fun o' => decide (o'.map Int.sign = o.map Int.sign)).map ghostWidth) := by
  induction l generalizing t with
  | nil => simp
  | cons o' l ih =>
    have hiff : sideOf o = sideOf o' ↔ o'.map Int.sign = o.map Int.sign := by
      constructor
      · intro e
        have := congrArg (List.map fun o : Int => -o) e
        simpa [sideOf, List.map_map, Function.comp_def, eq_comm] using this
      · intro e
        have := congrArg (List.map fun o : Int => -o) e
        simpa [sideOf, List.map_map, Function.comp_def, eq_comm] using this
    rw [List.foldl_cons, ih, List.find?_cons]
    unfold WinTab.step
    by_cases hz : o'.countP (· ≠ 0) = 0
    · rw [if_pos hz]
      have hne : ¬ o'.map Int.sign = o.map Int.sign := fun e => by
        rw [← hiff] at e
        exact h0 ((sideOf_zero_iff o).1 (by rw [e]; exact (sideOf_zero_iff o').2 hz))
      rw [decide_eq_false hne]
    · rw [if_neg hz]
      dsimp only
      rw [StdMap.find_insert]
      by_cases e : sideOf o = sideOf o'
      · rw [if_pos e, decide_eq_true (hiff.1 e), ← e]
        cases StdMap.find t.gh (sideOf o) <;> rfl
      · rw [if_neg e, decide_eq_false fun e' => e (hiff.2 e')]

theorem width_of (c : Cfg R) {kv : List Int × R} (h0 : kv.1.countP (· ≠ 0) ≠ 0) :
    (StdMap.find c.tab.gh (sideOf kv.1)).getD 0 = firstWidth (c.st.map Prod.fst) kv.1 := by
  show (StdMap.find ((c.st.map Prod.fst).foldl WinTab.step WinTab.empty).gh (sideOf kv.1)).getD 0 = _
  rw [gh_fold h0]
  rfl

/-- The process at `y` serves the process at `x`. -/
def ServedBy (c : Cfg R) (off : List Int) (x y : List Nat) : Prop :=
  rankOfInt c.d (shiftedCoords c.d x off) = (rankOf c.d y : Nat) ∧
  ∀ g, InBox (c.lo x) (c.hi x) g → InBox (c.lo x) (c.hi x) (shiftMod c.dims g off) ∨ InWindow c y off (shiftMod c.dims g off)

/-- The displaced cells of a cell that leaves along axis `p`. -/
theorem leave_key (h : c.Good) (hx : InGrid c.d x) (hy : InGrid c.d y) {kv : List Int × R} (hkv : kv ∈ c.st)
    {m : Nat} (hm : (StdMap.find c.tab.gh (sideOf kv.1)).getD 0 = m)
    (H : ∀ g, InBox (c.lo x) (c.hi x) g → InBox (c.lo x) (c.hi x) (shiftMod c.dims g kv.1) ∨
      InWindow c y kv.1 (shiftMod c.dims g kv.1)) {p : Nat} (hp : kv.1.getD p 0 ≠ 0) (hD : c.d.getD p 0 ≠ 1) (r : Nat → Nat)
    (hr : ∀ k, k < c.dims.length → r k < c.L.getD k 0)
    (hrp : r p = if 0 < kv.1.getD p 0 then c.L.getD p 0 - 1 else 0) {k : Nat} (hk : k < c.dims.length) :
    ∃ q, AxisTo (c.d.getD k 0) (c.L.getD k 0) (x.getD k 0) (r k) (kv.1.getD k 0) (y.getD k 0) q ∧
      (0 < kv.1.getD k 0 → q < m) ∧ (kv.1.getD k 0 < 0 → c.L.getD k 0 ≤ q + m) := by
  have hg := tuple_box h hx (fun k => x.getD k 0 * c.L.getD k 0 + r k) (fun k hk => by
    have := hr k hk
    rw [Nat.add_mul, Nat.one_mul]
    omega)
  have hG := h.grid hx hg
  have hlen := (h.st kv hkv).1
  have htl := (shiftMod_inGrid hG hlen).length_eq
  have hpn : p < c.dims.length := by rw [← hlen]; exact lt_of_getD_ne hp
  have tgt : ∀ j, j < c.dims.length → ∃ y q, AxisTo (c.d.getD j 0) (c.L.getD j 0) (x.getD j 0) (r j) (kv.1.getD j 0) y q ∧
      (shiftMod c.dims ((List.range c.dims.length).map fun k => x.getD k 0 * c.L.getD k 0 + r k) kv.1).getD j 0 =
        y * c.L.getD j 0 + q := by
    intro j hj
    obtain ⟨r', y', q, _, a2, a3, a4⟩ := target_axis h hx hkv hg hj
    rw [getD_tuple _ hj] at a2
    have : r' = r j := by omega
    rw [this] at a3
    exact ⟨y', q, a3, a4⟩
  have hout : ¬ InBox (c.lo x) (c.hi x)
      (shiftMod c.dims ((List.range c.dims.length).map fun k => x.getD k 0 * c.L.getD k 0 + r k) kv.1) := by
    rw [box_axis h hx htl]
    intro hall
    obtain ⟨y', q, a1, a2⟩ := tgt p hpn
    have b := hall p hpn
    rw [a2] at b
    have := block_unique a1.1 b.1 b.2
    obtain ⟨a3, a4, a5⟩ := a1
    have := hr p hpn
    split at hrp <;> omega
  have hwin := (H _ hg).resolve_left hout
  rw [window_axis h hy hkv htl hm] at hwin
  obtain ⟨y', q, a1, a2⟩ := tgt k hk
  have b := hwin k hk
  rw [a2, Nat.add_mul, Nat.one_mul] at b
  have hmL : kv.1.getD k 0 ≠ 0 → m ≤ c.L.getD k 0 := fun h0 => (window_fits h hkv hm h0).2
  have hyk : y' = y.getD k 0 := by
    refine block_unique a1.1 ?_ ?_
    · split at b <;> omega
    · rw [Nat.add_mul, Nat.one_mul]
      split at b <;> split at b <;> omega
  subst hyk
  refine ⟨q, a1, fun h0 => ?_, fun h0 => ?_⟩
  · rw [if_pos h0] at b; omega
  · rw [if_pos h0] at b
    have := hmL (by omega)
    omega

theorem wrapOnce_eq (n : Nat) (t : Int) : wrapOnce n t = if t < 0 then t + n else if (n : Int) ≤ t then t - n else t := rfl

/-- The coordinates of the neighbour, if some cell leaves. -/
theorem leave_coord (h : c.Good) (hx : InGrid c.d x) (hy : InGrid c.d y) {kv : List Int × R} (hkv : kv ∈ c.st)
    {m : Nat} (hm : (StdMap.find c.tab.gh (sideOf kv.1)).getD 0 = m)
    (H : ∀ g, InBox (c.lo x) (c.hi x) g → InBox (c.lo x) (c.hi x) (shiftMod c.dims g kv.1) ∨
      InWindow c y kv.1 (shiftMod c.dims g kv.1)) {p : Nat} (hp : kv.1.getD p 0 ≠ 0) (hD : c.d.getD p 0 ≠ 1)
    {k : Nat} (hk : k < c.dims.length) :
    (0 < kv.1.getD k 0 → x.getD k 0 + 1 = c.d.getD k 0 ∧ y.getD k 0 = 0 ∨ y.getD k 0 = x.getD k 0 + 1) ∧
    (kv.1.getD k 0 < 0 → x.getD k 0 = 0 ∧ y.getD k 0 + 1 = c.d.getD k 0 ∨ x.getD k 0 = y.getD k 0 + 1) ∧
    (kv.1.getD k 0 = 0 → y.getD k 0 = x.getD k 0) ∧ y.getD k 0 < c.d.getD k 0 := by
  have hpos : ∀ k, k < c.dims.length → 0 < c.L.getD k 0 := fun k hk => (axis_sizes h hk).2.2.2.1
  obtain ⟨q, ⟨a1, a2, a3⟩, _⟩ := leave_key h hx hy hkv hm H hp hD
    (fun k => if 0 < kv.1.getD k 0 then c.L.getD k 0 - 1 else 0)
    (fun k hk => by have := hpos k hk; split <;> omega) rfl hk
  have := hpos k hk
  split at a3 <;> refine ⟨fun _ => ?_, fun _ => ?_, fun _ => ?_, a2⟩ <;> omega

/-- The components of an offset taken one step closer to zero. -/
theorem getD_steps (off : List Int) (k : Nat) : (off.map fun o => o - o.sign).getD k 0 =
    if off.getD k 0 < 0 then off.getD k 0 + 1 else if 1 ≤ off.getD k 0 then off.getD k 0 - 1 else off.getD k 0 := by
  rw [← sign_step, List.getD_eq_getElem?_getD, List.getD_eq_getElem?_getD, List.getElem?_map]
  cases off[k]? <;> simp

theorem getD_cast (x : List Nat) (k : Nat) : (x.map fun n : Nat => (n : Int)).getD k 0 = ((x.getD k 0 : Nat) : Int) := by
  rw [List.getD_eq_getElem?_getD, List.getD_eq_getElem?_getD, List.getElem?_map]
  cases x[k]? <;> simp

/-- The rank of the neighbour, if it is known along every axis. -/
theorem rank_steps (h : c.Good) (hx : InGrid c.d x) (hyl : y.length = c.d.length) {kv : List Int × R} (hkv : kv ∈ c.st)
    (hc : ∀ k, k < c.dims.length → wrapOnce (c.d.getD k 0) (x.getD k 0 + kv.1.getD k 0) =
      (y.getD k 0 : Int) + if kv.1.getD k 0 < 0 then kv.1.getD k 0 + 1 else if 1 ≤ kv.1.getD k 0 then kv.1.getD k 0 - 1
        else kv.1.getD k 0) :
    rankOfInt c.d (shiftedCoords c.d x kv.1) = (rankOf c.d y : Nat) + rankOfInt c.d (kv.1.map fun o => o - o.sign) := by
  have hl := h.good.length_eq
  rw [← rankOfInt_nat hyl]
  refine rankOfInt_add (length_shiftedCoords _ _ _) (by simpa using hyl) (by simp [(h.st kv hkv).1, hl]) (fun i hi => ?_)
  rw [(coord_any h hx hkv (by omega)).1, hc i (by omega), getD_steps, getD_cast]

/-- If every process is served, the offset satisfies `OffsetWorks`. -/
theorem works_of (h : c.Good) {kv : List Int × R} (hkv : kv ∈ c.st)
    {m : Nat} (hm : (StdMap.find c.tab.gh (sideOf kv.1)).getD 0 = m)
    (H : ∀ x, InGrid c.d x → ∃ y, InGrid c.d y ∧ ServedBy c kv.1 x y) : OffsetWorksWith m c.d c.L kv.1 := by
  have hlen := (h.st kv hkv).1
  have hnp1 := procs_pos h
  have hdl := h.good.length_eq
  have hLl := h.lenL
  have hpos : ∀ k, k < c.dims.length → 0 < c.L.getD k 0 := fun k hk => (axis_sizes h hk).2.2.2.1
  have hlt : ∀ {k}, kv.1.getD k 0 ≠ 0 → k < c.dims.length := fun hk => by rw [← hlen]; exact lt_of_getD_ne hk
  have hd1 : ∀ {k}, k < c.dims.length → c.d.getD k 1 = c.d.getD k 0 := fun hk => by
    rw [getD_of_lt (by omega), getD_of_lt (by omega)]
  have hL1 : ∀ {k}, k < c.dims.length → c.L.getD k 1 = c.L.getD k 0 := fun hk => by
    rw [getD_of_lt (by omega), getD_of_lt (by omega)]
  -- along the axes that are decomposed the offset is one cell
  have short : ∀ p, kv.1.getD p 0 ≠ 0 → c.d.getD p 0 ≠ 1 → (kv.1.getD p 0).natAbs = 1 := by
    intro p hp hD
    have hpn := hlt hp
    obtain ⟨_, _, hDp, _, _⟩ := axis_sizes h hpn
    obtain ⟨S, hS, _, hax⟩ := rankOfInt_axis h.good.d_pos (a := p) (by omega)
    have hgrid : ∀ a, a < c.d.getD p 0 → InGrid c.d ((List.range c.dims.length).map fun k => if k = p then a else 0) :=
      fun a ha => tuple_grid h _ (fun k hk => by
        have := (axis_sizes h hk).2.2.1
        split
        · rename_i e; rw [e]; exact ha
        · exact this)
    have hgd : ∀ a k, k < c.dims.length →
        ((List.range c.dims.length).map fun k => if k = p then a else 0).getD k 0 = if k = p then a else 0 :=
      fun a k hk => getD_tuple _ hk
    have F : ∀ a b, a < c.d.getD p 0 → b < c.d.getD p 0 → ∃ ya yb : Nat,
        wrapOnce (c.d.getD p 0) (a + kv.1.getD p 0) - ya = wrapOnce (c.d.getD p 0) (b + kv.1.getD p 0) - yb ∧
        (0 < kv.1.getD p 0 → (a + 1 = c.d.getD p 0 ∧ ya = 0 ∨ ya = a + 1) ∧ (b + 1 = c.d.getD p 0 ∧ yb = 0 ∨ yb = b + 1)) ∧
        (kv.1.getD p 0 < 0 → (a = 0 ∧ ya + 1 = c.d.getD p 0 ∨ a = ya + 1) ∧ (b = 0 ∧ yb + 1 = c.d.getD p 0 ∨ b = yb + 1)) ∧
        ya < c.d.getD p 0 ∧ yb < c.d.getD p 0 := by
      intro a b ha hb
      obtain ⟨y1, hy1, hr1, hc1⟩ := H _ (hgrid a ha)
      obtain ⟨y2, hy2, hr2, hc2⟩ := H _ (hgrid b hb)
      have l1 := fun k hk => leave_coord h (hgrid a ha) hy1 hkv hm hc1 hp hD (k := k) hk
      have l2 := fun k hk => leave_coord h (hgrid b hb) hy2 hkv hm hc2 hp hD (k := k) hk
      have e1 := hax (shiftedCoords c.d _ kv.1) (shiftedCoords c.d _ kv.1) (length_shiftedCoords c.d
        ((List.range c.dims.length).map fun k => if k = p then a else 0) kv.1) (length_shiftedCoords c.d
        ((List.range c.dims.length).map fun k => if k = p then b else 0) kv.1) (fun i hi => by
          by_cases hin : i < c.dims.length
          · rw [(coord_any h (hgrid a ha) hkv hin).1, (coord_any h (hgrid b hb) hkv hin).1, hgd a i hin, hgd b i hin,
              if_neg hi, if_neg hi]
          · rw [getD_ge (by rw [length_shiftedCoords]; omega),
              getD_ge (by rw [length_shiftedCoords]; omega)])
      have e2 := hax (y1.map fun n : Nat => (n : Int)) (y2.map fun n : Nat => (n : Int)) (by simpa using hy1.length_eq)
        (by simpa using hy2.length_eq) (fun i hi => by
          rw [getD_cast, getD_cast]
          by_cases hin : i < c.dims.length
          · have a1 := l1 i hin
            have a2 := l2 i hin
            rw [hgd a i hin, if_neg hi] at a1
            rw [hgd b i hin, if_neg hi] at a2
            omega
          · rw [getD_ge (by rw [hy1.length_eq]; omega), getD_ge (by rw [hy2.length_eq]; omega)])
      rw [rankOfInt_nat hy1.length_eq, rankOfInt_nat hy2.length_eq, getD_cast, getD_cast] at e2
      rw [hr1, hr2, e2, (coord_any h (hgrid a ha) hkv hpn).1, (coord_any h (hgrid b hb) hkv hpn).1, hgd a p hpn, hgd b p hpn,
        if_pos rfl, if_pos rfl] at e1
      have e3 := mul_left_cancel₀ (by omega : (S : Int) ≠ 0) (add_left_cancel e1)
      have a1 := l1 p hpn
      have a2 := l2 p hpn
      rw [hgd a p hpn, if_pos rfl] at a1
      rw [hgd b p hpn, if_pos rfl] at a2
      exact ⟨y1.getD p 0, y2.getD p 0, by omega, fun h0 => ⟨a1.1 h0, a2.1 h0⟩, fun h0 => ⟨a1.2.1 h0, a2.2.1 h0⟩,
        a1.2.2.2, a2.2.2.2⟩
    generalize kv.1.getD p 0 = o at hp F ⊢
    generalize c.d.getD p 0 = D at hD hDp F
    by_contra hne
    rcases Int.lt_or_gt_of_ne hp with ho | ho
    · obtain ⟨b, hb, hb'⟩ : ∃ b, b < D ∧ ((D : Int) ≤ -o ∧ b = D - 1 ∨ -o < D ∧ (b : Int) = -o - 1) := by
        by_cases e : (D : Int) ≤ -o
        · exact ⟨D - 1, by omega, Or.inl ⟨e, rfl⟩⟩
        · exact ⟨(-o - 1).toNat, by omega, Or.inr ⟨by omega, by omega⟩⟩
      obtain ⟨ya, yb, f1, _, f2, f3⟩ := F 0 b (by omega) hb
      obtain ⟨f2, f2'⟩ := f2 ho
      rw [wrapOnce_eq, wrapOnce_eq] at f1
      split_ifs at f1 <;> omega
    · obtain ⟨b, hb, hb'⟩ : ∃ b, b < D ∧ ((D : Int) ≤ o ∧ b = 0 ∨ o < D ∧ (b : Int) = D - o) := by
        by_cases e : (D : Int) ≤ o
        · exact ⟨0, by omega, Or.inl ⟨e, rfl⟩⟩
        · exact ⟨(D - o).toNat, by omega, Or.inr ⟨by omega, by omega⟩⟩
      obtain ⟨ya, yb, f1, f2, _, f3⟩ := F (D - 1) b (by omega) hb
      obtain ⟨f2, f2'⟩ := f2 ho
      rw [wrapOnce_eq, wrapOnce_eq] at f1
      split_ifs at f1 <;> omega
  refine ⟨?_, ?_, ?_⟩
  · by_cases hP : ∃ p, kv.1.getD p 0 ≠ 0 ∧ c.d.getD p 0 ≠ 1
    · obtain ⟨p, hp, hD⟩ := hP
      obtain ⟨x, hx, _⟩ := h.coords (r := 0) hnp1
      obtain ⟨y, hy, hr, hcells⟩ := H x hx
      have := rank_steps h hx hy.length_eq hkv (y := y) (fun k hk => by
        obtain ⟨a1, a2, a3, a4⟩ := leave_coord h hx hy hkv hm hcells hp hD hk
        have hxk := h.ltD hx hk
        have hs : c.d.getD k 0 ≠ 1 → (kv.1.getD k 0).natAbs ≤ 1 := fun hd => by
          by_cases h0 : kv.1.getD k 0 = 0
          · rw [h0]; simp
          · rw [short k h0 hd]
        rw [wrapOnce_eq]
        split <;> omega)
      omega
    · push Not at hP
      have key : ∀ x, InGrid c.d x → rankOfInt c.d (shiftedCoords c.d x kv.1) =
          (rankOf c.d x : Nat) + rankOfInt c.d (kv.1.map fun o => o - o.sign) := fun x hx =>
        rank_steps h hx hx.length_eq hkv (fun k hk => by
          have hxk := h.ltD hx hk
          have := hP k
          rw [wrapOnce_eq]
          split <;> omega)
      obtain ⟨x0, hx0, r0⟩ := h.coords (r := 0) (by omega)
      obtain ⟨x1, hx1, r1⟩ := h.coords (r := c.nprocs - 1) (by omega)
      obtain ⟨y0, hy0, s0, _⟩ := H x0 hx0
      obtain ⟨y1, hy1, s1, _⟩ := H x1 hx1
      have k0 := key x0 hx0
      have k1 := key x1 hx1
      have b0 := h.rank_lt hy0
      have b1 := h.rank_lt hy1
      omega
  · intro i hi hD
    rw [hd1 (hlt hi)] at hD
    exact short i hi hD
  · intro i j hij hi hj
    have hin := hlt hi
    have hjn := hlt hj
    rw [hd1 hin, hd1 hjn, hL1 hjn]
    by_cases hD : c.d.getD i 0 = 1
    · exact Or.inl hD
    right
    obtain ⟨x, hx, _⟩ := h.coords (r := 0) hnp1
    obtain ⟨y, hy, hr, hcells⟩ := H x hx
    obtain ⟨hm1, hmL⟩ := window_fits h hkv hm hj
    have hoL := Nat.le_trans (natAbs_le_ghostWidth kv.1 j) (fits_axis h hkv hj).1
    have hxj := h.ltD hx hjn
    have a0 := leave_coord h hx hy hkv hm hcells hi hD hjn
    have key : ∀ rj, rj < c.L.getD j 0 → ∃ q, AxisTo (c.d.getD j 0) (c.L.getD j 0) (x.getD j 0) rj (kv.1.getD j 0) (y.getD j 0) q ∧
        (0 < kv.1.getD j 0 → q < m) ∧ (kv.1.getD j 0 < 0 → c.L.getD j 0 ≤ q + m) := by
      intro rj hrj
      have := leave_key h hx hy hkv hm hcells hi hD
        (fun k => if k = j then rj else if 0 < kv.1.getD k 0 then c.L.getD k 0 - 1 else 0)
        (fun k hk => by
          have := hpos k hk
          split
          · rename_i e; rw [e]; exact hrj
          · split <;> omega) (by rw [if_neg hij]) hjn
      rwa [if_pos rfl] at this
    have hLj := hpos j hjn
    by_cases hDj : c.d.getD j 0 = 1
    · refine ⟨?_, Or.inl hDj⟩
      rcases Int.lt_or_gt_of_ne hj with ho | ho
      · by_cases e : -kv.1.getD j 0 = c.L.getD j 0
        · obtain ⟨q, ⟨k1, k2, k3⟩, k4, k5⟩ := key 0 hLj
          have := k5 ho
          omega
        · obtain ⟨q, ⟨k1, k2, k3⟩, k4, k5⟩ := key (-kv.1.getD j 0).toNat (by omega)
          have := k5 ho
          omega
      · by_cases e : kv.1.getD j 0 = c.L.getD j 0
        · obtain ⟨q, ⟨k1, k2, k3⟩, k4, k5⟩ := key (c.L.getD j 0 - 1) (by omega)
          have := k4 ho
          omega
        · obtain ⟨q, ⟨k1, k2, k3⟩, k4, k5⟩ := key (c.L.getD j 0 - 1 - (kv.1.getD j 0).toNat) (by omega)
          have := k4 ho
          omega
    · have hs := short j hj hDj
      have hone : c.L.getD j 0 = 1 := by
        by_contra hne
        obtain ⟨q, ⟨k1, k2, k3⟩, _⟩ := key (if 0 < kv.1.getD j 0 then 0 else c.L.getD j 0 - 1) (by split <;> omega)
        split at k3 <;> omega
      omega

/-- If the offset satisfies `OffsetWorks`, every process is served. -/
theorem served_of (h : c.Good) {kv : List Int × R} (hkv : kv ∈ c.st)
    {m : Nat} (hm : kv.1.countP (· ≠ 0) ≠ 0 → (StdMap.find c.tab.gh (sideOf kv.1)).getD 0 = m)
    (ho : OffsetWorksWith m c.d c.L kv.1) (hx : InGrid c.d x) : ∃ y, InGrid c.d y ∧ ServedBy c kv.1 x y := by
  have hlen := (h.st kv hkv).1
  have hdl := h.good.length_eq
  have hLl := h.lenL
  have hlt : ∀ {k}, kv.1.getD k 0 ≠ 0 → k < c.dims.length := fun hk => by rw [← hlen]; exact lt_of_getD_ne hk
  have hd1 : ∀ {k}, k < c.dims.length → c.d.getD k 1 = c.d.getD k 0 := fun hk => by
    rw [getD_of_lt (by omega), getD_of_lt (by omega)]
  have hL1 : ∀ {k}, k < c.dims.length → c.L.getD k 1 = c.L.getD k 0 := fun hk => by
    rw [getD_of_lt (by omega), getD_of_lt (by omega)]
  obtain ⟨hrank, hshort, hcover⟩ := ho
  let φ : Nat → Nat := fun k =>
    if 0 < kv.1.getD k 0 then (if x.getD k 0 + 1 = c.d.getD k 0 then 0 else x.getD k 0 + 1)
    else if kv.1.getD k 0 < 0 then (if x.getD k 0 = 0 then c.d.getD k 0 - 1 else x.getD k 0 - 1) else x.getD k 0
  have hφ : ∀ k, k < c.dims.length →
      (0 < kv.1.getD k 0 → x.getD k 0 + 1 = c.d.getD k 0 ∧ φ k = 0 ∨ x.getD k 0 + 1 < c.d.getD k 0 ∧ φ k = x.getD k 0 + 1) ∧
      (kv.1.getD k 0 < 0 → x.getD k 0 = 0 ∧ φ k + 1 = c.d.getD k 0 ∨ x.getD k 0 = φ k + 1) ∧
      (kv.1.getD k 0 = 0 → φ k = x.getD k 0) ∧ φ k < c.d.getD k 0 := by
    intro k hk
    have := h.ltD hx hk
    simp only [φ]
    split_ifs <;> omega
  have hy := tuple_grid h φ (fun k hk => (hφ k hk).2.2.2)
  have hyd : ∀ k, k < c.dims.length → ((List.range c.dims.length).map φ).getD k 0 = φ k := fun k hk => getD_tuple φ hk
  refine ⟨_, hy, ?_, fun g hg => ?_⟩
  · rw [rank_steps h hx hy.length_eq hkv (fun k hk => ?_), hrank, Int.add_zero]
    rw [hyd k hk, wrapOnce_eq]
    have a := hφ k hk
    have hxk := h.ltD hx hk
    have hs : c.d.getD k 0 ≠ 1 → kv.1.getD k 0 ≠ 0 → (kv.1.getD k 0).natAbs = 1 := fun hd h0 =>
      hshort k h0 (by rw [hd1 hk]; exact hd)
    split_ifs <;> omega
  · by_cases hin : InBox (c.lo x) (c.hi x) (shiftMod c.dims g kv.1)
    · exact Or.inl hin
    right
    have hG := h.grid hx hg
    have htl := (shiftMod_inGrid hG hlen).length_eq
    -- an axis along which the cell leaves
    rw [box_axis h hx htl] at hin
    push Not at hin
    obtain ⟨p, hpn, hp⟩ := hin
    have hleave : ∀ y' q, q < c.L.getD p 0 →
        (shiftMod c.dims g kv.1).getD p 0 = y' * c.L.getD p 0 + q → y' ≠ x.getD p 0 := by
      rintro y' q hq e rfl
      rw [e] at hp
      have := hp (by omega)
      rw [Nat.add_mul, Nat.one_mul] at this
      omega
    obtain ⟨r, y', q, a1, a2, a3, a4⟩ := target_axis h hx hkv hg hpn
    have hxp := h.ltD hx hpn
    have hy' := hleave y' q a3.1 a4
    have hop : kv.1.getD p 0 ≠ 0 := by
      intro h0
      obtain ⟨_, _, b⟩ := a3
      omega
    have hDp : c.d.getD p 0 ≠ 1 := by
      intro h0
      obtain ⟨_, _, b⟩ := a3
      omega
    have h0 := countP_ne hop
    rw [window_axis h hy hkv htl (hm h0)]
    intro k hk
    rw [hyd k hk]
    obtain ⟨r, y', q, b1, b2, ⟨b3, b4, b5⟩, b6⟩ := target_axis h hx hkv hg hk
    rw [b6, Nat.add_mul, Nat.one_mul]
    have b7 := hφ k hk
    have hxk := h.ltD hx hk
    have hm1 := (window_fits h hkv (hm h0) hop).1
    by_cases hk0 : kv.1.getD k 0 = 0
    · rw [if_neg (by omega), if_neg (by omega)]
      have e : y' = φ k := by omega
      rw [e]
      omega
    · have hmL := (window_fits h hkv (hm h0) hk0).2
      have hoL := Nat.le_trans (natAbs_le_ghostWidth kv.1 k) (fits_axis h hkv hk0).1
      -- the block is that of the neighbour, and the position is in the layer
      have key : y' = φ k ∧ (0 < kv.1.getD k 0 → q < m) ∧
          (kv.1.getD k 0 < 0 → c.L.getD k 0 ≤ q + m) := by
        by_cases hkp : k = p
        · subst hkp
          have hs := hshort k hk0 (by rw [hd1 hk]; exact hDp)
          have hne := hleave y' q b3 b6
          refine ⟨?_, ?_, ?_⟩ <;> omega
        · have hcv := (hcover p k (Ne.symm hkp) hop hk0).resolve_left (by rw [hd1 hpn]; exact hDp)
          rw [hL1 hk, hd1 hk] at hcv
          have hs : c.d.getD k 0 ≠ 1 → (kv.1.getD k 0).natAbs = 1 := fun hd => hshort k hk0 (by rw [hd1 hk]; exact hd)
          refine ⟨?_, ?_, ?_⟩ <;> omega
      obtain ⟨rfl, k1, k2⟩ := key
      split_ifs <;> omega

end Fidi
