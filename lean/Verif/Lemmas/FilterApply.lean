import Verif.Lemmas.FilterStep

/-
`applyFilter`: the loop over the cells, the fetch and the loop over the stencil.
-/
namespace Fidi
open Spec
variable {R : Type} {c : Cfg R} {x : List Nat} {t : WinTab} {f : Filter R}

theorem itAt_bigInt {lo hi t : List Nat} (hv : volume lo hi < 2 ^ 31) (hs : ∀ h ∈ hi, h < W) (h : InBox lo hi t) (k : Nat) :
    (itAt lo hi k).computeBigIndexInt (t.map fun n : Nat => (n : Int)) = .ok ((flatOf false lo hi t : Nat) : Int) := by
  have hb := InBox_boxLt h
  have hvW : volume lo hi < W := by unfold W; omega
  unfold itAt
  rw [builtIter_eq false hb hvW]
  unfold MultiArrayIter.computeBigIndexInt
  rw [bigIndexAcc_eq _ _ _ (by simp [hb.length_extents]) rfl (by simp [h.length_lo])]
  have e : List.zipWith (fun (x : Int) l => szSub (szOfInt x) l) (t.map fun n : Nat => (n : Int)) lo =
      List.zipWith (fun x l => szSub x l) t lo := by
    apply List.ext_getElem (by simp)
    intro i h1 h2
    simp only [List.getElem_zipWith, List.getElem_map]
    rw [szOfInt_ofNat]
    have i1 : i < lo.length := by simp at h1; omega
    have i2 : i < t.length := by simp at h1; omega
    have i3 : i < hi.length := by rw [h.length_hi]; exact i1
    exact Nat.lt_trans (h.getElem i i1 i3 i2).2 (hs _ (List.getElem_mem i3))
  simp only [M.ok_bind]
  rw [e, zipWith_szSub hs h]
  have hlt := flatOf_lt false h
  have e2 : dot (strides false (extents lo hi)) (List.zipWith (fun x l => x - l) t lo) = flatOf false lo hi t := rfl
  rw [e2, Nat.mod_eq_of_lt (by omega), intOfSz_of_lt (by rw [intLim_eq]; omega)]
  rfl

theorem wrap_neg {n : Nat} (hn : 0 < n) (hw : n ∣ 2 ^ 64) : (2 ^ 64 - 1) % n = n - 1 := by
  obtain ⟨k, hk⟩ := hw
  have hk0 : 0 < k := by
    rcases Nat.eq_zero_or_pos k with rfl | h
    · simp at hk
    · exact h
  have e : 2 ^ 64 - 1 = (n - 1) + n * (k - 1) := by
    rw [hk]
    obtain ⟨k', rfl⟩ : ∃ k', k = k' + 1 := ⟨k - 1, by omega⟩
    rw [Nat.add_sub_cancel, Nat.mul_add, Nat.mul_one]
    omega
  rw [e, Nat.add_mul_mod_self_left, Nat.mod_eq_of_lt (by omega)]

theorem intOfSz_small {n : Nat} (h : n < 2 ^ 31) : intOfSz n = (n : Int) := intOfSz_of_lt (by rw [intLim_eq]; omega)

/-- The index of the code along one axis. -/
theorem wrap_axis {g n : Nat} {o : Int} (hg : g < n) (hn : n < 2 ^ 31) (ho : -(2 : Int) ^ 31 ≤ o ∧ (n : Int) + o ≤ 2 ^ 31) :
    ∃ z : Int, ∃ m : Nat, mkInt (intOfSz g + o) = .ok z ∧ szMod (szOfInt z) n = .ok m ∧
      intOfSz m = (((((g : Int) + o) % 2 ^ 64).toNat % n : Nat) : Int) := by
  rw [intOfSz_small (by omega)]
  refine ⟨(g : Int) + o, (((g : Int) + o) % 2 ^ 64).toNat % n, mkInt_ok (by rw [intLim_eq]; omega) (by rw [intLim_eq]; omega), ?_, ?_⟩
  · unfold szMod
    rw [if_neg (by omega)]
    rfl
  · have := Nat.mod_lt (((g : Int) + o) % 2 ^ 64).toNat (by omega : 0 < n)
    rw [intOfSz_small (by omega)]

/-- With a power of two, the index of the code is the periodic one. -/
theorem wrap64_eq {g n : Nat} {o : Int} (hg : g < n) (hn : n < 2 ^ 31) (ho : o = -1 ∨ o = 0 ∨ o = 1)
    (hw : o < 0 → n ∣ 2 ^ 64) : (((g : Int) + o) % 2 ^ 64).toNat % n = (((g : Int) + o) % (n : Int)).toNat := by
  by_cases hneg : (g : Int) + o < 0
  · have hg0 : g = 0 := by omega
    have ho1 : o = -1 := by omega
    subst hg0 ho1
    have e1 : ((((0 : Nat) : Int) + -1) % 2 ^ 64).toNat = 2 ^ 64 - 1 := by decide
    rw [e1, wrap_neg (by omega) (hw (by omega))]
    have e2 : (((0 : Nat) : Int) + -1) = -1 := by norm_num
    rw [e2, ← Int.add_emod_right, Int.emod_eq_of_lt (by omega) (by omega)]
    omega
  · obtain ⟨a, ha⟩ : ∃ a : Nat, (g : Int) + o = a := ⟨((g : Int) + o).toNat, by omega⟩
    rw [ha, Int.emod_eq_of_lt (by omega) (by omega), ← Int.natCast_mod, Int.toNat_natCast, Int.toNat_natCast]

theorem shift64_inGrid : ∀ {d x : List Nat} {dir : List Int}, InGrid d x → dir.length = d.length →
    InGrid d (shift64 d x dir)
  | [], [], [], _, _ => trivial
  | n :: d, x :: xs, s :: ss, h, hl =>
    ⟨Nat.mod_lt _ (Nat.lt_of_le_of_lt (Nat.zero_le _) h.1), shift64_inGrid h.2 (by simpa using hl)⟩
  | [], _ :: _, _, h, _ => h.elim
  | _ :: _, [], _, h, _ => h.elim
  | [], [], _ :: _, _, hl => by simp at hl
  | _ :: _, _ :: _, [], _, hl => by simp at hl

theorem shift64_getElem : ∀ {d x : List Nat} {dir : List Int} (i : Nat) (h1 : i < d.length) (h2 : i < x.length)
    (h3 : i < dir.length), (shift64 d x dir)[i]? = some ((((x[i] : Int) + dir[i]) % 2 ^ 64).toNat % d[i])
  | _ :: d, _ :: xs, _ :: ss, 0, _, _, _ => rfl
  | _ :: d, _ :: xs, _ :: ss, i + 1, h1, h2, h3 => by
    simp only [shift64, List.getElem?_cons_succ, List.getElem_cons_succ]
    exact shift64_getElem i (by simpa using h1) (by simpa using h2) (by simpa using h3)
  | [], _, _, _, h, _, _ => by simp at h
  | _ :: _, [], _, _, _, h, _ => by simp at h
  | _ :: _, _ :: _, [], _, _, _, h => by simp at h

theorem getD_shift64 {d x : List Nat} {dir : List Int} (i : Nat)
    (h1 : i < d.length) (h2 : x.length = d.length) (h3 : dir.length = d.length) :
    (shift64 d x dir).getD i 0 = (((x.getD i 0 : Int) + dir.getD i 0) % 2 ^ 64).toNat % d.getD i 0 := by
  have e := shift64_getElem (d := d) (x := x) (dir := dir) i h1 (by omega) (by omega)
  rw [List.getD_eq_getElem?_getD, e, Option.getD_some, getD_of_lt h1, getD_of_lt (by omega), getD_of_lt (by omega)]

/-- If the extents along which the offset is negative are powers of two, the cell the code reads is the neighbour. -/
theorem shift64_eq {d x : List Nat} {dir : List Int} (h : InGrid d x) (hd : ∀ n ∈ d, n < 2 ^ 31)
    (hu : UnitOffset d.length dir) (hw : WrapExact d dir) : shift64 d x dir = shiftMod d x dir := by
  have l1 := (shift64_inGrid h hu.1).length_eq
  have l2 := (shiftMod_inGrid h hu.1).length_eq
  apply ext_of_getElem? (by rw [l1, l2])
  intro i hi
  have hi' : i < d.length := by omega
  have hol := hu.1
  have hxl := h.length_eq
  rw [shift64_getElem i hi' (by omega) (by omega), shiftMod_getElem i hi' (by omega) (by omega)]
  have e : dir.getD i 0 = dir[i]'(by omega) := getD_of_lt (by omega)
  rw [wrap64_eq ((inGrid_iff_getElem.1 h).2 i hi' (by omega)) (hd _ (List.getElem_mem hi')) (hu.2 _ (List.getElem_mem _))]
  intro hneg
  have := hw i (by rw [e]; exact hneg)
  rwa [getD_of_lt hi'] at this

/-- An offset whose sum with the index of any cell is an `int`. -/
def Tame (dims : List Nat) (off : List Int) : Prop :=
  off.length = dims.length ∧ ∀ i, i < dims.length → -(2 : Int) ^ 31 ≤ off.getD i 0 ∧
    ((dims.getD i 0 : Nat) : Int) + off.getD i 0 ≤ 2 ^ 31

theorem unit_tame {dims : List Nat} {off : List Int} (hd : ∀ n ∈ dims, n < 2 ^ 31) (hu : UnitOffset dims.length off) :
    Tame dims off := by
  refine ⟨hu.1, fun i hi => ?_⟩
  have := hd _ (List.getElem_mem hi)
  rw [getD_of_lt hi]
  rcases unitD hu i with h | h | h <;> rw [h] <;> omega

/-- The loop over the axes gives the displaced cell and tells whether it is in the sub-domain. -/
theorem offset_loop (h : c.Good) (hx : InGrid c.d x) (hs : Shape c x t f) {off : List Int}
    (hu : Tame c.dims off) {g : List Nat} (hg : InBox (c.lo x) (c.hi x) g) :
    ∃ b : Bool, forUp 0 f.ndims (List.replicate f.ndims 0, true) (f.offsetBody off g) =
      .ok ((shift64 c.dims g off).map (fun n : Nat => (n : Int)), b) ∧
      (b = true ↔ InBox (c.lo x) (c.hi x) (shift64 c.dims g off)) := by
  have hgG := h.grid hx hg
  have hgl := hgG.length_eq
  have hol := hu.1
  have l1 := h.len_lo hx
  have l2 := h.len_hi hx
  have ls := (shift64_inGrid hgG hu.1).length_eq
  obtain ⟨⟨io, b⟩, e, hl, hp, hb⟩ := forUp_inv (Nat.zero_le f.ndims)
    (fun i (p : List Int × Bool) => p.1.length = c.dims.length ∧
      (∀ j, j < i → p.1[j]? = some (((shift64 c.dims g off).getD j 0 : Nat) : Int)) ∧
      (p.2 = true ↔ ∀ j, j < i → (c.lo x).getD j 0 ≤ (shift64 c.dims g off).getD j 0 ∧
        (shift64 c.dims g off).getD j 0 < (c.hi x).getD j 0))
    (f.offsetBody off g) (List.replicate f.ndims 0, true)
    ⟨by simp [hs.ndims], by intro j hj; omega, by simp⟩
    (by
      rintro i ⟨io, b⟩ _ hi ⟨hl, hp, hb⟩
      rw [hs.ndims] at hi
      dsimp only at hl hp hb
      have hgi := (inGrid_iff_getElem.1 hgG).2 i hi (by omega)
      have hoi : off.getD i 0 = off[i]'(by omega) := getD_of_lt (by omega)
      obtain ⟨z, m, e1, e2, e3⟩ := wrap_axis (o := off[i]'(by omega)) hgi (h.dint _ (List.getElem_mem hi))
        (by have := hu.2 i hi; rw [hoi, getD_of_lt hi] at this; exact this)
      have es : (shift64 c.dims g off).getD i 0 = ((((g[i]'(by omega) : Nat) : Int) + off[i]'(by omega)) % 2 ^ 64).toNat % c.dims[i] := by
        rw [getD_shift64 i hi hgl hu.1, getD_of_lt hi, hoi, getD_of_lt (by omega)]
      rw [← es] at e3
      have hlo : intOfSz ((c.lo x)[i]'(by omega)) = (((c.lo x).getD i 0 : Nat) : Int) := by
        rw [getD_of_lt (by omega)]
        apply intOfSz_small
        have a1 : i < (c.hi x).length := by omega
        have := h.hi_lt hx _ (List.getElem_mem a1)
        have b := (inBox_iff_getElem.1 hg).2.2 i (by omega) (by omega) (by omega)
        omega
      have hhi : intOfSz ((c.hi x)[i]'(by omega)) = (((c.hi x).getD i 0 : Nat) : Int) := by
        rw [getD_of_lt (by omega)]
        exact intOfSz_small (h.hi_lt hx _ (List.getElem_mem _))
      refine ⟨(io.set i (((shift64 c.dims g off).getD i 0 : Nat) : Int),
        b && decide ((((c.lo x).getD i 0 : Nat) : Int) ≤ (((shift64 c.dims g off).getD i 0 : Nat) : Int)) &&
          decide ((((shift64 c.dims g off).getD i 0 : Nat) : Int) < (((c.hi x).getD i 0 : Nat) : Int))), ?_, ?_, ?_, ?_⟩
      · unfold Filter.offsetBody
        dsimp only
        rw [rd_of_lt (by omega : i < g.length), M.ok_bind, rd_of_lt (by omega : i < off.length), M.ok_bind, e1, M.ok_bind,
          hs.gdims, rd_of_lt hi, M.ok_bind, e2, M.ok_bind, e3, wr_of_lt (by omega), M.ok_bind, hs.lo,
          rd_of_lt (by omega : i < (c.lo x).length), M.ok_bind, hs.hi, rd_of_lt (by omega : i < (c.hi x).length),
          M.ok_bind, hlo, hhi, M.pure_eq]
      · simpa using hl
      · intro j hj
        by_cases ej : i = j
        · subst ej; simp [hl, hi]
        · simp only [List.getElem?_set_ne ej]
          exact hp j (by omega)
      · simp only [Bool.and_eq_true, decide_eq_true_eq, hb]
        constructor
        · rintro ⟨⟨a1, a2⟩, a3⟩ j hj
          by_cases ej : j = i
          · subst ej; omega
          · exact a1 j (by omega)
        · intro a
          have := a i (by omega)
          refine ⟨⟨fun j hj => a j (by omega), by omega⟩, by omega⟩)
  simp only at hl hp hb
  refine ⟨b, ?_, ?_⟩
  · rw [e]
    congr 2
    rw [hs.ndims] at hp
    apply ext_of_getElem? (by simp [hl, ls])
    intro i hi
    have hi' : i < c.dims.length := by simp [ls] at hi; exact hi
    rw [hp i hi', List.getElem?_map, List.getElem?_eq_getElem (by omega), getD_of_lt (by omega)]
    rfl
  · rw [hb, hs.ndims, inBox_iff_getD, l1, l2, ls]
    simp

/-! The loop over the cells. -/

variable [Add R] [Mul R]

/-- What the loop over the cells adds. -/
theorem updateBody_eq (h : c.Good) (hx : InGrid c.d x) (hs : Shape c x t f) {off : List Int} {u : List Nat → R}
    (hd : f.inData = boxData (c.lo x) (c.hi x) u)
    (hu : Tame c.dims off) (val : R)
    (wit : MultiArrayIter) (dst : Option Nat)
    (hhalo : ∀ g, InBox (c.lo x) (c.hi x) g → ¬ InBox (c.lo x) (c.hi x) (shift64 c.dims g off) →
      ∃ d b p, dst = some d ∧ wit.computeBigIndexInt ((shift64 c.dims g off).map (fun n : Nat => (n : Int))) = .ok ((p : Nat) : Int) ∧
        p < W ∧ f.bufs[d]? = some b ∧ b[p]? = some (some (u (shift64 c.dims g off))))
    (i : Nat) (v : List R) (hi : i < v.length) :
    f.updateBody off val wit dst i (itAt (c.lo x) (c.hi x) i, v) =
      .ok ((itAt (c.lo x) (c.hi x) i).next,
        v.set i (v[i] + val * u (shift64 c.dims (tupleAt false (c.lo x) (c.hi x) i) off))) := by
  have hin := tupleAt_inBox false (h.box hx) i
  obtain ⟨b, e, hb⟩ := offset_loop h hx hs hu hin
  unfold Filter.updateBody
  dsimp only
  rw [itAt_indices (h.box hx) (h.volW hx) (h.hi_ltW hx), M.ok_bind, e, M.ok_bind]
  dsimp only
  cases b with
  | true =>
    have hi2 := hb.1 rfl
    rw [if_pos rfl, itAt_bigInt (by rw [h.vol hx]; exact h.loc) (h.hi_ltW hx) hi2, M.ok_bind,
      szOfInt_ofNat (Nat.lt_trans (flatOf_lt false hi2) (h.volW hx)), hd, rd_of_some (boxData_at u hi2), M.ok_bind,
      rd_of_lt hi, M.ok_bind, wr_of_lt hi, M.ok_bind]
    rfl
  | false =>
    have hno : ¬ InBox (c.lo x) (c.hi x) (shift64 c.dims (tupleAt false (c.lo x) (c.hi x) i) off) := by
      intro hc; have := hb.2 hc; simp at this
    obtain ⟨d, bf, p, e1, e2, e3, e4, e5⟩ := hhalo _ hin hno
    subst e1
    rw [if_neg (by simp)]
    dsimp only
    rw [e2, M.ok_bind, szOfInt_ofNat e3, rd_of_some e4, M.ok_bind]
    unfold rdBuf
    rw [rd_of_some e5]
    simp only [M.ok_bind, M.pure_eq]
    rw [rd_of_lt hi, M.ok_bind, wr_of_lt hi, M.ok_bind]

theorem update_eq (h : c.Good) (hx : InGrid c.d x) (hs : Shape c x t f) {off : List Int} {u out : List Nat → R}
    (hd : f.inData = boxData (c.lo x) (c.hi x) u) (ho : f.outData = boxData (c.lo x) (c.hi x) out)
    (hu : Tame c.dims off) (val : R)
    (wit : MultiArrayIter) (dst : Option Nat)
    (hhalo : ∀ g, InBox (c.lo x) (c.hi x) g → ¬ InBox (c.lo x) (c.hi x) (shift64 c.dims g off) →
      ∃ d b p, dst = some d ∧ wit.computeBigIndexInt ((shift64 c.dims g off).map (fun n : Nat => (n : Int))) = .ok ((p : Nat) : Int) ∧
        p < W ∧ f.bufs[d]? = some b ∧ b[p]? = some (some (u (shift64 c.dims g off)))) :
    f.update off val wit dst = .ok { f with
      mit := some (itAt (c.lo x) (c.hi x) (volume (c.lo x) (c.hi x)))
      outData := boxData (c.lo x) (c.hi x) fun g => out g + val * u (shift64 c.dims g off) } := by
  obtain ⟨k, hk⟩ := hs.mit
  have e3 : f.getMit = .ok (itAt (c.lo x) (c.hi x) k) := by unfold Filter.getMit; rw [hk]; rfl
  unfold Filter.update
  rw [e3, M.ok_bind, itAt_terms (h.box hx) (h.volW hx), itAt_begin]
  -- the body keeps the length
  have e4 : forUp 0 (volume (c.lo x) (c.hi x)) (itAt (c.lo x) (c.hi x) 0, f.outData) (f.updateBody off val wit dst) =
      .ok (itAt (c.lo x) (c.hi x) (volume (c.lo x) (c.hi x)),
        boxData (c.lo x) (c.hi x) fun g => out g + val * u (shift64 c.dims g off)) := by
    obtain ⟨⟨m, v⟩, e, hm, hl, hp, _⟩ := forUp_inv (Nat.zero_le (volume (c.lo x) (c.hi x)))
      (fun i (p : MultiArrayIter × List R) => p.1 = itAt (c.lo x) (c.hi x) i ∧ p.2.length = volume (c.lo x) (c.hi x) ∧
        (∀ j, j < i → p.2[j]? = some (out (tupleAt false (c.lo x) (c.hi x) j) +
          val * u (shift64 c.dims (tupleAt false (c.lo x) (c.hi x) j) off))) ∧
        (∀ j, i ≤ j → p.2[j]? = f.outData[j]?))
      (f.updateBody off val wit dst) (itAt (c.lo x) (c.hi x) 0, f.outData)
      ⟨rfl, by rw [ho]; simp, by intro j hj; omega, by intro j _; rfl⟩
      (by
        rintro i ⟨m, v⟩ _ hi ⟨hm, hl, hp, hq⟩
        dsimp only at hm hl hp hq
        subst hm
        have hiv : i < v.length := by omega
        refine ⟨_, updateBody_eq h hx hs hd hu val wit dst hhalo i v hiv, ?_, ?_, ?_, ?_⟩
        · dsimp only
          rw [itAt_next (by have := h.volW hx; omega)]
        · simpa using hl
        · intro j hj
          by_cases ej : i = j
          · subst ej
            have := hq i (Nat.le_refl _)
            rw [List.getElem?_eq_getElem hiv, ho] at this
            simp only [boxData, List.getElem?_map, List.getElem?_range hi, Option.map_some, Option.some_inj] at this
            rw [this]
            simp [hiv]
          · simp only [List.getElem?_set_ne ej]
            exact hp j (by omega)
        · intro j hj
          simp only [List.getElem?_set_ne (by omega : i ≠ j)]
          exact hq j (by omega))
    dsimp only at hm hl hp
    subst hm
    rw [e]
    congr 2
    apply ext_of_getElem? (by simp [hl])
    intro i hi
    simp only [length_boxData] at hi
    rw [hp i hi]
    simp [boxData, hi]
  rw [e4, M.ok_bind]
  rfl

/-! Fetching. -/

omit [Add R] [Mul R] in
theorem fetch_eq (h : c.Good) (hx : InGrid c.d x) (hs : Shape c x c.tab f) (s : List Int) (w m : Nat)
    (hw : StdMap.find c.tab.wins s = some w) (hm : StdMap.find c.tab.gh s = some m) (get : Filter.Getter R) (rk : Int)
    (data : Buf R) (hl : data.length = winVol c x s m) (hget : get rk w (winVol c x s m : Int) = .ok data) :
    f.fetch get rk s = .ok (2 * w + 1, { f with bufs := f.bufs.set (2 * w + 1) data }) := by
  obtain ⟨_, hd, m', hm', hf⟩ := h.tab_ok.link _ _ hw
  rw [hm, Option.some_inj] at hm'
  subst hm'
  obtain ⟨k0, hk0⟩ := hs.iter _ _ _ hw hm
  obtain ⟨_, ⟨b, hb, hbl⟩⟩ := hs.buflen _ _ _ hw hm
  have e1 : StdMap.find f.winData s = some (2 * w, 2 * w + 1) := by rw [hs.wdata]; exact hd
  have e2 : StdMap.find f.windows s = some w := by rw [hs.wins]; exact hw
  have e3 : intOfSz (winIt c x s m k0).getNumberOfTerms = (winVol c x s m : Int) := by
    rw [winIt_terms h hx hf, intOfSz_small]
    have := winVol_le h hx hf
    have := h.loc
    omega
  have hlt : 2 * w + 1 < f.bufs.length := by
    by_contra hc
    rw [List.getElem?_eq_none (by omega)] at hb; simp at hb
  unfold Filter.fetch Filter.fetchArgs Filter.storeGot
  rw [hk0, e2, e1]
  dsimp only
  rw [M.pure_eq, M.ok_bind]
  dsimp only
  rw [e3, hget, M.ok_bind, rd_of_some hb, M.ok_bind, if_neg (by omega), wr_of_lt hlt, M.ok_bind,
    M.pure_eq, M.ok_bind, M.pure_eq, hl, ← hbl, List.drop_length, List.append_nil]

/-- Sizes in range, a stencil that fits, of unit offsets that need one halo. -/
structure Cfg.Unit (c : Cfg R) : Prop extends c.Good where
  unit : ∀ kv ∈ c.st, UnitOffset c.dims.length kv.1
  halo : ∀ kv ∈ c.st, OneHalo c.d c.L kv.1

/-- The offsets also wrap correctly. -/
structure Cfg.Fine (c : Cfg R) : Prop extends c.Unit where
  wrap : ∀ kv ∈ c.st, WrapExact c.dims kv.1

omit [Add R] [Mul R] in
theorem Cfg.Unit.ghosts (h : c.Unit) {s : List Int} {m : Nat} (hm : StdMap.find c.tab.gh s = some m) : m = 1 := by
  obtain ⟨o, ho, h0, _, e⟩ := (tab_fold (c.st.map Prod.fst)).2.2 s m hm
  obtain ⟨kv, hkv, rfl⟩ := List.mem_map.1 ho
  rw [e, ghostWidth_unit (h.unit kv hkv) h0]

omit [Add R] [Mul R] in
theorem Cfg.Unit.window (h : c.Unit) {kv : List Int × R} (hkv : kv ∈ c.st) (h0 : kv.1.countP (· ≠ 0) ≠ 0) :
    ∃ w, StdMap.find c.tab.wins (sideOf kv.1) = some w ∧ StdMap.find c.tab.gh (sideOf kv.1) = some 1 := by
  obtain ⟨w, hw⟩ := (tab_fold (c.st.map Prod.fst)).1 kv.1 (List.mem_map.2 ⟨kv, hkv, rfl⟩) h0
  obtain ⟨_, _, m, hm, _⟩ := h.toGood.tab_ok.link _ _ hw
  rw [h.ghosts hm] at hm
  exact ⟨w, hw, hm⟩

omit [Add R] [Mul R] in
theorem Cfg.Unit.no_window (h : c.Unit) {off : List Int} (h0 : off.countP (· ≠ 0) = 0) :
    StdMap.find c.tab.wins (sideOf off) = none ∧ StdMap.find c.tab.gh (sideOf off) = none := by
  have : StdMap.find c.tab.wins (sideOf off) = none := by
    cases e : StdMap.find c.tab.wins (sideOf off) with
    | none => rfl
    | some w =>
      obtain ⟨o, _, hn, hs⟩ := (tab_fold (c.st.map Prod.fst)).2.1 _ _ e
      have := (sideOf_zero_iff off).2 h0
      rw [hs, sideOf_zero_iff] at this
      exact absurd this hn
  exact ⟨this, (h.toGood.tab_ok.find_none this).2⟩

omit [Add R] [Mul R] in
theorem Cfg.Unit.offLen (h : c.Unit) {kv : List Int × R} (hkv : kv ∈ c.st) : kv.1.length = c.d.length := by
  rw [h.good.length_eq]; exact (h.unit kv hkv).1

omit [Add R] [Mul R] in
theorem Cfg.Unit.fits (h : c.Unit) {kv : List Int × R} (hkv : kv ∈ c.st) :
    WinTab.Fits c.L (sideOf kv.1) ((StdMap.find c.tab.gh (sideOf kv.1)).getD 0) := by
  by_cases h0 : kv.1.countP (· ≠ 0) = 0
  · rw [(h.no_window h0).2]
    refine ⟨by rw [length_sideOf, (h.unit kv hkv).1, h.toGood.lenL], ?_⟩
    intro i _ h2 hn
    exact absurd ((sideOf_zero_iff kv.1).2 h0 _ (List.getElem_mem h2)) hn
  · obtain ⟨w, hw, hg⟩ := h.window hkv h0
    obtain ⟨_, _, m, hm, hf⟩ := h.toGood.tab_ok.link _ _ hw
    rw [hg, Option.some_inj] at hm
    rw [hg, Option.getD_some, hm]
    exact hf

omit [Add R] [Mul R] in
theorem prepare_eq (h : c.Unit) (hx : InGrid c.d x) (hs : Shape c x c.tab f) {kv : List Int × R} (hkv : kv ∈ c.st) :
    f.prepare kv.1 = .ok ((sideOf kv.1, ((rankOf c.d (shiftMod c.d x kv.1) : Nat) : Int),
        winIt c (shiftMod c.d x kv.1) (sideOf kv.1) ((StdMap.find c.tab.gh (sideOf kv.1)).getD 0) 0),
      { f with dcmp := movedDecomp c.nprocs c.dims c.d (rankOf c.d (shiftMod c.d x kv.1)) }) := by
  obtain ⟨k, hk⟩ := hs.dcmp
  have hun := h.unit kv hkv
  have hyG := shiftMod_inGrid hx (h.offLen hkv)
  unfold Filter.prepare
  rw [getSideFromOffset_eq f kv.1 (by rw [hs.ndims]; exact hun.1) (h.st kv hkv).2.1, M.ok_bind, hk, hs.rk]
  have hshort : ShortDir c.d kv.1 := by
    refine List.forall₂_iff_get.2 ⟨(h.offLen hkv).symm, ?_⟩
    intro i h1 h2
    have := h.good.d_pos _ (List.getElem_mem h1)
    have := hun.2 _ (List.getElem_mem h2)
    simp only [List.get_eq_getElem]
    omega
  rw [getNeighborRank_eq h.good x hx kv.1 hshort
    (by intro k hk; have := h.good.d_le k hk; have := h.np2; omega), M.ok_bind]
  dsimp only
  have e := getWindowIter_eq h.toGood (f := { f with dcmp := movedDecomp c.nprocs c.dims c.d (rankOf c.d x) })
    hyG (sideOf kv.1) (rankOf c.d x) hs.ndims rfl (by dsimp only; rw [hs.gh]; exact h.fits hkv)
  dsimp only at e
  rw [hs.gh] at e
  have e' : f.winNumGhosts = c.tab.gh := hs.gh
  rw [hs.rk] at e
  rw [e', e, M.ok_bind]
  rfl

omit [Add R] [Mul R] in
/-- The halo read by the loop over the cells. -/
theorem halo_ok (h : c.Unit) (hx : InGrid c.d x) {kv : List Int × R} (hkv : kv ∈ c.st) {u : List Nat → R}
    (dst : Option Nat)
    (hbuf : ∀ w, StdMap.find c.tab.wins (sideOf kv.1) = some w → dst = some (2 * w + 1) ∧
      f.bufs[2 * w + 1]? = some ((boxData
        (faceLo (c.lo (shiftMod c.d x kv.1)) (c.hi (shiftMod c.d x kv.1)) (sideOf kv.1) 1)
        (faceHi (c.lo (shiftMod c.d x kv.1)) (c.hi (shiftMod c.d x kv.1)) (sideOf kv.1) 1) u).map some)) :
    ∀ g, InBox (c.lo x) (c.hi x) g → ¬ InBox (c.lo x) (c.hi x) (shiftMod c.dims g kv.1) →
      ∃ d b p, dst = some d ∧
        (winIt c (shiftMod c.d x kv.1) (sideOf kv.1) ((StdMap.find c.tab.gh (sideOf kv.1)).getD 0) 0).computeBigIndexInt
          ((shiftMod c.dims g kv.1).map (fun n : Nat => (n : Int))) = .ok ((p : Nat) : Int) ∧
        p < W ∧ f.bufs[d]? = some b ∧ b[p]? = some (some (u (shiftMod c.dims g kv.1))) := by
  intro g hg hout
  have hun := h.unit kv hkv
  by_cases h0 : kv.1.countP (· ≠ 0) = 0
  · exfalso
    obtain ⟨a, _, _, hb⟩ := leave_exists h.toGood hx hun hg hout
    have hz : ∀ o ∈ kv.1, o = 0 := by
      intro o ho
      have := List.countP_eq_zero.1 h0 o ho
      simpa using this
    have : kv.1.getD a 0 = 0 := by
      by_cases hl : a < kv.1.length
      · rw [getD_of_lt hl]; exact hz _ (List.getElem_mem hl)
      · simp [Nat.le_of_not_lt hl]
    rcases hb with ⟨e, _⟩ | ⟨e, _⟩ <;> omega
  · obtain ⟨w, hw, hg1⟩ := h.window hkv h0
    obtain ⟨e1, e2⟩ := hbuf w hw
    have hyG := shiftMod_inGrid hx (h.offLen hkv)
    have hf := h.fits hkv
    rw [hg1, Option.getD_some] at hf ⊢
    have hin := halo_cell h.toGood hx hun (h.halo kv hkv) hg hout
    have hv : winVol c (shiftMod c.d x kv.1) (sideOf kv.1) 1 < 2 ^ 31 := by
      have := winVol_le h.toGood hyG hf
      have := h.loc
      omega
    refine ⟨2 * w + 1, _, _, e1, itAt_bigInt hv (h.toGood.faceW hyG hf) hin 0, ?_, e2, ?_⟩
    · exact Nat.lt_trans (flatOf_lt false hin) (h.toGood.winW hyG hf)
    · rw [List.getElem?_map, boxData_at u hin]
      rfl

/-! One branch of the stencil and the whole. -/

/-- Every rank serves the field `u`. -/
def Serves (c : Cfg R) (u : List Nat → R) (get : Filter.Getter R) : Prop :=
  ∀ y, InGrid c.d y → ∀ s w m, StdMap.find c.tab.wins s = some w → StdMap.find c.tab.gh s = some m →
    get ((rankOf c.d y : Nat) : Int) w (winVol c y s m : Int) =
      .ok ((boxData (faceLo (c.lo y) (c.hi y) s m) (faceHi (c.lo y) (c.hi y) s m) u).map some)

theorem applyEntry_ok (h : c.Unit) (hx : InGrid c.d x) {u out : List Nat → R} {get : Filter.Getter R}
    (hget : Serves c u get) (hf : Holds c x u f) (ho : f.outData = boxData (c.lo x) (c.hi x) out)
    {kv : List Int × R} (hkv : kv ∈ c.st)
    (hcell : ∀ g, InBox (c.lo x) (c.hi x) g → ¬ InBox (c.lo x) (c.hi x) (shift64 c.dims g kv.1) →
      shift64 c.dims g kv.1 = shiftMod c.dims g kv.1) :
    ∃ f', f.applyEntry get kv = .ok f' ∧ Holds c x u f' ∧
      f'.outData = boxData (c.lo x) (c.hi x) fun g => out g + kv.2 * u (shift64 c.dims g kv.1) := by
  have hyG := shiftMod_inGrid hx (h.offLen hkv)
  unfold Filter.applyEntry
  rw [prepare_eq h hx hf.shape hkv, M.ok_bind]
  dsimp only
  have hs1 := hf.shape.setDcmp (rankOf c.d (shiftMod c.d x kv.1))
  generalize hf1 : ({ f with dcmp := movedDecomp c.nprocs c.dims c.d (rankOf c.d (shiftMod c.d x kv.1)) } : Filter R) = f1
    at hs1 ⊢
  have d1 : f1.inData = f.inData := by rw [← hf1]
  have d2 : f1.outData = f.outData := by rw [← hf1]
  have d3 : f1.bufs = f.bufs := by rw [← hf1]
  have dw : f.windows = c.tab.wins := hf.shape.wins
  rw [dw]
  cases hw : StdMap.find c.tab.wins (sideOf kv.1) with
  | none =>
    dsimp only
    rw [update_eq h.toGood hx hs1 (d1.trans hf.data) (d2.trans ho) (unit_tame h.dint (h.unit kv hkv)) kv.2 _ none
      (fun g hg hn => by
        have e := hcell g hg hn
        rw [e] at hn ⊢
        exact halo_ok (u := u) h hx hkv none (by intro w hw'; rw [hw] at hw'; simp at hw') g hg hn)]
    refine ⟨_, rfl, ⟨?_, d1.trans hf.data, ?_⟩, rfl⟩
    · refine hs1.setData _ _ _ ?_ ?_
      · rw [d1, hf.data, length_boxData, h.toGood.vol hx]
      · rw [length_boxData, h.toGood.vol hx]
    · intro s w m e1 e2
      dsimp only
      rw [d3]; exact hf.mirror s w m e1 e2
  | some w =>
    dsimp only
    have h0 : kv.1.countP (· ≠ 0) ≠ 0 := by
      intro h0
      have := (h.no_window h0).1
      rw [hw] at this; simp at this
    obtain ⟨w', hw', hg⟩ := h.window hkv h0
    rw [hw, Option.some_inj] at hw'
    subst hw'
    have hfit := h.fits hkv
    rw [hg, Option.getD_some] at hfit
    have hvol := winVol_indep h.toGood hx hyG hfit
    have hfetch := fetch_eq h.toGood hx hs1 (sideOf kv.1) w 1 hw hg get
      ((rankOf c.d (shiftMod c.d x kv.1) : Nat) : Int) ((boxData
        (faceLo (c.lo (shiftMod c.d x kv.1)) (c.hi (shiftMod c.d x kv.1)) (sideOf kv.1) 1)
        (faceHi (c.lo (shiftMod c.d x kv.1)) (c.hi (shiftMod c.d x kv.1)) (sideOf kv.1) 1) u).map some)
      (by rw [List.length_map, length_boxData, hvol]; rfl)
      (by rw [hvol]; exact hget _ hyG _ _ _ hw hg)
    rw [hfetch, M.ok_bind]
    dsimp only
    obtain ⟨_, ⟨b, hb, hbl⟩⟩ := hs1.buflen _ _ _ hw hg
    have hs2 := hs1.setBuf (2 * w + 1) b ((boxData
        (faceLo (c.lo (shiftMod c.d x kv.1)) (c.hi (shiftMod c.d x kv.1)) (sideOf kv.1) 1)
        (faceHi (c.lo (shiftMod c.d x kv.1)) (c.hi (shiftMod c.d x kv.1)) (sideOf kv.1) 1) u).map some) hb
        (by rw [List.length_map, length_boxData, hbl, hvol]; rfl)
    have hlt : 2 * w + 1 < f1.bufs.length := by
      by_contra hc
      rw [List.getElem?_eq_none (by omega)] at hb; simp at hb
    rw [update_eq h.toGood hx hs2 (d1.trans hf.data) (d2.trans ho) (unit_tame h.dint (h.unit kv hkv)) kv.2 _ (some (2 * w + 1))
      (fun g hg hn => by
        have e := hcell g hg hn
        rw [e] at hn ⊢
        exact halo_ok h hx hkv (some (2 * w + 1)) (by
          intro w' hw'
          rw [hw, Option.some_inj] at hw'
          subst hw'
          exact ⟨rfl, by simp [hlt]⟩) g hg hn)]
    refine ⟨_, rfl, ⟨?_, d1.trans hf.data, ?_⟩, rfl⟩
    · refine hs2.setData _ _ _ ?_ ?_
      · dsimp only
        rw [d1, hf.data, length_boxData, h.toGood.vol hx]
      · rw [length_boxData, h.toGood.vol hx]
    · intro s w' m e1 e2
      dsimp only
      rw [List.getElem?_set_ne (by omega), d3]; exact hf.mirror s w' m e1 e2

variable [Zero R]

omit [Add R] [Mul R] in
theorem zeroOut_eq (h : c.Good) (hx : InGrid c.d x) (hs : Shape c x t f) :
    f.zeroOut = .ok { f with
      mit := some (itAt (c.lo x) (c.hi x) (volume (c.lo x) (c.hi x)))
      outData := boxData (c.lo x) (c.hi x) fun _ => 0 } := by
  obtain ⟨k, hk⟩ := hs.mit
  have e3 : f.getMit = .ok (itAt (c.lo x) (c.hi x) k) := by unfold Filter.getMit; rw [hk]; rfl
  unfold Filter.zeroOut
  rw [e3, M.ok_bind, itAt_terms (h.box hx) (h.volW hx), itAt_begin]
  rw [iter_loop (h.volW hx) _ (fun i v => wr v i 0) f.outData
    (by intro i s hi; dsimp only), forUp_fill _ _ (by rw [hs.outLen, h.vol hx]) (fun _ => (0 : R)) _
    (fun i v hi hv _ => wr_of_lt (by omega)), M.ok_bind]
  rfl

/-- The cell the code reads for an offset of the stencil, if outside the sub-domain, is the neighbour. -/
def Cfg.Cells (c : Cfg R) (x : List Nat) : Prop :=
  ∀ kv ∈ c.st, ∀ g, InBox (c.lo x) (c.hi x) g → ¬ InBox (c.lo x) (c.hi x) (shift64 c.dims g kv.1) →
    shift64 c.dims g kv.1 = shiftMod c.dims g kv.1

theorem applyFilter64_ok (h : c.Unit) (hx : InGrid c.d x) {u : List Nat → R} {get : Filter.Getter R}
    (hget : Serves c u get) (hf : Holds c x u f) (hcell : c.Cells x) :
    ∃ f', f.applyFilter get = .ok f' ∧ Holds c x u f' ∧
      f'.outData = boxData (c.lo x) (c.hi x) (stencilStep64 c.dims c.st u) := by
  unfold Filter.applyFilter
  rw [zeroOut_eq h.toGood hx hf.shape, M.ok_bind]
  dsimp only
  rw [hf.shape.st]
  obtain ⟨f', e, h1, h2⟩ := foldlM_inv c.st (Filter.applyEntry get)
    (fun pre f' => Holds c x u f' ∧ f'.outData = boxData (c.lo x) (c.hi x) (stencilStep64 c.dims pre u))
    _ ⟨⟨hf.shape.setData (volume (c.lo x) (c.hi x)) f.inData (boxData (c.lo x) (c.hi x) fun _ => 0)
        (by rw [hf.data, length_boxData, h.toGood.vol hx]) (by rw [length_boxData, h.toGood.vol hx]), hf.data, hf.mirror⟩, rfl⟩
    (by
      intro pre kv f1 hkv ⟨h1, h2⟩
      obtain ⟨f2, e, a, b⟩ := applyEntry_ok h hx hget h1 h2 hkv (hcell kv hkv)
      refine ⟨f2, e, a, ?_⟩
      rw [b]
      unfold stencilStep64
      simp only [List.foldl_append, List.foldl_cons, List.foldl_nil])
  have est : f.stencil = c.st := hf.shape.st
  rw [est] at e
  exact ⟨f', e, h1, h2⟩

omit [Add R] [Mul R] [Zero R] in
theorem Cfg.Fine.cells (h : c.Fine) (hx : InGrid c.d x) : c.Cells x :=
  fun kv hkv _ hg _ => shift64_eq (h.toGood.grid hx hg) h.dint (h.unit kv hkv) (h.wrap kv hkv)

theorem Cfg.Fine.step_eq (h : c.Fine) (u : List Nat → R) {g : List Nat} (hg : InGrid c.dims g) :
    stencilStep64 c.dims c.st u g = stencilStep c.dims c.st u g := by
  unfold stencilStep64 stencilStep
  apply List.foldl_ext
  intro acc kv hkv
  rw [shift64_eq hg h.dint (h.unit kv hkv) (h.wrap kv hkv)]

theorem applyFilter_ok (h : c.Fine) (hx : InGrid c.d x) {u : List Nat → R} {get : Filter.Getter R}
    (hget : Serves c u get) (hf : Holds c x u f) :
    ∃ f', f.applyFilter get = .ok f' ∧ Holds c x u f' ∧
      f'.outData = boxData (c.lo x) (c.hi x) (stencilStep c.dims c.st u) := by
  obtain ⟨f', e, h1, h2⟩ := applyFilter64_ok h.toUnit hx hget hf (h.cells hx)
  refine ⟨f', e, h1, h2.trans ?_⟩
  exact boxData_congr (h.toGood.box hx) fun g hg => h.step_eq u (h.toGood.grid hx hg)

end Fidi
