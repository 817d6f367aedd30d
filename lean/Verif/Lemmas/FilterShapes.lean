import Verif.Lemmas.FilterProcs
import Verif.Lemmas.FilterCalls

/-
Which cells of the data received a branch of the stencil reads, for offsets of any shape that fit the sub-domains.
-/
namespace Fidi
open Spec

/-! Loops that end normally. -/

theorem forUp_ok_index {σ : Type} {b : Nat} (P : Nat → σ → Prop) (f : Nat → σ → M σ) (s s' : σ)
    (h : forUp 0 b s f = .ok s') (h0 : P 0 s) (hf : ∀ i s s1, i < b → P i s → f i s = .ok s1 → P (i + 1) s1) :
    P b s' ∧ ∀ i, i < b → ∃ si si1, P i si ∧ f i si = .ok si1 := by
  have key : ∀ k s', k ≤ b → forUp 0 k s f = .ok s' →
      P k s' ∧ ∀ i, i < k → ∃ si si1, P i si ∧ f i si = .ok si1 := by
    intro k
    induction k with
    | zero => intro s' _ h; rw [forUp_of_ge (by omega)] at h; exact ⟨Except.ok.inj h ▸ h0, by omega⟩
    | succ k ih =>
      intro s' hk h
      rw [forUp_succ (by omega)] at h
      obtain ⟨s1, e1, e2⟩ := (M.bind_ok_iff _ _ _).1 h
      obtain ⟨h1, h2⟩ := ih s1 (by omega) e1
      refine ⟨hf _ _ _ (by omega) h1 e2, fun i hi => ?_⟩
      by_cases he : i = k
      · subst he; exact ⟨s1, s', h1, e2⟩
      · exact h2 i (by omega)
  exact key b s' (Nat.le_refl _) h

/-! Positions of tuples outside of the box. -/

theorem bigInt_any (rm : Bool) {lo hi : List Nat} {ts : List Int} (hb : BoxLt lo hi) (hv : volume lo hi < W)
    (hl : ts.length = lo.length) (k : Nat) :
    ({ builtIter lo hi rm with bigIndex := k } : MultiArrayIter).computeBigIndexInt ts =
      .ok (intOfSz (dot (strides rm (extents lo hi)) (List.zipWith (fun x l => szSub (szOfInt x) l) ts lo) % W)) := by
  rw [builtIter_eq rm hb hv]
  unfold MultiArrayIter.computeBigIndexInt
  rw [bigIndexAcc_eq _ _ _ (by simp [hb.length_extents]) rfl (by simp [hl])]
  rfl

/-- A tuple below the box along one axis and at its first cell along the others has a negative index. -/
theorem index_below (rm : Bool) {lo hi : List Nat} {ts : List Int} (hb : BoxLt lo hi) (hv : volume lo hi < W)
    (hl : ts.length = lo.length) {a : Nat} (ha : a < lo.length) {q s : Nat} (hq : 0 < q)
    (hW : ∀ l ∈ lo, l < 2 ^ 31)
    (hts : ∀ i, i < lo.length → ts.getD i 0 = if i = a then (lo.getD i 0 : Int) - q else lo.getD i 0)
    (hs : (strides rm (extents lo hi)).getD a 0 = s) (hs0 : 0 < s) (hb31 : s * q ≤ 2 ^ 31) (k : Nat) :
    ({ builtIter lo hi rm with bigIndex := k } : MultiArrayIter).computeBigIndexInt ts = .ok (-((s * q : Nat) : Int)) := by
  rw [bigInt_any rm hb hv hl]
  have lz : (List.zipWith (fun x l => szSub (szOfInt x) l) ts lo).length = lo.length := by simp [hl]
  have hq31 : q ≤ 2 ^ 31 := Nat.le_trans (Nat.le_mul_of_pos_left q hs0) hb31
  have hz : ∀ i, i < lo.length → (List.zipWith (fun x l => szSub (szOfInt x) l) ts lo).getD i 0 =
      if i = a then W - q else 0 := by
    intro i hi
    have e := hts i hi
    have hlo := hW _ (List.getElem_mem hi)
    rw [getD_of_lt (by omega)] at e
    rw [getD_of_lt (by omega), List.getElem_zipWith, e, getD_of_lt hi]
    by_cases eia : i = a
    · rw [if_pos eia, if_pos eia]
      unfold szSub szOfInt W
      omega
    · rw [if_neg eia, if_neg eia]
      unfold szSub szOfInt W
      omega
  have hpos : 0 < s * q := Nat.mul_pos hs0 hq
  rw [dot_single (j := a) (by rw [length_strides, hb.length_extents]; exact ha)
    (by rw [lz, length_strides, hb.length_extents]) (fun i hi hne => by rw [hz i (by omega), if_neg hne]), hz a ha,
    if_pos rfl, hs, mul_wrap hpos (by unfold W; omega), intOfSz_wrap hpos hb31]

/-- Mixed radix numbers with digits at or above the largest. -/
theorem colMajor_ge {ns xs : List Nat} (h : List.Forall₂ (fun n x => n ≤ x + 1) ns xs) (hp : ∀ n ∈ ns, 0 < n) :
    ns.prod ≤ colMajor ns xs + 1 ∧ ((∃ i, i < ns.length ∧ ns.getD i 0 ≤ xs.getD i 0) → ns.prod ≤ colMajor ns xs) := by
  induction h with
  | nil => exact ⟨by simp [colMajor], fun ⟨i, hi, _⟩ => by simp at hi⟩
  | @cons n x ns xs h1 _ ih =>
    obtain ⟨ih1, ih2⟩ := ih fun m hm => hp m (by simp [hm])
    have hn := hp n (by simp)
    simp only [List.prod_cons, colMajor]
    constructor
    · have := Nat.mul_le_mul_left n ih1
      rw [Nat.mul_add] at this
      omega
    · rintro ⟨i, hi, hx⟩
      cases i with
      | zero =>
        simp at hx
        have := Nat.mul_le_mul_left n ih1
        rw [Nat.mul_add] at this
        omega
      | succ i =>
        have := Nat.mul_le_mul_left n (ih2 ⟨i, by simpa using hi, by simpa using hx⟩)
        omega

theorem colMajor_lt_of {ns xs ds : List Nat} (h : List.Forall₂ (fun n d => n ≤ d) ns ds)
    (h' : List.Forall₂ (fun x d => x < d) xs ds) : colMajor ns xs < ds.prod := by
  induction h generalizing xs with
  | nil => cases h'; simp [colMajor]
  | @cons n d ns ds h1 _ ih =>
    cases h' with
    | cons h2 h3 =>
      rename_i x xs
      simp only [List.prod_cons, colMajor]
      have := Nat.mul_le_mul h1 (ih h3)
      calc x + n * colMajor ns xs < d + n * colMajor ns xs := by omega
        _ ≤ d + d * colMajor ns xs := by have := Nat.mul_le_mul_right (colMajor ns xs) h1; omega
        _ = d * (colMajor ns xs + 1) := by ring
        _ ≤ d * ds.prod := Nat.mul_le_mul_left _ (ih h3)

theorem rankOf_ge {ns xs : List Nat} (h : List.Forall₂ (fun n x => n ≤ x + 1) ns xs) (hp : ∀ n ∈ ns, 0 < n)
    (hx : ∃ i, i < ns.length ∧ ns.getD i 0 ≤ xs.getD i 0) : ns.prod ≤ rankOf ns xs := by
  unfold rankOf
  have key : ∀ (ns xs : List Nat), List.Forall₂ (fun n x => n ≤ x + 1) ns xs → (∀ n ∈ ns, 0 < n) → ∀ acc,
      (acc + 1) * ns.prod ≤ (ns.zip xs).foldl (fun acc p => acc * p.1 + p.2) acc + 1 ∧
      ((∃ i, i < ns.length ∧ ns.getD i 0 ≤ xs.getD i 0) →
        (acc + 1) * ns.prod ≤ (ns.zip xs).foldl (fun acc p => acc * p.1 + p.2) acc) := by
    intro ns xs h hp
    induction h with
    | nil => intro acc; exact ⟨by simp, fun ⟨i, hi, _⟩ => by simp at hi⟩
    | @cons n x ns xs h1 _ ih =>
      intro acc
      have hpp : 0 < ns.prod := prod_pos_of fun m hm => hp m (by simp [hm])
      obtain ⟨ih1, ih2⟩ := ih (fun m hm => hp m (by simp [hm])) (acc * n + x)
      simp only [List.prod_cons, List.zip_cons_cons, List.foldl_cons]
      have e : (acc + 1) * (n * ns.prod) = (acc * n + n) * ns.prod := by ring
      rw [e]
      constructor
      · exact Nat.le_trans (Nat.mul_le_mul_right _ (by omega)) ih1
      · rintro ⟨i, hi, hx⟩
        cases i with
        | zero =>
          simp at hx
          have h2 : (acc * n + n + 1) * ns.prod ≤ (acc * n + x + 1) * ns.prod := Nat.mul_le_mul_right _ (by omega)
          rw [Nat.add_mul (acc * n + n)] at h2
          omega
        | succ i =>
          exact Nat.le_trans (Nat.mul_le_mul_right _ (by omega)) (ih2 ⟨i, by simpa using hi, by simpa using hx⟩)
  simpa using (key ns xs h hp 0).2 hx

theorem rankOf_lt_of {ns xs ds : List Nat} (h : List.Forall₂ (fun n d => n ≤ d) ns ds)
    (h' : List.Forall₂ (fun x d => x < d) xs ds) : rankOf ns xs < ds.prod := by
  unfold rankOf
  have key : ∀ (ns ds xs : List Nat), List.Forall₂ (fun n d => n ≤ d) ns ds → List.Forall₂ (fun x d => x < d) xs ds →
      ∀ acc, (ns.zip xs).foldl (fun acc p => acc * p.1 + p.2) acc < (acc + 1) * ds.prod := by
    intro ns ds xs h
    induction h generalizing xs with
    | nil => intro h' acc; cases h'; simp
    | @cons n d ns ds h1 _ ih =>
      intro h' acc
      cases h' with
      | cons h2 h3 =>
        rename_i x xs
        simp only [List.prod_cons, List.zip_cons_cons, List.foldl_cons]
        refine Nat.lt_of_lt_of_le (ih xs h3 _) ?_
        rw [← Nat.mul_assoc]
        refine Nat.mul_le_mul_right _ ?_
        have := Nat.mul_le_mul_left acc h1
        rw [Nat.add_mul]
        omega
  simpa using key ns ds xs h h' 0

/-- A tuple at the last cell of the box or beyond along every axis, and beyond along one, has an index beyond the data. -/
theorem index_above {lo hi t ds : List Nat} (hb : BoxLt lo hi) (hv : volume lo hi < W)
    (hl : t.length = lo.length) (hds : ds.length = lo.length) (hp : ds.prod ≤ 2 ^ 31)
    (hext : ∀ i, i < lo.length → hi.getD i 0 ≤ ds.getD i 0) (htd : ∀ i, i < lo.length → t.getD i 0 < ds.getD i 0)
    (h31 : ∀ d ∈ ds, d < 2 ^ 31)
    (ht : ∀ i, i < lo.length → hi.getD i 0 ≤ t.getD i 0 + 1) {a : Nat} (ha : a < lo.length)
    (hta : hi.getD a 0 ≤ t.getD a 0) (k : Nat) :
    ∃ p : Nat, (itAt lo hi k).computeBigIndexInt (t.map fun n : Nat => (n : Int)) = .ok (p : Int) ∧ volume lo hi ≤ p ∧
      p < 2 ^ 31 := by
  obtain ⟨hlen, hlt⟩ := List.forall₂_iff_get.1 hb
  simp only [List.get_eq_getElem] at hlt
  have htl : ∀ i, i < lo.length → lo.getD i 0 ≤ t.getD i 0 := by
    intro i hi'
    have h1 := ht i hi'
    have h2 := hlt i hi' (by omega)
    rw [getD_of_lt (by omega)] at h1
    rw [getD_of_lt hi']
    omega
  have hel := hb.length_extents
  have lz : (List.zipWith (· - ·) t lo).length = lo.length := by simp [hl]
  have hzd : ∀ i, i < lo.length → (List.zipWith (· - ·) t lo).getD i 0 = t.getD i 0 - lo.getD i 0 := by
    intro i hi'
    rw [getD_of_lt (by omega), List.getElem_zipWith, getD_of_lt (by omega), getD_of_lt hi']
  have hed : ∀ i, i < lo.length → (extents lo hi).getD i 0 = hi.getD i 0 - lo.getD i 0 := by
    intro i hi'
    rw [getD_of_lt (by omega), getD_of_lt (by omega), getD_of_lt hi']
    simp [extents]
  have f1 : List.Forall₂ (fun n x => n ≤ x + 1) (extents lo hi) (List.zipWith (· - ·) t lo) := by
    refine List.forall₂_iff_get.2 ⟨by omega, fun i h1 h2 => ?_⟩
    simp only [List.get_eq_getElem]
    have e1 := hed i (by omega)
    have e2 := hzd i (by omega)
    have e3 := ht i (by omega)
    have e4 := htl i (by omega)
    rw [getD_of_lt h1] at e1
    rw [getD_of_lt h2] at e2
    omega
  have f2 : List.Forall₂ (fun n d => n ≤ d) (extents lo hi) ds := by
    refine List.forall₂_iff_get.2 ⟨by omega, fun i h1 h2 => ?_⟩
    simp only [List.get_eq_getElem]
    have e1 := hed i (by omega)
    have e3 := hext i (by omega)
    rw [getD_of_lt h1] at e1
    rw [getD_of_lt h2] at e3
    omega
  have f3 : List.Forall₂ (fun x d => x < d) (List.zipWith (· - ·) t lo) ds := by
    refine List.forall₂_iff_get.2 ⟨by omega, fun i h1 h2 => ?_⟩
    simp only [List.get_eq_getElem]
    have e1 := hzd i (by omega)
    have e3 := htd i (by omega)
    rw [getD_of_lt h1] at e1
    rw [getD_of_lt h2] at e3
    omega
  have hge : volume lo hi ≤ cellPos lo hi t :=
    (colMajor_ge f1 hb.extents_pos).2 ⟨a, by omega, by rw [hed a ha, hzd a ha]; omega⟩
  have hlt31 : cellPos lo hi t < 2 ^ 31 := Nat.lt_of_lt_of_le (colMajor_lt_of f2 f3) hp
  refine ⟨cellPos lo hi t, ?_, hge, hlt31⟩
  unfold itAt
  rw [bigInt_any false hb hv (by simp [hl])]
  have e : List.zipWith (fun (x : Int) l => szSub (szOfInt x) l) (t.map fun n : Nat => (n : Int)) lo =
      List.zipWith (fun x l => x - l) t lo := by
    apply List.ext_getElem (by simp)
    intro i h1 h2
    simp only [List.getElem_zipWith, List.getElem_map]
    have h3 : i < lo.length := by simp at h1; omega
    have e1 := htd i h3
    have e2 := htl i h3
    have e3 := h31 _ (List.getElem_mem (by omega : i < ds.length))
    rw [getD_of_lt (by omega), getD_of_lt (by omega)] at e1 e2
    rw [szOfInt_ofNat (by unfold W; omega), szSub_of_le e2 (by unfold W; omega)]
  have e2 : dot (strides false (extents lo hi)) (List.zipWith (fun x l => x - l) t lo) = cellPos lo hi t :=
    flatOf_eq_cellPos lo hi t hlen hl
  rw [e, e2, Nat.mod_eq_of_lt (by unfold W; omega), intOfSz_small hlt31]

/-! What a branch of the stencil reads, if it ends normally. -/

variable {R : Type} {c : Cfg R} {x : List Nat} {f f' : Filter R}

/-- The loop over the axes, for any offset. -/
theorem offset_ok (h : c.Good) (hx : InGrid c.d x) (hs : Shape c x c.tab f) {off : List Int}
    (hol : off.length = c.dims.length) {g : List Nat} (hg : InBox (c.lo x) (c.hi x) g) {io : List Int} {b : Bool}
    (he : forUp 0 f.ndims (List.replicate f.ndims 0, true) (f.offsetBody off g) = .ok (io, b)) :
    io = (shift64 c.dims g off).map (fun n : Nat => (n : Int)) ∧
      (b = true → InBox (c.lo x) (c.hi x) (shift64 c.dims g off)) := by
  have hgG := h.grid hx hg
  have hgl := hgG.length_eq
  have l1 := h.len_lo hx
  have l2 := h.len_hi hx
  have ls := (shift64_inGrid hgG hol).length_eq
  obtain ⟨⟨hl, hp, hb⟩, _⟩ := forUp_ok_index
    (fun i (p : List Int × Bool) => p.1.length = c.dims.length ∧
      (∀ j, j < i → p.1[j]? = some (((shift64 c.dims g off).getD j 0 : Nat) : Int)) ∧
      (p.2 = true → ∀ j, j < i → (c.lo x).getD j 0 ≤ (shift64 c.dims g off).getD j 0 ∧
        (shift64 c.dims g off).getD j 0 < (c.hi x).getD j 0)) _ _ _ he
    ⟨by simp [hs.ndims], by intro j hj; omega, by intro _ j hj; omega⟩
    (by
      rintro i ⟨io, b⟩ ⟨io', b'⟩ hi ⟨hl, hp, hb⟩ e
      rw [hs.ndims] at hi
      dsimp only at hl hp hb
      have hgi := (inGrid_iff_getElem.1 hgG).2 i hi (by omega)
      have hoi : off.getD i 0 = off[i]'(by omega) := getD_of_lt (by omega)
      have hni := h.dint _ (List.getElem_mem hi)
      have es : (shift64 c.dims g off).getD i 0 = ((((g[i]'(by omega) : Nat) : Int) + off[i]'(by omega)) % 2 ^ 64).toNat % c.dims[i] := by
        rw [getD_shift64 i hi hgl hol, getD_of_lt hi, hoi, getD_of_lt (by omega)]
      have hlo : intOfSz ((c.lo x)[i]'(by omega)) = (((c.lo x).getD i 0 : Nat) : Int) := by
        rw [getD_of_lt (by omega)]
        apply intOfSz_small
        have a1 : i < (c.hi x).length := by omega
        have := h.hi_lt hx _ (List.getElem_mem a1)
        have b := (inBox_iff_getElem.1 hg).2.2 i (by omega) (by omega) (by omega)
        omega
      have hhi : intOfSz ((c.hi x)[i]'(by omega)) = (((c.hi x).getD i 0 : Nat) : Int) := by
        rw [getD_of_lt (by omega)]
        exact intOfSz_small (h.hi_lt hx _ (List.getElem_mem _))
      unfold Filter.offsetBody at e
      dsimp only at e
      rw [rd_of_lt (by omega : i < g.length), M.ok_bind, rd_of_lt (by omega : i < off.length), M.ok_bind] at e
      obtain ⟨z, ez, e⟩ := (M.bind_ok_iff _ _ _).1 e
      have hz : z = ((g[i]'(by omega) : Nat) : Int) + off[i]'(by omega) := by
        rw [intOfSz_small (by omega)] at ez
        unfold mkInt at ez
        split at ez
        · exact (Except.ok.inj ez).symm
        · cases ez
      have hm : szMod (szOfInt z) c.dims[i] = .ok ((shift64 c.dims g off).getD i 0) := by
        unfold szMod
        rw [if_neg (by omega), es, hz]
        rfl
      rw [hs.gdims, rd_of_lt hi, M.ok_bind, hm, M.ok_bind, wr_of_lt (by omega), M.ok_bind, hs.lo,
          rd_of_lt (by omega : i < (c.lo x).length), M.ok_bind, hs.hi, rd_of_lt (by omega : i < (c.hi x).length),
          M.ok_bind, hlo, hhi, M.pure_eq] at e
      have hlt : (shift64 c.dims g off).getD i 0 < 2 ^ 31 := by
        rw [es]
        have := Nat.mod_lt (((((g[i]'(by omega) : Nat) : Int) + off[i]'(by omega)) % 2 ^ 64).toNat) (by omega : 0 < c.dims[i])
        omega
      rw [intOfSz_small hlt] at e
      have e' := Except.ok.inj e
      rw [Prod.mk.injEq] at e'
      obtain ⟨rfl, rfl⟩ := e'
      refine ⟨by simpa using hl, ?_, ?_⟩
      · intro j hj
        by_cases ej : i = j
        · subst ej; simp [hl, hi]
        · simp only [List.getElem?_set_ne ej]
          exact hp j (by omega)
      · simp only [Bool.and_eq_true, decide_eq_true_eq]
        rintro ⟨⟨a1, a2⟩, a3⟩ j hj
        by_cases ej : j = i
        · subst ej; omega
        · exact hb a1 j (by omega))
  simp only at hl hp hb
  refine ⟨?_, ?_⟩
  · rw [hs.ndims] at hp
    apply ext_of_getElem? (by simp [hl, ls])
    intro i hi
    have hi' : i < c.dims.length := by simpa [ls] using hi
    rw [hp i hi', List.getElem?_map, List.getElem?_eq_getElem (by omega), getD_of_lt (by omega)]
    rfl
  · rw [hs.ndims] at hb
    rw [inBox_iff_getD, l1, l2, ls]
    intro hb'
    exact ⟨rfl, rfl, hb hb'⟩

variable [Add R] [Mul R]

/-- The loop over the cells reads the data received at the index of every displaced cell outside of the sub-domain. -/
theorem update_reads (h : c.Good) (hx : InGrid c.d x) (hs : Shape c x c.tab f) {off : List Int}
    (hol : off.length = c.dims.length) {val : R} {wit : MultiArrayIter} {dst : Nat}
    (he : f.update off val wit (some dst) = .ok f') {g : List Nat} (hg : InBox (c.lo x) (c.hi x) g)
    (hout : ¬ InBox (c.lo x) (c.hi x) (shift64 c.dims g off)) :
    ∃ bi b, wit.computeBigIndexInt ((shift64 c.dims g off).map (fun n : Nat => (n : Int))) = .ok bi ∧
      f.bufs[dst]? = some b ∧ szOfInt bi < b.length := by
  obtain ⟨k, hk⟩ := getMit_shape hs
  unfold Filter.update at he
  rw [hk, M.ok_bind, itAt_terms (h.box hx) (h.volW hx), itAt_begin] at he
  obtain ⟨⟨mit, out⟩, e, _⟩ := (M.bind_ok_iff _ _ _).1 he
  obtain ⟨_, hall⟩ := forUp_ok_index (fun i (p : MultiArrayIter × List R) => p.1 = itAt (c.lo x) (c.hi x) i) _ _ _ e rfl (by
      rintro i ⟨m, o⟩ s1 hi h1 hb
      dsimp only at h1
      subst h1
      have key : s1.1 = (itAt (c.lo x) (c.hi x) i).next := by
        unfold Filter.updateBody at hb
        dsimp only at hb
        obtain ⟨inds, _, hb⟩ := (M.bind_ok_iff _ _ _).1 hb
        obtain ⟨⟨ind, inside⟩, _, hb⟩ := (M.bind_ok_iff _ _ _).1 hb
        dsimp only at hb
        cases inside with
        | true =>
          rw [if_pos rfl] at hb
          obtain ⟨_, _, hb⟩ := (M.bind_ok_iff _ _ _).1 hb
          obtain ⟨_, _, hb⟩ := (M.bind_ok_iff _ _ _).1 hb
          obtain ⟨_, _, hb⟩ := (M.bind_ok_iff _ _ _).1 hb
          obtain ⟨_, _, hb⟩ := (M.bind_ok_iff _ _ _).1 hb
          obtain rfl := Except.ok.inj hb
          rfl
        | false =>
          rw [if_neg (by decide)] at hb
          obtain ⟨_, _, hb⟩ := (M.bind_ok_iff _ _ _).1 hb
          obtain ⟨_, _, hb⟩ := (M.bind_ok_iff _ _ _).1 hb
          obtain ⟨_, _, hb⟩ := (M.bind_ok_iff _ _ _).1 hb
          obtain ⟨_, _, hb⟩ := (M.bind_ok_iff _ _ _).1 hb
          obtain ⟨_, _, hb⟩ := (M.bind_ok_iff _ _ _).1 hb
          obtain rfl := Except.ok.inj hb
          rfl
      rw [key, itAt_next (by have := h.volW hx; omega)])
  have hfl : flatOf false (c.lo x) (c.hi x) g < volume (c.lo x) (c.hi x) := flatOf_lt false hg
  obtain ⟨⟨m, o⟩, s1, h1, hb⟩ := hall _ hfl
  dsimp only at h1
  subst h1
  unfold Filter.updateBody at hb
  dsimp only at hb
  rw [itAt_indices (h.box hx) (h.volW hx) (h.hi_ltW hx), M.ok_bind, tupleAt_flatOf false hg] at hb
  obtain ⟨⟨ind, inside⟩, e1, hb⟩ := (M.bind_ok_iff _ _ _).1 hb
  obtain ⟨hio, hin⟩ := offset_ok h hx hs hol hg e1
  dsimp only at hb
  cases inside with
  | true => exact absurd (hin rfl) hout
  | false =>
    rw [if_neg (by decide)] at hb
    obtain ⟨bi, e2, hb⟩ := (M.bind_ok_iff _ _ _).1 hb
    obtain ⟨b, e3, hb⟩ := (M.bind_ok_iff _ _ _).1 hb
    obtain ⟨v, e4, hb⟩ := (M.bind_ok_iff _ _ _).1 hb
    subst hio
    refine ⟨bi, b, e2, rd_ok e3, ?_⟩
    unfold rdBuf at e4
    obtain ⟨w, e5, _⟩ := (M.bind_ok_iff _ _ _).1 e4
    have := rd_ok e5
    by_contra hc
    rw [List.getElem?_eq_none (by omega)] at this
    simp at this

omit [Add R] [Mul R] in
/-- The window of an offset. -/
theorem window_any (h : c.Good) {kv : List Int × R} (hkv : kv ∈ c.st) (h0 : kv.1.countP (· ≠ 0) ≠ 0) :
    ∃ w m, StdMap.find c.tab.wins (sideOf kv.1) = some w ∧ StdMap.find c.tab.gh (sideOf kv.1) = some m ∧
      WinTab.Fits c.L (sideOf kv.1) m := by
  obtain ⟨w, hw⟩ := (tab_fold (c.st.map Prod.fst)).1 kv.1 (List.mem_map.2 ⟨kv, hkv, rfl⟩) h0
  obtain ⟨_, _, m, hm, hf⟩ := h.tab_ok.link _ _ hw
  exact ⟨w, m, hw, hm, hf⟩

/-- A branch of the stencil that ends normally asked for the data of a rank. -/
theorem entry_rank (h : c.Good) (hs : Shape c x c.tab f) {get : Filter.Getter R} {kv : List Int × R} (hkv : kv ∈ c.st)
    (h0 : kv.1.countP (· ≠ 0) ≠ 0) (he : f.applyEntry get kv = .ok f') :
    ∃ nr cd win n data, f.dcmp.getNeighborRank f.rk kv.1 = .ok (nr, cd) ∧ get nr win n = .ok data := by
  obtain ⟨w, m, hw, _, _⟩ := window_any h hkv h0
  unfold Filter.applyEntry at he
  obtain ⟨⟨⟨s, nr, it⟩, f1⟩, e1, he⟩ := (M.bind_ok_iff _ _ _).1 he
  have k1 := prepare_kept hs e1
  unfold Filter.prepare at e1
  rw [getSideFromOffset_eq f kv.1 (by rw [hs.ndims]; exact (h.st kv hkv).1) (h.st kv hkv).2.1, M.ok_bind] at e1
  obtain ⟨⟨nr', cd⟩, e2, e1⟩ := (M.bind_ok_iff _ _ _).1 e1
  obtain ⟨⟨it', f2⟩, _, e1⟩ := (M.bind_ok_iff _ _ _).1 e1
  have e3 := Except.ok.inj e1
  simp only [Prod.mk.injEq] at e3
  obtain ⟨⟨rfl, rfl, rfl⟩, rfl⟩ := e3
  dsimp only at he
  rw [k1.shape.wins, hw] at he
  dsimp only at he
  obtain ⟨⟨d, f3⟩, e4, _⟩ := (M.bind_ok_iff _ _ _).1 he
  unfold Filter.fetch at e4
  obtain ⟨⟨n, win, dst⟩, _, e4⟩ := (M.bind_ok_iff _ _ _).1 e4
  obtain ⟨data, e5, _⟩ := (M.bind_ok_iff _ _ _).1 e4
  exact ⟨nr', cd, win, n, data, e2, e5⟩

/-- A branch of the stencil that ends normally reads the data received at the index, in the window of the process in the
direction of the offset, of every displaced cell outside of the sub-domain. -/
theorem entry_reads (h : c.Good) (hx : InGrid c.d x) (hs : Shape c x c.tab f) {get : Filter.Getter R} {kv : List Int × R}
    (hkv : kv ∈ c.st) (h0 : kv.1.countP (· ≠ 0) ≠ 0) (hshort : ShortDir c.d kv.1) (he : f.applyEntry get kv = .ok f')
    {g : List Nat} (hg : InBox (c.lo x) (c.hi x) g) (hout : ¬ InBox (c.lo x) (c.hi x) (shift64 c.dims g kv.1)) :
    ∃ m bi, StdMap.find c.tab.gh (sideOf kv.1) = some m ∧ WinTab.Fits c.L (sideOf kv.1) m ∧
      (winIt c (shiftMod c.d x kv.1) (sideOf kv.1) m 0).computeBigIndexInt
        ((shift64 c.dims g kv.1).map (fun n : Nat => (n : Int))) = .ok bi ∧
      szOfInt bi < winVol c (shiftMod c.d x kv.1) (sideOf kv.1) m := by
  obtain ⟨w, m, hw, hm, hfit⟩ := window_any h hkv h0
  obtain ⟨hlen, hint, _⟩ := h.st kv hkv
  have hyG := shiftMod_inGrid hx (by rw [h.good.length_eq]; exact hlen : kv.1.length = c.d.length)
  refine ⟨m, ?_⟩
  unfold Filter.applyEntry at he
  obtain ⟨⟨⟨s, nr, it⟩, f1⟩, e1, he⟩ := (M.bind_ok_iff _ _ _).1 he
  have k1 := prepare_kept hs e1
  obtain ⟨k, hk⟩ := hs.dcmp
  have hwin := getWindowIter_eq h (f := { f with dcmp := movedDecomp c.nprocs c.dims c.d (rankOf c.d x) })
    hyG (sideOf kv.1) (rankOf c.d x) hs.ndims rfl (by dsimp only; rw [hs.gh, hm]; exact hfit)
  dsimp only at hwin
  have e' : f.winNumGhosts = c.tab.gh := hs.gh
  unfold Filter.prepare at e1
  rw [getSideFromOffset_eq f kv.1 (by rw [hs.ndims]; exact hlen) hint, M.ok_bind, hk, hs.rk,
    getNeighborRank_eq h.good x hx kv.1 hshort (by intro k hk; have := h.good.d_le k hk; have := h.np2; omega), M.ok_bind] at e1
  dsimp only at e1
  rw [← hs.rk, hwin, M.ok_bind, e', hm, Option.getD_some] at e1
  have e3 := Except.ok.inj e1
  simp only [Prod.mk.injEq] at e3
  obtain ⟨⟨rfl, rfl, rfl⟩, e3⟩ := e3
  dsimp only at he
  rw [k1.shape.wins, hw] at he
  dsimp only at he
  obtain ⟨⟨d, f3⟩, e4, he⟩ := (M.bind_ok_iff _ _ _).1 he
  have k2 := fetch_kept h k1.shape e4
  dsimp only at he
  obtain ⟨bi, b, a1, a2, a3⟩ := update_reads h hx k2.shape hlen he hg hout
  refine ⟨bi, hm, hfit, a1, ?_⟩
  -- the buffer
  have hd : d = 2 * w + 1 := by
    unfold Filter.fetch Filter.fetchArgs at e4
    obtain ⟨k3, hk3⟩ := k1.shape.iter _ _ _ hw hm
    have hwd := (h.tab_ok.link _ _ hw).2.1
    rw [hk3, k1.shape.wins, k1.shape.wdata, hw, hwd] at e4
    dsimp only at e4
    rw [M.pure_eq, M.ok_bind] at e4
    obtain ⟨data, _, e4⟩ := (M.bind_ok_iff _ _ _).1 e4
    obtain ⟨f4, _, e4⟩ := (M.bind_ok_iff _ _ _).1 e4
    have := Except.ok.inj e4
    rw [Prod.mk.injEq] at this
    exact this.1.symm
  obtain ⟨_, b', hb', hbl⟩ := k2.shape.buflen _ _ _ hw hm
  rw [hd, hb', Option.some_inj] at a2
  rw [← a2, hbl, winVol_indep h hx hyG hfit] at a3
  exact a3

/-! Sizes along one axis. -/

omit [Add R] [Mul R] in
/-- Along an axis: `d` sub-domains of `l` cells. -/
theorem axis_sizes (h : c.Good) {i : Nat} (hi : i < c.dims.length) :
    c.dims.getD i 0 / c.d.getD i 0 = c.L.getD i 0 ∧ c.dims.getD i 0 = c.d.getD i 0 * c.L.getD i 0 ∧ 0 < c.d.getD i 0 ∧
      0 < c.L.getD i 0 ∧ c.dims.getD i 0 < 2 ^ 31 := by
  have h1 : i < c.L.length := by rw [h.lenL]; exact hi
  have h2 : i < c.d.length := by rw [h.good.length_eq]; exact hi
  refine ⟨(h.getD_L hi).symm, ?_, ?_, ?_, ?_⟩
  · rw [h.getD_L hi, Nat.mul_div_cancel' (h.dvdD hi)]
  · rw [getD_of_lt h2]; exact h.good.d_pos _ (List.getElem_mem h2)
  · rw [getD_of_lt h1]; exact h.lpos _ (List.getElem_mem h1)
  · rw [getD_of_lt hi]; exact h.dint _ (List.getElem_mem hi)

omit [Add R] [Mul R] in
/-- The layer of a window along one axis. -/
theorem layer_axis (h : c.Good) {y : List Nat} (hy : InGrid c.d y) {s : List Int} {m : Nat} (hf : WinTab.Fits c.L s m)
    {i : Nat} (hi : i < c.dims.length) :
    (faceLo (c.lo y) (c.hi y) s m).getD i 0 =
      (if 0 < s.getD i 0 then (y.getD i 0 + 1) * c.L.getD i 0 - m else y.getD i 0 * c.L.getD i 0) ∧
    (faceHi (c.lo y) (c.hi y) s m).getD i 0 =
      (if s.getD i 0 < 0 then y.getD i 0 * c.L.getD i 0 + m else (y.getD i 0 + 1) * c.L.getD i 0) ∧
    (s.getD i 0 ≠ 0 → 1 ≤ m ∧ m ≤ c.L.getD i 0) ∧ y.getD i 0 < c.d.getD i 0 := by
  have l3 := h.len_lo hy
  have l4 := h.len_hi hy
  have l5 : s.length = c.dims.length := by rw [hf.1, h.lenL]
  refine ⟨?_, ?_, ?_, h.ltD hy hi⟩
  · rw [getD_faceLo i (by omega) (by omega) (by omega), h.getD_lo hy hi, h.getD_hi hy hi, h.getD_L hi]
  · rw [getD_faceHi i (by omega) (by omega) (by omega), h.getD_lo hy hi, h.getD_hi hy hi, h.getD_L hi]
  · intro hn
    have h1 : i < c.L.length := by rw [h.lenL]; exact hi
    rw [getD_of_lt (by omega)] at hn
    have := hf.2 i h1 (by omega) hn
    rwa [getD_of_lt h1]

omit [Add R] [Mul R] in
theorem layer_box (h : c.Good) {y : List Nat} (hy : InGrid c.d y) {s : List Int} {m : Nat} (hf : WinTab.Fits c.L s m) :
    BoxLt (faceLo (c.lo y) (c.hi y) s m) (faceHi (c.lo y) (c.hi y) s m) ∧
    (faceLo (c.lo y) (c.hi y) s m).length = c.dims.length ∧ (faceHi (c.lo y) (c.hi y) s m).length = c.dims.length ∧
    (∀ i, i < c.dims.length → (faceHi (c.lo y) (c.hi y) s m).getD i 0 ≤ c.dims.getD i 0) := by
  have hb := (h.face hy hf).boxLt (h.box hy)
  have l3 := h.len_lo hy
  have l4 := h.len_hi hy
  have l5 : s.length = c.dims.length := by rw [hf.1, h.lenL]
  have lh : (faceHi (c.lo y) (c.hi y) s m).length = c.dims.length := by
    rw [length_faceHi (by omega) (by omega), l3]
  refine ⟨hb, by rw [length_faceLo (by omega) (by omega), l3], lh, ?_⟩
  intro i hi
  obtain ⟨_, e2, e3, e4⟩ := layer_axis h hy hf hi
  obtain ⟨_, e5, _, _, _⟩ := axis_sizes h hi
  rw [e2, e5]
  have h1 : (y.getD i 0 + 1) * c.L.getD i 0 ≤ c.d.getD i 0 * c.L.getD i 0 := Nat.mul_le_mul_right _ e4
  split
  · rename_i hs
    have := e3 (by omega)
    rw [Nat.add_mul, Nat.one_mul] at h1
    omega
  · exact h1

/-- A branch of the stencil does not end normally if it needs a cell below the data received. -/
theorem entry_below (h : c.Good) (hx : InGrid c.d x) (hcells : c.dims.prod ≤ 2 ^ 31) (hs : Shape c x c.tab f)
    {get : Filter.Getter R} {kv : List Int × R} (hkv : kv ∈ c.st) (h0 : kv.1.countP (· ≠ 0) ≠ 0)
    (hshort : ShortDir c.d kv.1) {g : List Nat} (hg : InBox (c.lo x) (c.hi x) g)
    (hout : ¬ InBox (c.lo x) (c.hi x) (shift64 c.dims g kv.1)) {a : Nat} (ha : a < c.dims.length)
    (hlow : ∀ m, StdMap.find c.tab.gh (sideOf kv.1) = some m → WinTab.Fits c.L (sideOf kv.1) m →
      ∀ i, i < c.dims.length →
        (i = a → (shift64 c.dims g kv.1).getD i 0 <
          (faceLo (c.lo (shiftMod c.d x kv.1)) (c.hi (shiftMod c.d x kv.1)) (sideOf kv.1) m).getD i 0) ∧
        (i ≠ a → (shift64 c.dims g kv.1).getD i 0 =
          (faceLo (c.lo (shiftMod c.d x kv.1)) (c.hi (shiftMod c.d x kv.1)) (sideOf kv.1) m).getD i 0)) :
    f.applyEntry get kv ≠ .ok f' := by
  intro he
  obtain ⟨m, bi, hm, hf, e1, e2⟩ := entry_reads h hx hs hkv h0 hshort he hg hout
  have hlen := (h.st kv hkv).1
  have hyG := shiftMod_inGrid hx (by rw [h.good.length_eq]; exact hlen : kv.1.length = c.d.length)
  have hlow := hlow m hm hf
  obtain ⟨hb, l1, l2, hhi⟩ := layer_box h hyG hf
  have tl := (shift64_inGrid (h.grid hx hg) hlen).length_eq
  have hvl := winVol_le h hyG hf
  have hloc := h.loc
  unfold winIt at e1
  unfold winVol at e2 hvl
  generalize faceLo (c.lo (shiftMod c.d x kv.1)) (c.hi (shiftMod c.d x kv.1)) (sideOf kv.1) m = FL at *
  generalize faceHi (c.lo (shiftMod c.d x kv.1)) (c.hi (shiftMod c.d x kv.1)) (sideOf kv.1) m = FH at *
  generalize shift64 c.dims g kv.1 = t at *
  have lel : (extents FL FH).length = c.dims.length := by rw [hb.length_extents, l1]
  have hlt : ∀ i, i < c.dims.length → FL.getD i 0 < c.dims.getD i 0 := by
    intro i hi
    have h1 := hhi i hi
    have h2 := (List.forall₂_iff_get.1 hb).2 i (by omega) (by omega)
    simp only [List.get_eq_getElem] at h2
    rw [getD_of_lt (by omega)] at h1 ⊢
    omega
  have hstr : (strides false (extents FL FH)).getD a 0 = ((extents FL FH).take a).prod := by
    have := strides_getElem? false (extents FL FH) a (by omega)
    rw [List.getD_eq_getElem?_getD, this]
    rfl
  have hS : 0 < ((extents FL FH).take a).prod :=
    prod_pos_of fun d hd => hb.extents_pos d (List.mem_of_mem_take hd)
  have hle : ((extents FL FH).take a).prod * c.dims.getD a 0 ≤ c.dims.prod := by
    refine prod_take_mul_le ha lel (fun i hi => ?_) h.good.pos
    have e : (extents FL FH).getD i 0 = FH.getD i 0 - FL.getD i 0 := by
      rw [getD_of_lt (by omega), getD_of_lt (by omega), getD_of_lt (by omega)]
      simp [extents]
    rw [e]
    have := hhi i hi
    omega
  have hta := (hlow a ha).1 rfl
  have hla := hlt a ha
  have hq : ((extents FL FH).take a).prod * (FL.getD a 0 - t.getD a 0) ≤ 2 ^ 31 :=
    Nat.le_trans (Nat.mul_le_mul_left _ (by omega)) (Nat.le_trans hle hcells)
  have hW : volume FL FH < W := by unfold W; omega
  have := index_below false (ts := t.map fun n : Nat => (n : Int)) hb hW (by simp [tl, l1]) (a := a) (by omega)
    (q := FL.getD a 0 - t.getD a 0) (by omega)
    (by
      intro l hl
      obtain ⟨i, hi, rfl⟩ := List.mem_iff_getElem.1 hl
      have h1 := hlt i (by omega)
      rw [getD_of_lt hi, getD_of_lt (by omega)] at h1
      have := h.dint _ (List.getElem_mem (by omega : i < c.dims.length))
      omega)
    (by
      intro i hi
      have h1 : (t.map fun n : Nat => (n : Int)).getD i 0 = ((t.getD i 0 : Nat) : Int) := by
        rw [getD_of_lt (by simp; omega), getD_of_lt (by omega)]
        simp
      rw [h1]
      by_cases eia : i = a
      · subst eia
        rw [if_pos rfl]
        omega
      · rw [if_neg eia, (hlow i (by omega)).2 eia]) hstr hS hq 0
  rw [this] at e1
  have e1 := Except.ok.inj e1
  have hpos : 0 < ((extents FL FH).take a).prod * (FL.getD a 0 - t.getD a 0) := Nat.mul_pos hS (by omega)
  rw [← e1, szOfInt_neg hpos (by unfold W; omega)] at e2
  unfold W at e2
  omega

/-- A branch of the stencil does not end normally if it needs a cell beyond the data received. -/
theorem entry_above (h : c.Good) (hx : InGrid c.d x) (hcells : c.dims.prod ≤ 2 ^ 31) (hs : Shape c x c.tab f)
    {get : Filter.Getter R} {kv : List Int × R} (hkv : kv ∈ c.st) (h0 : kv.1.countP (· ≠ 0) ≠ 0)
    (hshort : ShortDir c.d kv.1) {g : List Nat} (hg : InBox (c.lo x) (c.hi x) g)
    (hout : ¬ InBox (c.lo x) (c.hi x) (shift64 c.dims g kv.1)) {a : Nat} (ha : a < c.dims.length)
    (hhigh : ∀ m, StdMap.find c.tab.gh (sideOf kv.1) = some m → WinTab.Fits c.L (sideOf kv.1) m →
      ∀ i, i < c.dims.length →
        (i = a → (faceHi (c.lo (shiftMod c.d x kv.1)) (c.hi (shiftMod c.d x kv.1)) (sideOf kv.1) m).getD i 0 ≤
          (shift64 c.dims g kv.1).getD i 0) ∧
        (i ≠ a → (faceHi (c.lo (shiftMod c.d x kv.1)) (c.hi (shiftMod c.d x kv.1)) (sideOf kv.1) m).getD i 0 ≤
          (shift64 c.dims g kv.1).getD i 0 + 1)) :
    f.applyEntry get kv ≠ .ok f' := by
  intro he
  obtain ⟨m, bi, hm, hf, e1, e2⟩ := entry_reads h hx hs hkv h0 hshort he hg hout
  have hlen := (h.st kv hkv).1
  have hyG := shiftMod_inGrid hx (by rw [h.good.length_eq]; exact hlen : kv.1.length = c.d.length)
  have hhigh := hhigh m hm hf
  obtain ⟨hb, l1, l2, hhi⟩ := layer_box h hyG hf
  have tG := shift64_inGrid (h.grid hx hg) hlen
  have tl := tG.length_eq
  have hvl := winVol_le h hyG hf
  have hloc := h.loc
  unfold winIt at e1
  unfold winVol at e2 hvl
  generalize faceLo (c.lo (shiftMod c.d x kv.1)) (c.hi (shiftMod c.d x kv.1)) (sideOf kv.1) m = FL at *
  generalize faceHi (c.lo (shiftMod c.d x kv.1)) (c.hi (shiftMod c.d x kv.1)) (sideOf kv.1) m = FH at *
  generalize shift64 c.dims g kv.1 = t at *
  have hW : volume FL FH < W := by unfold W; omega
  obtain ⟨p, e3, e4, e5⟩ := index_above (ds := c.dims) hb hW (by omega) (by omega) hcells
    (fun i hi => hhi i (by omega))
    (fun i hi => by
      rw [getD_of_lt (by omega), getD_of_lt (by omega)]
      exact (inGrid_iff_getElem.1 tG).2 i (by omega) _) h.dint
    (fun i hi => by
      by_cases eia : i = a
      · have := (hhigh i (by omega)).1 eia; omega
      · exact (hhigh i (by omega)).2 eia) (a := a) (by omega) ((hhigh a ha).1 rfl) 0
  unfold itAt at e3
  rw [e3] at e1
  have e1 := Except.ok.inj e1
  rw [← e1, szOfInt_ofNat (by unfold W; omega)] at e2
  omega

end Fidi
