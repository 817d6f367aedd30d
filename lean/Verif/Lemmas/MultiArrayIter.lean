import Verif.Model.MultiArrayIter
import Verif.Lemmas.Machine
import Verif.Lemmas.MixedRadix

/-
Closed forms of the `MultiArrayIter` methods.
-/
namespace Fidi
open Spec

/-- Extents computed by the code: differences modulo 2^64. -/
def extW (lo hi : List Nat) : List Nat := List.zipWith (fun l h => szSub h l) lo hi

/-- Strides computed by the code: products modulo 2^64. -/
def strW (rm : Bool) (ds : List Nat) : List Nat := (strides rm ds).map (· % W)

theorem length_extW {lo hi : List Nat} (h : lo.length ≤ hi.length) : (extW lo hi).length = lo.length := by
  simp [extW, h]

@[simp] theorem length_strW (rm : Bool) (ds : List Nat) : (strW rm ds).length = ds.length := by
  simp [strW]

theorem strW_getElem? (rm : Bool) (ds : List Nat) (i : Nat) (h : i < ds.length) :
    (strW rm ds)[i]? = some ((if rm then (ds.drop (i + 1)).prod else (ds.take i).prod) % W) := by
  unfold strW
  rw [List.getElem?_map, strides_getElem? rm ds i h]; rfl

theorem szMul_mod_left (a b : Nat) : szMul (a % W) b = (a * b) % W := by
  unfold szMul; rw [Nat.mod_mul_mod]

theorem bind_map_ok {α β : Type} (x : α) (f : α → β) : ((do let y ← (Except.ok x : M α); pure (f y)) : M β) = .ok (f x) := rfl

/-- Closed form of the object made by `build`. -/
def builtIter (lo hi : List Nat) (rm : Bool) : MultiArrayIter :=
  { lo, hi, dims := extW lo hi, dimProd := strW rm (extW lo hi), rowMajor := rm,
    ntot := (extW lo hi).prod % W, ndims := lo.length, bigIndex := 0 }

theorem ext_of_getElem? {α} {l l' : List α} (hl : l.length = l'.length)
    (h : ∀ i, i < l'.length → l[i]? = l'[i]?) : l = l' := by
  apply List.ext_getElem?
  intro i
  by_cases hi : i < l'.length
  · exact h i hi
  · rw [List.getElem?_eq_none (by omega), List.getElem?_eq_none (by omega)]

theorem build_dims (self : Option MultiArrayIter) (lo hi : List Nat) (h : lo.length ≤ hi.length) :
    (forUp 0 lo.length (resize (MultiArrayIter.oldDims self) lo.length 0) fun i dims => do
      wr dims i (szSub (← rd hi i) (← rd lo i))) = .ok (extW lo hi) := by
  rw [forUp_fill lo.length _ (by simp) (fun i => szSub (hi[i]?.getD 0) (lo[i]?.getD 0))]
  · congr 1
    apply ext_of_getElem? (by simp [extW, h])
    intro i hi'
    rw [length_extW h] at hi'
    have h2 : i < hi.length := by omega
    simp [extW, hi', h2]
  · intro i v hi' hv _
    have h2 : i < hi.length := by omega
    rw [rd_of_lt h2, rd_of_lt hi']
    simp only [M.ok_bind]
    rw [wr_of_lt (by omega)]
    simp [hi', h2]

theorem build_ntot (ds : List Nat) :
    (forUp 0 ds.length 1 fun i ntot => do pure (szMul ntot (← rd ds i))) = .ok (ds.prod % W) := by
  obtain ⟨s, e, hs⟩ := forUp_inv (Nat.zero_le ds.length) (fun i (s : Nat) => s = (ds.take i).prod % W)
    (fun i ntot => do pure (szMul ntot (← rd ds i))) 1 (by simp [W])
    (by
      intro i s _ hi hs
      refine ⟨_, by rw [rd_of_lt hi]; rfl, ?_⟩
      rw [hs, szMul_mod_left, List.prod_take_succ _ _ hi])
  rw [e, hs]; simp

theorem build_dpR (ds dp : List Nat) (hd : ds ≠ []) (hl : dp.length = ds.length) (hn : ds.length < W) :
    (do
      let dp ← wr dp (szSub ds.length 1) 1
      forDown (ds.length - 1) dp fun i dp => do
        wr dp i (szMul (← rd dp (i + 1)) (← rd ds (i + 1)))) = .ok (strW true ds) := by
  have hpos : 0 < ds.length := List.length_pos_iff.2 hd
  rw [szSub_of_le hpos hn, wr_of_lt (by omega)]
  simp only [M.ok_bind]
  obtain ⟨s, e, hl', hp⟩ := forDown_inv (ds.length - 1)
    (fun i (s : List Nat) => s.length = ds.length ∧ ∀ j, i ≤ j → j < ds.length → s[j]? = (strW true ds)[j]?)
    (fun i dp => do wr dp i (szMul (← rd dp (i + 1)) (← rd ds (i + 1))))
    (dp.set (ds.length - 1) 1)
    (by
      refine ⟨by simpa using hl, ?_⟩
      intro j h1 h2
      have : j = ds.length - 1 := by omega
      subst this
      rw [strW_getElem? _ _ _ h2]
      rw [List.getElem?_set_self (by omega)]
      simp only [if_true]
      rw [List.drop_of_length_le (by omega)]; rfl)
    (by
      intro i s hi ⟨h1, h2⟩
      have e1 : s[i+1]? = _ := (h2 (i + 1) (Nat.le_refl _) (by omega)).trans (strW_getElem? true ds (i+1) (by omega))
      refine ⟨_, by rw [rd_of_some e1, rd_of_lt (by omega)]; simp only [M.ok_bind]; exact wr_of_lt (by omega), ?_, ?_⟩
      · simpa using h1
      · intro j hj1 hj2
        by_cases hji : i = j
        · subst hji
          rw [List.getElem?_set_self (by omega), strW_getElem? _ _ _ hj2]
          simp only [if_true]
          rw [szMul_mod_left]
          rw [Nat.mul_comm, ← List.prod_cons, List.getElem_cons_drop]
        · rw [List.getElem?_set_ne hji]
          exact h2 j (by omega) hj2)
  rw [e]
  congr 1
  apply ext_of_getElem? (by simp [hl'])
  intro i hi
  exact hp i (Nat.zero_le _) (by simpa using hi)

theorem build_dpC (ds dp : List Nat) (hd : ds ≠ []) (hl : dp.length = ds.length) :
    (do
      let dp ← wr dp 0 1
      forUp 1 ds.length dp fun i dp => do
        wr dp i (szMul (← rd dp (i - 1)) (← rd ds (i - 1)))) = .ok (strW false ds) := by
  have hpos : 0 < ds.length := List.length_pos_iff.2 hd
  rw [wr_of_lt (by omega)]
  simp only [M.ok_bind]
  obtain ⟨s, e, hl', hp⟩ := forUp_inv (a := 1) (b := ds.length) hpos
    (fun i (s : List Nat) => s.length = ds.length ∧ ∀ j, j < i → s[j]? = (strW false ds)[j]?)
    (fun i dp => do wr dp i (szMul (← rd dp (i - 1)) (← rd ds (i - 1))))
    (dp.set 0 1)
    (by
      refine ⟨by simpa using hl, ?_⟩
      intro j h1
      have : j = 0 := by omega
      subst this
      rw [strW_getElem? _ _ _ hpos]
      rw [List.getElem?_set_self (by omega)]
      simp [W])
    (by
      intro i s hi1 hi ⟨h1, h2⟩
      obtain ⟨i, rfl⟩ : ∃ k, i = k + 1 := ⟨i - 1, by omega⟩
      have e1 : s[i]? = _ := (h2 i (by omega)).trans (strW_getElem? false ds i (by omega))
      refine ⟨_, by rw [Nat.add_sub_cancel, rd_of_some e1, rd_of_lt (by omega)]; simp only [M.ok_bind]; exact wr_of_lt (by omega), ?_, ?_⟩
      · simpa using h1
      · intro j hj1
        by_cases hji : i + 1 = j
        · subst hji
          rw [List.getElem?_set_self (by omega), strW_getElem? _ _ _ hi]
          simp only [Bool.false_eq_true, if_false]
          rw [szMul_mod_left, List.prod_take_succ]
        · rw [List.getElem?_set_ne hji]
          exact h2 j (by omega))
  rw [e]
  congr 1
  apply ext_of_getElem? (by simp [hl'])
  intro i hi
  exact hp i (by simpa using hi)

theorem build_eq (self : Option MultiArrayIter) (lo hi : List Nat) (rm : Bool)
    (h0 : lo ≠ []) (h : lo.length ≤ hi.length) (hn : lo.length < W) :
    MultiArrayIter.build self lo hi rm = .ok (builtIter lo hi rm) := by
  have hl := length_extW h
  have hne : extW lo hi ≠ [] := by
    intro e; rw [e] at hl; exact h0 (List.length_eq_zero_iff.1 hl.symm)
  have e1 := build_ntot (extW lo hi)
  rw [hl] at e1
  unfold MultiArrayIter.build
  simp only []
  rw [build_dims self lo hi h]
  simp only [M.ok_bind]
  rw [e1]
  simp only [M.ok_bind]
  cases rm
  · have e2 := build_dpC (extW lo hi) (resize (MultiArrayIter.oldDimProd self) lo.length 0) hne (by simp [hl])
    rw [hl] at e2
    simp only [Bool.false_eq_true, if_false]
    rw [← bind_assoc, e2]; rfl
  · have e2 := build_dpR (extW lo hi) (resize (MultiArrayIter.oldDimProd self) lo.length 0) hne (by simp [hl]) (by rw [hl]; exact hn)
    rw [hl] at e2
    simp only [if_true]
    rw [← bind_assoc, e2]; rfl

theorem build_nil (self : Option MultiArrayIter) (hi : List Nat) (rm : Bool) :
    MultiArrayIter.build self [] hi rm = .error .outOfBounds := by
  unfold MultiArrayIter.build
  cases rm
  · simp [forUp, resize, wr]
  · simp [forUp, resize, wr, szSub, W]

theorem build_short (self : Option MultiArrayIter) (lo hi : List Nat) (rm : Bool) (h : hi.length < lo.length) :
    MultiArrayIter.build self lo hi rm = .error .outOfBounds := by
  unfold MultiArrayIter.build
  simp only []
  have hb : ∀ i (dims : List Nat), i < hi.length → dims.length = lo.length →
      (do wr dims i (szSub (← rd hi i) (← rd lo i))) =
        .ok (dims.set i (szSub (hi[i]?.getD 0) (lo[i]?.getD 0))) := by
    intro i v hi' hv
    have h2 : i < lo.length := by omega
    rw [rd_of_lt h2, rd_of_lt hi']
    simp only [M.ok_bind]
    rw [wr_of_lt (by omega)]
    simp [hi', h2]
  obtain ⟨s, e, hs⟩ := forUp_inv (Nat.zero_le hi.length) (fun _ (s : List Nat) => s.length = lo.length)
    (fun i dims => do wr dims i (szSub (← rd hi i) (← rd lo i)))
    (resize (MultiArrayIter.oldDims self) lo.length 0) (by simp)
    (by
      intro i s _ hi' hl
      exact ⟨_, hb i s hi' hl, by simpa using hl⟩)
  rw [forUp_error (Nat.zero_le _) h _ _ _ .outOfBounds e (by rw [rd_of_ge (Nat.le_refl _)]; rfl)]
  rfl

/-- Defined `getIndices`. -/
theorem getIndices_eq (it : MultiArrayIter) (hd : it.dims.length = it.ndims) (hs : it.dimProd.length = it.ndims)
    (hl : it.lo.length = it.ndims) (h1 : ∀ d ∈ it.dims, 0 < d) (h2 : ∀ s ∈ it.dimProd, 0 < s) :
    it.getIndices = .ok (List.zipWith szAdd it.lo (digitsOf it.dimProd it.dims it.bigIndex)) := by
  unfold MultiArrayIter.getIndices
  rw [forUp_fill it.ndims _ (by simp)
    (fun i => szAdd (it.lo[i]?.getD 0) (it.bigIndex / (it.dimProd[i]?.getD 0) % (it.dims[i]?.getD 0)))]
  · congr 1
    apply ext_of_getElem? (by simp [digitsOf, hd, hs, hl])
    intro i hi
    have hi : i < it.ndims := by simp [digitsOf, hd, hs, hl] at hi; exact hi
    have a : i < it.dims.length := by omega
    have b : i < it.dimProd.length := by omega
    have c : i < it.lo.length := by omega
    simp [digitsOf, hi, a, b, c]
  · intro i v hi hv _
    have a : i < it.dims.length := by omega
    have b : i < it.dimProd.length := by omega
    have c : i < it.lo.length := by omega
    rw [rd_of_lt a, rd_of_lt b, rd_of_lt c]
    simp only [M.ok_bind]
    rw [szDiv_of_pos (h2 _ (List.getElem_mem _))]
    simp only [M.ok_bind]
    rw [szMod_of_pos (h1 _ (List.getElem_mem _))]
    simp only [M.ok_bind]
    rw [wr_of_lt (by omega)]
    simp [a, b, c]

theorem bigIndexAcc_eq {T : Type} (toSz : T → Nat) (it : MultiArrayIter) (inds : List T)
    (hs : it.dimProd.length = it.ndims) (hl : it.lo.length = it.ndims) (hi : inds.length = it.ndims) :
    it.bigIndexAcc toSz inds =
      .ok (dot it.dimProd (List.zipWith (fun x l => szSub (toSz x) l) inds it.lo) % W) := by
  unfold MultiArrayIter.bigIndexAcc
  obtain ⟨s, e, hp⟩ := forUp_inv (Nat.zero_le it.ndims)
    (fun i (s : Nat) => s =
      ((List.zipWith (· * ·) it.dimProd (List.zipWith (fun x l => szSub (toSz x) l) inds it.lo)).take i).sum % W)
    (fun i bi => do
      pure (szAdd bi (szMul (← rd it.dimProd i) (szSub (toSz (← rd inds i)) (← rd it.lo i))))) 0
    (by simp)
    (by
      intro i s _ hi' hs'
      have b : i < it.dimProd.length := by omega
      have c : i < it.lo.length := by omega
      have d : i < inds.length := by omega
      refine ⟨_, by rw [rd_of_lt b, rd_of_lt c, rd_of_lt d]; rfl, ?_⟩
      rw [hs', List.sum_take_succ _ _ (by simp [hs, hl, hi, hi'])]
      simp only [szAdd, szMul, List.getElem_zipWith]
      rw [Nat.add_mod_mod, Nat.mod_add_mod])
  rw [e, hp]
  congr 3
  rw [List.take_of_length_le (by simp [hs])]

theorem szSub_mod (a b : Nat) (h : b ≤ a) : szSub a b = (a - b) % W := by
  unfold szSub
  have h2 : b % W < W := Nat.mod_lt _ W_pos
  have h3 := Nat.div_add_mod b W
  have h4 : b % W ≤ b := Nat.mod_le _ _
  have : a + (W - b % W) = (a - b) + W * (b / W + 1) := by
    rw [Nat.mul_add, Nat.mul_one]; omega
  rw [this, Nat.add_mul_mod_self_left]

/-- Without overflow the machine extents are the true ones. -/
theorem extW_eq {lo hi : List Nat} (hb : BoxLt lo hi) (hv : volume lo hi < W) : extW lo hi = extents lo hi := by
  have hlt : ∀ d ∈ extents lo hi, d < W := fun d hd => Nat.lt_of_le_of_lt (mem_le_prod hb.extents_pos hd) hv
  clear hv
  unfold extW
  induction hb with
  | nil => rfl
  | cons h _ ih =>
    simp only [extents, List.zipWith_cons_cons] at hlt ⊢
    rw [ih (fun d hd => hlt d (by simp only [extents] at hd; simp [hd]))]
    congr 1
    rw [szSub_mod _ _ (Nat.le_of_lt h)]
    exact Nat.mod_eq_of_lt (hlt _ (by simp))

theorem strW_eq {ds : List Nat} (rm : Bool) (hp : ∀ d ∈ ds, 0 < d) (hv : ds.prod < W) : strW rm ds = strides rm ds := by
  unfold strW
  conv_rhs => rw [← List.map_id (strides rm ds)]
  apply List.map_congr_left
  intro s hs
  exact Nat.mod_eq_of_lt (Nat.lt_of_le_of_lt (strides_pos_le rm hp s hs).2 hv)

theorem zipWith_szAdd {lo hi x : List Nat} (hs : ∀ h ∈ hi, h < W) (hl : lo.length = hi.length)
    (h : InGrid (extents lo hi) x) : List.zipWith szAdd lo x = List.zipWith (· + ·) lo x := by
  have hbox := inBox_add hl h
  induction lo generalizing hi x with
  | nil => rfl
  | cons l lo ih =>
    cases hi with
    | nil => simp at hl
    | cons b hi =>
      cases x with
      | nil => exact h.elim
      | cons y x =>
        simp only [List.zipWith_cons_cons]
        rw [ih (fun a ha => hs a (by simp [ha])) (by simpa using hl) h.2 (inBox_add (by simpa using hl) h.2)]
        congr 1
        apply szAdd_of_lt
        have h2 : l + y < b := hbox.2.1
        have := hs b (by simp)
        omega

/-- Closed form of the iterator of a proper box. -/
theorem builtIter_eq {lo hi : List Nat} (rm : Bool) (hb : BoxLt lo hi) (hv : volume lo hi < W) :
    builtIter lo hi rm =
      { lo := lo, hi := hi, dims := extents lo hi, dimProd := strides rm (extents lo hi), rowMajor := rm,
        ntot := volume lo hi, ndims := lo.length, bigIndex := 0 } := by
  unfold builtIter
  rw [extW_eq hb hv, strW_eq rm hb.extents_pos hv]
  simp only [volume] at hv ⊢
  rw [Nat.mod_eq_of_lt hv]

/-- Tuple at position `k` of a proper box. -/
def tupleAt (rm : Bool) (lo hi : List Nat) (k : Nat) : List Nat :=
  List.zipWith (· + ·) lo (digitsOf (strides rm (extents lo hi)) (extents lo hi) k)

/-- Position of a tuple of a proper box. -/
def flatOf (rm : Bool) (lo hi : List Nat) (t : List Nat) : Nat :=
  dot (strides rm (extents lo hi)) (List.zipWith (fun x l => x - l) t lo)

theorem getIndices_built {lo hi : List Nat} (rm : Bool) (hb : BoxLt lo hi) (hv : volume lo hi < W)
    (hs : ∀ h ∈ hi, h < W) (k : Nat) :
    ({ builtIter lo hi rm with bigIndex := k } : MultiArrayIter).getIndices = .ok (tupleAt rm lo hi k) := by
  rw [builtIter_eq rm hb hv, getIndices_eq]
  · simp only [tupleAt]
    congr 1
    exact zipWith_szAdd hs hb.length_eq (digits_inGrid rm _ hb.extents_pos k)
  · exact hb.length_extents
  · simp [hb.length_extents]
  · rfl
  · exact hb.extents_pos
  · exact fun s h => (strides_pos_le rm hb.extents_pos s h).1

theorem tupleAt_inBox {lo hi : List Nat} (rm : Bool) (hb : BoxLt lo hi) (k : Nat) : InBox lo hi (tupleAt rm lo hi k) :=
  inBox_add hb.length_eq (digits_inGrid rm _ hb.extents_pos k)

theorem flatOf_lt {lo hi t : List Nat} (rm : Bool) (h : InBox lo hi t) : flatOf rm lo hi t < volume lo hi :=
  dot_lt rm _ _ h.sub

theorem tupleAt_flatOf {lo hi t : List Nat} (rm : Bool) (h : InBox lo hi t) :
    tupleAt rm lo hi (flatOf rm lo hi t) = t := by
  unfold tupleAt flatOf
  rw [digits_dot rm _ _ h.sub, h.add_sub]

theorem flatOf_tupleAt {lo hi : List Nat} (rm : Bool) (hb : BoxLt lo hi) (k : Nat) :
    flatOf rm lo hi (tupleAt rm lo hi k) = k % volume lo hi := by
  unfold tupleAt flatOf
  rw [zipWith_add_sub_cancel, dot_digits rm _ hb.extents_pos]; rfl
  rw [(digits_inGrid rm _ hb.extents_pos k).length_eq, hb.length_extents]

theorem tupleAt_mod {lo hi : List Nat} (rm : Bool) (hb : BoxLt lo hi) (k : Nat) :
    tupleAt rm lo hi (k % volume lo hi) = tupleAt rm lo hi k := by
  unfold tupleAt volume
  rw [digits_mod rm _ hb.extents_pos]

theorem zipWith_szSub {lo hi t : List Nat} (hs : ∀ h ∈ hi, h < W) (h : InBox lo hi t) :
    List.zipWith (fun x l => szSub x l) t lo = List.zipWith (fun x l => x - l) t lo := by
  induction lo generalizing hi t with
  | nil => simp
  | cons l lo ih =>
    cases hi with
    | nil => exact h.elim
    | cons b hi =>
      cases t with
      | nil => exact h.elim
      | cons y x =>
        simp only [List.zipWith_cons_cons]
        rw [ih (fun a ha => hs a (by simp [ha])) h.2.2]
        congr 1
        apply szSub_of_le h.1
        have := hs b (by simp)
        have := h.2.1
        omega

theorem InBox_boxLt : ∀ {lo hi t : List Nat}, InBox lo hi t → BoxLt lo hi
  | [], [], [], _ => .nil
  | _ :: lo, _ :: hi, _ :: t, h => .cons (by have := h.1; have := h.2.1; omega) (InBox_boxLt h.2.2)
  | [], [], _ :: _, h => h.elim
  | [], _ :: _, _, h => h.elim
  | _ :: _, [], _, h => h.elim
  | _ :: _, _ :: _, [], h => h.elim

theorem computeBigIndexSz_built {lo hi t : List Nat} (rm : Bool) (hv : volume lo hi < W)
    (hs : ∀ h ∈ hi, h < W) (h : InBox lo hi t) (k : Nat) :
    ({ builtIter lo hi rm with bigIndex := k } : MultiArrayIter).computeBigIndexSz t = .ok (flatOf rm lo hi t) := by
  have hb := InBox_boxLt h
  rw [builtIter_eq rm hb hv]
  unfold MultiArrayIter.computeBigIndexSz
  rw [bigIndexAcc_eq]
  · simp only [id]
    rw [zipWith_szSub hs h]
    congr 1
    exact Nat.mod_eq_of_lt (Nat.lt_trans (flatOf_lt rm h) hv)
  · simp [hb.length_extents]
  · rfl
  · exact h.length_lo

theorem extW_eq_word (lo hi : List Nat) : extW lo hi = wordExtents lo hi := by
  unfold extW wordExtents
  congr 1
  funext l h
  exact szSub_int h l

theorem build_ok_iff (self : Option MultiArrayIter) (lo hi : List Nat) (rm : Bool) (hn : lo.length < W)
    (it : MultiArrayIter) :
    MultiArrayIter.build self lo hi rm = .ok it ↔ lo ≠ [] ∧ lo.length ≤ hi.length ∧ it = builtIter lo hi rm := by
  by_cases h0 : lo = []
  · subst h0; rw [build_nil]; simp
  · by_cases h : lo.length ≤ hi.length
    · rw [build_eq self lo hi rm h0 h hn]; simp [h0, h, eq_comm]
    · rw [build_short self lo hi rm (by omega)]; simp [h]

theorem getIndices_ok_pos (it : MultiArrayIter) (hd : it.dims.length = it.ndims) (hs : it.dimProd.length = it.ndims)
    (t : List Nat) (h : it.getIndices = .ok t) :
    (∀ d ∈ it.dims, 0 < d) ∧ (∀ s ∈ it.dimProd, 0 < s) := by
  have key : ∀ i (h1 : i < it.dims.length) (h2 : i < it.dimProd.length), it.dims[i] ≠ 0 ∧ it.dimProd[i] ≠ 0 := by
    intro i h1 h2
    obtain ⟨s, s', e⟩ := forUp_ok_body _ _ _ h i (Nat.zero_le _) (by omega)
    rw [rd_of_lt h1, rd_of_lt h2] at e
    simp only [M.ok_bind] at e
    constructor
    · intro h0
      rw [h0] at e
      cases e2 : szDiv it.bigIndex it.dimProd[i] with
      | error x => rw [e2] at e; cases e
      | ok q =>
        rw [e2] at e
        simp [szMod] at e
    · intro h0
      rw [h0] at e
      simp [szDiv] at e
  constructor
  · intro d hd'
    obtain ⟨i, hi, rfl⟩ := List.mem_iff_getElem.1 hd'
    exact Nat.pos_of_ne_zero (key i hi (by omega)).1
  · intro d hd'
    obtain ⟨i, hi, rfl⟩ := List.mem_iff_getElem.1 hd'
    exact Nat.pos_of_ne_zero (key i (by omega) hi).2

end Fidi
