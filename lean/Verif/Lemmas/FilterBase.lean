import Verif.Model.Filter
import Verif.Spec.Filter
import Verif.Lemmas.StdMap
import Verif.Lemmas.CubeDecompInv
import Verif.Lemmas.CubeDecompGeom

/-
Closed forms of the index methods of `Filter` and of its constructor.
-/
namespace Fidi
open Spec

theorem foldlM_inv {α σ : Type} (l : List α) (f : σ → α → M σ) (P : List α → σ → Prop) (s : σ) (h0 : P [] s)
    (hs : ∀ pre a s, a ∈ l → P pre s → ∃ s', f s a = .ok s' ∧ P (pre ++ [a]) s') :
    ∃ s', l.foldlM f s = .ok s' ∧ P l s' := by
  have key : ∀ (post pre : List α) (s : σ), (∀ a ∈ post, a ∈ l) → P pre s →
      ∃ s', post.foldlM f s = .ok s' ∧ P (pre ++ post) s' := by
    intro post
    induction post with
    | nil => intro pre s _ h; exact ⟨s, rfl, by simpa using h⟩
    | cons a post ih =>
      intro pre s hm h
      obtain ⟨s1, e1, h1⟩ := hs pre a s (hm a (by simp)) h
      obtain ⟨s2, e2, h2⟩ := ih (pre ++ [a]) s1 (fun b hb => hm b (by simp [hb])) h1
      refine ⟨s2, ?_, by simpa using h2⟩
      rw [List.foldlM_cons, e1, M.ok_bind, e2]
  simpa using key l [] s (fun _ h => h) h0

/-! Offsets. -/

/-- The components are in the range of `int`, without the least one. -/
def IntOffset (off : List Int) : Prop := ∀ o ∈ off, -(2 : Int) ^ 31 < o ∧ o < 2 ^ 31

theorem intAbs_ok {x : Int} (h1 : -(2 : Int) ^ 31 < x) (h2 : x < 2 ^ 31) : intAbs x = .ok (x.natAbs : Int) := by
  unfold intAbs inInt intLim
  rw [if_pos]; rfl
  simp only [Bool.and_eq_true, decide_eq_true_eq]
  omega

theorem tdiv_neg_abs {x : Int} (h : x ≠ 0) : Int.tdiv (-x) (x.natAbs : Int) = -x.sign := by
  rcases lt_or_gt_of_ne h with h1 | h1
  · have e : (x.natAbs : Int) = -x := by omega
    rw [e, Int.sign_eq_neg_one_of_neg h1, Int.tdiv_self (by omega)]; rfl
  · have e : (x.natAbs : Int) = x := by omega
    rw [e, Int.sign_eq_one_of_pos h1, Int.neg_tdiv, Int.tdiv_self (by omega)]

theorem mkInt_neg {x : Int} (h1 : -(2 : Int) ^ 31 < x) (h2 : x < 2 ^ 31) : mkInt (-x) = .ok (-x) :=
  mkInt_ok (by unfold intLim; omega) (by unfold intLim; omega)

theorem side_step {side : List Int} {i : Nat} {o : Int} (hs : i < side.length) (h1 : -(2 : Int) ^ 31 < o)
    (h2 : o < 2 ^ 31) :
    (do let side ← wr side i 0
        let o ← (pure o : M Int)
        if o ≠ 0 then do
          let neg ← mkInt (-o)
          wr side i (Int.tdiv neg (← intAbs o))
        else pure side) = .ok (side.set i (-o.sign)) := by
  rw [wr_of_lt hs, M.ok_bind, M.pure_eq, M.ok_bind]
  by_cases h : o = 0
  · rw [if_neg (by simpa using h), h]; rfl
  · rw [if_pos h, mkInt_neg h1 h2, M.ok_bind, intAbs_ok h1 h2, M.ok_bind, tdiv_neg_abs h,
      wr_of_lt (by simpa using hs), List.set_set]

theorem getSideFromOffset_eq {R : Type} (f : Filter R) (off : List Int) (hl : off.length = f.ndims) (hi : IntOffset off) :
    f.getSideFromOffset off = .ok (sideOf off) := by
  unfold Filter.getSideFromOffset
  rw [forUp_fill f.ndims _ (by simp) (fun i => -(off.getD i 0).sign)]
  · congr 1
    apply ext_of_getElem? (by simp [sideOf, hl])
    intro i h
    have : i < off.length := by simpa [sideOf] using h
    simp [sideOf, this, hl ▸ this]
  · intro i w h hw _
    have h1 : i < off.length := by omega
    have h2 := hi _ (List.getElem_mem h1)
    have := side_step (side := w) (i := i) (o := off[i]) (by omega) h2.1 h2.2
    rw [M.pure_eq, ← rd_of_lt h1] at this
    rw [this]
    simp [h1]

theorem szOfInt_natAbs {o : Int} (h1 : -(2 : Int) ^ 31 < o) (h2 : o < 2 ^ 31) : szOfInt (o.natAbs : Int) = o.natAbs :=
  szOfInt_ofNat (by unfold W; omega)

theorem getNumberOfGhostsFromOffset_eq (off : List Int) (hi : IntOffset off) :
    Filter.getNumberOfGhostsFromOffset off = .ok (ghostWidth off) := by
  unfold Filter.getNumberOfGhostsFromOffset
  obtain ⟨s, e, hs⟩ := forUp_inv (Nat.zero_le off.length)
    (fun i (m : Nat) => m = ghostWidth (off.take i))
    (fun i numGhosts => do
      let absOffset := szOfInt (← intAbs (← rd off i))
      pure (if absOffset > numGhosts then absOffset else numGhosts)) 0 (by simp [ghostWidth])
    (by
      intro i s _ h hs
      have h2 := hi _ (List.getElem_mem h)
      refine ⟨_, by rw [rd_of_lt h, M.ok_bind, intAbs_ok h2.1 h2.2, M.ok_bind, szOfInt_natAbs h2.1 h2.2]; rfl, ?_⟩
      unfold ghostWidth at hs ⊢
      rw [List.take_add_one, List.getElem?_eq_getElem h]
      simp only [Option.toList_some, List.foldl_append, List.foldl_cons, List.foldl_nil]
      rw [← hs]
      split <;> omega)
  rw [e, hs, List.take_length]

theorem getNumberOfNonZeroElements_eq (v : List Int) (hl : v.length < W) :
    Filter.getNumberOfNonZeroElements v = .ok (v.countP (· ≠ 0)) := by
  unfold Filter.getNumberOfNonZeroElements
  obtain ⟨s, e, hs⟩ := forUp_inv (Nat.zero_le v.length)
    (fun i (m : Nat) => m = (v.take i).countP (· ≠ 0))
    (fun i res => do pure (if (← rd v i) ≠ 0 then szAdd res 1 else res)) 0 (by simp)
    (by
      intro i s _ h hs
      refine ⟨_, by rw [rd_of_lt h]; rfl, ?_⟩
      rw [List.take_add_one, List.getElem?_eq_getElem h]
      simp only [Option.toList_some, List.countP_append, List.countP_cons, List.countP_nil]
      rw [← hs]
      have : s ≤ (v.take i).length := by rw [hs]; exact List.countP_le_length
      have h3 : s + 1 < W := by
        rw [List.length_take] at this; omega
      by_cases h0 : v[i] = 0
      · simp [h0]
      · simp [h0, szAdd_of_lt h3])
  rw [e, hs, List.take_length]

/-! Faces. -/

theorem length_faceLo : ∀ {lo hi : List Nat} {s : List Int} {m : Nat}, hi.length = lo.length → s.length = lo.length →
    (faceLo lo hi s m).length = lo.length
  | [], [], [], _, _, _ => rfl
  | _ :: lo, _ :: hi, _ :: s, m, h1, h2 => by
    simp [faceLo, length_faceLo (lo := lo) (hi := hi) (s := s) (m := m) (by simpa using h1) (by simpa using h2)]
  | [], _ :: _, _, _, h, _ => by simp at h
  | _ :: _, [], _, _, h, _ => by simp at h
  | [], [], _ :: _, _, _, h => by simp at h
  | _ :: _, _ :: _, [], _, _, h => by simp at h

theorem length_faceHi : ∀ {lo hi : List Nat} {s : List Int} {m : Nat}, hi.length = lo.length → s.length = lo.length →
    (faceHi lo hi s m).length = lo.length
  | [], [], [], _, _, _ => rfl
  | _ :: lo, _ :: hi, _ :: s, m, h1, h2 => by
    simp [faceHi, length_faceHi (lo := lo) (hi := hi) (s := s) (m := m) (by simpa using h1) (by simpa using h2)]
  | [], _ :: _, _, _, h, _ => by simp at h
  | _ :: _, [], _, _, h, _ => by simp at h
  | [], [], _ :: _, _, _, h => by simp at h
  | _ :: _, _ :: _, [], _, _, h => by simp at h

theorem getElem?_faceLo : ∀ {lo hi : List Nat} {s : List Int} {m : Nat} (i : Nat) (h1 : i < lo.length) (h2 : i < hi.length)
    (h3 : i < s.length), (faceLo lo hi s m)[i]? = some (if 0 < s[i] then hi[i] - m else lo[i])
  | _ :: lo, _ :: hi, _ :: s, m, 0, _, _, _ => rfl
  | _ :: lo, _ :: hi, _ :: s, m, i + 1, h1, h2, h3 => by
    simp only [faceLo, List.getElem?_cons_succ, List.getElem_cons_succ]
    exact getElem?_faceLo i (by simpa using h1) (by simpa using h2) (by simpa using h3)
  | [], _, _, _, _, h, _, _ => by simp at h
  | _ :: _, [], _, _, _, _, h, _ => by simp at h
  | _ :: _, _ :: _, [], _, _, _, _, h => by simp at h

theorem getElem?_faceHi : ∀ {lo hi : List Nat} {s : List Int} {m : Nat} (i : Nat) (h1 : i < lo.length) (h2 : i < hi.length)
    (h3 : i < s.length), (faceHi lo hi s m)[i]? = some (if s[i] < 0 then lo[i] + m else hi[i])
  | _ :: lo, _ :: hi, _ :: s, m, 0, _, _, _ => rfl
  | _ :: lo, _ :: hi, _ :: s, m, i + 1, h1, h2, h3 => by
    simp only [faceHi, List.getElem?_cons_succ, List.getElem_cons_succ]
    exact getElem?_faceHi i (by simpa using h1) (by simpa using h2) (by simpa using h3)
  | [], _, _, _, _, h, _, _ => by simp at h
  | _ :: _, [], _, _, _, _, h, _ => by simp at h
  | _ :: _, _ :: _, [], _, _, _, _, h => by simp at h

/-- The layers along the faces `s` fit: on an axis with a face they have between 1 and all cells of the box. -/
def FaceFits (lo hi : List Nat) (s : List Int) (m : Nat) : Prop :=
  s.length = lo.length ∧ ∀ i (h1 : i < lo.length) (h2 : i < hi.length) (h3 : i < s.length), s[i] ≠ 0 →
    1 ≤ m ∧ m ≤ hi[i] - lo[i]

theorem FaceFits.boxLt {lo hi : List Nat} {s : List Int} {m : Nat} (h : FaceFits lo hi s m) (hb : BoxLt lo hi) :
    BoxLt (faceLo lo hi s m) (faceHi lo hi s m) := by
  obtain ⟨hl, hf⟩ := h
  have he := hb.length_eq
  have h1 := length_faceLo (m := m) he.symm hl
  have h2 := length_faceHi (m := m) he.symm hl
  refine List.forall₂_iff_get.2 ⟨by omega, ?_⟩
  intro i a b
  have i1 : i < lo.length := by omega
  have i2 : i < hi.length := by omega
  have i3 : i < s.length := by omega
  have e1 := getElem?_faceLo (m := m) i i1 i2 i3
  have e2 := getElem?_faceHi (m := m) i i1 i2 i3
  rw [List.getElem?_eq_getElem a, Option.some_inj] at e1
  rw [List.getElem?_eq_getElem b, Option.some_inj] at e2
  have hlt : lo[i] < hi[i] := (List.forall₂_iff_get.1 hb).2 i i1 i2
  simp only [List.get_eq_getElem]
  rw [e1, e2]
  by_cases h0 : s[i] = 0
  · rw [h0]; simpa using hlt
  · have := hf i i1 i2 i3 h0
    split <;> split <;> omega

/-- The layers are part of the box. -/
theorem FaceFits.sub {lo hi t : List Nat} {s : List Int} {m : Nat} (h : FaceFits lo hi s m) (hb : BoxLt lo hi)
    (ht : InBox (faceLo lo hi s m) (faceHi lo hi s m) t) : InBox lo hi t := by
  obtain ⟨hl, hf⟩ := h
  have he := hb.length_eq
  have l1 := length_faceLo (m := m) he.symm hl
  have l2 := length_faceHi (m := m) he.symm hl
  rw [inBox_iff_getElem] at ht ⊢
  refine ⟨by omega, by omega, ?_⟩
  intro i i1 i2 i3
  have := ht.2.2 i (by omega) (by omega) i3
  have k3 : i < s.length := by omega
  have e1 := getElem?_faceLo (m := m) i i1 i2 k3
  have e2 := getElem?_faceHi (m := m) i i1 i2 k3
  rw [List.getElem?_eq_getElem (by omega), Option.some_inj] at e1 e2
  rw [e1, e2] at this
  by_cases h0 : s[i] = 0
  · simpa [h0] using this
  · have hm := hf i i1 i2 k3 h0
    split at this <;> split at this <;> omega

theorem FaceFits.hi_le {lo hi : List Nat} {s : List Int} {m b : Nat} (h : FaceFits lo hi s m) (hb : BoxLt lo hi)
    (hh : ∀ v ∈ hi, v ≤ b) : ∀ v ∈ faceHi lo hi s m, v ≤ b := by
  intro v hv
  obtain ⟨hl, hf⟩ := h
  have he := hb.length_eq
  have l2 := length_faceHi (m := m) he.symm hl
  obtain ⟨i, hi', rfl⟩ := List.mem_iff_getElem.1 hv
  have i1 : i < lo.length := by omega
  have i2 : i < hi.length := by omega
  have i3 : i < s.length := by omega
  have e2 := getElem?_faceHi (m := m) i i1 i2 i3
  rw [List.getElem?_eq_getElem hi', Option.some_inj] at e2
  rw [e2]
  have := hh _ (List.getElem_mem i2)
  have hlt : lo[i] < hi[i] := (List.forall₂_iff_get.1 hb).2 i i1 i2
  by_cases h0 : s[i] = 0
  · simpa [h0] using this
  · have hm := hf i i1 i2 i3 h0
    split <;> omega

theorem prod_le_prod_of {a b : List Nat} (h : List.Forall₂ (· ≤ ·) a b) : a.prod ≤ b.prod := by
  induction h with
  | nil => simp
  | cons h _ ih => rw [List.prod_cons, List.prod_cons]; exact Nat.mul_le_mul h ih

theorem FaceFits.volume_le {lo hi : List Nat} {s : List Int} {m : Nat} (h : FaceFits lo hi s m) (hb : BoxLt lo hi) :
    volume (faceLo lo hi s m) (faceHi lo hi s m) ≤ volume lo hi := by
  obtain ⟨hl, hf⟩ := h
  have he := hb.length_eq
  have l1 := length_faceLo (m := m) he.symm hl
  have l2 := length_faceHi (m := m) he.symm hl
  unfold volume
  apply prod_le_prod_of
  refine List.forall₂_iff_get.2 ⟨by simp [extents, l1, l2, he], ?_⟩
  intro i a b
  have i1 : i < lo.length := by simp [extents] at b; omega
  have i2 : i < hi.length := by omega
  have i3 : i < s.length := by omega
  have e1 := getElem?_faceLo (m := m) i i1 i2 i3
  have e2 := getElem?_faceHi (m := m) i i1 i2 i3
  rw [List.getElem?_eq_getElem (by omega), Option.some_inj] at e1 e2
  simp only [List.get_eq_getElem, extents, List.getElem_zipWith]
  rw [e1, e2]
  have hlt : lo[i] < hi[i] := (List.forall₂_iff_get.1 hb).2 i i1 i2
  by_cases h0 : s[i] = 0
  · simp [h0]
  · have hm := hf i i1 i2 i3 h0
    split <;> split <;> omega

/-- The loop of `getWindowIter`. -/
theorem windowBody_loop {lo hi : List Nat} {s : List Int} {m n : Nat} (hn : lo.length = n) (hb : BoxLt lo hi)
    (hW : ∀ v ∈ hi, v < W) (h : FaceFits lo hi s m) :
    forUp 0 n (lo, hi) (Filter.windowBody s m) = .ok (faceLo lo hi s m, faceHi lo hi s m) := by
  have he := hb.length_eq
  have hl := h.1
  have l1 := length_faceLo (m := m) he.symm hl
  have l2 := length_faceHi (m := m) he.symm hl
  obtain ⟨⟨a, b⟩, e, ha, hb', hp⟩ := forUp_inv (Nat.zero_le n)
    (fun i (p : List Nat × List Nat) => p.1.length = n ∧ p.2.length = n ∧
      ∀ j, p.1[j]? = (if j < i then (faceLo lo hi s m)[j]? else lo[j]?) ∧
        p.2[j]? = (if j < i then (faceHi lo hi s m)[j]? else hi[j]?))
    (Filter.windowBody s m) (lo, hi) ⟨hn, by simp; omega, by simp⟩
    (by
      rintro i ⟨p, q⟩ _ hi' ⟨h1, h2, h3⟩
      have i1 : i < lo.length := by omega
      have i2 : i < hi.length := by omega
      have i3 : i < s.length := by omega
      have e1 := getElem?_faceLo (m := m) i i1 i2 i3
      have e2 := getElem?_faceHi (m := m) i i1 i2 i3
      have hlt : lo[i] < hi[i] := (List.forall₂_iff_get.1 hb).2 i i1 i2
      have hw := hW _ (List.getElem_mem i2)
      have p1 : p[i]? = some lo[i] := by rw [(h3 i).1]; simp [i1]
      have q1 : q[i]? = some hi[i] := by rw [(h3 i).2]; simp [i2]
      simp only at h1 h2
      unfold Filter.windowBody
      rw [rd_of_lt i3]
      simp only [M.ok_bind]
      by_cases h0 : s[i] = 0
      · rw [if_neg (by simpa using h0)]
        refine ⟨_, rfl, h1, h2, ?_⟩
        intro j
        rcases lt_trichotomy j i with hj | hj | hj
        · have := h3 j; simp only [if_pos hj] at this
          simp only [if_pos (by omega : j < i + 1)]; exact this
        · subst hj
          simp only [if_pos (by omega : j < j + 1), e1, e2, p1, q1, h0]; simp
        · have := h3 j; simp only [if_neg (by omega : ¬ j < i)] at this
          simp only [if_neg (by omega : ¬ j < i + 1)]; exact this
      · rw [if_pos h0]
        have hm := h.2 i i1 i2 i3 h0
        by_cases hneg : s[i] < 0
        · rw [if_pos hneg, rd_of_some p1]
          simp only [M.ok_bind]
          rw [wr_of_lt (by omega), szAdd_of_lt (by omega)]
          simp only [M.ok_bind]
          refine ⟨_, rfl, h1, by simpa using h2, ?_⟩
          intro j
          rcases lt_trichotomy j i with hj | hj | hj
          · have := h3 j; simp only [if_pos hj] at this
            simp only [if_pos (by omega : j < i + 1), List.getElem?_set_ne (by omega : i ≠ j)]; exact this
          · subst hj
            simp only [if_pos (by omega : j < j + 1), e1, e2, p1]
            rw [List.getElem?_set_self (by omega), if_pos hneg, if_neg (by omega)]; exact ⟨rfl, rfl⟩
          · have := h3 j; simp only [if_neg (by omega : ¬ j < i)] at this
            simp only [if_neg (by omega : ¬ j < i + 1), List.getElem?_set_ne (by omega : i ≠ j)]; exact this
        · rw [if_neg hneg, rd_of_some q1]
          simp only [M.ok_bind]
          rw [wr_of_lt (by omega), szSub_of_le (by omega) (by omega)]
          simp only [M.ok_bind]
          refine ⟨_, rfl, by simpa using h1, h2, ?_⟩
          intro j
          rcases lt_trichotomy j i with hj | hj | hj
          · have := h3 j; simp only [if_pos hj] at this
            simp only [if_pos (by omega : j < i + 1), List.getElem?_set_ne (by omega : i ≠ j)]; exact this
          · subst hj
            simp only [if_pos (by omega : j < j + 1), e1, e2, q1]
            rw [List.getElem?_set_self (by omega), if_pos (by omega), if_neg hneg]; exact ⟨rfl, rfl⟩
          · have := h3 j; simp only [if_neg (by omega : ¬ j < i)] at this
            simp only [if_neg (by omega : ¬ j < i + 1), List.getElem?_set_ne (by omega : i ≠ j)]; exact this)
  rw [e]
  simp only at ha hb'
  have : a = faceLo lo hi s m := by
    apply ext_of_getElem? (by omega)
    intro i hi'
    rw [(hp i).1, if_pos (by omega)]
  have h2 : b = faceHi lo hi s m := by
    apply ext_of_getElem? (by omega)
    intro i hi'
    rw [(hp i).2, if_pos (by omega)]
  rw [this, h2]

end Fidi
