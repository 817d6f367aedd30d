import Verif.Model.CubeDecomp
import Verif.Spec.Decomp
import Verif.Lemmas.MultiArrayIter
import Mathlib.Data.Nat.ModEq
import Mathlib.Data.Int.ModEq

/-
Closed forms of the `CubeDecomp` methods.
-/
namespace Fidi
open Spec

/-- The list computed by `getPrimeFactors`. -/
def divs (n : Nat) : List Nat := 1 :: (List.range' 2 (n / 2 - 1)).filter (fun k => n / k * k = n) ++ [n]

theorem getPrimeFactors_eq {n : Nat} (hn : n < W) : CubeDecomp.getPrimeFactors n = .ok (divs n) := by
  unfold CubeDecomp.getPrimeFactors
  by_cases h2 : n / 2 + 1 < 2
  · rw [forUp_of_ge (by omega)]
    have : n / 2 - 1 = 0 := by omega
    simp [divs, this]
  · obtain ⟨s, e, hs⟩ := forUp_inv (a := 2) (b := n / 2 + 1) (by omega)
      (fun i (s : List Nat) => s = 1 :: (List.range' 2 (i - 2)).filter (fun k => n / k * k = n))
      (fun k res => do
        let q ← szDiv n k
        pure (if szMul q k = n then res ++ [k] else res)) [1] (by simp)
      (by
        intro i s h1 h2 hs
        refine ⟨_, by rw [szDiv_of_pos (by omega)]; rfl, ?_⟩
        have hle : n / i * i ≤ n := Nat.div_mul_le_self n i
        rw [szMul_of_lt (by omega)]
        have e1 : i + 1 - 2 = (i - 2) + 1 := by omega
        rw [hs, e1, List.range'_concat, List.filter_append]
        have e2 : 2 + 1 * (i - 2) = i := by omega
        rw [e2]
        by_cases hd : n / i * i = n
        · simp [hd]
        · simp [hd])
    rw [e, hs]
    simp [divs]

theorem mem_divs {n : Nat} (hn : 0 < n) (k : Nat) : k ∈ divs n ↔ k ∣ n := by
  unfold divs
  simp only [List.cons_append, List.mem_cons, List.mem_append, List.mem_filter, List.mem_range'_1,
    decide_eq_true_eq, List.not_mem_nil, or_false]
  constructor
  · rintro (rfl | ⟨_, h⟩ | rfl)
    · exact one_dvd _
    · exact ⟨n / k, by rw [Nat.mul_comm]; exact h.symm⟩
    · exact dvd_refl _
  · intro h
    obtain ⟨c, rfl⟩ := h
    have hk : 0 < k := Nat.pos_of_mul_pos_right hn
    have hc : 0 < c := Nat.pos_of_mul_pos_left hn
    by_cases h1 : k = 1
    · exact Or.inl h1
    by_cases h2 : c = 1
    · right; right; rw [h2, Nat.mul_one]
    · right; left
      have : 2 ≤ c := by omega
      have h3 : k * 2 ≤ k * c := Nat.mul_le_mul_left _ this
      refine ⟨⟨by omega, by omega⟩, ?_⟩
      rw [Nat.mul_div_cancel_left _ hk, Nat.mul_comm]

theorem length_divs_le {n : Nat} (hn : 0 < n) : (divs n).length ≤ 2 * n := by
  unfold divs
  have := List.length_filter_le (fun k => decide (n / k * k = n)) (List.range' 2 (n / 2 - 1))
  rw [List.length_range'] at this
  simp only [List.cons_append, List.length_cons, List.length_append, List.length_nil]
  omega

theorem length_divs_pos (n : Nat) : 0 < (divs n).length := by
  unfold divs; simp

theorem divs_sorted (n : Nat) (hn : 0 < n) : (divs n).Pairwise (· ≤ ·) := by
  unfold divs
  rw [List.cons_append, List.pairwise_cons]
  constructor
  · intro a ha
    rw [List.mem_append, List.mem_filter, List.mem_range'_1] at ha
    rcases ha with ⟨h, _⟩ | h
    · omega
    · simp at h; omega
  · rw [List.pairwise_append]
    refine ⟨(List.pairwise_le_range' (s := 2) (n := n / 2 - 1)).filter _, by simp, ?_⟩
    intro a ha b hb
    rw [List.mem_filter, List.mem_range'_1] at ha
    simp at hb
    subst hb
    omega

/-! The truncated product. -/

theorem bmod_congr {a b : Int} {n : Nat} (h : a % (n : Int) = b % (n : Int)) : Int.bmod a n = Int.bmod b n := by
  rw [← Int.emod_bmod a, h, Int.emod_bmod]

theorem bmod_modEq (x : Int) : Int.bmod x W32 ≡ x [ZMOD (W32 : Int)] := by
  unfold Int.ModEq
  exact Int.bmod_emod

theorem intOfSz_szMul (acc : Int) (x : Nat) : intOfSz (szMul (szOfInt acc) x) = Int.bmod (acc * x) W32 := by
  unfold intOfSz
  apply bmod_congr
  have hd : (W32 : Int) ∣ (W : Int) := by decide
  unfold szMul szOfInt
  rw [Int.natCast_mod, Int.emod_emod_of_dvd _ hd, Nat.cast_mul,
    Int.toNat_of_nonneg (Int.emod_nonneg _ (by decide))]
  rw [Int.mul_emod, Int.emod_emod_of_dvd _ hd, ← Int.mul_emod]

theorem accumulateInt_eq (d : List Nat) : CubeDecomp.accumulateInt d = Int.bmod (d.prod : Nat) W32 := by
  unfold CubeDecomp.accumulateInt
  have key : ∀ (d : List Nat) (acc : Int) (p : Nat), acc ≡ (p : Int) [ZMOD (W32 : Int)] → Int.bmod acc W32 = acc →
      d.foldl (fun acc x => intOfSz (szMul (szOfInt acc) x)) acc = Int.bmod ((p * d.prod : Nat) : Int) W32 := by
    intro d
    induction d with
    | nil =>
      intro acc p h1 h2
      simp only [List.foldl_nil, List.prod_nil, Nat.mul_one]
      rw [← h2]
      exact bmod_congr h1
    | cons x d ih =>
      intro acc p h1 h2
      rw [List.foldl_cons, List.prod_cons, ← Nat.mul_assoc]
      apply ih
      · rw [intOfSz_szMul]
        refine (bmod_modEq _).trans ?_
        rw [Nat.cast_mul]
        exact h1.mul_right _
      · rw [intOfSz_szMul, Int.bmod_bmod]
  have := key d 1 1 (Int.ModEq.refl _) (by decide)
  rwa [Nat.one_mul] at this

/-- The acceptance test of the enumeration. -/
def accepts (nprocs : Int) (d : List Nat) : Bool := szOfInt (CubeDecomp.accumulateInt d) = szOfInt nprocs

theorem accepts_iff {nprocs : Int} {d : List Nat} (h1 : 1 ≤ nprocs) (h2 : nprocs < 2 ^ 31) (hd : d.prod ≤ 2 ^ 32) :
    accepts nprocs d = true ↔ (d.prod : Int) = nprocs := by
  unfold accepts
  rw [accumulateInt_eq, decide_eq_true_iff]
  generalize d.prod = p at *
  unfold szOfInt W W32
  rw [Int.bmod_def]
  constructor
  · intro h; split at h <;> omega
  · rintro rfl; split <;> omega

/-! The enumeration. -/

/-- Table look-up done by the enumeration. -/
def pick (pn : List (List Nat)) (t : List Nat) : List Nat := List.zipWith (fun l i => l.getD i 0) pn t

/-- All the tuples in the order of the enumeration. -/
def enumTuples (pn : List (List Nat)) : List (List Nat) :=
  (List.range (pn.map List.length).prod).map fun k =>
    pick pn (tupleAt false (List.replicate pn.length 0) (pn.map List.length) k)

theorem replicate_boxLt {ns : List Nat} (h : ∀ n ∈ ns, 0 < n) : BoxLt (List.replicate ns.length 0) ns := by
  induction ns with
  | nil => exact .nil
  | cons n ns ih =>
    exact .cons (h n (by simp)) (ih fun m hm => h m (by simp [hm]))

theorem extents_zero (ns : List Nat) : extents (List.replicate ns.length 0) ns = ns := by
  induction ns with
  | nil => rfl
  | cons n ns ih => simp [extents, List.replicate_succ] at ih ⊢; exact ih

theorem volume_zero (ns : List Nat) : volume (List.replicate ns.length 0) ns = ns.prod := by
  unfold volume; rw [extents_zero]

theorem inBox_zero : ∀ {ns t : List Nat}, InBox (List.replicate ns.length 0) ns t ↔ InGrid ns t
  | [], [] => Iff.rfl
  | n :: ns, x :: t => by simp [List.replicate_succ, InBox, InGrid, inBox_zero (ns := ns) (t := t)]
  | [], _ :: _ => Iff.rfl
  | _ :: _, [] => Iff.rfl

theorem tupleAt_zero (rm : Bool) (ns : List Nat) (k : Nat) :
    tupleAt rm (List.replicate ns.length 0) ns k = digitsOf (strides rm ns) ns k := by
  unfold tupleAt
  rw [extents_zero]
  have : (digitsOf (strides rm ns) ns k).length = ns.length := by simp [digitsOf]
  generalize digitsOf (strides rm ns) ns k = l at *
  clear k
  induction ns generalizing l with
  | nil => cases l <;> simp_all
  | cons n ns ih => cases l with
    | nil => simp at this
    | cons a l => simp only [List.length_cons, List.replicate_succ, List.zipWith_cons_cons, Nat.zero_add]
                  rw [ih l (by simpa using this)]

theorem flatOf_zero (rm : Bool) (ns t : List Nat) (h : t.length = ns.length) :
    flatOf rm (List.replicate ns.length 0) ns t = dot (strides rm ns) t := by
  unfold flatOf
  rw [extents_zero]
  congr 1
  clear rm
  induction ns generalizing t with
  | nil => cases t <;> simp_all
  | cons n ns ih => cases t with
    | nil => simp at h
    | cons a l => simp only [List.length_cons, List.replicate_succ, List.zipWith_cons_cons, Nat.sub_zero]
                  rw [ih l (by simpa using h)]

theorem pick_loop (n : Nat) (pn : List (List Nat)) (t : List Nat) (hl : pn.length = n)
    (ht : InGrid (pn.map List.length) t) :
    (forUp 0 n (List.replicate n 0) fun j decomp => do
      wr decomp j (← rd (← rd pn j) (← rd t j))) = .ok (pick pn t) := by
  obtain ⟨ht1, ht2⟩ := inGrid_iff_getElem.1 ht
  rw [List.length_map] at ht1
  rw [forUp_fill n _ (by simp) (fun j => (pn.getD j []).getD (t.getD j 0) 0)]
  · congr 1
    apply ext_of_getElem? (by simp [pick, ht1, hl])
    intro i hi
    have hi' : i < n := by simp [pick, ht1, hl] at hi; exact hi
    have a : i < pn.length := by omega
    have b : i < t.length := by omega
    simp [pick, hi', a, b]
  · intro j v hj hv _
    have a : j < pn.length := by omega
    have b : j < t.length := by omega
    have c : t[j] < pn[j].length := by
      have := ht2 j (by simpa using a) b
      simpa using this
    rw [rd_of_lt a, rd_of_lt b]
    simp only [M.ok_bind]
    rw [rd_of_lt c]
    simp only [M.ok_bind]
    rw [wr_of_lt (by omega)]
    simp [a, b, c]

theorem gatherValid_eq (self : CubeDecomp) (pn : List (List Nat)) (hl : pn.length = self.ndims)
    (hne : ∀ l ∈ pn, 0 < l.length) (hW : (pn.map List.length).prod < W) :
    self.gatherValid pn (builtIter (List.replicate pn.length 0) (pn.map List.length) false) =
      .ok ((enumTuples pn).filter (accepts self.nprocs)) := by
  have hpos : ∀ n ∈ pn.map List.length, 0 < n := by simpa using hne
  have hb : BoxLt (List.replicate pn.length 0) (pn.map List.length) := by
    have := replicate_boxLt hpos
    rwa [List.length_map] at this
  have hvol : volume (List.replicate pn.length 0) (pn.map List.length) = (pn.map List.length).prod := by
    have := volume_zero (pn.map List.length)
    rwa [List.length_map] at this
  have hv : volume (List.replicate pn.length 0) (pn.map List.length) < W := by rw [hvol]; exact hW
  have hs : ∀ h ∈ pn.map List.length, h < W := fun h hh => Nat.lt_of_le_of_lt (mem_le_prod hpos hh) hW
  unfold CubeDecomp.gatherValid
  have hnt : (builtIter (List.replicate pn.length 0) (pn.map List.length) false).getNumberOfTerms =
      (pn.map List.length).prod := by
    rw [builtIter_eq false hb hv]; exact hvol
  rw [hnt]
  obtain ⟨s, e, h1, h2⟩ := forUp_inv (Nat.zero_le (pn.map List.length).prod)
    (fun i (s : MultiArrayIter × List (List Nat)) =>
      s.1 = { builtIter (List.replicate pn.length 0) (pn.map List.length) false with bigIndex := i } ∧
      s.2 = ((List.range i).map fun k =>
        pick pn (tupleAt false (List.replicate pn.length 0) (pn.map List.length) k)).filter (accepts self.nprocs))
    (fun _ (it, valid) => do
      let decompInds ← it.getIndices
      let decomp ← forUp 0 self.ndims (List.replicate self.ndims 0) fun j decomp => do
        wr decomp j (← rd (← rd pn j) (← rd decompInds j))
      let n := szOfInt (CubeDecomp.accumulateInt decomp)
      let valid := if n = szOfInt self.nprocs then valid ++ [decomp] else valid
      pure (it.next, valid))
    (builtIter (List.replicate pn.length 0) (pn.map List.length) false, []) ⟨rfl, by simp⟩
    (by
      rintro i ⟨it, valid⟩ _ hi ⟨hit, hval⟩
      simp only at hit hval
      subst hit
      have hbox := tupleAt_inBox false hb i
      have hgrid : InGrid (pn.map List.length)
          (tupleAt false (List.replicate pn.length 0) (pn.map List.length) i) := by
        apply inBox_zero.1
        rw [List.length_map]; exact hbox
      simp only
      rw [getIndices_built false hb hv hs]
      simp only [M.ok_bind]
      rw [pick_loop self.ndims pn _ hl hgrid]
      simp only [M.ok_bind, M.pure_eq]
      refine ⟨_, rfl, ?_, ?_⟩
      · simp only [MultiArrayIter.next]
        rw [szAdd_of_lt (by omega)]
      · simp only
        rw [List.range_succ, List.map_append, List.filter_append, hval]
        by_cases hacc : szOfInt (CubeDecomp.accumulateInt
            (pick pn (tupleAt false (List.replicate pn.length 0) (pn.map List.length) i))) = szOfInt self.nprocs
        · simp [hacc, accepts]
        · simp [hacc, accepts])
  rw [e]
  simp only [M.ok_bind, M.pure_eq]
  rw [h2]; rfl

theorem mem_enumTuples (pn : List (List Nat)) (hne : ∀ l ∈ pn, 0 < l.length) (d : List Nat) :
    d ∈ enumTuples pn ↔ List.Forall₂ (fun l k => k ∈ l) pn d := by
  have hpos : ∀ n ∈ pn.map List.length, 0 < n := by simpa using hne
  have hb : BoxLt (List.replicate pn.length 0) (pn.map List.length) := by
    have := replicate_boxLt hpos
    rwa [List.length_map] at this
  have hbox : ∀ t, InBox (List.replicate pn.length 0) (pn.map List.length) t ↔ InGrid (pn.map List.length) t := by
    intro t
    have := inBox_zero (ns := pn.map List.length) (t := t)
    rwa [List.length_map] at this
  unfold enumTuples
  simp only [List.mem_map, List.mem_range]
  constructor
  · rintro ⟨k, hk, rfl⟩
    clear hk
    have hg := (hbox _).1 (tupleAt_inBox false hb k)
    generalize tupleAt false (List.replicate pn.length 0) (pn.map List.length) k = t at hg
    clear hbox hb hpos hne
    induction pn generalizing t with
    | nil => cases t with
      | nil => exact .nil
      | cons => exact hg.elim
    | cons l pn ih => cases t with
      | nil => exact hg.elim
      | cons x t =>
        refine .cons ?_ (ih t hg.2)
        have hx : x < l.length := hg.1
        simp [hx]
  · intro h
    have : ∃ t, InGrid (pn.map List.length) t ∧ pick pn t = d := by
      clear hbox hb hpos hne
      induction h with
      | nil => exact ⟨[], trivial, rfl⟩
      | cons h _ ih =>
        obtain ⟨t, h1, h2⟩ := ih
        obtain ⟨i, hi, hx⟩ := List.mem_iff_getElem.1 h
        refine ⟨i :: t, ⟨hi, h1⟩, ?_⟩
        simp only [pick, List.zipWith_cons_cons] at h2 ⊢
        rw [h2]
        simp [hi, hx]
    obtain ⟨t, h1, h2⟩ := this
    have h3 := (hbox t).2 h1
    refine ⟨flatOf false (List.replicate pn.length 0) (pn.map List.length) t, ?_, ?_⟩
    · have := flatOf_lt false h3
      have hv := volume_zero (pn.map List.length)
      rw [List.length_map] at hv
      rwa [hv] at this
    · rw [tupleAt_flatOf false h3]; exact h2

/-! The selection. -/

section Select
variable {R : Type} [Div R] [NatCast R] [LT R] [DecidableLT R] [HasMax R]

/-- Wrapped surface of the local box, as computed. -/
def surfW (L : List Nat) : Nat := ((List.range L.length).map fun i => (L.eraseIdx i).prod % W).sum % W

/-- Cost as computed. -/
def costW (R : Type) [Div R] [NatCast R] (dims d : List Nat) : R :=
  ((surfW (localExtents dims d) : Nat) : R) / (((localExtents dims d).prod % W : Nat) : R)

omit [LT R] [DecidableLT R] [HasMax R] in
theorem area_loop (L : List Nat) (i : Nat) (hi : i < L.length) :
    (forUp 0 L.length 1 fun j area => do
      if j ≠ i then pure (szMul area (← rd L j)) else pure area) = .ok ((L.eraseIdx i).prod % W) := by
  obtain ⟨s, e, hs⟩ := forUp_inv (Nat.zero_le L.length)
    (fun m (s : Nat) => s = ((L.take m).eraseIdx i).prod % W)
    (fun j area => do if j ≠ i then pure (szMul area (← rd L j)) else pure area) 1 (by simp [W])
    (by
      intro m s _ hm hs
      have htl : (L.take m).length = m := by simp; omega
      rw [rd_of_lt hm]
      by_cases hmi : m = i
      · subst hmi
        refine ⟨s, by simp, ?_⟩
        rw [hs, ← List.take_append_getElem hm]
        rw [List.eraseIdx_append_of_length_le (by omega), htl]
        simp only [Nat.sub_self, List.eraseIdx_zero, List.tail_cons, List.append_nil]
        rw [List.eraseIdx_of_length_le (by omega)]
      · refine ⟨szMul s L[m], by simp [hmi], ?_⟩
        rw [hs, szMul_mod_left, ← List.take_append_getElem hm]
        by_cases hlt : i < m
        · rw [List.eraseIdx_append_of_lt_length (by omega), List.prod_append]; simp
        · rw [List.eraseIdx_append_of_length_le (by omega), htl,
            List.eraseIdx_of_length_le (by omega), List.eraseIdx_of_length_le (by simp; omega), List.prod_append]
          simp)
  rw [e, hs, List.take_length]

omit [LT R] [DecidableLT R] [HasMax R] in
theorem local_loop (dims d init : List Nat) (hlen : d.length = dims.length) (hi : init.length = dims.length)
    (hpos : ∀ k ∈ d, 0 < k) :
    (forUp 0 dims.length init fun i ld => do
      wr ld i (← szDiv (← rd dims i) (← rd d i))) = .ok (localExtents dims d) := by
  rw [forUp_fill dims.length _ hi (fun i => (dims.getD i 0) / (d.getD i 0))]
  · congr 1
    apply ext_of_getElem? (by simp [localExtents, hlen])
    intro i hi
    have a : i < dims.length := by simp [localExtents, hlen] at hi; exact hi
    have b : i < d.length := by omega
    simp [localExtents, a, b]
  · intro i v h1 h2 _
    have b : i < d.length := by omega
    rw [rd_of_lt h1, rd_of_lt b]
    simp only [M.ok_bind]
    rw [szDiv_of_pos (hpos _ (List.getElem_mem _))]
    simp only [M.ok_bind]
    rw [wr_of_lt (by omega)]
    simp [h1, b]

omit [LT R] [DecidableLT R] [HasMax R] in
theorem computeCost_eq (self : CubeDecomp) (d : List Nat) (hn : self.ndims = self.dims.length)
    (hlen : d.length = self.dims.length) (hpos : ∀ k ∈ d, 0 < k) :
    (self.computeCost d : M R) = .ok (costW R self.dims d) := by
  unfold CubeDecomp.computeCost
  rw [hn, local_loop self.dims d _ hlen (by simp) hpos]
  simp only [M.ok_bind]
  have hL : (localExtents self.dims d).length = self.dims.length := by simp [localExtents, hlen]
  rw [← hL]
  generalize hLd : localExtents self.dims d = L at *
  obtain ⟨s, e, h1, h2⟩ := forUp_inv (Nat.zero_le L.length)
    (fun i (s : Nat × Nat) => s.1 = (L.take i).prod % W ∧
      s.2 = ((List.range i).map fun i => (L.eraseIdx i).prod % W).sum % W)
    (fun i (volume, surface) => do
      let volume := szMul volume (← rd L i)
      let area ← forUp 0 L.length 1 fun j area => do
        if j ≠ i then pure (szMul area (← rd L j)) else pure area
      pure (volume, szAdd surface area)) (1, 0) ⟨by simp [W], by simp⟩
    (by
      rintro i ⟨v, sf⟩ _ hi ⟨h1, h2⟩
      simp only at h1 h2 ⊢
      rw [rd_of_lt hi]
      simp only [M.ok_bind]
      rw [area_loop L i hi]
      simp only [M.ok_bind, M.pure_eq]
      refine ⟨_, rfl, ?_, ?_⟩
      · simp only
        rw [h1, szMul_mod_left, List.prod_take_succ _ _ hi]
      · simp only
        rw [h2, List.range_succ, List.map_append, List.sum_append]
        simp only [szAdd, List.map_cons, List.map_nil, List.sum_cons, List.sum_nil, Nat.add_zero]
        rw [Nat.mod_add_mod])
  rw [e]
  simp only [M.ok_bind, M.pure_eq]
  rw [h1, h2, List.take_length]
  unfold costW surfW
  rw [hLd]

/-- One step of the selection. -/
def bestStep (cost : List Nat → R) (s : R × List Nat) (d : List Nat) : R × List Nat :=
  if cost d < s.1 then (cost d, d) else s

/-- The selection as a pure function. -/
def bestOf (cost : List Nat → R) : List (List Nat) → List Nat
  | [] => []
  | v :: vs => (vs.foldl (bestStep cost) (HasMax.dblMax, v)).2

theorem selectBest_eq (self : CubeDecomp) (valid : List (List Nat)) (hn : self.ndims = self.dims.length)
    (hne : valid ≠ []) (hv : ∀ d ∈ valid, d.length = self.dims.length ∧ ∀ k ∈ d, 0 < k) :
    CubeDecomp.selectBest R self valid = .ok (bestOf (costW R self.dims) valid) := by
  cases valid with
  | nil => exact absurd rfl hne
  | cons v vs =>
    unfold CubeDecomp.selectBest
    rw [rd_of_lt (by simp)]
    simp only [M.ok_bind, List.getElem_cons_zero]
    obtain ⟨s, e, hs⟩ := forUp_inv (a := 1) (b := (v :: vs).length) (by simp)
      (fun i (s : R × List Nat) =>
        s = ((vs.take (i - 1)).foldl (bestStep (costW R self.dims)) ((HasMax.dblMax : R), v)))
      (fun i (minCost, best) => do
        let d ← rd (v :: vs) i
        let cost : R ← self.computeCost d
        pure (if cost < minCost then (cost, d) else (minCost, best)))
      ((HasMax.dblMax : R), v) (by simp)
      (by
        rintro i ⟨mc, b⟩ h1 h2 hs
        obtain ⟨i, rfl⟩ : ∃ k, i = k + 1 := ⟨i - 1, by omega⟩
        have h3 : i < vs.length := by simpa using h2
        simp only
        rw [rd_of_lt h2]
        simp only [M.ok_bind, List.getElem_cons_succ]
        obtain ⟨ha, hb⟩ := hv vs[i] (by simp)
        rw [computeCost_eq self vs[i] hn ha hb]
        simp only [M.ok_bind, M.pure_eq]
        refine ⟨_, rfl, ?_⟩
        simp only [Nat.add_sub_cancel] at hs ⊢
        rw [← List.take_append_getElem h3, List.foldl_append, ← hs]
        simp [bestStep])
    rw [e]
    simp only [M.ok_bind, M.pure_eq]
    rw [hs]
    simp [bestOf]

omit [Div R] [NatCast R] in
theorem bestOf_mem (cost : List Nat → R) (valid : List (List Nat)) (hne : valid ≠ []) :
    bestOf cost valid ∈ valid := by
  cases valid with
  | nil => exact absurd rfl hne
  | cons v vs =>
    show (vs.foldl (bestStep cost) (HasMax.dblMax, v)).2 ∈ v :: vs
    have : ∀ (l : List (List Nat)) (s : R × List Nat), (l.foldl (bestStep cost) s).2 = s.2 ∨
        (l.foldl (bestStep cost) s).2 ∈ l := by
      intro l
      induction l with
      | nil => intro s; left; rfl
      | cons a l ih =>
        intro s
        rw [List.foldl_cons]
        rcases ih (bestStep cost s a) with h | h
        · rw [h]
          unfold bestStep
          split
          · right; simp
          · left; rfl
        · right; simp [h]
    rcases this vs (HasMax.dblMax, v) with h | h
    · rw [h]; simp
    · simp [h]

/-! `build` as a whole. -/

/-- The accepted tuples in the order of the enumeration. -/
def validList (nprocs : Int) (dims : List Nat) : List (List Nat) :=
  (enumTuples (dims.map divs)).filter (accepts nprocs)

/-- The object after a successful `build`. -/
def builtDecomp (nprocs : Int) (dims d : List Nat) : CubeDecomp :=
  { nprocs, ndims := dims.length, decomp := d, dims, localDims := localExtents dims d,
    mit := some (builtIter (List.replicate dims.length 0) d true) }

/-- Size hypotheses under which the enumeration neither wraps nor reads out of bounds. -/
structure EnumOK (dims : List Nat) : Prop where
  ne : dims ≠ []
  pos : ∀ n ∈ dims, 0 < n
  lt : ∀ n ∈ dims, n < W
  len : dims.length < W
  cnt : ((dims.map divs).map List.length).prod < W

omit [Div R] [NatCast R] [LT R] [DecidableLT R] [HasMax R] in
theorem prime_loop (dims : List Nat) (hlt : ∀ n ∈ dims, n < W) :
    (forUp 0 dims.length [] fun i pn => do
      pure (pn ++ [← CubeDecomp.getPrimeFactors (← rd dims i)])) = .ok (dims.map divs) := by
  obtain ⟨s, e, hs⟩ := forUp_inv (Nat.zero_le dims.length)
    (fun i (s : List (List Nat)) => s = (dims.take i).map divs)
    (fun i pn => do pure (pn ++ [← CubeDecomp.getPrimeFactors (← rd dims i)])) [] (by simp)
    (by
      intro i s _ hi hs
      rw [rd_of_lt hi]
      simp only [M.ok_bind]
      rw [getPrimeFactors_eq (hlt _ (List.getElem_mem _))]
      refine ⟨_, rfl, ?_⟩
      rw [hs, ← List.take_append_getElem hi, List.map_append]; rfl)
  rw [e, hs, List.take_length]

omit [Div R] [NatCast R] [LT R] [DecidableLT R] [HasMax R] in
theorem ns_loop (pn : List (List Nat)) (n : Nat) (h : pn.length = n) :
    (forUp 0 n (List.replicate n 0) fun i ns => do
      wr ns i (← rd pn i).length) = .ok (pn.map List.length) := by
  rw [forUp_fill n _ (by simp) (fun i => (pn.getD i []).length)]
  · congr 1
    apply ext_of_getElem? (by simp [h])
    intro i hi
    have hi' : i < pn.length := by simpa using hi
    simp [hi', h ▸ hi']
  · intro i v h1 h2 _
    have a : i < pn.length := by omega
    rw [rd_of_lt a]
    simp only [M.ok_bind]
    rw [wr_of_lt (by omega)]
    simp [a]

omit [Div R] [NatCast R] [LT R] [DecidableLT R] [HasMax R] in
theorem mem_validList {dims : List Nat} (h : EnumOK dims) (nprocs : Int) (d : List Nat) :
    d ∈ validList nprocs dims ↔ List.Forall₂ (fun n k => k ∣ n) dims d ∧ accepts nprocs d = true := by
  unfold validList
  rw [List.mem_filter, mem_enumTuples _ (by
    intro l hl
    obtain ⟨n, _, rfl⟩ := List.mem_map.1 hl
    exact length_divs_pos n)]
  apply and_congr_left
  intro hacc
  clear hacc
  rw [List.forall₂_map_left_iff]
  have hp := h.pos
  clear h
  induction dims generalizing d with
  | nil => simp
  | cons n dims ih =>
    cases d with
    | nil => simp
    | cons k d =>
      have := ih d (fun m hm => hp m (List.mem_cons_of_mem _ hm))
      rw [List.forall₂_cons, List.forall₂_cons]
      exact and_congr (mem_divs (hp n (by simp)) k) this

omit [Div R] [NatCast R] [LT R] [DecidableLT R] [HasMax R] in
theorem forall₂_dvd_pos {dims d : List Nat} (h : List.Forall₂ (fun n k => k ∣ n) dims d)
    (hp : ∀ n ∈ dims, 0 < n) : d.length = dims.length ∧ (∀ k ∈ d, 0 < k) := by
  refine ⟨h.length_eq.symm, ?_⟩
  induction h with
  | nil => simp
  | cons h _ ih =>
    intro k hk
    rcases List.mem_cons.1 hk with rfl | hk
    · exact Nat.pos_of_dvd_of_pos h (hp _ (by simp))
    · exact ih (fun n hn => hp n (by simp [hn])) k hk

theorem build_none (self : CubeDecomp) (nprocs : Int) (dims : List Nat) (h : EnumOK dims)
    (hv : validList nprocs dims = []) :
    CubeDecomp.build R self nprocs dims =
      .ok (false, { self with nprocs := nprocs, ndims := dims.length, dims := dims, decomp := [] }) := by
  unfold CubeDecomp.build CubeDecomp.computeOptimalDecomp MultiArrayIter.new
  simp only
  rw [prime_loop dims h.lt]
  simp only [M.ok_bind]
  rw [ns_loop (dims.map divs) dims.length (by simp)]
  simp only [M.ok_bind]
  rw [build_eq none _ _ false (by simpa using h.ne) (by simp) (by simpa using h.len)]
  simp only [M.ok_bind]
  have := gatherValid_eq { self with nprocs := nprocs, ndims := dims.length, dims := dims } (dims.map divs)
    (by simp) (by
      intro l hl
      obtain ⟨n, _, rfl⟩ := List.mem_map.1 hl
      exact length_divs_pos n) h.cnt
  rw [List.length_map] at this
  rw [this]
  unfold validList at hv
  simp only [M.ok_bind, hv]
  rfl

theorem build_some (self : CubeDecomp) (nprocs : Int) (dims : List Nat) (h : EnumOK dims)
    (hv : validList nprocs dims ≠ []) :
    CubeDecomp.build R self nprocs dims =
      .ok (true, builtDecomp nprocs dims (bestOf (costW R dims) (validList nprocs dims))) := by
  have hmem := bestOf_mem (costW R dims) _ hv
  have hall : ∀ d ∈ validList nprocs dims, d.length = dims.length ∧ ∀ k ∈ d, 0 < k := fun d hd =>
    forall₂_dvd_pos ((mem_validList h nprocs d).1 hd).1 h.pos
  obtain ⟨hbl, hbp⟩ := hall _ hmem
  unfold CubeDecomp.build CubeDecomp.computeOptimalDecomp MultiArrayIter.new
  simp only
  rw [prime_loop dims h.lt]
  simp only [M.ok_bind]
  rw [ns_loop (dims.map divs) dims.length (by simp)]
  simp only [M.ok_bind]
  rw [build_eq none _ _ false (by simpa using h.ne) (by simp) (by simpa using h.len)]
  simp only [M.ok_bind]
  have := gatherValid_eq { self with nprocs := nprocs, ndims := dims.length, dims := dims } (dims.map divs)
    (by simp) (by
      intro l hl
      obtain ⟨n, _, rfl⟩ := List.mem_map.1 hl
      exact length_divs_pos n) h.cnt
  rw [List.length_map] at this
  rw [this]
  have hv' : List.filter (accepts nprocs) (enumTuples (List.map divs dims)) = validList nprocs dims := rfl
  simp only [M.ok_bind, hv']
  have hl0 : (validList nprocs dims).length ≠ 0 := by simpa using hv
  rw [if_neg hl0]
  rw [selectBest_eq _ _ rfl hv hall]
  simp only [M.ok_bind]
  generalize bestOf (costW R dims) (validList nprocs dims) = d at *
  have hd0 : d.length ≠ 0 := by rw [hbl]; simpa using h.ne
  rw [build_eq self.mit _ d true (by simpa using h.ne) (by simp [hbl]) (by simpa using h.len)]
  simp only [M.ok_bind, M.pure_eq]
  rw [if_neg hd0]
  have := local_loop dims d (resize self.localDims d.length 0) hbl (by simp [hbl]) hbp
  rw [hbl] at this ⊢
  rw [this]
  rfl

end Select

theorem prod_length_divs_le (dims : List Nat) (h : ∀ n ∈ dims, 0 < n) :
    ((dims.map divs).map List.length).prod ≤ 2 ^ dims.length * dims.prod := by
  induction dims with
  | nil => simp
  | cons n ds ih =>
    have h1 := ih (fun m hm => h m (by simp [hm]))
    have h2 := length_divs_le (h n (by simp))
    simp only [List.map_cons, List.prod_cons, List.length_cons]
    calc _ ≤ (2 * n) * (2 ^ ds.length * ds.prod) := Nat.mul_le_mul h2 h1
      _ = 2 ^ (ds.length + 1) * (n * ds.prod) := by ring

theorem EnumOK.of_bound {dims : List Nat} (hne : dims ≠ []) (hpos : ∀ n ∈ dims, 0 < n)
    (h : 2 ^ dims.length * dims.prod < 2 ^ 64) : EnumOK dims where
  ne := hne
  pos := hpos
  lt := fun n hn => by
    have h1 := mem_le_prod hpos hn
    have h2 : dims.prod ≤ 2 ^ dims.length * dims.prod := Nat.le_mul_of_pos_left _ (Nat.pow_pos (by omega))
    unfold W; omega
  len := by
    have h1 : dims.length < 2 ^ dims.length := Nat.lt_pow_self (by omega)
    have h2 : 2 ^ dims.length ≤ 2 ^ dims.length * dims.prod := Nat.le_mul_of_pos_right _ (prod_pos_of hpos)
    unfold W; omega
  cnt := by
    have := prod_length_divs_le dims hpos
    unfold W; omega

theorem EnumOK.of_prod {dims : List Nat} (hne : dims ≠ []) (hpos : ∀ n ∈ dims, 0 < n) (hl : dims.length < 32)
    (hp : dims.prod ≤ 2 ^ 32) : EnumOK dims := by
  apply EnumOK.of_bound hne hpos
  have h2 : 2 ^ dims.length ≤ 2 ^ 31 := Nat.pow_le_pow_right (by omega) (by omega)
  have h3 : 2 ^ dims.length * dims.prod ≤ 2 ^ 31 * 2 ^ 32 := Nat.mul_le_mul h2 hp
  omega

theorem prod_le_of_dvd {dims d : List Nat} (h : List.Forall₂ (fun n k => k ∣ n) dims d)
    (hp : ∀ n ∈ dims, 0 < n) : d.prod ≤ dims.prod := by
  induction h with
  | nil => simp
  | cons h _ ih =>
    rw [List.prod_cons, List.prod_cons]
    exact Nat.mul_le_mul (Nat.le_of_dvd (hp _ (by simp)) h) (ih fun n hn => hp n (by simp [hn]))

/-! Queries. -/

/-- Facts about a decomposition that was found. -/
structure GoodDecomp (nprocs : Nat) (dims d : List Nat) : Prop where
  valid : ValidDecomp nprocs dims d
  ne : dims ≠ []
  pos : ∀ n ∈ dims, 0 < n
  np : nprocs < 2 ^ 31
  lt : ∀ n ∈ dims, n < W
  len : dims.length < W

namespace GoodDecomp
variable {nprocs : Nat} {dims d : List Nat} (g : GoodDecomp nprocs dims d)
include g

theorem length_eq : d.length = dims.length := g.valid.1.length_eq.symm
theorem d_pos : ∀ k ∈ d, 0 < k := (forall₂_dvd_pos g.valid.1 g.pos).2
theorem box : BoxLt (List.replicate dims.length 0) d := by
  have := replicate_boxLt g.d_pos
  rwa [g.length_eq] at this
theorem vol : volume (List.replicate dims.length 0) d = nprocs := by
  have := volume_zero d
  rw [g.length_eq, g.valid.2] at this
  exact this
theorem vol_lt : volume (List.replicate dims.length 0) d < W := by
  rw [g.vol]; have := g.np; unfold W; omega
theorem d_le : ∀ k ∈ d, k ≤ nprocs := by
  intro k hk
  have := mem_le_prod g.d_pos hk
  rwa [g.valid.2] at this
theorem d_lt : ∀ k ∈ d, k < W := by
  intro k hk
  have := g.d_le k hk
  have := g.np
  unfold W; omega

/-- Coordinates of a rank, as computed. -/
theorem inds (rk : Nat) :
    ({ builtIter (List.replicate dims.length 0) d true with bigIndex := rk } : MultiArrayIter).getIndices =
      .ok (digitsOf (strideR d) d rk) := by
  rw [getIndices_built true g.box g.vol_lt g.d_lt]
  have := tupleAt_zero true d rk
  rw [g.length_eq] at this
  rw [this]; rfl

end GoodDecomp

theorem rankOf_eq_dot (d x : List Nat) (h : x.length = d.length) : rankOf d x = dot (strideR d) x := by
  have key : ∀ (d x : List Nat) (acc : Nat), x.length = d.length →
      (d.zip x).foldl (fun acc p => acc * p.1 + p.2) acc = acc * d.prod + dot (strideR d) x := by
    intro d
    induction d with
    | nil => intro x acc h; simp [dot, strideR]
    | cons n d ih =>
      intro x acc h
      cases x with
      | nil => simp at h
      | cons y x =>
        rw [List.zip_cons_cons, List.foldl_cons, ih x _ (by simpa using h)]
        simp only [List.prod_cons, dot, strideR, List.zipWith_cons_cons, List.sum_cons]
        ring
  have := key d x 0 h
  simpa [rankOf] using this

theorem rankOf_lt {d x : List Nat} (h : InGrid d x) : rankOf d x < d.prod := by
  rw [rankOf_eq_dot d x h.length_eq]; exact dotR_lt d x h

theorem exists_coords {d : List Nat} (hp : ∀ k ∈ d, 0 < k) {r : Nat} (hr : r < d.prod) :
    ∃ x, InGrid d x ∧ rankOf d x = r := by
  refine ⟨digitsOf (strideR d) d r, digitsR_lt d hp r, ?_⟩
  rw [rankOf_eq_dot _ _ (digitsR_lt d hp r).length_eq, dotR_digits d hp, Nat.mod_eq_of_lt hr]

theorem rankOf_inj {d x y : List Nat} (hx : InGrid d x) (hy : InGrid d y) (h : rankOf d x = rankOf d y) : x = y := by
  rw [rankOf_eq_dot d x hx.length_eq, rankOf_eq_dot d y hy.length_eq] at h
  rw [← digitsR_dot d x hx, ← digitsR_dot d y hy, h]

/-- The object after queries: only the position of the iterator has moved. -/
def movedDecomp (nprocs : Int) (dims d : List Nat) (k : Nat) : CubeDecomp :=
  { builtDecomp nprocs dims d with
    mit := some { builtIter (List.replicate dims.length 0) d true with bigIndex := k } }

theorem builtDecomp_eq_moved (nprocs : Int) (dims d : List Nat) :
    builtDecomp nprocs dims d = movedDecomp nprocs dims d 0 := rfl

theorem szOfInt_rank {nprocs : Nat} {r : Nat} (h1 : nprocs < 2 ^ 31) (h2 : r < nprocs) : szOfInt (r : Int) = r :=
  szOfInt_ofNat (by unfold W; omega)

theorem moveMit_eq {nprocs : Nat} {dims d : List Nat} (g : GoodDecomp nprocs dims d) (x : List Nat) (hx : InGrid d x)
    (np : Int) (k : Nat) :
    (movedDecomp np dims d k).moveMit (rankOf d x : Nat) =
      .ok (x, movedDecomp np dims d (rankOf d x)) := by
  have hlt := rankOf_lt hx
  rw [g.valid.2] at hlt
  unfold CubeDecomp.moveMit movedDecomp
  simp only [MultiArrayIter.move]
  rw [szOfInt_rank g.np hlt, g.inds]
  simp only [M.ok_bind, M.pure_eq]
  rw [rankOf_eq_dot d x hx.length_eq, digitsR_dot d x hx]

theorem localExtents_mul {dims d : List Nat} (h : List.Forall₂ (fun n k => k ∣ n) dims d) :
    List.zipWith (· * ·) d (localExtents dims d) = dims := by
  induction h with
  | nil => rfl
  | cons h _ ih =>
    simp only [localExtents, List.zipWith_cons_cons] at ih ⊢
    rw [ih, Nat.mul_div_cancel' h]

theorem fill_zip {α β : Type} (n : Nat) (xs : List α) (ys : List β) (f : α → β → Nat)
    (h1 : xs.length = n) (h2 : ys.length = n) :
    (forUp 0 n (List.replicate n 0) fun i res => do wr res i (f (← rd xs i) (← rd ys i))) =
      .ok (List.zipWith f xs ys) := by
  cases n with
  | zero =>
    rw [List.length_eq_zero_iff.1 h1]; rfl
  | succ m =>
    have hx0 : 0 < xs.length := by omega
    have hy0 : 0 < ys.length := by omega
    rw [forUp_fill (m + 1) _ (by simp) (fun i => f (xs.getD i xs[0]) (ys.getD i ys[0]))]
    · congr 1
      apply ext_of_getElem? (by simp [h1, h2])
      intro i hi
      have a : i < m + 1 := by simp [h1, h2] at hi; exact hi
      have b : i < xs.length := by omega
      have c : i < ys.length := by omega
      simp [a, b, c]
    · intro i v hi hv _
      have b : i < xs.length := by omega
      have c : i < ys.length := by omega
      rw [rd_of_lt b, rd_of_lt c]
      simp only [M.ok_bind]
      rw [wr_of_lt (by omega)]
      simp [b, c]

theorem zipWith_congr_mem {α β γ : Type} {f g : α → β → γ} {xs : List α} {ys : List β}
    (h : ∀ i (h1 : i < xs.length) (h2 : i < ys.length), f xs[i] ys[i] = g xs[i] ys[i]) :
    List.zipWith f xs ys = List.zipWith g xs ys := by
  apply ext_of_getElem? (by simp)
  intro i hi
  have : i < xs.length ∧ i < ys.length := by simpa using hi
  simp [this.1, this.2, h i this.1 this.2]

/-- `x_i < d_i` and `d_i L_i = n_i` give `(x_i + 1) L_i ≤ n_i`. -/
theorem sub_bound {dims d x : List Nat} (h : List.Forall₂ (fun n k => k ∣ n) dims d) (hx : InGrid d x)
    (i : Nat) (h1 : i < x.length) (h2 : i < (localExtents dims d).length) (h3 : i < dims.length) :
    (x[i] + 1) * (localExtents dims d)[i] ≤ dims[i] := by
  have hlen := h.length_eq
  obtain ⟨hl, hlt⟩ := inGrid_iff_getElem.1 hx
  have hi : i < d.length := by omega
  have hd : d[i] ∣ dims[i] := (List.forall₂_iff_get.1 h).2 i h3 hi
  simp only [localExtents, List.getElem_zipWith]
  calc (x[i] + 1) * (dims[i] / d[i]) ≤ d[i] * (dims[i] / d[i]) := Nat.mul_le_mul_right _ (hlt i hi h1)
    _ = dims[i] := Nat.mul_div_cancel' hd

theorem getBegIndices_eq {nprocs : Nat} {dims d : List Nat} (g : GoodDecomp nprocs dims d) (x : List Nat)
    (hx : InGrid d x) (np : Int) (k : Nat) :
    (movedDecomp np dims d k).getBegIndices (rankOf d x : Nat) =
      .ok (subLo (localExtents dims d) x, movedDecomp np dims d (rankOf d x)) := by
  unfold CubeDecomp.getBegIndices
  rw [moveMit_eq g x hx]
  simp only [M.ok_bind]
  have hlen : (localExtents dims d).length = dims.length := by simp [localExtents, g.length_eq]
  have e := fill_zip dims.length x (localExtents dims d) (fun a b => szMul a b) (by rw [hx.length_eq, g.length_eq]) hlen
  have e2 : (movedDecomp np dims d (rankOf d x)).ndims = dims.length := rfl
  have e3 : (movedDecomp np dims d (rankOf d x)).localDims = localExtents dims d := rfl
  rw [e2, e3, e]
  simp only [M.ok_bind, M.pure_eq]
  congr 2
  apply zipWith_congr_mem
  intro i h1 h2
  apply szMul_of_lt
  have h3 : i < dims.length := by omega
  have := sub_bound g.valid.1 hx i h1 h2 h3
  have := g.lt _ (List.getElem_mem h3)
  rw [Nat.add_mul] at *
  omega

theorem getEndIndices_eq {nprocs : Nat} {dims d : List Nat} (g : GoodDecomp nprocs dims d) (x : List Nat)
    (hx : InGrid d x) (np : Int) (k : Nat) :
    (movedDecomp np dims d k).getEndIndices (rankOf d x : Nat) =
      .ok (subHi (localExtents dims d) x, movedDecomp np dims d (rankOf d x)) := by
  unfold CubeDecomp.getEndIndices
  rw [moveMit_eq g x hx]
  simp only [M.ok_bind]
  have hlen : (localExtents dims d).length = dims.length := by simp [localExtents, g.length_eq]
  have e := fill_zip dims.length x (localExtents dims d) (fun a b => szMul (szAdd a 1) b)
    (by rw [hx.length_eq, g.length_eq]) hlen
  have e2 : (movedDecomp np dims d (rankOf d x)).ndims = dims.length := rfl
  have e3 : (movedDecomp np dims d (rankOf d x)).localDims = localExtents dims d := rfl
  rw [e2, e3, e]
  simp only [M.ok_bind, M.pure_eq]
  congr 2
  apply zipWith_congr_mem
  intro i h1 h2
  have h3 : i < dims.length := by omega
  have h4 := sub_bound g.valid.1 hx i h1 h2 h3
  have h5 := g.lt _ (List.getElem_mem h3)
  obtain ⟨hl, hlt⟩ := inGrid_iff_getElem.1 hx
  have hi : i < d.length := by omega
  have h6 := hlt i hi h1
  have h7 := g.d_lt _ (List.getElem_mem hi)
  rw [szAdd_of_lt (by omega), szMul_of_lt (by omega)]

/-! Neighbours. -/

theorem shiftIndex_eq {ind d : Nat} {dir : Int} (h1 : ind < d) (h2 : d < 2 ^ 31) (h3 : -(d : Int) ≤ dir)
    (h4 : dir ≤ d) (h5 : (ind : Int) + dir < 2 ^ 31) : CubeDecomp.shiftIndex ind dir d = ((ind : Int) + dir) % (d : Int) := by
  have ha : intOfSz (szAdd ind (szOfInt dir)) = (ind : Int) + dir := by
    unfold intOfSz szAdd szOfInt W W32
    rw [Int.bmod_def]
    split <;> omega
  unfold CubeDecomp.shiftIndex
  simp only [ha]
  by_cases hneg : (ind : Int) + dir < 0
  · rw [if_pos hneg]
    have hb : intOfSz (szAdd (szOfInt ((ind : Int) + dir)) d) = (ind : Int) + dir + d := by
      unfold intOfSz szAdd szOfInt W W32
      rw [Int.bmod_def]
      split <;> omega
    rw [hb]
    rw [← Int.add_emod_right, Int.emod_eq_of_lt (by omega) (by omega)]
  · rw [if_neg hneg]
    have hc : szOfInt ((ind : Int) + dir) = ((ind : Int) + dir).toNat := by
      unfold szOfInt W; omega
    rw [hc]
    by_cases hge : d ≤ ((ind : Int) + dir).toNat
    · rw [if_pos hge]
      have hb : intOfSz (szSub ((ind : Int) + dir).toNat d) = (ind : Int) + dir - d := by
        unfold intOfSz szSub W W32
        rw [Int.bmod_def]
        split <;> omega
      rw [hb]
      rw [← Int.sub_emod_right, Int.emod_eq_of_lt (by omega) (by omega)]
    · rw [if_neg hge]
      rw [Int.emod_eq_of_lt (by omega) (by omega)]

theorem shiftMod_inGrid : ∀ {d x : List Nat} {dir : List Int}, InGrid d x → dir.length = d.length →
    InGrid d (shiftMod d x dir)
  | [], [], [], _, _ => trivial
  | n :: d, x :: xs, s :: ss, h, hl => by
    refine ⟨?_, shiftMod_inGrid h.2 (by simpa using hl)⟩
    have : 0 < n := Nat.lt_of_le_of_lt (Nat.zero_le _) h.1
    have h1 := Int.emod_lt_of_pos ((x : Int) + s) (by omega : (0 : Int) < n)
    have h2 := Int.emod_nonneg ((x : Int) + s) (by omega : (n : Int) ≠ 0)
    omega
  | [], _ :: _, _, h, _ => h.elim
  | _ :: _, [], _, h, _ => h.elim
  | [], [], _ :: _, _, hl => by simp at hl
  | _ :: _, _ :: _, [], _, hl => by simp at hl

theorem shiftMod_getElem : ∀ {d x : List Nat} {dir : List Int} (i : Nat) (h1 : i < d.length) (h2 : i < x.length)
    (h3 : i < dir.length), (shiftMod d x dir)[i]? = some ((((x[i] : Int) + dir[i]) % (d[i] : Int)).toNat)
  | _ :: d, _ :: xs, _ :: ss, 0, _, _, _ => rfl
  | _ :: d, _ :: xs, _ :: ss, i + 1, h1, h2, h3 => by
    simp only [shiftMod, List.getElem?_cons_succ, List.getElem_cons_succ]
    exact shiftMod_getElem i (by simpa using h1) (by simpa using h2) (by simpa using h3)
  | [], _, _, _, h, _, _ => by simp at h
  | _ :: _, [], _, _, _, h, _ => by simp at h
  | _ :: _, _ :: _, [], _, _, _, h => by simp at h

/-- `|dir_i| ≤ d_i` on every axis. -/
abbrev ShortDir (d : List Nat) (dir : List Int) : Prop :=
  List.Forall₂ (fun (n : Nat) (s : Int) => -(n : Int) ≤ s ∧ s ≤ n) d dir

theorem bigIndexInt_grid {d t : List Nat} (h : InGrid d t) (hd : d.prod < 2 ^ 31) (hdp : ∀ k ∈ d, k < W) (k : Nat)
    (n : Nat) (hn : d.length = n) :
    ({ builtIter (List.replicate n 0) d true with bigIndex := k } : MultiArrayIter).computeBigIndexInt
      (t.map fun n : Nat => (n : Int)) = .ok ((rankOf d t : Nat) : Int) := by
  subst hn
  have hb : BoxLt (List.replicate d.length 0) d := replicate_boxLt h.pos
  have hv : volume (List.replicate d.length 0) d < W := by rw [volume_zero]; unfold W; omega
  rw [builtIter_eq true hb hv]
  unfold MultiArrayIter.computeBigIndexInt
  rw [bigIndexAcc_eq _ _ _ (by simp [hb.length_extents]) rfl (by simp [h.length_eq])]
  simp only [extents_zero, M.ok_bind, M.pure_eq, strides, if_true]
  have e : List.zipWith (fun (x : Int) l => szSub (szOfInt x) l) (t.map fun n : Nat => (n : Int))
      (List.replicate d.length 0) = t := by
    obtain ⟨hl, hlt⟩ := inGrid_iff_getElem.1 h
    apply ext_of_getElem? (by simp [hl])
    intro i hi
    have hi2 : i < d.length := by omega
    have h1 : t[i] < W := Nat.lt_trans (hlt i hi2 hi) (hdp _ (List.getElem_mem hi2))
    simp [hi, hi2, szOfInt_ofNat h1, szSub_of_le (Nat.zero_le _) h1]
  rw [e, ← rankOf_eq_dot d t h.length_eq]
  have := rankOf_lt h
  rw [Nat.mod_eq_of_lt (by unfold W; omega), intOfSz_of_lt (by rw [intLim_eq]; omega)]

theorem getNeighborRank_eq {nprocs : Nat} {dims d : List Nat} (g : GoodDecomp nprocs dims d) (x : List Nat)
    (hx : InGrid d x) (dir : List Int) (hdir : ShortDir d dir) (hsum : ∀ k ∈ d, 2 * k ≤ 2 ^ 31) (np : Int) (k : Nat) :
    (movedDecomp np dims d k).getNeighborRank (rankOf d x : Nat) dir =
      .ok (((rankOf d (shiftMod d x dir) : Nat) : Int), movedDecomp np dims d (rankOf d x)) := by
  unfold CubeDecomp.getNeighborRank
  rw [moveMit_eq g x hx]
  simp only [M.ok_bind]
  have hdl : dir.length = d.length := hdir.length_eq.symm
  obtain ⟨hl, hlt⟩ := inGrid_iff_getElem.1 hx
  have hsg := shiftMod_inGrid hx hdl
  have hsl := hsg.length_eq
  have e : (forUp 0 dims.length (List.replicate x.length (0 : Int)) fun i indOffset => do
      wr indOffset i (CubeDecomp.shiftIndex (← rd x i) (← rd dir i) (← rd d i))) =
      .ok ((shiftMod d x dir).map fun n : Nat => (n : Int)) := by
    rw [forUp_fill dims.length _ (by simp [hl, g.length_eq])
      (fun i => (((shiftMod d x dir).getD i 0 : Nat) : Int))]
    · congr 1
      apply ext_of_getElem? (by simp [hsl, g.length_eq])
      intro i hi
      have hi' : i < (shiftMod d x dir).length := by simpa using hi
      have : i < dims.length := by rw [← g.length_eq]; omega
      simp [hi', this]
    · intro i v hi hv _
      have a : i < d.length := by rw [g.length_eq]; exact hi
      have b : i < x.length := by omega
      have c : i < dir.length := by omega
      rw [rd_of_lt a, rd_of_lt b, rd_of_lt c]
      simp only [M.ok_bind]
      rw [wr_of_lt (by omega)]
      have hs := (List.forall₂_iff_get.1 hdir).2 i a c
      simp only [List.get_eq_getElem] at hs
      have h2 := hsum _ (List.getElem_mem a)
      have h3 := hlt i a b
      rw [shiftIndex_eq h3 (by omega) hs.1 hs.2 (by omega)]
      have h4 := shiftMod_getElem (d := d) (x := x) (dir := dir) i a b c
      simp only [List.getD_eq_getElem?_getD, h4, Option.getD_some]
      rw [Int.toNat_of_nonneg (Int.emod_nonneg _ (by omega))]
  have e2 : (movedDecomp np dims d (rankOf d x)).ndims = dims.length := rfl
  have e3 : (movedDecomp np dims d (rankOf d x)).decomp = d := rfl
  rw [e2, e3, e]
  simp only [M.ok_bind, movedDecomp]
  rw [bigIndexInt_grid hsg (by rw [g.valid.2]; exact g.np) g.d_lt _ _ g.length_eq]
  rfl

end Fidi
