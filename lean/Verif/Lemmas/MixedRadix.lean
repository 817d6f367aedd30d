import Verif.Spec.Box
import Mathlib.Data.List.Basic
import Mathlib.Data.List.Forall2
import Mathlib.Tactic.Ring
import Mathlib.Tactic.Linarith
import Mathlib.Algebra.Order.BigOperators.GroupWithZero.List
import Mathlib.Algebra.BigOperators.Group.List.Lemmas

/-
Mixed-radix arithmetic: strides, digits and flat index of a list of extents, row major and column major.
-/
namespace Fidi
open Spec

/-- Row-major strides. -/
def strideR : List Nat → List Nat
  | [] => []
  | _ :: ds => ds.prod :: strideR ds

/-- Column-major strides. -/
def strideC (ds : List Nat) : List Nat := (strideR ds.reverse).reverse

/-- Strides of either ordering. -/
def strides (rm : Bool) (ds : List Nat) : List Nat := if rm then strideR ds else strideC ds

/-- Digits of `k` for given strides and extents. -/
def digitsOf (ss ds : List Nat) (k : Nat) : List Nat := List.zipWith (fun s d => k / s % d) ss ds

/-- Flat index of a digit list for given strides. -/
def dot (ss xs : List Nat) : Nat := (List.zipWith (· * ·) ss xs).sum

@[simp] theorem length_strideR (ds : List Nat) : (strideR ds).length = ds.length := by
  induction ds with
  | nil => rfl
  | cons d ds ih => simp [strideR, ih]

@[simp] theorem length_strideC (ds : List Nat) : (strideC ds).length = ds.length := by
  simp [strideC]

@[simp] theorem length_strides (rm : Bool) (ds : List Nat) : (strides rm ds).length = ds.length := by
  unfold strides; split <;> simp

theorem getElem?_strideR (ds : List Nat) (i : Nat) (h : i < ds.length) :
    (strideR ds)[i]? = some (ds.drop (i + 1)).prod := by
  induction ds generalizing i with
  | nil => simp at h
  | cons d ds ih =>
    cases i with
    | zero => simp [strideR]
    | succ i => simp only [strideR, List.getElem?_cons_succ, List.drop_succ_cons]; exact ih i (by simpa using h)

theorem getElem?_strideC (ds : List Nat) (i : Nat) (h : i < ds.length) :
    (strideC ds)[i]? = some (ds.take i).prod := by
  unfold strideC
  rw [List.getElem?_reverse (by simpa using h)]
  simp only [length_strideR, List.length_reverse]
  rw [getElem?_strideR _ _ (by simp; omega), List.drop_reverse, List.prod_reverse]
  congr 3
  omega

theorem digitsOf_reverse (ss ds : List Nat) (h : ss.length = ds.length) (k : Nat) :
    digitsOf ss.reverse ds.reverse k = (digitsOf ss ds k).reverse := by
  unfold digitsOf
  rw [List.reverse_zipWith h]

theorem dot_reverse (ss ds : List Nat) (h : ss.length = ds.length) :
    dot ss.reverse ds.reverse = dot ss ds := by
  unfold dot
  rw [← List.reverse_zipWith h, List.sum_reverse]

theorem Spec.InGrid.length_eq : ∀ {ds t : List Nat}, InGrid ds t → t.length = ds.length
  | [], [], _ => rfl
  | _ :: ds, _ :: t, h => by simp [InGrid.length_eq (ds := ds) (t := t) h.2]
  | [], _ :: _, h => h.elim
  | _ :: _, [], h => h.elim

theorem inGrid_iff_forall₂ : ∀ {ds t : List Nat}, InGrid ds t ↔ List.Forall₂ (fun d x => x < d) ds t
  | [], [] => by simp [InGrid]
  | d :: ds, x :: t => by simp [InGrid, inGrid_iff_forall₂ (ds := ds) (t := t)]
  | [], _ :: _ => by simp [InGrid]
  | _ :: _, [] => by simp [InGrid]

theorem inGrid_iff_getElem {ds t : List Nat} :
    InGrid ds t ↔ t.length = ds.length ∧ ∀ i (h1 : i < ds.length) (h2 : i < t.length), t[i] < ds[i] := by
  rw [inGrid_iff_forall₂, List.forall₂_iff_get]
  constructor
  · rintro ⟨h1, h2⟩; exact ⟨h1.symm, fun i a b => h2 i a b⟩
  · rintro ⟨h1, h2⟩; exact ⟨h1.symm, fun i a b => h2 i a b⟩

theorem inGrid_reverse {ds t : List Nat} : InGrid ds.reverse t.reverse ↔ InGrid ds t := by
  rw [inGrid_iff_forall₂, inGrid_iff_forall₂, List.forall₂_reverse_iff]

theorem Spec.InGrid.pos {ds t : List Nat} (h : InGrid ds t) : ∀ d ∈ ds, 0 < d := by
  induction ds generalizing t with
  | nil => simp
  | cons d ds ih =>
    cases t with
    | nil => exact h.elim
    | cons x t =>
      intro e he
      rcases List.mem_cons.1 he with rfl | he
      · exact Nat.lt_of_le_of_lt (Nat.zero_le _) h.1
      · exact ih h.2 e he

theorem prod_pos_of {ds : List Nat} (h : ∀ d ∈ ds, 0 < d) : 0 < ds.prod :=
  List.prod_pos h

/-! Row major. -/

theorem digitsR_lt (ds : List Nat) (h : ∀ d ∈ ds, 0 < d) (k : Nat) :
    InGrid ds (digitsOf (strideR ds) ds k) := by
  induction ds with
  | nil => simp [digitsOf, strideR, InGrid]
  | cons d ds ih =>
    refine ⟨Nat.mod_lt _ (h d (by simp)), ih (fun e he => h e (by simp [he]))⟩

theorem dotR_digits (ds : List Nat) (h : ∀ d ∈ ds, 0 < d) (k : Nat) :
    dot (strideR ds) (digitsOf (strideR ds) ds k) = k % ds.prod := by
  induction ds with
  | nil => simp [digitsOf, strideR, dot, Nat.mod_one]
  | cons d ds ih =>
    have := ih (fun e he => h e (by simp [he]))
    simp only [dot, digitsOf, strideR, List.zipWith_cons_cons, List.sum_cons, List.prod_cons] at this ⊢
    rw [this, Nat.mul_comm d, Nat.mod_mul, Nat.add_comm]

theorem dotR_lt (ds t : List Nat) (h : InGrid ds t) : dot (strideR ds) t < ds.prod := by
  induction ds generalizing t with
  | nil => cases t <;> simp [dot, strideR]
  | cons d ds ih =>
    cases t with
    | nil => exact h.elim
    | cons x t =>
      have := ih t h.2
      simp only [dot, strideR, List.zipWith_cons_cons, List.sum_cons, List.prod_cons] at this ⊢
      have h1 : x + 1 ≤ d := h.1
      calc _ < ds.prod * x + ds.prod := by omega
        _ = (x + 1) * ds.prod := by ring
        _ ≤ d * ds.prod := Nat.mul_le_mul_right _ h1

theorem digitsR_add_mul (ds : List Nat) (k m : Nat) (hp : ∀ d ∈ ds, 0 < d) :
    digitsOf (strideR ds) ds (ds.prod * m + k) = digitsOf (strideR ds) ds k := by
  induction ds generalizing m with
  | nil => simp [digitsOf]
  | cons d ds ih =>
    have hp' : ∀ d ∈ ds, 0 < d := fun e he => hp e (by simp [he])
    have h2 := ih (d * m) hp'
    simp only [digitsOf, strideR, List.zipWith_cons_cons, List.prod_cons] at h2 ⊢
    congr 1
    · rw [show d * ds.prod * m + k = ds.prod * (d * m) + k by ring,
        Nat.mul_add_div (prod_pos_of hp'), Nat.mul_add_mod]
    · rw [show d * ds.prod * m + k = ds.prod * (d * m) + k by ring]
      exact h2

theorem digitsR_mod (ds : List Nat) (k : Nat) (hp : ∀ d ∈ ds, 0 < d) :
    digitsOf (strideR ds) ds (k % ds.prod) = digitsOf (strideR ds) ds k := by
  conv_rhs => rw [← Nat.div_add_mod k ds.prod]
  rw [digitsR_add_mul _ _ _ hp]

theorem digitsR_dot (ds t : List Nat) (h : InGrid ds t) :
    digitsOf (strideR ds) ds (dot (strideR ds) t) = t := by
  induction ds generalizing t with
  | nil => cases t with
    | nil => rfl
    | cons => exact h.elim
  | cons d ds ih =>
    cases t with
    | nil => exact h.elim
    | cons x t =>
      have hl := dotR_lt ds t h.2
      have h1 := ih t h.2
      have hp := h.2.pos
      have e : dot (strideR (d :: ds)) (x :: t) = ds.prod * x + dot (strideR ds) t := by
        simp [dot, strideR]
      rw [e]
      have h2 := digitsR_add_mul ds (dot (strideR ds) t) x hp
      simp only [digitsOf, strideR, List.zipWith_cons_cons] at h1 h2 ⊢
      rw [h2, h1]
      rw [Nat.mul_add_div (prod_pos_of hp), Nat.div_eq_of_lt hl, Nat.add_zero, Nat.mod_eq_of_lt h.1]

theorem digitsR_strictMono (ds : List Nat) (hp : ∀ d ∈ ds, 0 < d) (k l : Nat) (hkl : k < l)
    (hl : l < ds.prod) : digitsOf (strideR ds) ds k < digitsOf (strideR ds) ds l := by
  induction ds generalizing k l with
  | nil => simp at hl; omega
  | cons d ds ih =>
    have hp' : ∀ d ∈ ds, 0 < d := fun e he => hp e (by simp [he])
    have hP := prod_pos_of hp'
    have ih' := ih hp' (k % ds.prod) (l % ds.prod)
    rw [digitsR_mod _ _ hp', digitsR_mod _ _ hp'] at ih'
    simp only [digitsOf, strideR, List.zipWith_cons_cons, List.prod_cons] at ih' hl ⊢
    have hld : l / ds.prod < d := Nat.div_lt_of_lt_mul (by rw [Nat.mul_comm]; exact hl)
    have hkd : k / ds.prod ≤ l / ds.prod := Nat.div_le_div_right (Nat.le_of_lt hkl)
    rw [Nat.mod_eq_of_lt hld, Nat.mod_eq_of_lt (Nat.lt_of_le_of_lt hkd hld)]
    rcases Nat.lt_or_eq_of_le hkd with h | h
    · exact List.Lex.rel h
    · rw [h]
      apply List.Lex.cons
      apply ih'
      · have a := Nat.div_add_mod k ds.prod
        have b := Nat.div_add_mod l ds.prod
        rw [h] at a
        omega
      · exact Nat.mod_lt _ hP

/-! Both orderings. -/

theorem prod_rev (ds : List Nat) : ds.reverse.prod = ds.prod := List.prod_reverse ds

theorem pos_rev {ds : List Nat} (hp : ∀ d ∈ ds, 0 < d) : ∀ d ∈ ds.reverse, 0 < d := by
  simpa using hp

theorem digitsC_eq (ds : List Nat) (k : Nat) :
    digitsOf (strideC ds) ds k = (digitsOf (strideR ds.reverse) ds.reverse k).reverse := by
  have := digitsOf_reverse (strideR ds.reverse) ds.reverse (by simp) k
  rwa [List.reverse_reverse] at this

theorem dotC_eq (ds t : List Nat) (h : t.length = ds.length) :
    dot (strideC ds) t = dot (strideR ds.reverse) t.reverse := by
  have := dot_reverse (strideR ds.reverse) t.reverse (by simp [h])
  rwa [List.reverse_reverse] at this

theorem digits_inGrid (rm : Bool) (ds : List Nat) (hp : ∀ d ∈ ds, 0 < d) (k : Nat) :
    InGrid ds (digitsOf (strides rm ds) ds k) := by
  cases rm
  · simp only [strides, Bool.false_eq_true, if_false]
    rw [digitsC_eq, ← inGrid_reverse, List.reverse_reverse]
    exact digitsR_lt _ (pos_rev hp) k
  · exact digitsR_lt ds hp k

theorem dot_digits (rm : Bool) (ds : List Nat) (hp : ∀ d ∈ ds, 0 < d) (k : Nat) :
    dot (strides rm ds) (digitsOf (strides rm ds) ds k) = k % ds.prod := by
  cases rm
  · have hl := (digits_inGrid false ds hp k).length_eq
    simp only [strides, Bool.false_eq_true, if_false] at hl ⊢
    rw [dotC_eq _ _ hl, digitsC_eq, List.reverse_reverse, dotR_digits _ (pos_rev hp), prod_rev]
  · exact dotR_digits ds hp k

theorem dot_lt (rm : Bool) (ds t : List Nat) (h : InGrid ds t) : dot (strides rm ds) t < ds.prod := by
  cases rm
  · simp only [strides, Bool.false_eq_true, if_false]
    rw [dotC_eq _ _ h.length_eq, ← prod_rev]
    exact dotR_lt _ _ (inGrid_reverse.2 h)
  · exact dotR_lt ds t h

theorem digits_dot (rm : Bool) (ds t : List Nat) (h : InGrid ds t) :
    digitsOf (strides rm ds) ds (dot (strides rm ds) t) = t := by
  cases rm
  · simp only [strides, Bool.false_eq_true, if_false]
    rw [dotC_eq _ _ h.length_eq, digitsC_eq, digitsR_dot _ _ (inGrid_reverse.2 h), List.reverse_reverse]
  · exact digitsR_dot ds t h

theorem digits_mod (rm : Bool) (ds : List Nat) (hp : ∀ d ∈ ds, 0 < d) (k : Nat) :
    digitsOf (strides rm ds) ds (k % ds.prod) = digitsOf (strides rm ds) ds k := by
  cases rm
  · simp only [strides, Bool.false_eq_true, if_false]
    rw [digitsC_eq, digitsC_eq, ← prod_rev, digitsR_mod _ _ (pos_rev hp)]
  · exact digitsR_mod ds k hp

theorem digitsC_strictMono (ds : List Nat) (hp : ∀ d ∈ ds, 0 < d) (k l : Nat) (hkl : k < l)
    (hl : l < ds.prod) :
    (digitsOf (strideC ds) ds k).reverse < (digitsOf (strideC ds) ds l).reverse := by
  rw [digitsC_eq, digitsC_eq, List.reverse_reverse, List.reverse_reverse]
  exact digitsR_strictMono _ (pos_rev hp) k l hkl (by rwa [prod_rev])

/-! Boxes as shifted grids. -/

theorem Spec.InBox.length_lo : ∀ {lo hi t : List Nat}, InBox lo hi t → t.length = lo.length
  | [], [], [], _ => rfl
  | _ :: lo, _ :: hi, _ :: t, h => by simp [InBox.length_lo (lo := lo) (hi := hi) (t := t) h.2.2]
  | [], [], _ :: _, h => h.elim
  | [], _ :: _, _, h => h.elim
  | _ :: _, [], _, h => h.elim
  | _ :: _, _ :: _, [], h => h.elim

theorem Spec.InBox.length_hi : ∀ {lo hi t : List Nat}, InBox lo hi t → hi.length = lo.length
  | [], [], [], _ => rfl
  | _ :: lo, _ :: hi, _ :: t, h => by simp [InBox.length_hi (lo := lo) (hi := hi) (t := t) h.2.2]
  | [], [], _ :: _, h => h.elim
  | [], _ :: _, _, h => h.elim
  | _ :: _, [], _, h => h.elim
  | _ :: _, _ :: _, [], h => h.elim

theorem Spec.InBox.getElem : ∀ {lo hi t : List Nat}, InBox lo hi t → ∀ i (h1 : i < lo.length) (h2 : i < hi.length)
    (h3 : i < t.length), lo[i] ≤ t[i] ∧ t[i] < hi[i]
  | [], [], [], _, _, h, _, _ => by simp at h
  | _ :: lo, _ :: hi, _ :: t, h, 0, _, _, _ => ⟨h.1, h.2.1⟩
  | _ :: lo, _ :: hi, _ :: t, h, i + 1, h1, h2, h3 =>
    Spec.InBox.getElem h.2.2 i (by simpa using h1) (by simpa using h2) (by simpa using h3)
  | [], [], _ :: _, h, _, _, _, _ => h.elim
  | [], _ :: _, _, h, _, _, _, _ => h.elim
  | _ :: _, [], _, h, _, _, _, _ => h.elim
  | _ :: _, _ :: _, [], h, _, _, _, _ => h.elim

theorem Spec.InBox.sub : ∀ {lo hi t : List Nat}, InBox lo hi t →
    InGrid (extents lo hi) (List.zipWith (fun x l => x - l) t lo)
  | [], [], [], _ => trivial
  | _ :: lo, _ :: hi, _ :: t, h => by
    refine ⟨?_, Spec.InBox.sub h.2.2⟩
    have := h.1; have := h.2.1; show _ - _ < _ - _; omega
  | [], [], _ :: _, h => h.elim
  | [], _ :: _, _, h => h.elim
  | _ :: _, [], _, h => h.elim
  | _ :: _, _ :: _, [], h => h.elim

theorem inBox_add : ∀ {lo hi x : List Nat}, lo.length = hi.length → InGrid (extents lo hi) x →
    InBox lo hi (List.zipWith (· + ·) lo x)
  | [], [], [], _, _ => trivial
  | _ :: lo, _ :: hi, _ :: t, hl, h => by
    have h1 : _ < _ - _ := h.1
    refine ⟨?_, ?_, inBox_add (by simpa using hl) h.2⟩
    · show _ ≤ _ + _; omega
    · show _ + _ < _; omega
  | [], [], _ :: _, _, h => h.elim
  | [], _ :: _, _, hl, _ => by simp at hl
  | _ :: _, [], _, hl, _ => by simp at hl
  | _ :: _, _ :: _, [], _, h => h.elim

theorem Spec.InBox.add_sub : ∀ {lo hi t : List Nat}, InBox lo hi t →
    List.zipWith (· + ·) lo (List.zipWith (fun x l => x - l) t lo) = t
  | [], [], [], _ => rfl
  | _ :: lo, _ :: hi, _ :: t, h => by
    simp only [List.zipWith_cons_cons, InBox.add_sub h.2.2]
    congr 1
    have := h.1; omega
  | [], [], _ :: _, h => h.elim
  | [], _ :: _, _, h => h.elim
  | _ :: _, [], _, h => h.elim
  | _ :: _, _ :: _, [], h => h.elim

theorem zipWith_add_sub_cancel : ∀ {lo x : List Nat}, lo.length = x.length →
    List.zipWith (fun x l => x - l) (List.zipWith (· + ·) lo x) lo = x
  | [], [], _ => rfl
  | l :: lo, y :: x, h => by
    simp only [List.zipWith_cons_cons, zipWith_add_sub_cancel (lo := lo) (x := x) (by simpa using h)]
    congr 1
    omega
  | [], _ :: _, h => by simp at h
  | _ :: _, [], h => by simp at h

theorem Spec.BoxLt.length_eq {lo hi : List Nat} (h : BoxLt lo hi) : lo.length = hi.length :=
  List.Forall₂.length_eq h

theorem Spec.BoxLt.extents_pos {lo hi : List Nat} (h : BoxLt lo hi) : ∀ d ∈ extents lo hi, 0 < d := by
  induction h with
  | nil => simp [extents]
  | cons h _ ih =>
    intro d hd
    simp only [extents, List.zipWith_cons_cons, List.mem_cons] at hd
    rcases hd with rfl | hd
    · omega
    · exact ih d hd

theorem Spec.BoxLt.volume_pos {lo hi : List Nat} (h : BoxLt lo hi) : 0 < volume lo hi :=
  prod_pos_of h.extents_pos

theorem Spec.BoxLt.length_extents {lo hi : List Nat} (h : BoxLt lo hi) : (extents lo hi).length = lo.length := by
  simp [extents, h.length_eq]

theorem lex_add {lo x y : List Nat} (h1 : lo.length = x.length) (h2 : lo.length = y.length) (h : x < y) :
    List.zipWith (· + ·) lo x < List.zipWith (· + ·) lo y := by
  induction lo generalizing x y with
  | nil =>
    cases x with
    | nil => cases y with
      | nil => exact absurd h (List.lt_irrefl _)
      | cons => simp at h2
    | cons => simp at h1
  | cons l lo ih =>
    cases x with
    | nil => simp at h1
    | cons a x =>
      cases y with
      | nil => simp at h2
      | cons b y =>
        simp only [List.zipWith_cons_cons]
        rcases List.cons_lt_cons_iff.1 h with h | ⟨rfl, h'⟩
        · exact List.Lex.rel (by omega)
        · exact List.Lex.cons (ih (by simpa using h1) (by simpa using h2) h')

theorem prod_take_le {ds : List Nat} (hp : ∀ d ∈ ds, 0 < d) (i : Nat) : (ds.take i).prod ≤ ds.prod := by
  conv_rhs => rw [← List.take_append_drop i ds, List.prod_append]
  exact Nat.le_mul_of_pos_right _ (prod_pos_of fun d hd => hp d (List.mem_of_mem_drop hd))

theorem prod_drop_le {ds : List Nat} (hp : ∀ d ∈ ds, 0 < d) (i : Nat) : (ds.drop i).prod ≤ ds.prod := by
  conv_rhs => rw [← List.take_append_drop i ds, List.prod_append]
  exact Nat.le_mul_of_pos_left _ (prod_pos_of fun d hd => hp d (List.mem_of_mem_take hd))

theorem strides_getElem? (rm : Bool) (ds : List Nat) (i : Nat) (h : i < ds.length) :
    (strides rm ds)[i]? = some (if rm then (ds.drop (i + 1)).prod else (ds.take i).prod) := by
  cases rm
  · simpa [strides] using getElem?_strideC ds i h
  · simpa [strides] using getElem?_strideR ds i h

theorem strides_pos_le (rm : Bool) {ds : List Nat} (hp : ∀ d ∈ ds, 0 < d) :
    ∀ s ∈ strides rm ds, 0 < s ∧ s ≤ ds.prod := by
  intro s hs
  obtain ⟨i, hi, e⟩ := List.mem_iff_getElem.1 hs
  rw [length_strides] at hi
  have h2 := strides_getElem? rm ds i hi
  rw [List.getElem?_eq_getElem (by simpa using hi), e] at h2
  injection h2 with h2
  subst h2
  cases rm
  · exact ⟨prod_pos_of fun d hd => hp d (List.mem_of_mem_take hd), prod_take_le hp i⟩
  · exact ⟨prod_pos_of fun d hd => hp d (List.mem_of_mem_drop hd), prod_drop_le hp (i + 1)⟩

theorem mem_le_prod {ds : List Nat} (hp : ∀ d ∈ ds, 0 < d) {d : Nat} (h : d ∈ ds) : d ≤ ds.prod :=
  Nat.le_of_dvd (prod_pos_of hp) (List.dvd_prod h)

end Fidi
