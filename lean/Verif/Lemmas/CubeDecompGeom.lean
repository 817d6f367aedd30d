import Verif.Lemmas.CubeDecompInv
import Verif.Model.Exact
import Mathlib.Algebra.Order.Field.Basic
import Mathlib.Algebra.Order.Ring.Rat
import Mathlib.Tactic.NormNum
import Mathlib.Tactic.Positivity

/-
Geometry of sub-domains (partition, adjacency) and optimality of the selection.
-/
namespace Fidi
open Spec

theorem inBox_iff_getElem {lo hi t : List Nat} :
    InBox lo hi t ↔ t.length = lo.length ∧ hi.length = lo.length ∧
      ∀ i (h1 : i < lo.length) (h2 : i < hi.length) (h3 : i < t.length), lo[i] ≤ t[i] ∧ t[i] < hi[i] := by
  constructor
  · intro h
    exact ⟨h.length_lo, h.length_hi, h.getElem⟩
  · rintro ⟨h1, h2, h3⟩
    induction lo generalizing hi t with
    | nil =>
      have : hi = [] := List.length_eq_zero_iff.1 h2
      have : t = [] := List.length_eq_zero_iff.1 h1
      subst_vars; trivial
    | cons l lo ih =>
      cases hi with
      | nil => simp at h2
      | cons b hi =>
        cases t with
        | nil => simp at h1
        | cons x t =>
          have h0 := h3 0 (by simp) (by simp) (by simp)
          refine ⟨h0.1, h0.2, ih (by simpa using h1) (by simpa using h2) ?_⟩
          intro i a b c
          exact h3 (i + 1) (by simpa using a) (by simpa using b) (by simpa using c)

theorem localExtents_pos {dims d : List Nat} (h : List.Forall₂ (fun n k => k ∣ n) dims d) (hp : ∀ n ∈ dims, 0 < n) :
    ∀ l ∈ localExtents dims d, 0 < l := by
  induction h with
  | nil => simp [localExtents]
  | cons h _ ih =>
    intro l hl
    simp only [localExtents, List.zipWith_cons_cons, List.mem_cons] at hl
    rcases hl with rfl | hl
    · exact Nat.div_pos (Nat.le_of_dvd (hp _ (by simp)) h) (Nat.pos_of_dvd_of_pos h (hp _ (by simp)))
    · exact ih (fun n hn => hp n (by simp [hn])) l hl

theorem length_localExtents {dims d : List Nat} (h : List.Forall₂ (fun n k => k ∣ n) dims d) :
    (localExtents dims d).length = d.length := by
  simp [localExtents, h.length_eq]

/-- A cell is in the sub-domain at coordinates `x` iff `x` are the quotients of its indices. -/
theorem inBox_sub_iff {L x g : List Nat} (hL : ∀ l ∈ L, 0 < l) (hx : x.length = L.length) :
    InBox (subLo L x) (subHi L x) g ↔ g.length = L.length ∧ List.zipWith (· / ·) g L = x := by
  rw [inBox_iff_getElem]
  simp only [subLo, subHi, List.length_zipWith, hx, Nat.min_self, List.getElem_zipWith]
  constructor
  · rintro ⟨h1, _, h3⟩
    refine ⟨h1, ?_⟩
    apply List.ext_getElem (by simp [h1, hx])
    intro i ha hb
    have hi : i < L.length := by omega
    obtain ⟨a, b⟩ := h3 i hi hi (by omega)
    rw [List.getElem_zipWith]
    have hp := hL _ (List.getElem_mem hi)
    exact Nat.div_eq_of_lt_le a b
  · rintro ⟨h1, h2⟩
    refine ⟨h1, trivial, ?_⟩
    intro i ha hb hc
    subst h2
    rw [List.getElem_zipWith]
    have hp := hL _ (List.getElem_mem ha)
    refine ⟨Nat.div_mul_le_self _ _, ?_⟩
    rw [Nat.add_mul, Nat.one_mul]
    exact Nat.lt_div_mul_add hp

theorem quot_inGrid {dims d g : List Nat} (h : List.Forall₂ (fun n k => k ∣ n) dims d) :
    InGrid dims g → InGrid d (List.zipWith (· / ·) g (localExtents dims d)) := by
  intro hg
  induction h generalizing g with
  | nil =>
    cases g with
    | nil => trivial
    | cons => exact hg.elim
  | @cons n k ns ks hk _ ih =>
    cases g with
    | nil => exact hg.elim
    | cons x g =>
      refine ⟨?_, ih hg.2⟩
      have hx : x < n := hg.1
      apply Nat.div_lt_of_lt_mul
      rw [Nat.div_mul_cancel hk]; exact hx

theorem sub_inGrid {dims d x g : List Nat} (h : List.Forall₂ (fun n k => k ∣ n) dims d)
    (hx : InGrid d x) (hg : InBox (subLo (localExtents dims d) x) (subHi (localExtents dims d) x) g) :
    InGrid dims g := by
  have hlen := h.length_eq
  have hL := length_localExtents h
  have hxl := hx.length_eq
  obtain ⟨h1, h2, h3⟩ := inBox_iff_getElem.1 hg
  have hl : (subLo (localExtents dims d) x).length = d.length := by simp [subLo, hL, hxl]
  rw [inGrid_iff_getElem]
  refine ⟨by omega, ?_⟩
  intro i ha hb
  have := (h3 i (by omega) (by omega) hb).2
  have h4 := sub_bound h hx i (by omega) (by omega) ha
  simp only [subHi, List.getElem_zipWith] at this
  omega

/-- One axis of the adjacency statement. -/
theorem adj_axis {n d x g : Nat} {s : Int} (hd : d ∣ n) (hn : 0 < n) (hx : x < d)
    (h1 : x * (n / d) ≤ g) (h2 : g < (x + 1) * (n / d))
    (hs : s = 0 ∨ (s = 1 ∧ g + 1 = (x + 1) * (n / d)) ∨ (s = -1 ∧ g = x * (n / d))) :
    (((x : Int) + s) % (d : Int)).toNat * (n / d) ≤ (((g : Int) + s) % (n : Int)).toNat ∧
      (((g : Int) + s) % (n : Int)).toNat < ((((x : Int) + s) % (d : Int)).toNat + 1) * (n / d) := by
  obtain ⟨L, rfl⟩ := hd
  have hd0 : 0 < d := by omega
  rw [Nat.mul_div_cancel_left _ hd0] at *
  have hL : 0 < L := Nat.pos_of_mul_pos_left hn
  have hb : (x + 1) * L ≤ d * L := Nat.mul_le_mul_right _ hx
  rcases hs with rfl | ⟨rfl, hg⟩ | ⟨rfl, hg⟩
  · simp only [Int.add_zero]
    rw [Int.emod_eq_of_lt (by omega) (by omega), Int.emod_eq_of_lt (by omega) (by omega)]
    simpa using ⟨h1, h2⟩
  · have e1 : ((g : Int) + 1) = ((g + 1 : Nat) : Int) := by push_cast; rfl
    have e2 : ((x : Int) + 1) = ((x + 1 : Nat) : Int) := by push_cast; rfl
    rw [e1, e2, hg, ← Int.natCast_mod, ← Int.natCast_mod, Int.toNat_natCast, Int.toNat_natCast]
    rcases Nat.lt_or_eq_of_le (Nat.succ_le_of_lt hx) with h | h
    · have hlt : (x + 1) * L < d * L := Nat.mul_lt_mul_of_pos_right h hL
      rw [Nat.mod_eq_of_lt hlt, Nat.mod_eq_of_lt h]
      refine ⟨Nat.le_refl _, ?_⟩
      exact Nat.mul_lt_mul_of_pos_right (by omega) hL
    · have h' : x + 1 = d := h
      rw [h', Nat.mod_self, Nat.mod_self]
      omega
  · rcases Nat.eq_zero_or_pos x with rfl | hx0
    · simp only [Nat.zero_mul] at hg
      subst hg
      have e1 : ((0 : Nat) : Int) + -1 = -1 := by norm_num
      rw [e1]
      have hA : ∀ m : Nat, 0 < m → ((-1 : Int) % (m : Int)).toNat = m - 1 := by
        intro m hm
        rw [← Int.add_emod_right, Int.emod_eq_of_lt (by omega) (by omega)]
        omega
      rw [hA d hd0, hA (d * L) hn]
      have : (d - 1) * L = d * L - L := by rw [Nat.sub_mul, Nat.one_mul]
      have h3 : (d - 1 + 1) * L = d * L := by rw [Nat.sub_add_cancel hd0]
      rw [this, h3]
      omega
    · obtain ⟨y, rfl⟩ : ∃ y, x = y + 1 := ⟨x - 1, by omega⟩
      have hg1 : 1 ≤ g := by
        rw [hg, Nat.add_mul]; omega
      have e1 : ((g : Int) + -1) = ((g - 1 : Nat) : Int) := by omega
      have e2 : (((y + 1 : Nat) : Int) + -1) = ((y : Nat) : Int) := by push_cast; ring
      rw [e1, e2, ← Int.natCast_mod, ← Int.natCast_mod, Int.toNat_natCast, Int.toNat_natCast]
      rw [Nat.mod_eq_of_lt (by omega), Nat.mod_eq_of_lt (by omega)]
      rw [hg]
      rw [Nat.add_mul, Nat.one_mul]
      omega

theorem adjacency {dims d x g : List Nat} {dir : List Int} (h : List.Forall₂ (fun n k => k ∣ n) dims d)
    (hp : ∀ n ∈ dims, 0 < n) (hx : InGrid d x) (hdl : dir.length = dims.length)
    (hg : InBox (subLo (localExtents dims d) x) (subHi (localExtents dims d) x) g)
    (hb : ∀ i, i < dims.length → dir.getD i 0 = 0 ∨
      (dir.getD i 0 = 1 ∧ g.getD i 0 + 1 = (subHi (localExtents dims d) x).getD i 0) ∨
      (dir.getD i 0 = -1 ∧ g.getD i 0 = (subLo (localExtents dims d) x).getD i 0)) :
    InBox (subLo (localExtents dims d) (shiftMod d x dir)) (subHi (localExtents dims d) (shiftMod d x dir))
      (shiftMod dims g dir) := by
  have hlen := h.length_eq
  have hL := length_localExtents h
  have hxl := hx.length_eq
  have hgG := sub_inGrid h hx hg
  have hgl := hgG.length_eq
  have hs1 := (shiftMod_inGrid hx (by omega : dir.length = d.length)).length_eq
  have hs2 := (shiftMod_inGrid hgG hdl).length_eq
  obtain ⟨h1, h2, h3⟩ := inBox_iff_getElem.1 hg
  rw [inBox_iff_getElem]
  simp only [subLo, subHi, List.length_zipWith, List.getElem_zipWith] at *
  refine ⟨by omega, trivial, ?_⟩
  intro i ha hb' hc
  have hi : i < dims.length := by omega
  have hid : i < d.length := by omega
  have hix : i < x.length := by omega
  have hig : i < g.length := by omega
  have hir : i < dir.length := by omega
  have hiL : i < (localExtents dims d).length := by omega
  have e1 := shiftMod_getElem (d := d) (x := x) (dir := dir) i hid hix hir
  have e2 := shiftMod_getElem (d := dims) (x := g) (dir := dir) i hi hig hir
  rw [List.getElem?_eq_getElem (by omega)] at e1 e2
  injection e1 with e1
  injection e2 with e2
  rw [e1, e2]
  have hk : d[i] ∣ dims[i] := (List.forall₂_iff_get.1 h).2 i hi hid
  have hxlt := (inGrid_iff_getElem.1 hx).2 i hid hix
  have hbox := h3 i (by omega) (by omega) hig
  have hbi := hb i hi
  have eL : (localExtents dims d)[i] = dims[i] / d[i] := by simp [localExtents]
  simp only [List.getD_eq_getElem?_getD, List.getElem?_zipWith, List.getElem?_eq_getElem hig,
    List.getElem?_eq_getElem hir, List.getElem?_eq_getElem hix, List.getElem?_eq_getElem hiL,
    Option.getD_some] at hbi
  rw [eL] at hbox hbi ⊢
  exact adj_axis hk (hp _ (List.getElem_mem hi)) hxlt hbox.1 hbox.2 hbi

/-! Symmetry of the neighbour relation. -/

theorem shiftMod_neg {d x : List Nat} {dir : List Int} (hx : InGrid d x) (hl : dir.length = d.length) :
    shiftMod d (shiftMod d x dir) (dir.map fun s => -s) = x := by
  induction d generalizing x dir with
  | nil => cases x with
    | nil => rfl
    | cons => exact hx.elim
  | cons n d ih =>
    cases x with
    | nil => exact hx.elim
    | cons y x =>
      cases dir with
      | nil => simp at hl
      | cons s dir =>
        simp only [shiftMod, List.map_cons]
        rw [ih hx.2 (by simpa using hl)]
        congr 1
        have hy : y < n := hx.1
        rw [Int.toNat_of_nonneg (Int.emod_nonneg _ (by omega)), Int.emod_add_emod]
        rw [show (y : Int) + s + -s = y by ring, Int.emod_eq_of_lt (by omega) (by omega)]
        simp

theorem shortDir_neg {d : List Nat} {dir : List Int} (h : ShortDir d dir) : ShortDir d (dir.map fun s => -s) := by
  induction h with
  | nil => exact .nil
  | cons h _ ih => exact .cons (by constructor <;> simp only [] <;> omega) ih

/-! Optimality. -/

theorem bestOf_le (cost : List Nat → ℚ) (v : List Nat) (vs : List (List Nat))
    (hlt : ∀ d ∈ vs, cost d < HasMax.dblMax) :
    ∀ d ∈ vs, cost (bestOf cost (v :: vs)) ≤ cost d := by
  show ∀ d ∈ vs, cost (vs.foldl (bestStep cost) (HasMax.dblMax, v)).2 ≤ cost d
  have key : ∀ (l : List (List Nat)) (s : ℚ × List Nat), (∀ d ∈ l, cost d < HasMax.dblMax) →
      (s.1 = cost s.2 ∨ s.1 = HasMax.dblMax) →
      let r := l.foldl (bestStep cost) s
      (r.1 = cost r.2 ∨ (l = [] ∧ r.1 = HasMax.dblMax)
        ∨ r.1 = HasMax.dblMax) ∧ r.1 ≤ s.1 ∧ ∀ d ∈ l, r.1 ≤ cost d := by
    intro l
    induction l with
    | nil => intro s _ h; exact ⟨by rcases h with h | h <;> simp [h], le_refl _, by simp⟩
    | cons a l ih =>
      intro s hl h
      simp only [List.foldl_cons]
      have h1 : (bestStep cost s a).1 ≤ s.1 ∧ (bestStep cost s a).1 ≤ cost a ∧
          ((bestStep cost s a).1 = cost (bestStep cost s a).2 ∨ (bestStep cost s a).1 = HasMax.dblMax) := by
        unfold bestStep
        split
        · rename_i hc; exact ⟨le_of_lt hc, le_refl _, Or.inl rfl⟩
        · rename_i hc; exact ⟨le_refl _, not_lt.1 hc, h⟩
      obtain ⟨a1, a2, a3⟩ := ih (bestStep cost s a) (fun d hd => hl d (by simp [hd])) h1.2.2
      refine ⟨?_, a2.trans h1.1, ?_⟩
      · rcases a1 with h | ⟨_, h⟩ | h <;> simp [h]
      · intro d hd
        rcases List.mem_cons.1 hd with rfl | hd
        · exact a2.trans h1.2.1
        · exact a3 d hd
  obtain ⟨h1, _, h3⟩ := key vs (HasMax.dblMax, v) hlt (Or.inr rfl)
  intro d hd
  have h4 := h3 d hd
  have h5 := hlt d hd
  rcases h1 with h | ⟨h, _⟩ | h
  · rw [← h]; exact h4
  · subst h; simp at hd
  · rw [h] at h4; exact absurd h5 (not_lt.2 h4)

theorem pick_strict {pn : List (List Nat)} (hs : ∀ l ∈ pn, l.Pairwise (· < ·)) {a b : List Nat}
    (ha : InGrid (pn.map List.length) a) (hb : InGrid (pn.map List.length) b) (h : a < b) :
    pick pn a < pick pn b := by
  induction pn generalizing a b with
  | nil =>
    cases a with
    | cons => exact ha.elim
    | nil => cases b with
      | cons => exact hb.elim
      | nil => exact absurd h (List.lt_irrefl _)
  | cons l pn ih =>
    cases a with
    | nil => exact ha.elim
    | cons x a =>
      cases b with
      | nil => exact hb.elim
      | cons y b =>
        have hx : x < l.length := ha.1
        have hy : y < l.length := hb.1
        simp only [pick, List.zipWith_cons_cons]
        have gx : l.getD x 0 = l[x] := by simp [hx]
        have gy : l.getD y 0 = l[y] := by simp [hy]
        rw [gx, gy]
        rcases List.cons_lt_cons_iff.1 h with hxy | ⟨hxy, hab⟩
        · exact List.Lex.rel (List.pairwise_iff_getElem.1 (hs l (by simp)) x y hx hy hxy)
        · subst hxy
          exact List.Lex.cons (ih (fun l hl => hs l (by simp [hl])) ha.2 hb.2 hab)

theorem pick_reverse {pn : List (List Nat)} {t : List Nat} (h : pn.length = t.length) :
    (pick pn t).reverse = pick pn.reverse t.reverse := by
  unfold pick
  rw [List.reverse_zipWith h]

/-- Position of a tuple in the enumeration. -/
theorem enum_pos {pn : List (List Nat)} {t : List Nat} (ht : InGrid (pn.map List.length) t) :
    ∃ k, k < (pn.map List.length).prod ∧
      tupleAt false (List.replicate pn.length 0) (pn.map List.length) k = t := by
  have hb := (inBox_zero (ns := pn.map List.length) (t := t)).2 ht
  rw [List.length_map] at hb
  refine ⟨_, ?_, tupleAt_flatOf false hb⟩
  have := flatOf_lt false hb
  have hv := volume_zero (pn.map List.length)
  rw [List.length_map] at hv
  rwa [hv] at this

theorem pair_sublist_range {i j n : Nat} (h1 : i < j) (h2 : j < n) : [i, j].Sublist (List.range n) := by
  rw [show n = j + (n - j) by omega, List.range_add]
  have a : [i].Sublist (List.range j) := List.singleton_sublist.2 (List.mem_range.2 h1)
  have b : [j].Sublist ((List.range (n - j)).map (j + ·)) :=
    List.singleton_sublist.2 (List.mem_map.2 ⟨0, List.mem_range.2 (by omega), rfl⟩)
  exact a.append b

/-- Two accepted tuples at increasing positions: the second one is not the head of the accepted list. -/
theorem mem_tail_of_pos {nprocs : Int} {pn : List (List Nat)} {d e : List Nat} {i j : Nat} (hij : i < j)
    (hj : j < (pn.map List.length).prod)
    (he : pick pn (tupleAt false (List.replicate pn.length 0) (pn.map List.length) i) = e)
    (hd : pick pn (tupleAt false (List.replicate pn.length 0) (pn.map List.length) j) = d)
    (hae : accepts nprocs e = true) (had : accepts nprocs d = true) :
    d ∈ ((enumTuples pn).filter (accepts nprocs)).tail := by
  have h1 := (pair_sublist_range hij hj).map fun k =>
    pick pn (tupleAt false (List.replicate pn.length 0) (pn.map List.length) k)
  have h2 := h1.filter (accepts nprocs)
  simp only [List.map_cons, List.map_nil, he, hd] at h2
  have h3 : List.filter (accepts nprocs) [e, d] = [e, d] := by simp [hae, had]
  rw [h3] at h2
  exact (h2.tail).subset (by simp)

theorem divs_strict {n : Nat} (hn : 2 ≤ n) : (divs n).Pairwise (· < ·) := by
  unfold divs
  rw [List.cons_append, List.pairwise_cons]
  constructor
  · intro a ha
    rw [List.mem_append, List.mem_filter, List.mem_range'_1] at ha
    rcases ha with ⟨h, _⟩ | h
    · omega
    · simp at h; omega
  · rw [List.pairwise_append]
    refine ⟨(List.pairwise_lt_range' (s := 2) (n := n / 2 - 1)).filter _, by simp, ?_⟩
    intro a ha b hb
    rw [List.mem_filter, List.mem_range'_1] at ha
    simp at hb
    subst hb
    omega

/-- Indices of a tuple of divisors. -/
theorem exists_index {pn : List (List Nat)} {d : List Nat} (h : List.Forall₂ (fun l k => k ∈ l) pn d) :
    ∃ t, InGrid (pn.map List.length) t ∧ pick pn t = d := by
  induction h with
  | nil => exact ⟨[], trivial, rfl⟩
  | cons h _ ih =>
    obtain ⟨t, h1, h2⟩ := ih
    obtain ⟨i, hi, hx⟩ := List.mem_iff_getElem.1 h
    refine ⟨i :: t, ⟨hi, h1⟩, ?_⟩
    simp only [pick, List.zipWith_cons_cons] at h2 ⊢
    rw [h2]
    simp [hi, hx]

theorem forall₂_divs {dims d : List Nat} (hp : ∀ n ∈ dims, 0 < n) (h : List.Forall₂ (fun n k => k ∣ n) dims d) :
    List.Forall₂ (fun l k => k ∈ l) (dims.map divs) d := by
  rw [List.forall₂_map_left_iff]
  induction h with
  | nil => exact .nil
  | cons h _ ih =>
    exact .cons ((mem_divs (hp _ (by simp)) _).2 h) (ih fun n hn => hp n (List.mem_cons_of_mem _ hn))

/-- With an axis of extent 1 every accepted tuple occurs twice. -/
theorem two_indices {dims d : List Nat} (hp : ∀ n ∈ dims, 0 < n) (h : List.Forall₂ (fun n k => k ∣ n) dims d)
    (h1 : 1 ∈ dims) :
    ∃ t t', InGrid ((dims.map divs).map List.length) t ∧ InGrid ((dims.map divs).map List.length) t' ∧ t ≠ t' ∧
      pick (dims.map divs) t = d ∧ pick (dims.map divs) t' = d := by
  induction h with
  | nil => simp at h1
  | @cons n k ns ks hk hks ih =>
    have hp' : ∀ n ∈ ns, 0 < n := fun n hn => hp n (List.mem_cons_of_mem _ hn)
    by_cases hn : n = 1
    · subst hn
      obtain ⟨t, a, b⟩ := exists_index (forall₂_divs hp' hks)
      have hk1 : k = 1 := Nat.dvd_one.1 hk
      subst hk1
      have e : divs 1 = [1, 1] := by decide
      refine ⟨0 :: t, 1 :: t, ⟨by simp [e], a⟩, ⟨by simp [e], a⟩, by simp, ?_, ?_⟩
      · simp only [pick, List.map_cons, List.zipWith_cons_cons] at b ⊢
        rw [b, e]; rfl
      · simp only [pick, List.map_cons, List.zipWith_cons_cons] at b ⊢
        rw [b, e]; rfl
    · have h1' : 1 ∈ ns := by
        rcases List.mem_cons.1 h1 with h | h
        · exact absurd h.symm hn
        · exact h
      obtain ⟨t, t', a, b, c, e, f⟩ := ih hp' h1'
      obtain ⟨i, hi, hx⟩ := List.mem_iff_getElem.1 ((mem_divs (hp n (by simp)) k).2 hk)
      refine ⟨i :: t, i :: t', ⟨hi, a⟩, ⟨hi, b⟩, by simpa using c, ?_, ?_⟩
      · simp only [pick, List.map_cons, List.zipWith_cons_cons] at e ⊢
        rw [e]; simp [hi, hx]
      · simp only [pick, List.map_cons, List.zipWith_cons_cons] at f ⊢
        rw [f]; simp [hi, hx]

theorem accepted_in_tail_unit {nprocs : Int} {dims d : List Nat} (hp : ∀ n ∈ dims, 0 < n)
    (hd : List.Forall₂ (fun n k => k ∣ n) dims d) (had : accepts nprocs d = true) (h1 : 1 ∈ dims) :
    d ∈ (validList nprocs dims).tail := by
  obtain ⟨t, t', a, b, c, e, f⟩ := two_indices hp hd h1
  obtain ⟨i, hi, ht⟩ := enum_pos a
  obtain ⟨j, hj, ht'⟩ := enum_pos b
  have hij : i ≠ j := by rintro rfl; exact c (ht.symm.trans ht')
  unfold validList
  rcases Nat.lt_or_gt_of_ne hij with h | h
  · exact mem_tail_of_pos h hj (by rw [ht, e]) (by rw [ht', f]) had had
  · exact mem_tail_of_pos h hi (by rw [ht', f]) (by rw [ht, e]) had had

theorem accepted_in_tail {nprocs : Int} {dims d e : List Nat} (hp : ∀ n ∈ dims, 0 < n)
    (hd : List.Forall₂ (fun n k => k ∣ n) dims d) (he : List.Forall₂ (fun n k => k ∣ n) dims e)
    (had : accepts nprocs d = true) (hae : accepts nprocs e = true) (hlt : e.reverse < d.reverse) :
    d ∈ (validList nprocs dims).tail := by
  by_cases h1 : 1 ∈ dims
  · exact accepted_in_tail_unit hp hd had h1
  · have hs : ∀ l ∈ (dims.map divs).reverse, l.Pairwise (· < ·) := by
      intro l hl
      rw [List.mem_reverse] at hl
      obtain ⟨n, hn, rfl⟩ := List.mem_map.1 hl
      apply divs_strict
      have := hp n hn
      have : n ≠ 1 := fun h => h1 (h ▸ hn)
      omega
    obtain ⟨t, a, b⟩ := exists_index (forall₂_divs hp hd)
    obtain ⟨u, a', b'⟩ := exists_index (forall₂_divs hp he)
    obtain ⟨j, hj, ht⟩ := enum_pos a
    obtain ⟨i, hi, hu⟩ := enum_pos a'
    have hij : i < j := by
      by_contra hc
      rcases Nat.lt_or_eq_of_le (Nat.le_of_not_lt hc) with h | h
      · have hposl : ∀ n ∈ (dims.map divs).map List.length, 0 < n := by
          intro n hn
          obtain ⟨l, hl, rfl⟩ := List.mem_map.1 hn
          obtain ⟨m, _, rfl⟩ := List.mem_map.1 hl
          exact length_divs_pos m
        have h2 := digitsC_strictMono ((dims.map divs).map List.length) hposl j i h hi
        have e1 := tupleAt_zero false ((dims.map divs).map List.length) j
        have e2 := tupleAt_zero false ((dims.map divs).map List.length) i
        rw [List.length_map] at e1 e2
        rw [ht] at e1
        rw [hu] at e2
        simp only [strides, Bool.false_eq_true, if_false] at e1 e2
        rw [← e1, ← e2] at h2
        have ar : InGrid ((dims.map divs).reverse.map List.length) t.reverse := by
          rw [List.map_reverse]; exact inGrid_reverse.2 a
        have ar' : InGrid ((dims.map divs).reverse.map List.length) u.reverse := by
          rw [List.map_reverse]; exact inGrid_reverse.2 a'
        have h3 := pick_strict hs ar ar' h2
        have la := a.length_eq
        have la' := a'.length_eq
        rw [List.length_map] at la la'
        rw [← pick_reverse la.symm, ← pick_reverse la'.symm, b, b'] at h3
        exact List.lt_irrefl _ (List.lt_trans hlt h3)
      · subst h
        have : t = u := ht.symm.trans hu
        subst this
        rw [b] at b'
        subst b'
        exact List.lt_irrefl _ hlt
    exact mem_tail_of_pos hij hj (by rw [hu, b']) (by rw [ht, b]) hae had

/-! The computed cost is the exact one on grids of at most 2^32 cells. -/

theorem prod_eraseIdx_le {L : List Nat} (hL : ∀ l ∈ L, 0 < l) (i : Nat) : (L.eraseIdx i).prod ≤ L.prod := by
  apply Nat.le_of_dvd (prod_pos_of hL)
  exact (List.eraseIdx_sublist L i).prod_dvd_prod

theorem sum_le_of_le (l : List Nat) (b : Nat) (h : ∀ x ∈ l, x ≤ b) : l.sum ≤ l.length * b := by
  induction l with
  | nil => simp
  | cons a l ih =>
    have h1 := ih (fun x hx => h x (by simp [hx]))
    have h2 := h a (by simp)
    simp only [List.sum_cons, List.length_cons]
    rw [Nat.add_mul, Nat.one_mul]
    omega

theorem surface_le {L : List Nat} (hL : ∀ l ∈ L, 0 < l) : surface L ≤ L.length * L.prod := by
  have := sum_le_of_le ((List.range L.length).map fun i => (L.eraseIdx i).prod) L.prod (by
    intro x hx
    obtain ⟨i, _, rfl⟩ := List.mem_map.1 hx
    exact prod_eraseIdx_le hL i)
  simpa [surface] using this

theorem localExtents_prod_le {dims d : List Nat} (h : List.Forall₂ (fun n k => k ∣ n) dims d) :
    (localExtents dims d).prod ≤ dims.prod := by
  induction h with
  | nil => simp [localExtents]
  | cons h _ ih =>
    simp only [localExtents, List.zipWith_cons_cons, List.prod_cons] at ih ⊢
    exact Nat.mul_le_mul (Nat.div_le_self _ _) ih

theorem costW_eq {dims d : List Nat} (h : List.Forall₂ (fun n k => k ∣ n) dims d) (hp : ∀ n ∈ dims, 0 < n)
    (hl : dims.length < 32) (hsz : dims.prod ≤ 2 ^ 32) : costW ℚ dims d = surfaceToVolume dims d := by
  have hL := localExtents_pos h hp
  have h1 := localExtents_prod_le h
  have h2 := surface_le hL
  have h3 : (localExtents dims d).length < 32 := by
    rw [length_localExtents h, ← h.length_eq]; exact hl
  have h4 : (localExtents dims d).length * (localExtents dims d).prod ≤ 32 * 2 ^ 32 :=
    Nat.mul_le_mul (by omega) (by omega)
  unfold costW surfaceToVolume surfW
  have e : (List.range (localExtents dims d).length).map (fun i => ((localExtents dims d).eraseIdx i).prod % W) =
      (List.range (localExtents dims d).length).map (fun i => ((localExtents dims d).eraseIdx i).prod) := by
    apply List.map_congr_left
    intro i _
    apply Nat.mod_eq_of_lt
    have := prod_eraseIdx_le hL i
    unfold W; omega
  rw [e]
  have : ((List.range (localExtents dims d).length).map (fun i => ((localExtents dims d).eraseIdx i).prod)).sum =
      surface (localExtents dims d) := rfl
  rw [this, Nat.mod_eq_of_lt (a := surface _) (by unfold W; omega),
    Nat.mod_eq_of_lt (a := (localExtents dims d).prod) (by unfold W; omega)]

theorem surfaceToVolume_lt {dims d : List Nat} (h : List.Forall₂ (fun n k => k ∣ n) dims d) (hp : ∀ n ∈ dims, 0 < n)
    (hl : dims.length < 32) (hsz : dims.prod ≤ 2 ^ 32) : surfaceToVolume dims d < HasMax.dblMax := by
  have hL := localExtents_pos h hp
  have h1 := localExtents_prod_le h
  have h2 := surface_le hL
  have h3 : (localExtents dims d).length < 32 := by
    rw [length_localExtents h, ← h.length_eq]; exact hl
  have h4 : (localExtents dims d).length * (localExtents dims d).prod ≤ 32 * 2 ^ 32 :=
    Nat.mul_le_mul (by omega) (by omega)
  have h5 : 0 < (localExtents dims d).prod := prod_pos_of hL
  unfold surfaceToVolume
  have h6 : (surface (localExtents dims d) : ℚ) / ((localExtents dims d).prod : ℚ) ≤
      (surface (localExtents dims d) : ℚ) := by
    apply div_le_self (by positivity)
    exact_mod_cast h5
  refine lt_of_le_of_lt h6 ?_
  have h7 : (surface (localExtents dims d) : ℚ) ≤ ((32 * 2 ^ 32 : Nat) : ℚ) := by exact_mod_cast h2.trans h4
  refine lt_of_le_of_lt h7 ?_
  show ((32 * 2 ^ 32 : Nat) : ℚ) < (2 ^ 53 - 1) * 2 ^ 971
  have h8 : (1 : ℚ) ≤ 2 ^ 971 := one_le_pow₀ (by norm_num)
  have h9 : ((2 ^ 53 - 1) * 1 : ℚ) ≤ (2 ^ 53 - 1) * 2 ^ 971 := mul_le_mul_of_nonneg_left h8 (by norm_num)
  exact lt_of_lt_of_le (by norm_num) h9

end Fidi
