import Verif.Lemmas.Ieee
import Verif.Lemmas.CubeDecompGeom
import Verif.Lemmas.FilterSetup

/-
The cost of a decomposition in floating-point arithmetic: all valid decompositions have the same volume, so their costs are
compared as their surfaces, which are whole numbers; rounding cannot exchange them.
-/
set_option linter.unusedSectionVars false
set_option exponentiation.threshold 1100

namespace Fidi
open Fidi.Spec

section
variable {R S : Type} [LT R] [DecidableLT R] [HasMax R] [LT S] [DecidableLT S] [HasMax S]

/-- The selection depends on the order of the costs only. -/
theorem bestOf_congr {cost : List Nat → R} {cost' : List Nat → S} {l : List (List Nat)}
    (h1 : ∀ a ∈ l, cost a < HasMax.dblMax) (h2 : ∀ a ∈ l, cost' a < HasMax.dblMax)
    (h : ∀ a ∈ l, ∀ b ∈ l, cost a < cost b ↔ cost' a < cost' b) : bestOf cost l = bestOf cost' l := by
  cases l with
  | nil => rfl
  | cons v vs =>
    show (vs.foldl (bestStep cost) (HasMax.dblMax, v)).2 = (vs.foldl (bestStep cost') (HasMax.dblMax, v)).2
    have key : ∀ (vs : List (List Nat)) (b : List Nat), (∀ a ∈ vs, cost a < cost b ↔ cost' a < cost' b) →
        (∀ a ∈ vs, ∀ b ∈ vs, cost a < cost b ↔ cost' a < cost' b) →
        (vs.foldl (bestStep cost) (cost b, b)).2 = (vs.foldl (bestStep cost') (cost' b, b)).2 := by
      intro vs
      induction vs with
      | nil => intro _ _ _; rfl
      | cons a vs ih =>
        intro b hb hv
        rw [List.foldl_cons, List.foldl_cons]
        unfold bestStep
        have ha := hb a List.mem_cons_self
        have hv' : ∀ x ∈ vs, ∀ y ∈ vs, cost x < cost y ↔ cost' x < cost' y := fun x hx y hy =>
          hv x (List.mem_cons_of_mem _ hx) y (List.mem_cons_of_mem _ hy)
        by_cases hlt : cost a < cost b
        · simp only [if_pos hlt, if_pos (ha.1 hlt)]
          exact ih a (fun x hx => hv x (List.mem_cons_of_mem _ hx) a List.mem_cons_self) hv'
        · simp only [if_neg hlt, if_neg (fun h => hlt (ha.2 h))]
          exact ih b (fun x hx => hb x (List.mem_cons_of_mem _ hx)) hv'
    cases vs with
    | nil => rfl
    | cons a vs =>
      have ha : a ∈ v :: a :: vs := by simp
      rw [List.foldl_cons, List.foldl_cons]
      unfold bestStep
      simp only [if_pos (h1 a ha), if_pos (h2 a ha)]
      exact key vs a (fun x hx => h x (by simp [hx]) a ha) fun x hx y hy => h x (by simp [hx]) y (by simp [hy])

end

theorem surfW_le {dims d : List Nat} (h : List.Forall₂ (fun n k => k ∣ n) dims d) (hp : ∀ n ∈ dims, 0 < n)
    (hl : dims.length < 32) (hsz : dims.prod ≤ 2 ^ 32) : surfW (localExtents dims d) ≤ 2 ^ 37 := by
  have hL := localExtents_pos h hp
  have h1 := localExtents_prod_le h
  have h2 := surface_le hL
  have h3 : (localExtents dims d).length < 32 := by
    rw [length_localExtents h, ← h.length_eq]; exact hl
  have h4 : (localExtents dims d).length * (localExtents dims d).prod ≤ 32 * 2 ^ 32 :=
    Nat.mul_le_mul (by omega) (by omega)
  have e : (List.range (localExtents dims d).length).map (fun i => ((localExtents dims d).eraseIdx i).prod % W) =
      (List.range (localExtents dims d).length).map (fun i => ((localExtents dims d).eraseIdx i).prod) := by
    apply List.map_congr_left
    intro i _
    apply Nat.mod_eq_of_lt
    have := prod_eraseIdx_le hL i
    unfold W; omega
  unfold surfW
  rw [e]
  refine (Nat.mod_le _ _).trans ?_
  have : ((List.range (localExtents dims d).length).map fun i => ((localExtents dims d).eraseIdx i).prod).sum ≤
    (localExtents dims d).length * (localExtents dims d).prod := h2
  omega

/-- The volume of the sub-domains. -/
theorem volW_eq {nprocs : Nat} {dims d : List Nat} (h : ValidDecomp nprocs dims d) (hp1 : 1 ≤ nprocs)
    (hp : ∀ n ∈ dims, 0 < n) (hsz : dims.prod ≤ 2 ^ 32) :
    (localExtents dims d).prod % W = dims.prod / nprocs ∧ 1 ≤ dims.prod / nprocs ∧ dims.prod / nprocs ≤ 2 ^ 32 := by
  have h1 := localExtents_prod_mul h.1
  have h2 : 0 < (localExtents dims d).prod := prod_pos_of (localExtents_pos h.1 hp)
  have h3 : dims.prod / nprocs = (localExtents dims d).prod := by
    rw [← h1, h.2]; exact Nat.mul_div_cancel _ (by omega)
  have h4 := localExtents_prod_le h.1
  rw [h3, Nat.mod_eq_of_lt (by unfold W; omega)]
  omega

section
variable {R K : Type} [Zero R] [One R] [Add R] [Sub R] [Mul R] [Div R] [NatCast R] [IntCast R] [LT R] [DecidableLT R]
  [HasMax R] [Field K] [LinearOrder K] [IsStrictOrderedRing K] {val : R → K} {r η tiny : K}

theorem quot_nat_rel (H : Rounded R K val r η tiny) (htiny : 2 ^ 33 * tiny ≤ 1) {s v : Nat} (hv : 1 ≤ v) (hv2 : v ≤ 2 ^ 32) :
    Rel (4 * r) (val ((s : R) / (v : R))) ((s : K) / v) := by
  have hvq : (1 : K) ≤ v := by exact_mod_cast hv
  have hvq2 : (v : K) ≤ 2 ^ 32 := by exact_mod_cast hv2
  refine div_rel H (p := 1) (q := 1) (m := 21 / 10) (t := 4) (by norm_num) (by norm_num) (by rw [one_mul]; exact H.nat s)
    (by rw [one_mul]; exact H.nat v) ?_ (by norm_num) (by norm_num) (by norm_num) (by norm_num)
  rcases Nat.eq_zero_or_pos s with rfl | hs
  · left; simp
  · right
    have hsq : (1 : K) ≤ s := by exact_mod_cast hs
    rw [abs_of_nonneg (by positivity), le_div_iff₀ (by linarith)]
    have ht := H.tiny_nonneg
    have : 2 * tiny * v ≤ 2 * tiny * 2 ^ 32 := mul_le_mul_of_nonneg_left hvq2 (by linarith)
    linarith

theorem quot_lt (H : Rounded R K val r η tiny) (hr : r ≤ 1 / 2 ^ 41) (htiny : 2 ^ 33 * tiny ≤ 1) {a b v : Nat} (hv : 1 ≤ v)
    (hv2 : v ≤ 2 ^ 32) (ha : a ≤ 2 ^ 37) (hb : b ≤ 2 ^ 37) : (a : R) / (v : R) < (b : R) / (v : R) ↔ a < b := by
  have h0 := H.r_nonneg
  have hvq : (0 : K) < v := by exact_mod_cast hv
  have key : ∀ a b : Nat, a ≤ 2 ^ 37 → b ≤ 2 ^ 37 → a < b → val ((a : R) / (v : R)) < val ((b : R) / (v : R)) := by
    intro a b ha hb hlt
    have h1 := quot_nat_rel H htiny (s := a) hv hv2
    have h2 := quot_nat_rel H htiny (s := b) hv hv2
    unfold Rel at h1 h2
    have ha0 : (0 : K) ≤ (a : K) / v := by positivity
    have hb0 : (0 : K) ≤ (b : K) / v := by positivity
    rw [abs_of_nonneg ha0, abs_le] at h1
    rw [abs_of_nonneg hb0, abs_le] at h2
    have haq : (a : K) ≤ 2 ^ 37 := by exact_mod_cast ha
    have hbq : (b : K) ≤ 2 ^ 37 := by exact_mod_cast hb
    have hab : (a : K) + 1 ≤ b := by exact_mod_cast hlt
    have h3 : 4 * r * ((a : K) + b) ≤ 1 / 2 := by
      have : 4 * r * ((a : K) + b) ≤ 4 * r * 2 ^ 38 := mul_le_mul_of_nonneg_left (by linarith) (by linarith)
      have h4 : (4 : K) * (1 / 2 ^ 41) * 2 ^ 38 = 1 / 2 := by norm_num
      nlinarith
    have h4 : (a : K) / v + 4 * r * ((a : K) / v) < (b : K) / v - 4 * r * ((b : K) / v) := by
      have e1 : (a : K) / v + 4 * r * ((a : K) / v) = (a + 4 * r * a) / v := by field_simp
      have e2 : (b : K) / v - 4 * r * ((b : K) / v) = (b - 4 * r * b) / v := by field_simp
      rw [e1, e2, div_lt_div_iff_of_pos_right hvq]
      linarith
    linarith [h1.2, h2.1]
  rw [H.lt]
  constructor
  · intro h
    by_contra hn
    rcases Nat.lt_or_ge b a with h2 | h2
    · exact lt_asymm h (key b a hb ha h2)
    · have : a = b := by omega
      subst this
      exact lt_irrefl _ h
  · exact key a b ha hb

theorem quot_le (H : Rounded R K val r η tiny) (htiny : 2 ^ 33 * tiny ≤ 1) {a v : Nat} (hv : 1 ≤ v)
    (hv2 : v ≤ 2 ^ 32) (ha : a ≤ 2 ^ 37) : |val ((a : R) / (v : R))| ≤ 2 ^ 38 := by
  have h0 := H.r_le
  have hvq : (1 : K) ≤ v := by exact_mod_cast hv
  have haq : (a : K) ≤ 2 ^ 37 := by exact_mod_cast ha
  have h1 := (quot_nat_rel H htiny (s := a) hv hv2).abs_le
  rw [abs_of_nonneg (by positivity : (0 : K) ≤ (a : K) / v)] at h1
  have h2 : (a : K) / v ≤ a := div_le_self (by positivity) hvq
  have h3 : (1 + 4 * r) * ((a : K) / v) ≤ 2 * 2 ^ 37 :=
    mul_le_mul (by linarith) (h2.trans haq) (by positivity) (by norm_num)
  refine h1.trans (h3.trans ?_)
  norm_num

/-- The decomposition does not depend on the rounding. -/
theorem build_rounded (H : Rounded R K val r η tiny) (hr : r ≤ 1 / 2 ^ 41) (htiny : 2 ^ 33 * tiny ≤ 1)
    (hmax : 2 ^ 38 < val (HasMax.dblMax : R)) (self : CubeDecomp) (nprocs : Nat) (dims : List Nat) (hp1 : 1 ≤ nprocs)
    (hp2 : nprocs < 2 ^ 31) (hne : dims ≠ []) (hpos : ∀ n ∈ dims, 0 < n) (hax : dims.length < 32)
    (hsize : dims.prod ≤ 2 ^ 32) : CubeDecomp.build R self nprocs dims = CubeDecomp.build ℚ self nprocs dims := by
  have hE := EnumOK.of_prod hne hpos hax hsize
  by_cases hv : validList nprocs dims = []
  · rw [build_none self nprocs dims hE hv, build_none self nprocs dims hE hv]
  · rw [build_some self nprocs dims hE hv, build_some self nprocs dims hE hv]
    have hval : ∀ d ∈ validList nprocs dims, ValidDecomp nprocs dims d := by
      intro d hd
      obtain ⟨h1, h2⟩ := (mem_validList hE nprocs d).1 hd
      refine ⟨h1, ?_⟩
      have := (accepts_iff (by omega) (by omega) ((prod_le_of_dvd h1 hpos).trans hsize)).1 h2
      exact_mod_cast this
    congr 3
    refine bestOf_congr (fun a ha => ?_) (fun a ha => ?_) fun a ha b hb => ?_
    · have h1 := hval a ha
      obtain ⟨e, l1, l2⟩ := volW_eq h1 hp1 hpos hsize
      unfold costW
      rw [e, H.lt]
      exact lt_of_le_of_lt ((le_abs_self _).trans (quot_le H htiny l1 l2 (surfW_le h1.1 hpos hax hsize))) hmax
    · have h1 := hval a ha
      rw [costW_eq h1.1 hpos hax hsize]
      exact surfaceToVolume_lt h1.1 hpos hax hsize
    · have h1 := hval a ha
      have h2 := hval b hb
      obtain ⟨e, l1, l2⟩ := volW_eq h1 hp1 hpos hsize
      obtain ⟨e', _, _⟩ := volW_eq h2 hp1 hpos hsize
      unfold costW
      rw [e, e', quot_lt H hr htiny l1 l2 (surfW_le h1.1 hpos hax hsize) (surfW_le h2.1 hpos hax hsize),
        div_lt_div_iff_of_pos_right (by exact_mod_cast l1), Nat.cast_lt]

end

/-! ### IEEE double -/

theorem cost_fin {nprocs : Nat} {dims d : List Nat} (h : ValidDecomp nprocs dims d) (hp1 : 1 ≤ nprocs)
    (hpos : ∀ n ∈ dims, 0 < n) (hax : dims.length < 32) (hsize : dims.prod ≤ 2 ^ 32) :
    costW F64 dims d = .fin (costW Dbl dims d) := by
  obtain ⟨e, l1, l2⟩ := volW_eq h hp1 hpos hsize
  have hs := surfW_le h.1 hpos hax hsize
  unfold costW
  rw [e]
  generalize surfW (localExtents dims d) = s at hs
  generalize dims.prod / nprocs = v at l1 l2
  have hn : ∀ n : Nat, n ≤ 2 ^ 37 → (n : F64) = .fin (n : Dbl) := by
    intro n hn
    apply F64.fin_nat
    have hq : (n : ℚ) ≤ 2 ^ 37 := by exact_mod_cast hn
    exact le_max ((abs_dbl_nat n).trans (by linarith [(by norm_num : (2 : ℚ) * 2 ^ 37 ≤ 2 ^ 1020)]))
  rw [hn s hs, hn v (by omega)]
  refine F64.fin_div (dbl_nat_ne l1) (le_max ((quot_le Dbl.rounded ?_ l1 l2 hs).trans ?_))
  · norm_num
  · norm_num

theorem build_fin (self : CubeDecomp) (nprocs : Nat) (dims : List Nat) (hp1 : 1 ≤ nprocs)
    (hp2 : nprocs < 2 ^ 31) (hne : dims ≠ []) (hpos : ∀ n ∈ dims, 0 < n) (hax : dims.length < 32)
    (hsize : dims.prod ≤ 2 ^ 32) : CubeDecomp.build F64 self nprocs dims = CubeDecomp.build Dbl self nprocs dims := by
  have hE := EnumOK.of_prod hne hpos hax hsize
  by_cases hv : validList nprocs dims = []
  · rw [build_none self nprocs dims hE hv, build_none self nprocs dims hE hv]
  · rw [build_some self nprocs dims hE hv, build_some self nprocs dims hE hv]
    have hval : ∀ d ∈ validList nprocs dims, ValidDecomp nprocs dims d := by
      intro d hd
      obtain ⟨h1, h2⟩ := (mem_validList hE nprocs d).1 hd
      refine ⟨h1, ?_⟩
      have := (accepts_iff (by omega) (by omega) ((prod_le_of_dvd h1 hpos).trans hsize)).1 h2
      exact_mod_cast this
    have hlt : ∀ a ∈ validList nprocs dims, costW Dbl dims a < HasMax.dblMax := by
      intro a ha
      have h1 := hval a ha
      obtain ⟨e, l1, l2⟩ := volW_eq h1 hp1 hpos hsize
      unfold costW
      rw [e, Dbl.rounded.lt]
      refine lt_of_le_of_lt ((le_abs_self _).trans (quot_le Dbl.rounded (by norm_num) l1 l2 (surfW_le h1.1 hpos hax hsize))) ?_
      exact lt_of_lt_of_le (by norm_num) max_ge
    congr 3
    refine bestOf_congr (fun a ha => ?_) hlt fun a ha b hb => ?_
    · rw [cost_fin (hval a ha) hp1 hpos hax hsize]
      exact hlt a ha
    · rw [cost_fin (hval a ha) hp1 hpos hax hsize, cost_fin (hval b hb) hp1 hpos hax hsize]
      exact F64.fin_lt

/-- The decomposition chosen with IEEE doubles is that of exact arithmetic. -/
theorem build_double (self : CubeDecomp) (nprocs : Nat) (dims : List Nat) (hp1 : 1 ≤ nprocs)
    (hp2 : nprocs < 2 ^ 31) (hne : dims ≠ []) (hpos : ∀ n ∈ dims, 0 < n) (hax : dims.length < 32)
    (hsize : dims.prod ≤ 2 ^ 32) : CubeDecomp.build F64 self nprocs dims = CubeDecomp.build ℚ self nprocs dims := by
  rw [build_fin self nprocs dims hp1 hp2 hne hpos hax hsize]
  exact build_rounded Dbl.rounded (by norm_num) (by norm_num) (lt_of_lt_of_le (by norm_num) max_ge) self nprocs dims hp1 hp2
    hne hpos hax hsize

end Fidi
