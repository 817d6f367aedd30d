import Verif.Props.MainsMpiDouble
import Verif.Props.FilterRounding
import Verif.Lemmas.DblInt
import Verif.Lemmas.FilterAlgebra

/-
The stencil, the initial field and the check sums of laplacian with IEEE numbers.
-/
set_option linter.unusedSectionVars false
set_option exponentiation.threshold 1100

namespace Fidi
open Spec Finset

local notation "ρ₀" => (1 / 2 ^ 53 : ℚ)
local notation "η₀" => (1 / 2 ^ 1075 : ℚ)

/-! ### Check sums of a distributed field -/

theorem piece_volume {dims d : List Nat} (hd : List.Forall₂ (fun n k => k ∣ n) dims d) {x : List Nat} (hx : x.length = d.length) :
    (cellList (subLo (localExtents dims d) x) (subHi (localExtents dims d) x)).length = (localExtents dims d).prod := by
  rw [length_cellList (by simp [subLo, subHi])]
  have hl : x.length = (localExtents dims d).length := by rw [hx, length_localExtents hd]
  clear hx
  generalize localExtents dims d = L at hl
  unfold volume
  congr 1
  induction L generalizing x with
  | nil => simp [extents, subLo, subHi]
  | cons l L ih =>
    cases x with
    | nil => cases hl
    | cons y x =>
      have := ih (x := x) (by simpa using hl)
      simp only [extents, subLo, subHi, List.zipWith_cons_cons] at this ⊢
      rw [this, Nat.add_mul, Nat.one_mul, Nat.add_sub_cancel_left]

/-- Check sums with overflow are those without. -/
theorem gridSum_fin {dims d : List Nat} (hd : List.Forall₂ (fun n k => k ∣ n) dims d)
    (hL : (localExtents dims d).prod ≤ 2 ^ 31) (hD : d.prod ≤ 2 ^ 31) {v : List Nat → Dbl} {v' : List Nat → F64}
    (hfin : ∀ g, InGrid dims g → v' g = .fin (v g)) (hb : ∀ g, InGrid dims g → |(v g).val| ≤ 2 ^ 900) {s : F64}
    (hs : GridSum dims d v' s) : ∃ x, s = .fin x ∧ GridSum dims d v x := by
  have hs' := (gridSum_congr hd hfin).1 hs
  unfold GridSum at hs' ⊢
  have hbd : ∀ x ∈ cellList (List.replicate d.length 0) d, ∀ y ∈ (cellList (subLo (localExtents dims d) x)
      (subHi (localExtents dims d) x)).map v, |y.val| ≤ 2 ^ 900 := by
    intro x hx y hy
    obtain ⟨t, ht, rfl⟩ := List.mem_map.1 hy
    rw [mem_cellList (by simp), inBox_zero] at hx
    rw [mem_cellList (by simp [subLo, subHi])] at ht
    exact hb _ (sub_inGrid hd hx ht)
  have hlen : ∀ x ∈ cellList (List.replicate d.length 0) d, ((cellList (subLo (localExtents dims d) x)
      (subHi (localExtents dims d) x)).map v).length ≤ 2 ^ 31 := by
    intro x hx
    rw [mem_cellList (by simp), inBox_zero] at hx
    rw [List.length_map, piece_volume hd hx.length_eq]
    exact hL
  have e : ((cellList (List.replicate d.length 0) d).map fun x =>
      boxSum (subLo (localExtents dims d) x) (subHi (localExtents dims d) x) fun g => F64.fin (v g)) =
      ((cellList (List.replicate d.length 0) d).map fun x =>
        boxSum (subLo (localExtents dims d) x) (subHi (localExtents dims d) x) v).map F64.fin := by
    rw [List.map_map]
    apply List.map_congr_left
    intro x hx
    have := sum_fin _ (hlen x hx) (hbd x hx)
    rw [List.map_map] at this
    exact this
  rw [e, ← mpiSum_iff, mpiSum_fin] at hs'
  · obtain ⟨t, rfl, ht⟩ := hs'
    exact ⟨t, rfl, mpiSum_iff.1 ht⟩
  · rw [List.length_map, length_cellList (by simp), volume_zero]
    exact hD
  · intro y hy
    obtain ⟨x, hx, rfl⟩ := List.mem_map.1 hy
    exact fold_le _ (hlen x hx) (hbd x hx)

/-- Rounding errors of a check sum. -/
theorem gridSum_error {dims d : List Nat} (hd : List.Forall₂ (fun n k => k ∣ n) dims d) (hp : ∀ n ∈ dims, 0 < n)
    {v : List Nat → Dbl} {s : Dbl} (hs : GridSum dims d v s) :
    |s.val - total dims fun g => (v g).val| ≤
      (1 + ρ₀) ^ ((localExtents dims d).prod + d.prod) *
        ((total dims fun g => |(v g).val|) + ((dims.prod + d.prod : Nat) : ℚ) * η₀) - total dims fun g => |(v g).val| := by
  set coords := cellList (List.replicate d.length 0) d with hc
  set parts := coords.map fun x => (cellList (subLo (localExtents dims d) x) (subHi (localExtents dims d) x)).map v with hparts
  have hpl : parts.length = d.prod := by
    rw [hparts, List.length_map, hc, length_cellList (by simp), volume_zero]
  have h := checkSum_error Dbl.rounded (L := (localExtents dims d).prod) parts (by
    intro l hl
    obtain ⟨x, hx, rfl⟩ := List.mem_map.1 hl
    rw [hc, mem_cellList (by simp), inBox_zero] at hx
    rw [List.length_map, piece_volume hd hx.length_eq]) (t := s) (by
    rw [mpiSum_iff, hparts, List.map_map]
    exact hs)
  have hflat : ∀ f : Dbl → ℚ, (parts.flatten.map f).sum = total dims fun g => f (v g) := by
    intro f
    have hperm := pieces_perm hd hp
    have e : parts.flatten.map f = (coords.flatMap fun x =>
        cellList (subLo (localExtents dims d) x) (subHi (localExtents dims d) x)).map fun g => f (v g) := by
      rw [hparts, ← List.flatMap_def, List.map_flatMap, List.map_flatMap]
      simp only [List.map_map]
      rfl
    rw [e, (hperm.map _).sum_eq]
    exact sum_cells hp (nodup_cellList _ _) (fun g => by rw [mem_cellList (by simp), inBox_zero]) _
  rw [hflat, hflat, hpl, Nat.mul_comm d.prod, localExtents_prod_mul hd] at h
  exact h

/-! ### The stencil -/

/-- The stencil of laplacian, with weights as doubles. -/
def lapDouble (n : Nat) : List (List Int × Dbl) :=
  ((List.range n).map fun i => ((List.replicate n 0).set i (-1), 1)) ++
    [(List.replicate n 0, ⟨-2 * (n : ℚ)⟩)] ++
    (List.range n).reverse.map fun i => ((List.replicate n 0).set i 1, 1)

theorem lapDouble_fin {n : Nat} (hn : n < 32) : lapStencil (R := F64) n = finStencil (lapDouble n) := by
  have hw : ∀ m : Nat, m < 32 → -((2 : Nat) : F64) * (m : F64) = .fin ⟨-2 * (m : ℚ)⟩ := by decide +kernel
  unfold lapStencil lapDouble finStencil
  rw [hw n hn]
  simp only [List.map_append, List.map_map, List.map_cons, List.map_nil]
  rfl

theorem lapDouble_val (n : Nat) : stencilVal Dbl.val (lapDouble n) = lapStencil (R := ℚ) n := by
  unfold lapStencil lapDouble stencilVal
  simp only [List.map_append, List.map_map, List.map_cons, List.map_nil]
  push_cast
  rfl

theorem lapDouble_length (n : Nat) : (lapDouble n).length = 2 * n + 1 := by
  unfold lapDouble
  simp only [List.length_append, List.length_map, List.length_range, List.length_reverse, List.length_cons, List.length_nil]
  omega

theorem lap_offset {R : Type} [One R] [Mul R] [Neg R] [NatCast R] {n : Nat} : ∀ p ∈ lapStencil (R := R) n, p.1.length = n := by
  intro p hp
  unfold lapStencil at hp
  simp only [List.mem_append, List.mem_map, List.mem_singleton, List.mem_reverse] at hp
  rcases hp with (⟨i, _, rfl⟩ | rfl) | ⟨i, _, rfl⟩ <;> simp

theorem lapDouble_offset {n : Nat} : ∀ p ∈ lapDouble n, p.1.length = n := by
  intro p hp
  unfold lapDouble at hp
  simp only [List.mem_append, List.mem_map, List.mem_singleton, List.mem_reverse] at hp
  rcases hp with (⟨i, _, rfl⟩ | rfl) | ⟨i, _, rfl⟩ <;> simp

theorem lap_weightSum (n : Nat) : weightSum (lapStencil (R := ℚ) n) = 4 * n := by
  unfold weightSum lapStencil
  simp only [List.map_append, List.map_map, List.map_cons, List.map_nil, List.sum_append, List.sum_cons, List.sum_nil]
  have e : ∀ l : List Nat, ∀ f : Nat → List Int, (l.map ((fun p : List Int × ℚ => |p.2|) ∘ fun i => (f i, 1))).sum = l.length := by
    intro l f
    induction l with
    | nil => simp
    | cons a l ih => rw [List.map_cons, List.sum_cons, ih]; simp; ring
  rw [e, e, List.length_reverse, List.length_range]
  push_cast
  rw [abs_mul, abs_neg, abs_of_nonneg (by norm_num : (0 : ℚ) ≤ 2), abs_of_nonneg (Nat.cast_nonneg n : (0 : ℚ) ≤ n)]
  ring

theorem lap_sum_zero (n : Nat) : ((lapStencil (R := ℚ) n).map Prod.snd).sum = 0 := by
  unfold lapStencil
  simp only [List.map_append, List.map_map, List.map_cons, List.map_nil, List.sum_append, List.sum_cons, List.sum_nil]
  have e : ∀ l : List Nat, ∀ f : Nat → List Int, (l.map (Prod.snd ∘ fun i => (f i, (1 : ℚ)))).sum = l.length := by
    intro l f
    induction l with
    | nil => simp
    | cons a l ih => rw [List.map_cons, List.sum_cons, ih]; simp; ring
  rw [e, e, List.length_reverse, List.length_range]
  push_cast
  ring

theorem lapIter_eq {dims : List Nat} (u : List Nat → ℚ) (k : Nat) : ∀ g, InGrid dims g →
    stencilIter dims (lapStencil (R := ℚ) dims.length) u k g = (laplace dims)^[k] u g := by
  induction k with
  | zero => intro g _; rfl
  | succ k ih =>
    intro g hg
    rw [Function.iterate_succ_apply']
    show stencilStep dims _ (stencilIter dims _ u k) g = _
    rw [step_congr lap_offset ih hg, stencilStep_perm (lapStencil_perm _), stencilStep_lap hg]

/-! ### The initial field -/

/-- The coordinate times 2 pi is finite. -/
theorem lapArg_fin {p : Dbl} (hp : |p.val| ≤ 4) {N i : Nat} (hN : 0 < N) (hN2 : N < 2 ^ 31) (hi : i < N) :
    ((2 : Nat) : F64) * .fin p * (0 + ((i : F64) + 1 / ((2 : Nat) : F64)) * ((1 - 0) / (N : F64))) =
      .fin (⟨2⟩ * p * (0 + ((i : Dbl) + ⟨1 / 2⟩) * (1 / (N : Dbl)))) := by
  have big : ∀ x : ℚ, x ≤ 2 ^ 100 → x ≤ maxFinite := fun x hx => max_ge_200 (hx.trans (by norm_num))
  have e2 : ((2 : Nat) : F64) = .fin ⟨2⟩ := by decide +kernel
  have e3 : (1 : F64) / .fin ⟨2⟩ = .fin ⟨1 / 2⟩ := by decide +kernel
  have e4 : (1 : F64) - 0 = .fin 1 := by decide +kernel
  have hiq : (i : ℚ) ≤ 2147483648 := by exact_mod_cast (by omega : i ≤ 2147483648)
  have hNq : (N : ℚ) ≤ 2147483648 := by exact_mod_cast (by omega : N ≤ 2147483648)
  have hN1 : (1 : ℚ) ≤ N := by exact_mod_cast hN
  have b0 := abs_dbl_nat i
  have b1 := abs_dbl_nat N
  have f0 : ((i : Nat) : F64) = .fin (i : Dbl) := F64.fin_nat (big _ (by norm_num; linarith))
  have f1 : ((N : Nat) : F64) = .fin (N : Dbl) := F64.fin_nat (big _ (by norm_num; linarith))
  have c0 := Dbl.rounded.nat N
  rw [abs_of_nonneg (Nat.cast_nonneg N : (0 : ℚ) ≤ N), abs_le] at c0
  have c1 : 1 / 2 ≤ (N : Dbl).val := by
    have : 1 / 2 ^ 53 * (N : ℚ) ≤ 1 / 2 * N := mul_le_mul_of_nonneg_right (by norm_num) (by linarith)
    linarith [c0.1]
  have b2 := RoundsTo.abs_le (Dbl.rounded.div 1 (N : Dbl))
  have c2 : |(1 : Dbl).val / (N : Dbl).val| ≤ 2 := by
    rw [Dbl.rounded.one, abs_of_pos (by positivity), div_le_iff₀ (by linarith)]
    linarith
  have f2 : F64.fin 1 / .fin (N : Dbl) = .fin (1 / (N : Dbl)) := F64.fin_div (dbl_nat_ne hN) (big _ (by norm_num; linarith))
  have b3 := RoundsTo.abs_le (Dbl.rounded.add (i : Dbl) ⟨1 / 2⟩)
  have c3 := abs_add_le (i : Dbl).val (1 / 2)
  rw [abs_of_pos (by norm_num : (0 : ℚ) < 1 / 2)] at c3
  have d3 : |((i : Dbl) + ⟨1 / 2⟩).val| ≤ 2 ^ 34 := by norm_num at b3 c3 ⊢; linarith
  have f3 : F64.fin (i : Dbl) + .fin ⟨1 / 2⟩ = .fin ((i : Dbl) + ⟨1 / 2⟩) := F64.fin_add (big _ (d3.trans (by norm_num)))
  have d2 : |(1 / (N : Dbl)).val| ≤ 5 := by linarith
  generalize (i : Dbl) + ⟨1 / 2⟩ = y at d3 f3 ⊢
  generalize 1 / (N : Dbl) = h at d2 f2 ⊢
  have b4 := RoundsTo.abs_le (Dbl.rounded.mul y h)
  have c4 : |y.val * h.val| ≤ 2 ^ 34 * 5 := by
    rw [abs_mul]
    exact mul_le_mul d3 d2 (abs_nonneg _) (by norm_num)
  have d4 : |(y * h).val| ≤ 2 ^ 38 := by linarith [(by norm_num : 2 * ((2 : ℚ) ^ 34 * 5) + 1 ≤ 2 ^ 38)]
  have f4 : F64.fin y * .fin h = .fin (y * h) := F64.fin_mul (big _ (d4.trans (by norm_num)))
  have b5 := RoundsTo.abs_le (Dbl.rounded.add 0 (y * h))
  rw [Dbl.rounded.zero, zero_add] at b5
  have d5 : |(0 + y * h).val| ≤ 2 ^ 40 := by norm_num at d4 ⊢; linarith
  have f5 : F64.fin 0 + .fin (y * h) = .fin (0 + y * h) := F64.fin_add (big _ (d5.trans (by norm_num)))
  have b6 := RoundsTo.abs_le (Dbl.rounded.mul ⟨2⟩ p)
  have c6 : |(2 : ℚ) * p.val| ≤ 2 * 4 := by
    rw [abs_mul, abs_of_pos (by norm_num : (0 : ℚ) < 2)]
    linarith
  have d6 : |((⟨2⟩ : Dbl) * p).val| ≤ 17 := by
    have : |((⟨2⟩ : Dbl) * p).val| ≤ 2 * |(2 : ℚ) * p.val| + 1 := b6
    linarith
  have f6 : F64.fin ⟨2⟩ * .fin p = .fin (⟨2⟩ * p) := F64.fin_mul (big _ (d6.trans (by norm_num)))
  have b7 := RoundsTo.abs_le (Dbl.rounded.mul (⟨2⟩ * p) (0 + y * h))
  have c7 : |((⟨2⟩ : Dbl) * p).val * (0 + y * h).val| ≤ 17 * 2 ^ 40 := by
    rw [abs_mul]
    exact mul_le_mul d6 d5 (abs_nonneg _) (by norm_num)
  rw [e2, e3, e4, f0, f1, f2, f3, f4, f6, show (0 : F64) = .fin 0 from rfl, f5]
  exact F64.fin_mul (big _ (by linarith [(by norm_num : 2 * (17 * (2 : ℚ) ^ 40) + 1 ≤ 2 ^ 100)]))

/-- The initial field is finite and at most 1 up to rounding. -/
theorem lapInit_fin {sin : F64 → F64} {pi : F64} (hsin : ∀ x : Dbl, ∃ y : Dbl, sin (.fin x) = .fin y ∧ |y.val| ≤ 1)
    (hpi : ∃ p : Dbl, pi = .fin p ∧ |p.val| ≤ 4) {N : Nat} (hN2 : N < 2 ^ 31) {n : Nat} (hn : n < 32) {g : List Nat}
    (hg : InGrid (List.replicate n N) g) : ∃ y : Dbl, lapInit sin pi N g = .fin y ∧ |y.val| ≤ (1 + ρ₀) ^ (2 * n) := by
  obtain ⟨p, rfl, hp⟩ := hpi
  have hlen : g.length = n := by rw [hg.length_eq, List.length_replicate]
  have hmem : ∀ i ∈ g, i < N := by
    intro i hi
    obtain ⟨k, hk, rfl⟩ := List.mem_iff_getElem.1 hi
    have h1 := inGrid_getElem hg k (by rw [← hg.length_eq]; exact hk) hk
    rwa [List.getElem_replicate] at h1
  have key : ∀ (l : List Nat) (a : Dbl) (m : Nat), (∀ i ∈ l, i < N) → |a.val| ≤ (1 + ρ₀) ^ (2 * m) → m + l.length ≤ n →
      ∃ y : Dbl, l.foldl (fun (res : F64) (i : Nat) => res * sin (((2 : Nat) : F64) * .fin p *
        (0 + ((i : F64) + 1 / ((2 : Nat) : F64)) * ((1 - 0) / (N : F64))))) (.fin a) = .fin y ∧
        |y.val| ≤ (1 + ρ₀) ^ (2 * (m + l.length)) := by
    intro l
    induction l with
    | nil => intro a m _ ha _; exact ⟨a, rfl, by simpa using ha⟩
    | cons i l ih =>
      intro a m hl ha hm
      have hi := hl i List.mem_cons_self
      have hx := lapArg_fin hp (by omega) hN2 hi
      obtain ⟨z, hz, hz1⟩ := hsin (⟨2⟩ * p * (0 + ((i : Dbl) + ⟨1 / 2⟩) * (1 / (N : Dbl))))
      rw [List.length_cons] at hm ⊢
      have h1 : 1 ≤ (1 + ρ₀) ^ (2 * m) := one_le_pow₀ (by norm_num)
      have h2 : |(a * z).val| ≤ (1 + ρ₀) ^ (2 * (m + 1)) := by
        have h3 := abs_le_of_near (Dbl.rounded.mul a z).1
        have h4 : |a.val * z.val| ≤ (1 + ρ₀) ^ (2 * m) * 1 := by
          rw [abs_mul]
          exact mul_le_mul ha hz1 (abs_nonneg _) (by positivity)
        have h5 : η₀ ≤ ρ₀ * (1 + ρ₀) ^ (2 * m) := by
          refine ((tiny_le 1075 (by norm_num)).trans (by norm_num : (1 : ℚ) / 2 ^ 200 ≤ ρ₀ * 1)).trans ?_
          exact mul_le_mul_of_nonneg_left h1 (by norm_num)
        have h6 : (1 + ρ₀) ^ (2 * (m + 1)) = (1 + ρ₀) ^ (2 * m) * ((1 + ρ₀) * (1 + ρ₀)) := by ring
        rw [h6]
        generalize (1 + ρ₀) ^ (2 * m) = b at h1 h4 h5
        generalize η₀ = t at h3 h5
        norm_num at h3 h4 h5 ⊢
        linarith
      have h7 : (1 + ρ₀) ^ (2 * (m + 1)) ≤ 2 ^ 200 := (pow_le_two (by omega)).trans (by norm_num)
      obtain ⟨y, e, hy⟩ := ih (a * z) (m + 1) (fun j hj => hl j (List.mem_cons_of_mem _ hj)) h2 (by omega)
      refine ⟨y, ?_, by rwa [Nat.add_right_comm, Nat.add_assoc m l.length 1] at hy⟩
      rw [List.foldl_cons, hx, hz, F64.fin_mul (max_ge_200 (h2.trans h7)), e]
  obtain ⟨y, h1, h2⟩ := key g 1 0 hmem (by rw [Dbl.rounded.one]; simp) (by omega)
  exact ⟨y, h1, by rwa [Nat.zero_add, hlen] at h2⟩

/-! ### The field after the ten applications, and its check sums -/

/-- Rounding error of `m` operations. -/
theorem grow_le {m : Nat} (hm : m ≤ 2 ^ 52) : (1 + ρ₀) ^ m - 1 ≤ m / 2 ^ 52 := by
  have hq : (m : ℚ) ≤ 4503599627370496 := by exact_mod_cast (by omega : m ≤ 4503599627370496)
  have h1 := pow_mul_le_one (x := ρ₀) (y := m * ρ₀) (n := m) (by norm_num) (by norm_num) (le_refl _)
  have h2 : (1 : ℚ) ≤ (1 + ρ₀) ^ m := one_le_pow₀ (by norm_num)
  have h0 : (0 : ℚ) ≤ m := Nat.cast_nonneg m
  generalize (1 + ρ₀) ^ m = X at h1 h2
  norm_num at h1 ⊢
  have h3 : (m : ℚ) * (1 / 9007199254740992) ≤ 1 / 2 := by linarith
  have h4 : X ≤ 2 := by nlinarith
  nlinarith

/-- Bound on the field after up to ten applications. -/
theorem lap_bound {n : Nat} (h1 : 1 ≤ n) (hn : n < 32) {k : Nat} (hk : k ≤ 10) :
    iterBound (stencilGrowth (2 * n + 1) ρ₀ 0 * (4 * n)) (stencilUnderflow (2 * n + 1) ρ₀ η₀) k ((1 + ρ₀) ^ (2 * n)) + 2 * η₀ ≤
      (4 * n) ^ 10 * (1 + ρ₀) ^ (22 * n + 21) := by
  have hnq : (1 : ℚ) ≤ n := by exact_mod_cast h1
  have hg : stencilGrowth (2 * n + 1) ρ₀ 0 = (1 + ρ₀) ^ (2 * n + 2) := by unfold stencilGrowth; rw [add_zero, mul_one]
  have hX : (1 : ℚ) ≤ (1 + ρ₀) ^ (2 * n + 2) := one_le_pow₀ (by norm_num)
  have hq : 1 ≤ (1 + ρ₀) ^ (2 * n + 2) * (4 * (n : ℚ)) := by nlinarith
  have hz0 := stencilUnderflow_nonneg (r := ρ₀) (η := η₀) (by positivity) (by positivity) (2 * n + 1)
  have hz : stencilUnderflow (2 * n + 1) ρ₀ η₀ ≤ 1 / 2 ^ 100 := by
    unfold stencilUnderflow
    have a1 : (1 + ρ₀) ^ (2 * n + 1) ≤ 2 := pow_le_two (by omega)
    have a2 : ((2 * n + 1 : Nat) : ℚ) ≤ 63 := by exact_mod_cast (by omega : 2 * n + 1 ≤ 63)
    have a3 := tiny_le 1075 (by norm_num)
    have a4 : 2 * ((2 * n + 1 : Nat) : ℚ) * (1 + ρ₀) ^ (2 * n + 1) ≤ 2 * 63 * 2 :=
      mul_le_mul (by linarith) a1 (by positivity) (by norm_num)
    refine (mul_le_mul a4 a3 (by positivity) (by norm_num)).trans (by norm_num)
  have he := tiny_le 1075 (by norm_num)
  have hB : (1 : ℚ) ≤ (1 + ρ₀) ^ (2 * n) := one_le_pow₀ (by norm_num)
  rw [hg]
  refine (add_le_add_left (iterBound_le hq hz0 k) _).trans ?_
  have hkq : (k : ℚ) ≤ 10 := by exact_mod_cast hk
  have hpow : ((1 + ρ₀) ^ (2 * n + 2) * (4 * (n : ℚ))) ^ k ≤ ((1 + ρ₀) ^ (2 * n + 2) * (4 * (n : ℚ))) ^ 10 :=
    pow_le_pow_right₀ hq hk
  have hQ : 1 ≤ ((1 + ρ₀) ^ (2 * n + 2) * (4 * (n : ℚ))) ^ 10 := one_le_pow₀ hq
  have e1 : ((1 + ρ₀) ^ (2 * n + 2) * (4 * (n : ℚ))) ^ 10 * ((1 + ρ₀) ^ (2 * n) * (1 + ρ₀)) =
      (4 * (n : ℚ)) ^ 10 * (1 + ρ₀) ^ (22 * n + 21) := by
    rw [mul_pow, ← pow_mul, ← pow_succ, mul_comm ((1 + ρ₀) ^ _), mul_assoc, ← pow_add]
    congr 2
    omega
  rw [← e1]
  generalize ((1 + ρ₀) ^ (2 * n + 2) * (4 * (n : ℚ))) ^ 10 = Q at hpow hQ
  generalize ((1 + ρ₀) ^ (2 * n + 2) * (4 * (n : ℚ))) ^ k = Q' at hpow
  generalize stencilUnderflow (2 * n + 1) ρ₀ η₀ = z at hz hz0
  have he0 : 0 ≤ η₀ := by positivity
  generalize η₀ = t at he he0
  generalize (1 + ρ₀) ^ (2 * n) = B at hB
  have hkz : (k : ℚ) * z ≤ 10 * z := mul_le_mul_of_nonneg_right hkq hz0
  have hkz0 : 0 ≤ (k : ℚ) * z := mul_nonneg (Nat.cast_nonneg k) hz0
  have h2 : Q' * (B + k * z) ≤ Q * (B + 10 * z) := mul_le_mul hpow (by linarith) (by linarith) (by linarith)
  have h3 : B + 10 * z + 2 * t ≤ B * (1 + ρ₀) := by
    have h4 : 10 * ((1 : ℚ) / 2 ^ 100) + 2 * (1 / 2 ^ 200) ≤ 1 * ρ₀ := by norm_num
    have h5 : 1 * ρ₀ ≤ B * ρ₀ := mul_le_mul_of_nonneg_right hB (by norm_num)
    linarith
  have h6 := mul_le_mul_of_nonneg_left h3 (by linarith : 0 ≤ Q)
  nlinarith

/-- The field of laplacian with IEEE numbers, and its check sums. -/
theorem lap_double {N n : Nat} (h1 : 1 ≤ n) (hn : n < 32) (hN0 : 0 < N) (hN : N ∣ 2 ^ 64) {u : List Nat → Dbl} {u' : List Nat → F64}
    (hu : ∀ g, InGrid (List.replicate n N) g → u' g = .fin (u g))
    (hb : ∀ g, InGrid (List.replicate n N) g → |(u g).val| ≤ (1 + ρ₀) ^ (2 * n)) :
    ∃ v : List Nat → Dbl,
      (∀ g, InGrid (List.replicate n N) g → stencilIter64 (List.replicate n N) (lapStencil n) u' 10 g = .fin (v g) ∧
        |(v g).val - (laplace (List.replicate n N))^[10] (fun g => (u g).val) g| ≤ (4 * n) ^ 10 * ((22 * n + 21) / 2 ^ 52)) ∧
      ∀ d sz, ValidDecomp sz (List.replicate n N) d → N ^ n ≤ 2 ^ 31 → ∀ s,
        GridSum (List.replicate n N) d (stencilIter64 (List.replicate n N) (lapStencil n) u' 10) s →
        ∃ x : Dbl, s = .fin x ∧ |x.val| ≤ (4 * n) ^ 10 * N ^ n * (((N ^ n / sz : Nat) + sz + 22 * n + 21) / 2 ^ 52) := by
  set dims := List.replicate n N with hdims
  have hdl : dims.length = n := by rw [hdims, List.length_replicate]
  have hpos : ∀ m ∈ dims, 0 < m := by
    intro m hm
    rw [(List.mem_replicate.1 hm).2]
    exact hN0
  have hiter : stencilIter64 dims (lapStencil (R := F64) n) u' 10 = (shStep (shiftMod dims) (finStencil (lapDouble n)))^[10] u' := by
    rw [stencilIter64_pow (fun m hm => by rw [(List.mem_replicate.1 hm).2]; exact hN), stencilIter_sh, lapDouble_fin hn]
  have hlim : ∀ i, i ≤ 10 → iterBound (stencilGrowth (lapDouble n).length ρ₀ 0 * weightSum (stencilVal Dbl.val (lapDouble n)))
      (stencilUnderflow (lapDouble n).length ρ₀ η₀) i ((1 + ρ₀) ^ (2 * n)) + 2 * η₀ ≤ (4 * n) ^ 10 * (1 + ρ₀) ^ (22 * n + 21) := by
    intro i hi
    rw [lapDouble_length, lapDouble_val, lap_weightSum]
    exact lap_bound h1 hn hi
  have hη : (0 : ℚ) ≤ η₀ := by positivity
  have hsize : (4 * (n : ℚ)) ^ 10 * (1 + ρ₀) ^ (22 * n + 21) ≤ 2 ^ 900 := by
    have a1 : (4 * (n : ℚ)) ^ 10 ≤ 128 ^ 10 := by
      refine pow_le_pow_left₀ (by positivity) ?_ _
      have : (n : ℚ) ≤ 32 := by exact_mod_cast hn.le
      linarith
    have a2 : (1 + ρ₀) ^ (22 * n + 21) ≤ 2 := pow_le_two (by omega)
    exact (mul_le_mul a1 a2 (by positivity) (by positivity)).trans (by norm_num)
  have hfin := shStep_fin (N := dims) (sh := shiftMod dims) (lapDouble n)
    (fun p hp g hg => shiftMod_inGrid hg (by rw [lapDouble_offset p hp, hdl])) u u' hu (by positivity) hb 10 (fun i hi => by
      refine le_trans ?_ (hsize.trans (pow_le_pow_right₀ (by norm_num) (by norm_num)))
      linarith [hlim i hi])
  obtain ⟨herr1, herr2⟩ := stencil_error (sh := shiftMod dims) Dbl.rounded (le_refl 0) (maxNorm dims)
    (stencilNear_self Dbl.val (lapDouble n))
    (fun p hp w b h => maxNorm_shift (by
      rw [lapDouble_val] at hp
      rw [lap_offset p hp, hdl]) w b h) u hb 10
  rw [mul_one] at herr1 herr2
  have hI := hlim 10 (le_refl _)
  rw [lapDouble_val] at herr1 herr2 hI
  rw [lap_weightSum] at herr1 herr2 hI
  set I := iterBound (stencilGrowth (lapDouble n).length ρ₀ 0 * (4 * n)) (stencilUnderflow (lapDouble n).length ρ₀ η₀) 10
    ((1 + ρ₀) ^ (2 * n)) with hIdef
  set v := (shStep (shiftMod dims) (lapDouble n))^[10] u with hv
  have hexact : (shStep (shiftMod dims) (lapStencil (R := ℚ) n))^[10] (fun g => (u g).val) =
      stencilIter dims (lapStencil n) (fun g => (u g).val) 10 := (stencilIter_sh _ _ _ _).symm
  rw [hexact] at herr2
  have hA0 : (0 : ℚ) ≤ (4 * n) ^ 10 := by positivity
  have hB1 : (1 : ℚ) ≤ (1 + ρ₀) ^ (2 * n) := one_le_pow₀ (by norm_num)
  have hAB : (4 * (n : ℚ)) ^ 10 * 1 ≤ (4 * n) ^ 10 * (1 + ρ₀) ^ (2 * n) := mul_le_mul_of_nonneg_left hB1 hA0
  refine ⟨v, fun g hg => ⟨by rw [hiter]; exact hfin g hg, ?_⟩, ?_⟩
  · have h2 := herr2 g hg
    have h3 := lapIter_eq (dims := dims) (fun g => (u g).val) 10 g hg
    rw [hdl] at h3
    dsimp only at h2
    rw [h3] at h2
    have h4 := mul_le_mul_of_nonneg_left (grow_le (m := 22 * n + 21) (by omega)) hA0
    push_cast at h4
    linarith
  · rintro d sz ⟨hd, hdp⟩ hcells s hs
    rw [hiter] at hs
    have hprod : dims.prod = N ^ n := by rw [hdims, List.prod_replicate]
    have hLD := localExtents_prod_mul hd
    rw [hprod, hdp] at hLD
    have hP0 : 0 < N ^ n := Nat.pow_pos hN0
    have hL0 : 0 < (localExtents dims d).prod := Nat.pos_of_ne_zero fun h => by rw [h, Nat.zero_mul] at hLD; omega
    have hD0 : 0 < sz := Nat.pos_of_ne_zero fun h => by rw [h, Nat.mul_zero] at hLD; omega
    have hLP : (localExtents dims d).prod = N ^ n / sz := by rw [← hLD, Nat.mul_div_cancel _ hD0]
    have hL31 : (localExtents dims d).prod ≤ 2 ^ 31 := le_trans (by nlinarith) hcells
    have hDP : sz ≤ N ^ n := by nlinarith
    obtain ⟨x, rfl, hx⟩ := gridSum_fin hd hL31 (by rw [hdp]; omega) hfin (fun g hg => (herr1 g hg).trans (by linarith)) hs
    refine ⟨x, rfl, ?_⟩
    have herr := gridSum_error hd hpos hx
    rw [hprod, hdp, hLP] at herr
    have hS : (total dims fun g => |(v g).val|) ≤ ((N ^ n : Nat) : ℚ) * I := by
      refine (total_mono hpos herr1).trans ?_
      unfold total
      rw [sum_const, card_range, hprod, nsmul_eq_mul]
    have hE : |total dims fun g => (v g).val| ≤ ((N ^ n : Nat) : ℚ) * (I - (4 * n) ^ 10 * (1 + ρ₀) ^ (2 * n)) := by
      have hz : total dims (stencilIter dims (lapStencil n) (fun g => (u g).val) 10) = 0 := by
        rw [total_stencilIter hpos (fun kv hkv => by rw [lap_offset kv hkv, hdl]), lap_sum_zero]
        simp
      have e : (total dims fun g => (v g).val) =
          total dims fun g => (v g).val - stencilIter dims (lapStencil n) (fun g => (u g).val) 10 g := by
        rw [← sub_zero (total dims fun g => (v g).val), ← hz]
        unfold total
        rw [sum_sub_distrib]
      rw [e]
      unfold total
      refine (abs_sum_le_sum_abs _ _).trans ?_
      refine (sum_le_sum fun i _ => herr2 _ (cellAt_inGrid hpos i)).trans ?_
      rw [sum_const, card_range, hprod, nsmul_eq_mul]
    have hM : (1 + ρ₀) ^ (N ^ n / sz + sz) * ((4 * (n : ℚ)) ^ 10 * (1 + ρ₀) ^ (22 * n + 21)) =
        (4 * (n : ℚ)) ^ 10 * (1 + ρ₀) ^ (N ^ n / sz + sz + 22 * n + 21) := by
      rw [mul_left_comm, ← pow_add]
      congr 2
    have hgrow := grow_le (m := N ^ n / sz + sz + 22 * n + 21) (by
      have : N ^ n / sz ≤ N ^ n := Nat.div_le_self _ _
      omega)
    have hX1 : (1 : ℚ) ≤ (1 + ρ₀) ^ (N ^ n / sz + sz) := one_le_pow₀ (by norm_num)
    have hPS : ((N ^ n + sz : Nat) : ℚ) ≤ 2 * ((N ^ n : Nat) : ℚ) := by exact_mod_cast (by omega : N ^ n + sz ≤ 2 * N ^ n)
    have hPq : (0 : ℚ) ≤ ((N ^ n : Nat) : ℚ) := Nat.cast_nonneg _
    have htri : |x.val| ≤ |x.val - total dims fun g => (v g).val| + |total dims fun g => (v g).val| := by
      have := abs_add_le (x.val - total dims fun g => (v g).val) (total dims fun g => (v g).val)
      rwa [sub_add_cancel] at this
    have hcastm : ((N ^ n / sz + sz + 22 * n + 21 : Nat) : ℚ) = ((N ^ n / sz : Nat) : ℚ) + sz + 22 * n + 21 := by push_cast; ring
    rw [hcastm] at hgrow
    rw [← Nat.cast_pow]
    generalize hPd : ((N ^ n : Nat) : ℚ) = P at *
    generalize ((N ^ n + sz : Nat) : ℚ) = PS at *
    generalize (1 + ρ₀) ^ (N ^ n / sz + sz + 22 * n + 21) = XM at *
    generalize (1 + ρ₀) ^ (N ^ n / sz + sz) = X at *
    generalize (1 + ρ₀) ^ (22 * n + 21) = Y at *
    generalize (total dims fun g => |(v g).val|) = S at *
    generalize η₀ = t at *
    generalize (4 * (n : ℚ)) ^ 10 = A at *
    have s1 : X * (S + PS * t) - S ≤ X * (P * I + 2 * P * t) - P * I := by
      have a1 : (X - 1) * S ≤ (X - 1) * (P * I) := mul_le_mul_of_nonneg_left hS (by linarith)
      have a2 : X * (PS * t) ≤ X * (2 * P * t) :=
        mul_le_mul_of_nonneg_left (mul_le_mul_of_nonneg_right hPS hη) (by linarith)
      linarith
    have s2 : X * (I + 2 * t) ≤ X * (A * Y) := mul_le_mul_of_nonneg_left hI (by linarith)
    rw [hM] at s2
    have s3 := mul_le_mul_of_nonneg_left s2 hPq
    have s4 := mul_le_mul_of_nonneg_left hAB hPq
    have s5 := mul_le_mul_of_nonneg_left hgrow (mul_nonneg hPq hA0)
    rw [mul_comm A P]
    linarith

end Fidi
