import Verif.Spec.FilterRounding
import Verif.Lemmas.Rounding
import Verif.Lemmas.DriversRun
import Mathlib.Tactic.GCongr

/-
Rounding errors of stencils and of sums over several processes.
-/
set_option linter.unusedSectionVars false

namespace Fidi
open Spec Upwind Finset

section terms
variable {R K : Type} [Zero R] [One R] [Add R] [Sub R] [Mul R] [Div R] [NatCast R] [IntCast R] [LT R] [DecidableLT R]
  [Field K] [LinearOrder K] [IsStrictOrderedRing K] {val : R → K} {r η tiny ε : K}

/-- A term of a stencil. -/
theorem term_error (H : Rounded R K val r η tiny) {a x : R} {α : K} (h : |val a - α| ≤ ε * |α|) :
    |val (a * x) - α * val x| ≤ ((1 + r) * (1 + ε) - 1) * (|α| * |val x|) + η := by
  have h0 := H.r_nonneg
  have h1 := (H.mul a x).1
  have h2 : |val a * val x - α * val x| ≤ ε * (|α| * |val x|) := by
    rw [← sub_mul, abs_mul, ← mul_assoc]
    exact mul_le_mul_of_nonneg_right h (abs_nonneg _)
  have h3 : |val a * val x| ≤ (1 + ε) * (|α| * |val x|) := by
    have := abs_add_le (val a * val x - α * val x) (α * val x)
    rw [sub_add_cancel, abs_mul α] at this
    linarith
  have h4 : |val (a * x) - α * val x| ≤ |val (a * x) - val a * val x| + |val a * val x - α * val x| := by
    have := abs_add_le (val (a * x) - val a * val x) (val a * val x - α * val x)
    rwa [sub_add_sub_cancel] at this
  have h5 := mul_le_mul_of_nonneg_left h3 h0
  linarith

/-- The terms of a stencil: their sizes and their errors. -/
theorem terms_error (H : Rounded R K val r η tiny) {st : List (List Int × R)} {st' : List (List Int × K)}
    (hn : StencilNear val ε st st') (x : List Int → R) :
    ((st.map fun p => p.2 * x p.1).map fun y => |val y|).sum ≤
        (1 + r) * (1 + ε) * (st'.map fun p => |p.2| * |val (x p.1)|).sum + st.length * η ∧
      |((st.map fun p => p.2 * x p.1).map val).sum - (st'.map fun p => p.2 * val (x p.1)).sum| ≤
        ((1 + r) * (1 + ε) - 1) * (st'.map fun p => |p.2| * |val (x p.1)|).sum + st.length * η := by
  unfold StencilNear at hn
  induction hn with
  | nil => simp
  | @cons p p' l l' h _ ih =>
    obtain ⟨ih1, ih2⟩ := ih
    have ht := term_error H (x := x p.1) h.2
    have hs : |val (p.2 * x p.1)| ≤ |val (p.2 * x p.1) - p'.2 * val (x p.1)| + |p'.2| * |val (x p.1)| := by
      have := abs_add_le (val (p.2 * x p.1) - p'.2 * val (x p.1)) (p'.2 * val (x p.1))
      rwa [sub_add_cancel, abs_mul p'.2] at this
    simp only [List.map_cons, List.sum_cons, List.length_cons, ← h.1]
    push_cast
    constructor
    · linarith
    · have e := abs_add_le (val (p.2 * x p.1) - p'.2 * val (x p.1))
        (((l.map fun p => p.2 * x p.1).map val).sum - (l'.map fun p => p.2 * val (x p.1)).sum)
      rw [add_sub_add_comm]
      linarith

/-- One application of a stencil at one cell. -/
theorem roundedFold_error (H : Rounded R K val r η tiny) {st : List (List Int × R)} {st' : List (List Int × K)}
    (hn : StencilNear val ε st st') (x : List Int → R) :
    |val (st.foldl (fun acc p => acc + p.2 * x p.1) 0) - (st'.map fun p => p.2 * val (x p.1)).sum| ≤
      (stencilGrowth st.length r ε - 1) * (st'.map fun p => |p.2| * |val (x p.1)|).sum + stencilUnderflow st.length r η := by
  have h0 := H.r_nonneg
  have hη := H.η_nonneg
  have e1 : st.foldl (fun acc p => acc + p.2 * x p.1) 0 = (st.map fun p => p.2 * x p.1).foldl (· + ·) 0 := by
    rw [List.foldl_map]
  have h1 := foldl_add_error H (st.map fun p => p.2 * x p.1) 0
  rw [H.zero, abs_zero, zero_add, zero_add, List.length_map, ← e1] at h1
  obtain ⟨h2, h3⟩ := terms_error H hn x
  set y := val (st.foldl (fun acc p => acc + p.2 * x p.1) 0)
  set T := ((st.map fun p => p.2 * x p.1).map fun y => |val y|).sum
  set s1 := ((st.map fun p => p.2 * x p.1).map val).sum
  set s2 := (st'.map fun p => p.2 * val (x p.1)).sum
  set S := (st'.map fun p => |p.2| * |val (x p.1)|).sum with hS
  have h4 : |y - s2| ≤ |y - s1| + |s1 - s2| := by
    have := abs_add_le (y - s1) (s1 - s2)
    rwa [sub_add_sub_cancel] at this
  have hp : (1 : K) ≤ (1 + r) ^ st.length := one_le_pow₀ (by linarith)
  have h5 : ((1 + r) ^ st.length - 1) * T ≤ ((1 + r) ^ st.length - 1) * ((1 + r) * (1 + ε) * S + st.length * η) :=
    mul_le_mul_of_nonneg_left h2 (by linarith)
  unfold stencilGrowth stencilUnderflow
  have e2 : ((1 + r) ^ (st.length + 1) * (1 + ε) - 1) * S + 2 * st.length * (1 + r) ^ st.length * η =
      ((1 + r) ^ st.length - 1) * ((1 + r) * (1 + ε) * S + st.length * η) + (1 + r) ^ st.length * (st.length * η) +
        (((1 + r) * (1 + ε) - 1) * S + st.length * η) := by
    rw [pow_succ]; ring
  rw [e2]
  have e3 : (1 + r) ^ st.length * (T + st.length * η) - T =
      ((1 + r) ^ st.length - 1) * T + (1 + r) ^ st.length * (st.length * η) := by ring
  rw [e3] at h1
  linarith

/-- The error of `MPI_Reduce`. -/
theorem sumTree_error (H : Rounded R K val r η tiny) {xs : List R} {t : R} (h : SumTree xs t) :
    ∃ n, xs.length = n + 1 ∧ |val t - (xs.map val).sum| ≤
      (1 + r) ^ n * ((xs.map fun x => |val x|).sum + n * η) - (xs.map fun x => |val x|).sum := by
  have h0 := H.r_nonneg
  have hη := H.η_nonneg
  have hnn : ∀ l : List R, 0 ≤ (l.map fun x => |val x|).sum := by
    intro l
    apply List.sum_nonneg; intro y hy
    obtain ⟨t, _, rfl⟩ := List.mem_map.1 hy
    exact abs_nonneg _
  have hle : ∀ l : List R, |(l.map val).sum| ≤ (l.map fun x => |val x|).sum := by
    intro l
    induction l with
    | nil => simp
    | cons x l ih =>
      rw [List.map_cons, List.sum_cons, List.map_cons, List.sum_cons]
      exact (abs_add_le _ _).trans (by linarith)
  induction h with
  | leaf x => exact ⟨0, rfl, by simp⟩
  | @node xs ys x y _ _ ih1 ih2 =>
    obtain ⟨a, ha, h1⟩ := ih1
    obtain ⟨b, hb, h2⟩ := ih2
    refine ⟨a + b + 1, by rw [List.length_append, ha, hb]; omega, ?_⟩
    rw [List.map_append, List.sum_append, List.map_append, List.sum_append]
    have X0 := hnn xs
    have Y0 := hnn ys
    have X1 := hle xs
    have Y1 := hle ys
    set X := (xs.map fun x => |val x|).sum
    set Y := (ys.map fun x => |val x|).sum
    set σ := (xs.map val).sum
    set τ := (ys.map val).sum
    have h3 := (H.add x y).1
    have h4 := abs_add_le (val x) (val y)
    have hx : |val x| ≤ |val x - σ| + |σ| := by
      have := abs_add_le (val x - σ) σ
      rwa [sub_add_cancel] at this
    have hy : |val y| ≤ |val y - τ| + |τ| := by
      have := abs_add_le (val y - τ) τ
      rwa [sub_add_cancel] at this
    have h5 : |val (x + y) - (σ + τ)| ≤ |val (x + y) - (val x + val y)| + (|val x - σ| + |val y - τ|) := by
      have e : val (x + y) - (σ + τ) = (val (x + y) - (val x + val y)) + ((val x - σ) + (val y - τ)) := by ring
      rw [e]
      exact (abs_add_le _ _).trans (by linarith [abs_add_le (val x - σ) (val y - τ)])
    have h6 : r * |val x + val y| ≤ r * ((1 + r) ^ a * (X + a * η) + (1 + r) ^ b * (Y + b * η)) :=
      mul_le_mul_of_nonneg_left (by linarith) h0
    have hA : 0 ≤ X + a * η := add_nonneg X0 (mul_nonneg (Nat.cast_nonneg _) hη)
    have hB : 0 ≤ Y + b * η := add_nonneg Y0 (mul_nonneg (Nat.cast_nonneg _) hη)
    have p1 : (1 + r) ^ (a + 1) * (X + a * η) ≤ (1 + r) ^ (a + b + 1) * (X + a * η) :=
      mul_le_mul_of_nonneg_right (pow_le_pow_right₀ (by linarith) (by omega)) hA
    have p2 : (1 + r) ^ (b + 1) * (Y + b * η) ≤ (1 + r) ^ (a + b + 1) * (Y + b * η) :=
      mul_le_mul_of_nonneg_right (pow_le_pow_right₀ (by linarith) (by omega)) hB
    have p3 : 1 * η ≤ (1 + r) ^ (a + b + 1) * η :=
      mul_le_mul_of_nonneg_right (one_le_pow₀ (by linarith)) hη
    push_cast
    have e1 : (1 + r) ^ (a + 1) * (X + a * η) = (1 + r) ^ a * (X + a * η) + r * ((1 + r) ^ a * (X + a * η)) := by
      rw [pow_succ]; ring
    have e2 : (1 + r) ^ (b + 1) * (Y + b * η) = (1 + r) ^ b * (Y + b * η) + r * ((1 + r) ^ b * (Y + b * η)) := by
      rw [pow_succ]; ring
    have e3 : (1 + r) ^ (a + b + 1) * (X + Y + ((a : K) + b + 1) * η) = (1 + r) ^ (a + b + 1) * (X + a * η) +
        (1 + r) ^ (a + b + 1) * (Y + b * η) + (1 + r) ^ (a + b + 1) * η := by ring
    rw [e3]
    linarith

/-- The check sum: every process adds its `L` values, the `p` results are added in any order. -/
theorem checkSum_error (H : Rounded R K val r η tiny) {L : Nat} (parts : List (List R)) (hL : ∀ l ∈ parts, l.length = L)
    {t : R} (ht : MpiSum (parts.map fun l => l.foldl (· + ·) 0) t) :
    |val t - (parts.flatten.map val).sum| ≤
      (1 + r) ^ (L + parts.length) * ((parts.flatten.map fun x => |val x|).sum + (parts.length * L + parts.length : Nat) * η) -
        (parts.flatten.map fun x => |val x|).sum := by
  have h0 := H.r_nonneg
  have hη := H.η_nonneg
  obtain ⟨ys, hp, htree⟩ := ht
  obtain ⟨n, hn, h1⟩ := sumTree_error H htree
  have hlen : parts.length = n + 1 := by rw [← hn, hp.length_eq, List.length_map]
  rw [(hp.map val).sum_eq, (hp.map fun x => |val x|).sum_eq] at h1
  have h2 : ∀ l : List (List R), (∀ x ∈ l, x.length = L) →
      |((l.map fun l => l.foldl (· + ·) 0).map val).sum - (l.flatten.map val).sum| ≤
        (1 + r) ^ L * ((l.flatten.map fun x => |val x|).sum + (l.length * L : Nat) * η) -
          (l.flatten.map fun x => |val x|).sum ∧
      ((l.map fun l => l.foldl (· + ·) 0).map fun x => |val x|).sum ≤
        (1 + r) ^ L * ((l.flatten.map fun x => |val x|).sum + (l.length * L : Nat) * η) := by
    intro l
    induction l with
    | nil => intro _; simp
    | cons x l ih =>
      intro hl
      obtain ⟨i1, i2⟩ := ih fun y hy => hl y (List.mem_cons_of_mem _ hy)
      have e := foldl_add_error H x 0
      rw [H.zero, abs_zero, zero_add, zero_add, hl x List.mem_cons_self] at e
      simp only [List.map_cons, List.sum_cons, List.flatten_cons, List.map_append, List.sum_append, List.length_cons]
      set y := val (x.foldl (· + ·) 0)
      set X := (x.map fun x => |val x|).sum
      have hX : |(x.map val).sum| ≤ X := by
        show |(x.map val).sum| ≤ (x.map fun x => |val x|).sum
        clear * -
        induction x with
        | nil => simp
        | cons a x ih =>
          rw [List.map_cons, List.sum_cons, List.map_cons, List.sum_cons]
          exact (abs_add_le _ _).trans (by linarith)
      have hy : |y| ≤ |y - (x.map val).sum| + |(x.map val).sum| := by
        have := abs_add_le (y - (x.map val).sum) (x.map val).sum
        rwa [sub_add_cancel] at this
      push_cast at i1 i2 ⊢
      have e3 : ∀ F : K, (1 + r) ^ L * (X + F + ((l.length : K) + 1) * L * η) =
          (1 + r) ^ L * (X + L * η) + (1 + r) ^ L * (F + l.length * L * η) := by intro F; ring
      rw [e3]
      constructor
      · rw [add_sub_add_comm]
        exact (abs_add_le _ _).trans (by linarith)
      · linarith
  obtain ⟨h3, h4⟩ := h2 parts hL
  have hT : 0 ≤ (parts.flatten.map fun x => |val x|).sum := by
    apply List.sum_nonneg; intro y hy
    obtain ⟨t, _, rfl⟩ := List.mem_map.1 hy
    exact abs_nonneg _
  set T := (parts.flatten.map fun x => |val x|).sum
  set s := (parts.flatten.map val).sum
  set s1 := ((parts.map fun l => l.foldl (· + ·) 0).map val).sum
  set T1 := ((parts.map fun l => l.foldl (· + ·) 0).map fun x => |val x|).sum
  have h5 : |val t - s| ≤ |val t - s1| + |s1 - s| := by
    have := abs_add_le (val t - s1) (s1 - s)
    rwa [sub_add_sub_cancel] at this
  have hpn : (1 : K) ≤ (1 + r) ^ n := one_le_pow₀ (by linarith)
  set Q := (1 + r) ^ L * (T + (parts.length * L : Nat) * η) with hQ
  have h6 : ((1 + r) ^ n - 1) * T1 ≤ ((1 + r) ^ n - 1) * Q := mul_le_mul_of_nonneg_left h4 (by linarith)
  have h7 : |val t - s| ≤ (1 + r) ^ n * Q + (1 + r) ^ n * (n * η) - T := by
    have e : (1 + r) ^ n * (T1 + n * η) - T1 = ((1 + r) ^ n - 1) * T1 + (1 + r) ^ n * (n * η) := by ring
    rw [e] at h1
    linarith
  have hc0 : (0 : K) ≤ T + (parts.length * L : Nat) * η := add_nonneg hT (mul_nonneg (Nat.cast_nonneg _) hη)
  have p1 : (1 + r) ^ n * Q ≤ (1 + r) ^ (L + parts.length) * (T + (parts.length * L : Nat) * η) := by
    rw [hQ, ← mul_assoc, ← pow_add]
    exact mul_le_mul_of_nonneg_right (pow_le_pow_right₀ (by linarith) (by omega)) hc0
  have p2 : (1 + r) ^ n * (n * η) ≤ (1 + r) ^ (L + parts.length) * (parts.length * η) := by
    have hn' : (n : K) ≤ parts.length := by exact_mod_cast (by omega : n ≤ parts.length)
    exact mul_le_mul (pow_le_pow_right₀ (by linarith) (by omega)) (mul_le_mul_of_nonneg_right hn' hη)
      (mul_nonneg (Nat.cast_nonneg _) hη) (pow_nonneg (by linarith) _)
  push_cast at *
  have e4 : (1 + r) ^ (L + parts.length) * (T + ((parts.length : K) * L + parts.length) * η) =
      (1 + r) ^ (L + parts.length) * (T + parts.length * L * η) + (1 + r) ^ (L + parts.length) * (parts.length * η) := by ring
  rw [e4]
  linarith

end terms

section iteration
variable {R K : Type} [Zero R] [One R] [Add R] [Sub R] [Mul R] [Div R] [NatCast R] [IntCast R] [LT R] [DecidableLT R]
  [Field K] [LinearOrder K] [IsStrictOrderedRing K] {val : R → K} {r η tiny ε m : K} {N : List Nat}
  {P : (List Nat → K) → K → Prop}

/-- One application of a stencil with the displacement `sh`. -/
def shStep {R : Type} [Zero R] [Add R] [Mul R] (sh : List Nat → List Int → List Nat) (st : List (List Int × R))
    (u : List Nat → R) (g : List Nat) : R :=
  st.foldl (fun acc p => acc + p.2 * u (sh g p.1)) 0

theorem stencilIter_sh {R : Type} [Zero R] [Add R] [Mul R] (N : List Nat) (st : List (List Int × R)) (u : List Nat → R)
    (k : Nat) : stencilIter N st u k = (shStep (shiftMod N) st)^[k] u := by
  induction k with
  | zero => rfl
  | succ k ih => rw [Function.iterate_succ_apply', ← ih]; rfl

theorem stencilIter64_sh {R : Type} [Zero R] [Add R] [Mul R] (N : List Nat) (st : List (List Int × R)) (u : List Nat → R)
    (k : Nat) : stencilIter64 N st u k = (shStep (shift64 N) st)^[k] u := by
  induction k with
  | zero => rfl
  | succ k ih => rw [Function.iterate_succ_apply', ← ih]; rfl

theorem shStep_sum (sh : List Nat → List Int → List Nat) (st : List (List Int × K)) (u : List Nat → K) (g : List Nat) :
    shStep sh st u g = (st.map fun p => p.2 * u (sh g p.1)).sum := by
  unfold shStep
  rw [← List.foldl_map (f := fun p : List Int × K => p.2 * u (sh g p.1)) (g := fun a b => a + b), foldl_add, zero_add]

theorem weightSum_nonneg (st : List (List Int × K)) : 0 ≤ weightSum st := by
  unfold weightSum
  apply List.sum_nonneg
  intro y hy
  obtain ⟨t, _, rfl⟩ := List.mem_map.1 hy
  exact abs_nonneg _

/-- Weighted sums of the neighbours. -/
theorem GridNorm.weighted (hP : GridNorm N m P) {sh : List Nat → List Int → List Nat} {st : List (List Int × K)}
    (hsh : ∀ p ∈ st, ∀ u b, P u b → P (fun g => u (sh g p.1)) b) {u : List Nat → K} {b : K} (hu : P u b) :
    P (fun g => (st.map fun p => |p.2| * |u (sh g p.1)|).sum) (weightSum st * b) := by
  unfold weightSum
  induction st with
  | nil => simpa using hP.const 0
  | cons p st ih =>
    have h1 := ih fun q hq => hsh q (List.mem_cons_of_mem _ hq)
    have h2 := hP.smul |p.2| (hP.abs (hsh p List.mem_cons_self u b hu))
    rw [abs_abs] at h2
    have h3 := hP.add h2 h1
    simp only [List.map_cons, List.sum_cons, add_mul]
    exact h3

theorem GridNorm.stencil (hP : GridNorm N m P) {sh : List Nat → List Int → List Nat} {st : List (List Int × K)}
    (hsh : ∀ p ∈ st, ∀ u b, P u b → P (fun g => u (sh g p.1)) b) {u : List Nat → K} {b : K} (hu : P u b) :
    P (shStep sh st u) (weightSum st * b) := by
  refine hP.dom (hP.weighted hsh hu) fun g _ => ?_
  rw [shStep_sum]
  refine le_trans ?_ (le_abs_self _)
  generalize st = l
  induction l with
  | nil => simp
  | cons p l ih =>
    simp only [List.map_cons, List.sum_cons]
    refine (abs_add_le _ _).trans ?_
    rw [abs_mul]
    linarith

theorem shStep_sub (sh : List Nat → List Int → List Nat) (st : List (List Int × K)) (u w : List Nat → K) (g : List Nat) :
    shStep sh st u g - shStep sh st w g = shStep sh st (fun g => u g - w g) g := by
  simp only [shStep_sum]
  induction st with
  | nil => simp
  | cons p l ih =>
    simp only [List.map_cons, List.sum_cons]
    rw [← ih]
    ring

theorem stencilGrowth_ge (h0 : 0 ≤ r) (hε : 0 ≤ ε) (n : Nat) : 1 ≤ stencilGrowth n r ε := by
  unfold stencilGrowth
  have : (1 : K) ≤ (1 + r) ^ (n + 1) := one_le_pow₀ (by linarith)
  nlinarith

theorem stencilUnderflow_nonneg (h0 : 0 ≤ r) (hη : 0 ≤ η) (n : Nat) : 0 ≤ stencilUnderflow n r η :=
  mul_nonneg (mul_nonneg (by positivity) (pow_nonneg (by linarith) _)) hη

/-- Size and error of the field after `k` applications. -/
theorem stencil_error (H : Rounded R K val r η tiny) (hε : 0 ≤ ε) (hP : GridNorm N m P)
    {sh : List Nat → List Int → List Nat} {st : List (List Int × R)} {st' : List (List Int × K)}
    (hn : StencilNear val ε st st') (hsh : ∀ p ∈ st', ∀ u b, P u b → P (fun g => u (sh g p.1)) b)
    (u : List Nat → R) {b : K} (hu : P (fun g => val (u g)) b) (k : Nat) :
    P (fun g => val ((shStep sh st)^[k] u g))
      (iterBound (stencilGrowth st.length r ε * weightSum st') (stencilUnderflow st.length r η * m) k b) ∧
    P (fun g => val ((shStep sh st)^[k] u g) - (shStep sh st')^[k] (fun g => val (u g)) g)
      (iterBound (stencilGrowth st.length r ε * weightSum st') (stencilUnderflow st.length r η * m) k b -
        weightSum st' ^ k * b) := by
  have h0 := H.r_nonneg
  have hη := H.η_nonneg
  have hG := stencilGrowth_ge h0 hε st.length
  have hU := stencilUnderflow_nonneg h0 hη st.length
  have hA := weightSum_nonneg st'
  induction k with
  | zero =>
    refine ⟨hu, hP.mono (hP.dom (hP.const 0) fun g _ => by simp) (by simp [iterBound])⟩
  | succ k ih =>
    obtain ⟨h1, h2⟩ := ih
    rw [Function.iterate_succ', Function.iterate_succ', Function.comp_apply, Function.comp_apply]
    set v := (shStep sh st)^[k] u
    set w := (shStep sh st')^[k] fun g => val (u g)
    set B := iterBound (stencilGrowth st.length r ε * weightSum st') (stencilUnderflow st.length r η * m) k b with hB
    have h3 := hP.add (hP.smul (stencilGrowth st.length r ε - 1) (hP.weighted hsh h1)) (hP.const (stencilUnderflow st.length r η))
    rw [abs_of_nonneg (by linarith), abs_of_nonneg hU] at h3
    have h4 : P (fun g => val (shStep sh st v g) - shStep sh st' (fun g => val (v g)) g)
        ((stencilGrowth st.length r ε - 1) * (weightSum st' * B) + stencilUnderflow st.length r η * m) := by
      refine hP.dom h3 fun g _ => ?_
      refine le_trans ?_ (le_abs_self _)
      rw [shStep_sum]
      exact roundedFold_error H hn fun o => v (sh g o)
    have h5 := hP.stencil hsh h1
    have h6 := hP.stencil hsh h2
    have eB : iterBound (stencilGrowth st.length r ε * weightSum st') (stencilUnderflow st.length r η * m) (k + 1) b =
        stencilGrowth st.length r ε * weightSum st' * B + stencilUnderflow st.length r η * m := rfl
    rw [eB]
    constructor
    · refine hP.mono (hP.dom (hP.add h4 h5) fun g _ => by rw [sub_add_cancel]) ?_
      apply le_of_eq; ring
    · refine hP.mono (hP.dom (hP.add h4 h6) fun g _ => ?_) ?_
      · rw [← shStep_sub, sub_add_sub_cancel]
      · apply le_of_eq; rw [pow_succ]; ring

omit [LinearOrder K] [IsStrictOrderedRing K] in
/-- Summing over the displaced cells is summing over the grid. -/
theorem total_shiftMod {N : List Nat} (hp : ∀ n ∈ N, 0 < n) {s : List Int} (hs : s.length = N.length) (u : List Nat → K) :
    total N (fun g => u (shiftMod N g s)) = total N u := by
  unfold total
  have hin := fun i => cellAt_inGrid hp i
  have hs' : (s.map fun x => -x).length = N.length := by simpa using hs
  refine sum_nbij' (fun i => rankOf N (shiftMod N (cellAt N i) s))
    (fun i => rankOf N (shiftMod N (cellAt N i) (s.map fun x => -x))) ?_ ?_ ?_ ?_ ?_
  · intro i _; exact mem_range.2 (rankOf_lt (shiftMod_inGrid (hin i) hs))
  · intro i _; exact mem_range.2 (rankOf_lt (shiftMod_inGrid (hin i) hs'))
  · intro i hi
    rw [cellAt_rankOf (shiftMod_inGrid (hin i) hs), shiftMod_neg (hin i) hs, rankOf_cellAt hp (mem_range.1 hi)]
  · intro i hi
    rw [cellAt_rankOf (shiftMod_inGrid (hin i) hs')]
    have := shiftMod_neg (hin i) hs'
    rw [List.map_map, show ((fun x : Int => -x) ∘ fun x => -x) = id from funext fun x => neg_neg x, List.map_id] at this
    rw [this, rankOf_cellAt hp (mem_range.1 hi)]
  · intro i _
    rw [cellAt_rankOf (shiftMod_inGrid (hin i) hs)]

theorem maxNorm_shift {N : List Nat} {s : List Int} (hs : s.length = N.length) (u : List Nat → K) (b : K)
    (h : ∀ g, InGrid N g → |u g| ≤ b) : ∀ g, InGrid N g → |u (shiftMod N g s)| ≤ b :=
  fun _ hg => h _ (shiftMod_inGrid hg hs)

theorem maxNorm_shift64 {N : List Nat} {s : List Int} (hs : s.length = N.length) (u : List Nat → K) (b : K)
    (h : ∀ g, InGrid N g → |u g| ≤ b) : ∀ g, InGrid N g → |u (shift64 N g s)| ≤ b :=
  fun _ hg => h _ (shift64_inGrid hg hs)

theorem sumNorm_shift {N : List Nat} (hp : ∀ n ∈ N, 0 < n) {s : List Int} (hs : s.length = N.length) (u : List Nat → K) (b : K)
    (h : total N (fun g => |u g|) ≤ b) : total N (fun g => |u (shiftMod N g s)|) ≤ b := by
  rw [total_shiftMod hp hs fun g => |u g|]; exact h

theorem stencilNear_self (val : R → K) (st : List (List Int × R)) : StencilNear val 0 st (stencilVal val st) := by
  unfold StencilNear stencilVal
  rw [List.forall₂_map_right_iff]
  exact List.forall₂_same.2 fun p _ => ⟨rfl, by simp⟩

end iteration
end Fidi
