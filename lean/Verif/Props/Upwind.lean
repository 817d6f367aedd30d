import Verif.Lemmas.UpwindExact
import Verif.Model.UpwindMain
import Verif.Model.ExactReal

/-
Properties C32-C34, C36, C39-C42: the class `Upwind` of upwind.cxx executed by one thread.
`R` is any type with the operations used and stands for `double`; `K` is a field (exact arithmetic).
The template parameter is the number of axes `N.length`; the field `f` is set to any field `u` of the grid.
-/
set_option linter.unusedSectionVars false

namespace Fidi
open Spec Upwind Finset

/-! ### C32 -/

section
variable {R : Type} [Zero R] [One R] [Add R] [Sub R] [Mul R] [Div R] [NatCast R] [IntCast R] [LT R] [DecidableLT R]

/-- C32: on a grid with fewer than 2^31 cells the constructor succeeds and stores the field that is 1 in the low corner
and 0 elsewhere. -/
theorem C32_constructor (N : List Nat) (hN : N ≠ []) (hdim : N.length < 2 ^ 64) (hpos : ∀ n ∈ N, 0 < n)
    (hcells : N.prod < 2 ^ 31) (haxis : ∀ n ∈ N, n < 2 ^ 30) (v L : List R) (hv : v.length = N.length)
    (hL : L.length = N.length) :
    ∃ s0, Upwind.new N.length v L N = .ok s0 ∧ Stores N s0.f cornerField :=
  ⟨_, new_built hN hdim ⟨hpos, hcells, haxis⟩ hv hL, built_stores ⟨hpos, hcells, haxis⟩⟩

/-- C32: `advect` executes without undefined behaviour and applies the upwind step as many times as asked to the field,
operation by operation (no law of arithmetic is used). -/
theorem C32_advect_is_upwind_scheme (N : List Nat) (hN : N ≠ []) (hdim : N.length < 2 ^ 64) (hpos : ∀ n ∈ N, 0 < n)
    (hcells : N.prod < 2 ^ 31) (haxis : ∀ n ∈ N, n < 2 ^ 30) (v L : List R) (hv : v.length = N.length)
    (hL : L.length = N.length) (s0 : Upwind R) (hnew : Upwind.new N.length v L N = .ok s0)
    (f0 : List R) (u : List Nat → R) (hf : Stores N f0 u) (k : Int) (dt : R) :
    ∃ s', { s0 with f := f0 }.advect k dt = .ok s' ∧
      Stores N s'.f ((upwindStep N (upDir v) (upCoeff dt v L N))^[k.toNat] u) := by
  obtain ⟨o, _, h⟩ := advect_spec hN hdim ⟨hpos, hcells, haxis⟩ hv hL hnew hf k dt
  exact ⟨_, h, Stores.listOf hpos _⟩

end

/-- The bound on the extents in C32 is needed: on an axis of `2^30 + 1` cells with negative velocity the neighbour of the
last cell should be cell 0; the sum computed for it does not fit in an `int` and another cell is used. -/
theorem C32_axis_limit : ∃ s0 : Upwind ℚ, Upwind.new 1 [-1] [1] [2 ^ 30 + 1] = .ok s0 ∧
    neighbour [2 ^ 30 + 1] 0 (upDir ([-1] : List ℚ) 0) [2 ^ 30] = [0] ∧ s0.shiftInd 0 (2 ^ 30) = .ok 20 := by
  refine ⟨built [-1] [1] [2 ^ 30 + 1], ?_, ?_, ?_⟩
  · have h := new_eq (R := ℚ) [-1] [1] [2 ^ 30 + 1] rfl rfl (by simp) (by simp [W])
    rw [if_neg (by simp [W])] at h
    exact h
  · decide +kernel
  · decide +kernel
section
variable {R : Type} [Zero R] [One R] [Add R] [Sub R] [Mul R] [Div R] [NatCast R] [IntCast R] [LT R] [DecidableLT R]

/-! ### C39 -/

/-- C39: `m + n` steps are `m` steps followed by `n` steps, for every object, also when undefined behaviour occurs. -/
theorem C39_steps_compose (s : Upwind R) (m n : Int) (hm : 0 ≤ m) (hn : 0 ≤ n) (dt : R) :
    s.advect (m + n) dt = (s.advect m dt >>= fun s' => s'.advect n dt) := by
  obtain ⟨a, rfl⟩ := Int.eq_ofNat_of_zero_le hm
  obtain ⟨b, rfl⟩ := Int.eq_ofNat_of_zero_le hn
  have key : ∀ (a b : Nat) (f : Upwind R → M (Upwind R)) (s : Upwind R),
      forUp 0 (a + b) s (fun _ => f) = (forUp 0 a s (fun _ => f) >>= fun s' => forUp 0 b s' (fun _ => f)) := by
    intro a b f s
    rw [forUp_split (Nat.zero_le a) (Nat.le_add_right a b)]
    congr 1
    funext s'
    have : ∀ (d b' : Nat) (s' : Upwind R), forUp b' (b' + d) s' (fun _ => f) = forUp 0 d s' (fun _ => f) := by
      intro d
      induction d with
      | zero => intro b' s'; rw [forUp_of_ge (by omega), forUp_of_ge (by omega)]
      | succ d ih =>
        intro b' s'
        rw [forUp_of_lt (by omega), forUp_of_lt (by omega : 0 < d + 1)]
        congr 1
        funext s''
        have h1 := ih (b' + 1) s''
        have h2 := ih (0 + 1) s''
        rw [show b' + (d + 1) = b' + 1 + d by omega, show d + 1 = 0 + 1 + d by omega, h1, h2]
    exact this b a s'
  unfold Upwind.advect
  have e : ((a : Int) + (b : Int)).toNat = a + b := by omega
  simp only [Int.toNat_natCast, e]
  exact key a b _ s

/-- C39: no steps, or a negative number of steps, leave the object as it is. -/
theorem C39_no_steps (s : Upwind R) (k : Int) (hk : k ≤ 0) (dt : R) : s.advect k dt = .ok s := by
  unfold Upwind.advect
  rw [show k.toNat = 0 by omega, forUp_of_ge (Nat.le_refl _)]

/-! ### C40 -/

/-- C40: shifting the initial field periodically by `d` shifts the result, in any arithmetic. -/
theorem C40_translation (N : List Nat) (hN : N ≠ []) (hdim : N.length < 2 ^ 64) (hpos : ∀ n ∈ N, 0 < n)
    (hcells : N.prod < 2 ^ 31) (haxis : ∀ n ∈ N, n < 2 ^ 30) (v L : List R) (hv : v.length = N.length)
    (hL : L.length = N.length) (s0 : Upwind R) (hnew : Upwind.new N.length v L N = .ok s0) (d : List Int)
    (hd : d.length = N.length) (f1 f2 : List R) (u : List Nat → R) (h1 : Stores N f1 u)
    (h2 : Stores N f2 fun g => u (shiftMod N g d)) (k : Int) (dt : R) :
    ∃ s1 s2 w, { s0 with f := f1 }.advect k dt = .ok s1 ∧ { s0 with f := f2 }.advect k dt = .ok s2 ∧
      Stores N s1.f w ∧ Stores N s2.f fun g => w (shiftMod N g d) := by
  obtain ⟨_, _, e1⟩ := advect_spec hN hdim ⟨hpos, hcells, haxis⟩ hv hL hnew h1 k dt
  obtain ⟨_, _, e2⟩ := advect_spec hN hdim ⟨hpos, hcells, haxis⟩ hv hL hnew h2 k dt
  refine ⟨_, _, _, e1, e2, Stores.listOf hpos _, ?_⟩
  have h := Stores.listOf hpos ((upwindStep N (upDir v) (upCoeff dt v L N))^[k.toNat] fun g => u (shiftMod N g d))
  refine ⟨h.1, fun g hg => ?_⟩
  rw [h.2 g hg, iter_shift _ _ _ hd _ g hg]
end

section
variable {K : Type} [Field K] [LinearOrder K] [IsStrictOrderedRing K]

/-- C40: a linear combination of fields is advected to the linear combination of the results. -/
theorem C40_linear (N : List Nat) (hN : N ≠ []) (hdim : N.length < 2 ^ 64) (hpos : ∀ n ∈ N, 0 < n)
    (hcells : N.prod < 2 ^ 31) (haxis : ∀ n ∈ N, n < 2 ^ 30) (v L : List K) (hv : v.length = N.length)
    (hL : L.length = N.length) (s0 : Upwind K) (hnew : Upwind.new N.length v L N = .ok s0)
    (a b : K) (f1 f2 : List K) (h1 : f1.length = N.prod) (h2 : f2.length = N.prod) (k : Int) (dt : K) :
    ∃ s1 s2 s3, { s0 with f := f1 }.advect k dt = .ok s1 ∧ { s0 with f := f2 }.advect k dt = .ok s2 ∧
      { s0 with f := List.zipWith (fun x y => a * x + b * y) f1 f2 }.advect k dt = .ok s3 ∧
      s3.f = List.zipWith (fun x y => a * x + b * y) s1.f s2.f := by
  have u1 := exists_field h1
  have u2 := exists_field h2
  generalize (fun g => f1.getD (rankOf N g) 0) = w1 at u1
  generalize (fun g => f2.getD (rankOf N g) 0) = w2 at u2
  have hz : ∀ x y : List Nat → K, List.zipWith (fun x y => a * x + b * y) (listOf N x) (listOf N y) =
      listOf N fun g => a * x g + b * y g := by
    intro x y
    simp only [listOf, List.zipWith_map, List.zipWith_self]
  rw [stores_iff hpos] at u1 u2
  have h3 : Stores N (List.zipWith (fun x y => a * x + b * y) f1 f2) fun g => a * w1 g + b * w2 g := by
    rw [stores_iff hpos, u1, u2, hz]
  obtain ⟨_, _, e1⟩ := advect_spec hN hdim ⟨hpos, hcells, haxis⟩ hv hL hnew ((stores_iff hpos).2 u1) k dt
  obtain ⟨_, _, e2⟩ := advect_spec hN hdim ⟨hpos, hcells, haxis⟩ hv hL hnew ((stores_iff hpos).2 u2) k dt
  obtain ⟨_, _, e3⟩ := advect_spec hN hdim ⟨hpos, hcells, haxis⟩ hv hL hnew h3 k dt
  refine ⟨_, _, _, e1, e2, e3, ?_⟩
  simp only
  rw [hz, iter_linear]

/-! ### C33 -/

/-- C33: the check sum is conserved by any number of time steps, whatever the field. -/
theorem C33_checksum_conserved (N : List Nat) (hN : N ≠ []) (hdim : N.length < 2 ^ 64) (hpos : ∀ n ∈ N, 0 < n)
    (hcells : N.prod < 2 ^ 31) (haxis : ∀ n ∈ N, n < 2 ^ 30) (v L : List K) (hv : v.length = N.length)
    (hL : L.length = N.length) (s0 : Upwind K) (hnew : Upwind.new N.length v L N = .ok s0)
    (f0 : List K) (hf : f0.length = N.prod) (k : Int) (dt : K) :
    ∃ s', { s0 with f := f0 }.advect k dt = .ok s' ∧ s'.checksum = f0.sum ∧
      s'.checksum = { s0 with f := f0 }.checksum := by
  have u0 := exists_field hf
  obtain ⟨_, _, e⟩ := advect_spec hN hdim ⟨hpos, hcells, haxis⟩ hv hL hnew u0 k dt
  have hsum : f0.sum = total N fun g => f0.getD (rankOf N g) 0 := by
    rw [← sum_listOf, ← (stores_iff hpos).1 u0]
  have h1 : (withF v L N (listOf N ((upwindStep N (upDir v) (upCoeff dt v L N))^[k.toNat]
      fun g => f0.getD (rankOf N g) 0)) ‹_›).checksum = f0.sum := by
    unfold Upwind.checksum
    simp only
    rw [foldl_add, zero_add, sum_listOf, total_iter hpos, hsum]
  refine ⟨_, e, h1, ?_⟩
  rw [h1]
  unfold Upwind.checksum
  rw [foldl_add, zero_add]

/-- C33: starting from the constructor the check sum is 1 after any number of time steps. -/
theorem C33_checksum_one (N : List Nat) (hN : N ≠ []) (hdim : N.length < 2 ^ 64) (hpos : ∀ n ∈ N, 0 < n)
    (hcells : N.prod < 2 ^ 31) (haxis : ∀ n ∈ N, n < 2 ^ 30) (v L : List K) (hv : v.length = N.length)
    (hL : L.length = N.length) (k : Int) (dt : K) :
    ∃ s', (Upwind.new N.length v L N >>= fun s0 => s0.advect k dt) = .ok s' ∧ s'.checksum = 1 := by
  have hg : GoodGrid N := ⟨hpos, hcells, haxis⟩
  have hp : 0 < N.prod := List.prod_pos hpos
  have hW : N.prod % W = N.prod := Nat.mod_eq_of_lt (by unfold W; omega)
  have hnew := new_built hN hdim hg hv hL
  obtain ⟨s', e, h1, _⟩ := C33_checksum_conserved N hN hdim hpos hcells haxis v L hv hL _ hnew (built v L N).f
    (by simp [built, hW]) k dt
  refine ⟨s', ?_, ?_⟩
  · rw [hnew]; exact e
  · rw [h1]
    simp only [built, hW]
    obtain ⟨n, hn⟩ : ∃ n, N.prod = n + 1 := ⟨N.prod - 1, by omega⟩
    rw [hn]
    simp [List.replicate_succ]

/-! ### C34 -/

/-- C34: if the total Courant number is at most 1, all values stay within the bounds of the initial field. -/
theorem C34_maximum_principle (N : List Nat) (hN : N ≠ []) (hdim : N.length < 2 ^ 64) (hpos : ∀ n ∈ N, 0 < n)
    (hcells : N.prod < 2 ^ 31) (haxis : ∀ n ∈ N, n < 2 ^ 30) (v L : List K) (hv : v.length = N.length)
    (hL : L.length = N.length) (hLpos : ∀ x ∈ L, 0 < x) (s0 : Upwind K)
    (hnew : Upwind.new N.length v L N = .ok s0) (dt : K) (hdt : 0 ≤ dt) (hc : courant dt v L N ≤ 1)
    (f0 : List K) (hf : f0.length = N.prod) (lo hi : K) (hb : ∀ x ∈ f0, lo ≤ x ∧ x ≤ hi) (k : Int) :
    ∃ s', { s0 with f := f0 }.advect k dt = .ok s' ∧ s'.f.length = N.prod ∧ ∀ x ∈ s'.f, lo ≤ x ∧ x ≤ hi := by
  have u0 := exists_field hf
  obtain ⟨_, _, e⟩ := advect_spec hN hdim ⟨hpos, hcells, haxis⟩ hv hL hnew u0 k dt
  refine ⟨_, e, by simp, ?_⟩
  have hbu : ∀ g, InGrid N g → lo ≤ (fun g => f0.getD (rankOf N g) 0) g ∧ (fun g => f0.getD (rankOf N g) 0) g ≤ hi := by
    intro g hg
    exact hb _ (List.mem_iff_getElem?.2 ⟨_, u0.2 g hg⟩)
  generalize (fun g => f0.getD (rankOf N g) 0) = u at *
  have hcoef : upCoeff dt v L N = fun j => -(dt * |v.getD j 0| / cellWidth L N j) := by
    funext j; exact upCoeff_eq dt v L N j
  rw [courant_eq] at hc
  have hw := fun j (_ : j < N.length) => weight_nonneg (v := v) (N := N) hdt hLpos j
  have key : ∀ k, ∀ g, InGrid N g → lo ≤ (upwindStep N (upDir v) (upCoeff dt v L N))^[k] u g ∧
      (upwindStep N (upDir v) (upCoeff dt v L N))^[k] u g ≤ hi := by
    intro k
    induction k with
    | zero => exact hbu
    | succ k ih =>
      intro g hg
      rw [Function.iterate_succ_apply', hcoef]
      rw [hcoef] at ih
      exact ⟨le_step _ hw hc (fun g hg => (ih g hg).1) hg, step_le _ hw hc (fun g hg => (ih g hg).2) hg⟩
  intro x hx
  simp only [listOf, List.mem_map, List.mem_range] at hx
  obtain ⟨i, _, rfl⟩ := hx
  exact key _ _ (cellAt_inGrid hpos i)

/-- C34: starting from the constructor all values stay in [0, 1]. -/
theorem C34_between_zero_and_one (N : List Nat) (hN : N ≠ []) (hdim : N.length < 2 ^ 64) (hpos : ∀ n ∈ N, 0 < n)
    (hcells : N.prod < 2 ^ 31) (haxis : ∀ n ∈ N, n < 2 ^ 30) (v L : List K) (hv : v.length = N.length)
    (hL : L.length = N.length) (hLpos : ∀ x ∈ L, 0 < x) (dt : K) (hdt : 0 ≤ dt) (hc : courant dt v L N ≤ 1) (k : Int) :
    ∃ s', (Upwind.new N.length v L N >>= fun s0 => s0.advect k dt) = .ok s' ∧ ∀ x ∈ s'.f, 0 ≤ x ∧ x ≤ 1 := by
  have hg : GoodGrid N := ⟨hpos, hcells, haxis⟩
  have hnew := new_built hN hdim hg hv hL
  have hW : N.prod % W = N.prod := Nat.mod_eq_of_lt (by unfold W; omega)
  obtain ⟨s', e, _, h1⟩ := C34_maximum_principle N hN hdim hpos hcells haxis v L hv hL hLpos _ hnew dt hdt hc
    (built v L N).f (by simp [built, hW]) 0 1 (by
      intro x hx
      simp only [built] at hx
      rcases List.mem_or_eq_of_mem_set hx with h | h
      · rw [(List.mem_replicate.1 h).2]; exact ⟨le_refl _, zero_le_one⟩
      · rw [h]; exact ⟨zero_le_one, le_refl _⟩) k
  exact ⟨s', by rw [hnew]; exact e, h1⟩

/-! ### C41 -/

/-- C41: `std()` is the square root of the population variance. -/
theorem C41_std_is_standard_deviation [HasSqrt K] (N : List Nat) (hN : N ≠ []) (hdim : N.length < 2 ^ 64)
    (hpos : ∀ n ∈ N, 0 < n) (hcells : N.prod < 2 ^ 31) (haxis : ∀ n ∈ N, n < 2 ^ 30) (v L : List K)
    (hv : v.length = N.length) (hL : L.length = N.length) (s0 : Upwind K)
    (hnew : Upwind.new N.length v L N = .ok s0) (f0 : List K) (hf : f0.length = N.prod) :
    { s0 with f := f0 }.std = .ok (HasSqrt.sqrt (variance f0)) := by
  rw [new_built hN hdim ⟨hpos, hcells, haxis⟩ hv hL] at hnew
  injection hnew with hnew
  subst hnew
  exact std_eq hcells hf
end

/-- C41: `std()` is 0 exactly for uniform fields. -/
theorem C41_std_zero_iff_uniform (N : List Nat) (hN : N ≠ []) (hdim : N.length < 2 ^ 64)
    (hpos : ∀ n ∈ N, 0 < n) (hcells : N.prod < 2 ^ 31) (haxis : ∀ n ∈ N, n < 2 ^ 30) (v L : List ℝ)
    (hv : v.length = N.length) (hL : L.length = N.length) (s0 : Upwind ℝ)
    (hnew : Upwind.new N.length v L N = .ok s0) (f0 : List ℝ) (hf : f0.length = N.prod) :
    { s0 with f := f0 }.std = .ok 0 ↔ ∃ c, ∀ x ∈ f0, x = c := by
  rw [C41_std_is_standard_deviation N hN hdim hpos hcells haxis v L hv hL s0 hnew f0 hf]
  have hp : 0 < f0.length := by rw [hf]; exact List.prod_pos hpos
  constructor
  · intro h
    injection h with h
    have h0 : variance f0 = 0 := (Real.sqrt_eq_zero (variance_nonneg f0)).1 h
    exact ⟨mean f0, variance_zero hp h0⟩
  · rintro ⟨c, hc⟩
    rw [variance_uniform hp hc]
    exact congrArg Except.ok Real.sqrt_zero

/-- C41: under the Courant condition `std()` never increases. -/
theorem C41_std_nonincreasing (N : List Nat) (hN : N ≠ []) (hdim : N.length < 2 ^ 64)
    (hpos : ∀ n ∈ N, 0 < n) (hcells : N.prod < 2 ^ 31) (haxis : ∀ n ∈ N, n < 2 ^ 30) (v L : List ℝ)
    (hv : v.length = N.length) (hL : L.length = N.length) (hLpos : ∀ x ∈ L, 0 < x) (s0 : Upwind ℝ)
    (hnew : Upwind.new N.length v L N = .ok s0) (dt : ℝ) (hdt : 0 ≤ dt) (hc : courant dt v L N ≤ 1)
    (f0 : List ℝ) (hf : f0.length = N.prod) (k : Int) :
    ∃ s' a b, { s0 with f := f0 }.advect k dt = .ok s' ∧ { s0 with f := f0 }.std = .ok a ∧ s'.std = .ok b ∧ b ≤ a := by
  have u0 := exists_field hf
  obtain ⟨o, _, e⟩ := advect_spec hN hdim ⟨hpos, hcells, haxis⟩ hv hL hnew u0 k dt
  refine ⟨_, _, _, e, C41_std_is_standard_deviation N hN hdim hpos hcells haxis v L hv hL s0 hnew f0 hf,
    std_eq hcells (by simp), ?_⟩
  apply Real.sqrt_le_sqrt
  rw [courant_eq] at hc
  have hw := fun j (_ : j < N.length) => weight_nonneg (v := v) (N := N) hdt hLpos j
  have hcoef : upCoeff dt v L N = fun j => -(dt * |v.getD j 0| / cellWidth L N j) := by
    funext j; exact upCoeff_eq dt v L N j
  have e1 := (stores_iff hpos).1 u0
  generalize (fun g => f0.getD (rankOf N g) 0) = u at *
  rw [e1, variance_listOf hpos, variance_listOf hpos, total_iter hpos, hcoef]
  have h := total_sq_iter hpos (upDir v) hw hc k.toNat u
  have hp : (0 : ℝ) < N.prod := by exact_mod_cast List.prod_pos hpos
  exact div_le_div_of_nonneg_right (by linarith) (le_of_lt hp)

/-! ### C36 -/

/-- C36 does not hold: on grids with at least 2^31 and fewer than 2^32 cells `advect` does nothing, for every velocity,
time step, number of steps and field. -/
theorem C36_large_grid_inert {R : Type} [Zero R] [One R] [Add R] [Sub R] [Mul R] [Div R] [NatCast R] [IntCast R] [LT R]
    [DecidableLT R] (N : List Nat) (hN : N ≠ []) (hdim : N.length < 2 ^ 64) (h1 : 2 ^ 31 ≤ N.prod)
    (h2 : N.prod < 2 ^ 32) (v L : List R) (hv : v.length = N.length) (hL : L.length = N.length) (s0 : Upwind R)
    (hnew : Upwind.new N.length v L N = .ok s0) (f0 : List R) (k : Int) (dt : R) :
    { s0 with f := f0 }.advect k dt = .ok { s0 with f := f0 } := by
  have hW : N.prod % W = N.prod := Nat.mod_eq_of_lt (by unfold W; omega)
  rw [new_eq v L N hv hL hN (by unfold W; omega), if_neg (by omega)] at hnew
  injection hnew with hnew
  subst hnew
  have hc : ∀ f o, (withF v L N f o).loopCount = 0 := by
    intro f o
    unfold Upwind.loopCount
    simp only [built, hW]
    unfold intOfSz W32 Int.bmod
    dsimp only
    split <;> omega
  obtain ⟨s, e, hs⟩ := forUp_inv (Nat.zero_le k.toNat) (fun _ s => s = { built v L N with f := f0 })
    (fun _ (s : Upwind R) => s.timeStep dt) { built v L N with f := f0 } rfl
    (by
      rintro i s _ _ rfl
      refine ⟨_, ?_, rfl⟩
      unfold Upwind.timeStep
      rw [hc f0 (built v L N).oldF, forUp_of_ge (Nat.le_refl _), M.ok_bind, forUp_of_ge (Nat.le_refl _)]
      rfl)
  unfold Upwind.advect
  rw [e, hs]

/-- C36 does not hold, as a negation: the upwind scheme is not applied on every grid; 1291 cells along each of three
axes are a counterexample. -/
theorem C36_every_grid_fails :
    ¬ ∀ (N : List Nat) (v L : List ℚ) (s0 : Upwind ℚ) (f0 : List ℚ) (u : List Nat → ℚ) (dt : ℚ), N ≠ [] →
      (∀ n ∈ N, 0 < n) → N.prod < 2 ^ 64 → v.length = N.length → L.length = N.length →
      Upwind.new N.length v L N = .ok s0 → Stores N f0 u →
      ∃ s', { s0 with f := f0 }.advect 1 dt = .ok s' ∧
        Stores N s'.f (upwindStep N (upDir v) (upCoeff dt v L N) u) := by
  intro h
  let N := [1291, 1291, 1291]
  have hpos : ∀ n ∈ N, 0 < n := by decide
  have hp : N.prod = 2151685171 := by decide
  obtain ⟨s0, hnew⟩ : ∃ s0, Upwind.new (R := ℚ) N.length [1, 1, 1] [1, 1, 1] N = .ok s0 := by
    have h := new_eq (R := ℚ) [1, 1, 1] [1, 1, 1] N rfl rfl (by decide) (by unfold W; decide)
    rw [if_neg (by rw [hp]; decide)] at h
    exact ⟨_, h⟩
  obtain ⟨f0, hf0⟩ : ∃ f0, Stores N f0 (cornerField (R := ℚ)) := ⟨_, Stores.listOf hpos _⟩
  obtain ⟨s', e, hs⟩ := h N [1, 1, 1] [1, 1, 1] s0 f0 cornerField 1 (by decide) hpos
    (by rw [hp]; decide) rfl rfl hnew hf0
  rw [C36_large_grid_inert (R := ℚ) N (by decide) (by decide) (by rw [hp]; decide) (by rw [hp]; decide) [1, 1, 1] [1, 1, 1] rfl rfl
    s0 hnew f0 1 1] at e
  injection e with e
  subst e
  have hg : InGrid N [0, 0, 0] := by decide
  have e1 := hs.2 [0, 0, 0] hg
  rw [hf0.2 [0, 0, 0] hg] at e1
  injection e1 with e1
  revert e1
  decide +kernel

/-- C36, the part that holds: grids with fewer than 2^31 cells (and fewer than 2^30 along each axis). Missing: all larger
grids, see `C36_large_grid_inert`. -/
theorem C36_every_grid_partial {R : Type} [Zero R] [One R] [Add R] [Sub R] [Mul R] [Div R] [NatCast R] [IntCast R]
    [LT R] [DecidableLT R] (N : List Nat) (hN : N ≠ []) (hdim : N.length < 2 ^ 64) (hpos : ∀ n ∈ N, 0 < n)
    (hcells : N.prod < 2 ^ 31) (haxis : ∀ n ∈ N, n < 2 ^ 30) (v L : List R) (hv : v.length = N.length)
    (hL : L.length = N.length) (s0 : Upwind R) (hnew : Upwind.new N.length v L N = .ok s0)
    (f0 : List R) (u : List Nat → R) (hf : Stores N f0 u) (k : Int) (dt : R) :
    ∃ s', { s0 with f := f0 }.advect k dt = .ok s' ∧
      Stores N s'.f ((upwindStep N (upDir v) (upCoeff dt v L N))^[k.toNat] u) :=
  C32_advect_is_upwind_scheme N hN hdim hpos hcells haxis v L hv hL s0 hnew f0 u hf k dt

/-! ### C42 -/

/-- C42: with `n` cells along each axis the time step computed by `main` gives a total Courant number of 3/10. -/
theorem C42_driver_courant (n : Nat) (hn : 0 < n) :
    ∃ dt : ℚ, Upwind.mainDt (0.1 : ℚ) (List.replicate 3 1) (List.replicate 3 1) (List.replicate 3 n) = .ok dt ∧ 0 < dt ∧
      courant dt (List.replicate 3 1) (List.replicate 3 1) (List.replicate 3 n) = 3 / 10 := by
  have hq : (0 : ℚ) < n := by exact_mod_cast hn
  have hq1 : (1 : ℚ) ≤ n := by exact_mod_cast hn
  refine ⟨1 / 10 / n, mainDt_eq hn, by positivity, ?_⟩
  unfold courant cellWidth
  simp [List.range_succ]
  field_simp
  norm_num

/-- C42: so for `n` with fewer than 2^31 cells in total (`n ≤ 1290`) and any number of steps the program runs without
undefined behaviour, the check sum it prints is 1 and all values are in [0, 1]. -/
theorem C42_driver_run (n : Nat) (hn : 0 < n) (hn2 : n ≤ 1290) (k : Int) :
    ∃ s' : Upwind ℚ, Upwind.mainRun (0.1 : ℚ) n k = .ok s' ∧ s'.checksum = 1 ∧ ∀ x ∈ s'.f, 0 ≤ x ∧ x ≤ 1 := by
  obtain ⟨dt, hdt, hpos, hc⟩ := C42_driver_courant n hn
  have hp : ∀ m ∈ List.replicate 3 n, 0 < m := by intro m hm; rw [(List.mem_replicate.1 hm).2]; exact hn
  have hcells : (List.replicate 3 n).prod < 2 ^ 31 := by
    have : n * (n * n) ≤ 1290 * (1290 * 1290) := Nat.mul_le_mul hn2 (Nat.mul_le_mul hn2 hn2)
    simp only [List.prod_replicate]
    have e : n ^ 3 = n * (n * n) := by ring
    rw [e]; omega
  have haxis : ∀ m ∈ List.replicate 3 n, m < 2 ^ 30 := by
    intro m hm; rw [(List.mem_replicate.1 hm).2]; omega
  obtain ⟨s1, e1, h1⟩ := C33_checksum_one (K := ℚ) (List.replicate 3 n) (by simp) (by simp) hp hcells haxis
    (List.replicate 3 1) (List.replicate 3 1) (by simp) (by simp) k dt
  obtain ⟨s2, e2, h2⟩ := C34_between_zero_and_one (K := ℚ) (List.replicate 3 n) (by simp) (by simp) hp hcells haxis
    (List.replicate 3 1) (List.replicate 3 1) (by simp) (by simp)
    (by intro x hx; rw [(List.mem_replicate.1 hx).2]; exact zero_lt_one) dt (le_of_lt hpos)
    (by rw [hc]; norm_num) k
  rw [e1] at e2
  injection e2 with e2
  subst e2
  refine ⟨s1, ?_, h1, h2⟩
  unfold Upwind.mainRun
  rw [szOfInt_ofNat (by unfold W; omega)]
  simp only [List.length_replicate]
  rw [hdt]
  simp only [M.ok_bind]
  exact e1

/-! ### Concrete cases -/

/-- A 2 x 3 grid with velocities of both signs meets the hypotheses of C32-C34 and C39-C41; two steps with total Courant
number 1/2 spread the initial value over the upwind stencil. -/
example : ([2, 3] : List Nat) ≠ [] ∧ (∀ n ∈ [2, 3], 0 < n) ∧ [2, 3].prod < 2 ^ 31 ∧ (∀ n ∈ [2, 3], n < 2 ^ 30) ∧
    (∀ x ∈ ([1, 3] : List ℚ), 0 < x) ∧ courant (1 / 8 : ℚ) [1, -2] [1, 3] [2, 3] = 1 / 2 ∧
    (∃ s0 : Upwind ℚ, Upwind.new 2 [1, -2] [1, 3] [2, 3] = .ok s0 ∧
      (s0.advect 2 (1 / 8)).map (fun s => (s.f, s.checksum)) =
        .ok ([5 / 16, 1 / 16, 1 / 4, 1 / 4, 0, 1 / 8], 1)) := by
  refine ⟨by decide, by decide, by decide, by decide, by decide +kernel, by decide +kernel, ?_⟩
  have : (Upwind.new 2 [1, -2] [1, 3] [2, 3] >>= fun s0 => (s0.advect 2 (1 / 8)).map
      (fun s : Upwind ℚ => (s.f, s.checksum))) = .ok ([5 / 16, 1 / 16, 1 / 4, 1 / 4, 0, 1 / 8], 1) := by
    decide +kernel
  obtain ⟨s0, h1, h2⟩ := (M.bind_ok_iff _ _ _).1 this
  exact ⟨s0, h1, h2⟩

/-- C40: a shift of the 2 x 3 grid by one cell along both axes. -/
example : shiftMod [2, 3] [1, 2] [1, -1] = [0, 1] := by decide

/-- C36: the grid of the counterexample is one that `main` builds for `-numCells 1291`. -/
example : 2 ^ 31 ≤ [1291, 1291, 1291].prod ∧ [1291, 1291, 1291].prod < 2 ^ 32 := by decide

/-- C42: the default number of cells. -/
example : 0 < 128 ∧ 128 ≤ 1290 := by decide

end Fidi
