import Verif.Lemmas.FilterRounding
import Mathlib.Algebra.Order.BigOperators.Group.List

/-
Periodic stencils as operators on fields: linear, commuting with displacements and with each other.
-/
namespace Fidi
open Spec Upwind Finset

theorem shiftMod_comm : ∀ (N g : List Nat) (a b : List Int), InGrid N g → a.length = N.length → b.length = N.length →
    shiftMod N (shiftMod N g a) b = shiftMod N (shiftMod N g b) a := by
  intro N
  induction N with
  | nil => intro g a b _ _ _; rfl
  | cons n N ih =>
    intro g a b hg ha hb
    match g, a, b, ha, hb with
    | [], _, _, _, _ => exact absurd hg.length_eq (by simp)
    | x :: g, p :: a, q :: b, ha, hb =>
      have hg' : InGrid N g := by cases hg; assumption
      have hx : x < n := by cases hg; assumption
      simp only [shiftMod]
      rw [ih g a b hg' (by simpa using ha) (by simpa using hb)]
      congr 1
      have hn : (n : Int) ≠ 0 := by omega
      rw [Int.toNat_of_nonneg (Int.emod_nonneg _ hn), Int.toNat_of_nonneg (Int.emod_nonneg _ hn), Int.emod_add_emod,
        Int.emod_add_emod, add_right_comm]

section
variable {K : Type} [Field K] {N : List Nat}

theorem step_linear (st : List (List Int × K)) (a b : K) (u v : List Nat → K) (g : List Nat) :
    stencilStep N st (fun g => a * u g + b * v g) g = a * stencilStep N st u g + b * stencilStep N st v g := by
  rw [stencilStep_sum, stencilStep_sum, stencilStep_sum]
  induction st with
  | nil => simp
  | cons p st ih =>
    simp only [List.map_cons, List.sum_cons]
    rw [ih]
    ring

theorem step_congr {st : List (List Int × K)} (hs : ∀ kv ∈ st, kv.1.length = N.length) {u v : List Nat → K}
    (h : ∀ g, InGrid N g → u g = v g) {g : List Nat} (hg : InGrid N g) : stencilStep N st u g = stencilStep N st v g := by
  rw [stencilStep_sum, stencilStep_sum]
  congr 1
  apply List.map_congr_left
  intro kv hkv
  rw [h _ (shiftMod_inGrid hg (hs kv hkv))]

theorem step_shift {st : List (List Int × K)} (hs : ∀ kv ∈ st, kv.1.length = N.length) (u : List Nat → K) {d : List Int}
    (hd : d.length = N.length) {g : List Nat} (hg : InGrid N g) :
    stencilStep N st (fun g => u (shiftMod N g d)) g = stencilStep N st u (shiftMod N g d) := by
  rw [stencilStep_sum, stencilStep_sum]
  congr 1
  apply List.map_congr_left
  intro kv hkv
  rw [shiftMod_comm N g _ _ hg (hs kv hkv) hd]

theorem iter_step_congr {st : List (List Int × K)} (hs : ∀ kv ∈ st, kv.1.length = N.length) {u v : List Nat → K}
    (h : ∀ g, InGrid N g → u g = v g) (n : Nat) : ∀ g, InGrid N g → stencilIter N st u n g = stencilIter N st v n g := by
  induction n with
  | zero => exact h
  | succ n ih => intro g hg; exact step_congr hs ih hg

theorem iter_step_linear {st : List (List Int × K)} (hs : ∀ kv ∈ st, kv.1.length = N.length) (a b : K) (u v : List Nat → K)
    (n : Nat) : ∀ g, InGrid N g → stencilIter N st (fun g => a * u g + b * v g) n g =
      a * stencilIter N st u n g + b * stencilIter N st v n g := by
  induction n with
  | zero => intro g _; rfl
  | succ n ih =>
    intro g hg
    show stencilStep N st _ g = _
    rw [step_congr hs ih hg, step_linear]
    rfl

theorem iter_step_shift {st : List (List Int × K)} (hs : ∀ kv ∈ st, kv.1.length = N.length) (u : List Nat → K) {d : List Int}
    (hd : d.length = N.length) (n : Nat) : ∀ g, InGrid N g →
      stencilIter N st (fun g => u (shiftMod N g d)) n g = stencilIter N st u n (shiftMod N g d) := by
  induction n with
  | zero => intro g _; rfl
  | succ n ih =>
    intro g hg
    show stencilStep N st _ g = _
    rw [step_congr hs ih hg, step_shift hs _ hd hg]
    rfl

/-- Stencils commute. -/
theorem step_comm {st st' : List (List Int × K)} (hs : ∀ kv ∈ st, kv.1.length = N.length) (u : List Nat → K)
    (hs' : ∀ kv ∈ st', kv.1.length = N.length) {g : List Nat} (hg : InGrid N g) :
    stencilStep N st (stencilStep N st' u) g = stencilStep N st' (stencilStep N st u) g := by
  induction st' with
  | nil => rw [stencilStep_sum, stencilStep_sum]; simp [stencilStep]
  | cons p st' ih =>
    have h1 : ∀ (v : List Nat → K) g, stencilStep N (p :: st') v g = p.2 * v (shiftMod N g p.1) + 1 * stencilStep N st' v g := by
      intro v g; rw [stencilStep_sum, stencilStep_sum]; simp
    rw [show stencilStep N (p :: st') u = fun g => p.2 * u (shiftMod N g p.1) + 1 * stencilStep N st' u g from
      funext fun g => h1 u g, step_linear, h1, ih fun kv hkv => hs' kv (List.mem_cons_of_mem _ hkv),
      step_shift hs u (hs' p (List.mem_cons_self ..)) hg]

theorem iter_step_comm {st st' : List (List Int × K)} (hs : ∀ kv ∈ st, kv.1.length = N.length)
    (hs' : ∀ kv ∈ st', kv.1.length = N.length) (u : List Nat → K) (n m : Nat) : ∀ g, InGrid N g →
      stencilIter N st (stencilIter N st' u m) n g = stencilIter N st' (stencilIter N st u n) m g := by
  have one : ∀ (n : Nat) (u : List Nat → K) g, InGrid N g →
      stencilIter N st (stencilStep N st' u) n g = stencilStep N st' (stencilIter N st u n) g := by
    intro n u
    induction n with
    | zero => intro g _; rfl
    | succ n ih =>
      intro g hg
      show stencilStep N st _ g = stencilStep N st' (stencilStep N st _) g
      rw [step_congr hs ih hg, step_comm hs _ hs' hg]
  induction m with
  | zero => intro g _; rfl
  | succ m ih =>
    intro g hg
    show stencilIter N st (stencilStep N st' _) n g = stencilStep N st' _ g
    rw [one n _ g hg, step_congr hs' ih hg]

theorem total_stencilStep (hp : ∀ n ∈ N, 0 < n) {st : List (List Int × K)} (hs : ∀ kv ∈ st, kv.1.length = N.length)
    (u : List Nat → K) : total N (stencilStep N st u) = (st.map Prod.snd).sum * total N u := by
  rw [show stencilStep N st u = fun g => (st.map fun p => p.2 * u (shiftMod N g p.1)).sum from
    funext fun g => stencilStep_sum N st u g]
  induction st with
  | nil => simp [total]
  | cons p st ih =>
    simp only [List.map_cons, List.sum_cons]
    rw [add_mul, ← ih fun kv hkv => hs kv (List.mem_cons_of_mem _ hkv), ← total_shiftMod hp (hs p (List.mem_cons_self ..)) u]
    unfold total
    rw [mul_sum, ← sum_add_distrib]

theorem total_stencilIter (hp : ∀ n ∈ N, 0 < n) {st : List (List Int × K)} (hs : ∀ kv ∈ st, kv.1.length = N.length)
    (u : List Nat → K) (n : Nat) : total N (stencilIter N st u n) = (st.map Prod.snd).sum ^ n * total N u := by
  induction n with
  | zero => simp [stencilIter]
  | succ n ih =>
    show total N (stencilStep N st _) = _
    rw [total_stencilStep hp hs, ih, pow_succ]
    ring

end

section
variable {K : Type} [Field K] [LinearOrder K] [IsStrictOrderedRing K] {N : List Nat}

theorem stencilIter_mono {st : List (List Int × K)} (hs : ∀ kv ∈ st, kv.1.length = N.length) (h0 : ∀ kv ∈ st, 0 ≤ kv.2)
    {u v : List Nat → K} (h : ∀ g, InGrid N g → u g ≤ v g) (n : Nat) : ∀ g, InGrid N g →
      stencilIter N st u n g ≤ stencilIter N st v n g := by
  induction n with
  | zero => exact h
  | succ n ih =>
    intro g hg
    show stencilStep N st _ g ≤ stencilStep N st _ g
    rw [stencilStep_sum, stencilStep_sum]
    apply List.sum_le_sum
    intro kv hkv
    exact mul_le_mul_of_nonneg_left (ih _ (shiftMod_inGrid hg (hs kv hkv))) (h0 kv hkv)

omit [LinearOrder K] [IsStrictOrderedRing K] in
theorem stencilIter_const (st : List (List Int × K)) (a : K) (n : Nat) (g : List Nat) :
    stencilIter N st (fun _ => a) n g = (st.map Prod.snd).sum ^ n * a := by
  induction n generalizing g with
  | zero => simp [stencilIter]
  | succ n ih =>
    show stencilStep N st _ g = _
    rw [stencilStep_sum]
    simp only [ih]
    rw [List.sum_map_mul_right, pow_succ]
    show (st.map fun p => p.2).sum * _ = (st.map fun p => p.2).sum ^ n * _ * a
    ring

theorem stencilIter_abs {st : List (List Int × K)} (hs : ∀ kv ∈ st, kv.1.length = N.length) {u : List Nat → K} {b : K}
    (h : ∀ g, InGrid N g → |u g| ≤ b) (n : Nat) : ∀ g, InGrid N g →
      |stencilIter N st u n g| ≤ (st.map fun kv => |kv.2|).sum ^ n * b := by
  induction n with
  | zero => simpa [stencilIter] using h
  | succ n ih =>
    intro g hg
    show |stencilStep N st _ g| ≤ _
    have key : ∀ (l : List (List Int × K)) (w : List Nat → K) (B : K), (∀ kv ∈ l, |w (shiftMod N g kv.1)| ≤ B) →
        |(l.map fun p => p.2 * w (shiftMod N g p.1)).sum| ≤ (l.map fun kv => |kv.2|).sum * B := by
      intro l w B
      induction l with
      | nil => simp
      | cons p l ih =>
        intro hl
        simp only [List.map_cons, List.sum_cons]
        refine (abs_add_le _ _).trans ?_
        rw [add_mul, abs_mul]
        exact add_le_add (mul_le_mul_of_nonneg_left (hl p (List.mem_cons_self ..)) (abs_nonneg _))
          (ih fun kv hkv => hl kv (List.mem_cons_of_mem _ hkv))
    rw [stencilStep_sum]
    refine (key st _ _ fun kv hkv => ih _ (shiftMod_inGrid hg (hs kv hkv))).trans (le_of_eq ?_)
    rw [pow_succ]
    ring

end
end Fidi
