import Verif.Lemmas.LaplaceExact
import Verif.Model.ExactSin
import Verif.Props.MainsMpi
import Mathlib.Analysis.SpecialFunctions.Trigonometric.Bounds
import Mathlib.Analysis.SpecialFunctions.Trigonometric.Deriv

/-
Properties C73 and C74: the operator of `laplacian`, the result of the driver in closed form, and its relation to the Laplace
operator.
-/
set_option linter.unusedSectionVars false

namespace Fidi
open Spec Upwind Finset

/-! ### C73 -/

/-- C73: the operator of the stencil of `laplacian` is negative semidefinite with quadratic form minus the sum of the squared
differences of neighbours, its eigenvalues are in [-4n, 0], and it annihilates exactly the uniform fields. -/
theorem C73_definite {K : Type} [Field K] [LinearOrder K] [IsStrictOrderedRing K] (n : Nat) :
    ∃ st : StdMap (List Int) K, Laplacian.stencil n = .ok st ∧
    ∀ dims : List Nat, dims.length = n → (∀ m ∈ dims, 0 < m) →
      ∀ u : List Nat → K,
        ((∀ g, InGrid dims g → stencilStep dims st u g = 0) ↔ ∃ c, ∀ g, InGrid dims g → u g = c) ∧
        (∀ a : K, (∃ g, InGrid dims g ∧ u g ≠ 0) → (∀ g, InGrid dims g → stencilStep dims st u g = a * u g) →
          -(4 * (n : K)) ≤ a ∧ a ≤ 0) ∧
        ∀ cells : List (List Nat), cells.Nodup → (∀ g, g ∈ cells ↔ InGrid dims g) →
          (cells.map fun g => u g * stencilStep dims st u g).sum =
            -(cells.map fun g => ((List.range n).map fun j => (u (neighbour dims j 1 g) - u g) ^ 2).sum).sum := by
  obtain ⟨st, e, hop⟩ := C29_laplacian_operator (K := K) n
  refine ⟨st, e, ?_⟩
  rintro dims rfl hp u
  obtain ⟨hst, -⟩ := hop dims rfl hp
  refine ⟨?_, ?_, ?_⟩
  · rw [← laplace_kernel hp]
    exact ⟨fun h g hg => by rw [← hst u g hg]; exact h g hg, fun h g hg => by rw [hst u g hg]; exact h g hg⟩
  · rintro a ⟨g0, hg0, hne⟩ ha
    have hb := laplace_bounds hp u
    have h1 : total dims (fun g => u g * laplace dims u g) = a * total dims (fun g => u g ^ 2) := by
      rw [total_congr (u' := fun g => a * u g ^ 2) hp (fun g hg => by rw [← hst u g hg, ha g hg]; ring)]
      unfold total
      rw [mul_sum]
    have hpos : 0 < total dims (fun g => u g ^ 2) := by
      rcases (total_nonneg_of (u := fun g => u g ^ 2) hp fun g _ => sq_nonneg _).lt_or_eq with h | h
      · exact h
      · exact absurd (pow_eq_zero_iff two_ne_zero |>.1 (eq_zero_of_total (fun g => sq_nonneg (u g)) h.symm g0 hg0)) hne
    rw [h1] at hb
    exact ⟨le_of_mul_le_mul_right hb.1 hpos, nonpos_of_mul_nonpos_left hb.2 hpos⟩
  · intro cells hnd hmem
    rw [sum_cells hp hnd hmem, sum_cells hp hnd hmem,
      total_congr hp (fun g hg => by rw [hst u g hg] : ∀ g, InGrid dims g → u g * stencilStep dims st u g = u g * laplace dims u g),
      laplace_form hp]
    simp only [sum_list_range]
    rw [total_sum]

/-- The eigenvalue -4n is reached, by the chequerboard on an even grid. -/
example : ∃ u : List Nat → ℚ, u [0, 0] ≠ 0 ∧ ∀ i < 4, ∀ j < 2, laplace [4, 2] u [i, j] = -8 * u [i, j] :=
  ⟨fun g => if (g.getD 0 0 + g.getD 1 0) % 2 = 0 then 1 else -1, by decide +kernel, by decide +kernel⟩

/-- The field of `laplacian` in closed form. -/
theorem lap_closed {N n : Nat} (hN : 0 < N) {g : List Nat} (hg : InGrid (List.replicate n N) g) :
    ((laplace (List.replicate n N))^[10] fun g =>
        (g.map fun i : Nat => HasSin.sin (2 * HasSin.pi * (((i : ℝ) + 1 / 2) / (N : ℝ)))).prod) g =
      (2 * n * (Real.cos (2 * Real.pi / N) - 1)) ^ 10 *
        (g.map fun i : Nat => Real.sin (2 * Real.pi * (((i : ℝ) + 1 / 2) / (N : ℝ)))).prod := by
  have h := laplace_waves_iter hN 10 g hg
  have e : (n : ℝ) * (2 * (Real.cos (2 * Real.pi / N) - 1)) = 2 * n * (Real.cos (2 * Real.pi / N) - 1) := by ring
  rw [e] at h
  exact h

/-- C73: in real arithmetic with the real sine, if the number of cells per axis is a power of two and the grid can be
decomposed, `laplacian` ends with the product of `sin(2 pi x)` over the coordinates of the cell centres, times
`(2 n (cos(2 pi / N) - 1))^10`. -/
theorem C73_driver_closed_form [HasMax ℝ] (sz N n : Nat) (hr : InRange sz (List.replicate n N)) (hN : N ∣ 2 ^ 64)
    (hex : ∃ d, ValidDecomp sz (List.replicate n N) d) :
    ∃ w, Laplacian.run (R := ℝ) sz N n = .ok w ∧ Partition w sz (List.replicate n N) ∧
      ∀ f ∈ w, ∀ g, InBox f.lo f.hi g → InGrid (List.replicate n N) g →
        f.inData[cellPos f.lo f.hi g]? = some ((2 * n * (Real.cos (2 * Real.pi / N) - 1)) ^ 10 *
          (g.map fun i : Nat => Real.sin (2 * Real.pi * (((i : ℝ) + 1 / 2) / (N : ℝ)))).prod) := by
  obtain ⟨_, _, _, _, w, e, hpart, hin⟩ := C29_driver_partial (K := ℝ) sz N n hr hN hex
  refine ⟨w, e, hpart, fun f hf g hg hgrid => ?_⟩
  rw [hin f hf g hg, lap_closed (replicate_pos hr) hgrid]

/-- Four processes, 4 x 4 cells: the factor is (4 (cos(pi/2) - 1))^10 = 4^10. -/
example [HasMax ℝ] : ∃ w, Laplacian.run (R := ℝ) 4 4 2 = .ok w ∧ ∀ f ∈ w, ∀ g, InBox f.lo f.hi g → InGrid [4, 4] g →
    f.inData[cellPos f.lo f.hi g]? = some (4 ^ 10 *
      (g.map fun i : Nat => Real.sin (2 * Real.pi * (((i : ℝ) + 1 / 2) / 4))).prod) := by
  obtain ⟨w, e, _, h⟩ := C73_driver_closed_form 4 4 2
    ⟨by decide, by decide, by decide, by decide, by decide, by decide, by decide, by decide⟩ (by decide)
    ⟨[2, 2], .cons (by decide) (.cons (by decide) .nil), rfl⟩
  refine ⟨w, e, fun f hf g hg hgr => (h f hf g hg hgr).trans ?_⟩
  have hc : Real.cos (2 * Real.pi / ((4 : Nat) : ℝ)) = 0 := by
    rw [← Real.cos_pi_div_two]
    congr 1
    push_cast
    ring
  rw [hc]
  norm_num

/-! ### C74 -/

/-- C74: the filter of `laplacian` approximates the Laplace operator to second order: on `N` cells per axis of the unit cube, a
power of two, the result for the values of a periodic function at the cell centres is `1/N^2` times the Laplacian there, up to
`n M / (12 N^4)`, `M` bounding the fourth derivatives. -/
theorem C74_second_order [HasMax ℝ] (sz N n : Nat) (hr : InRange sz (List.replicate n N)) (hN : N ∣ 2 ^ 64)
    (hex : ∃ d, ValidDecomp sz (List.replicate n N) d) (M : ℝ) (φ : (Fin n → ℝ) → ℝ) (φ2 : Fin n → (Fin n → ℝ) → ℝ)
    (hper : ∀ x j, φ (x + Pi.single j 1) = φ x) (hφ : ∀ j, FourTimes M j φ (φ2 j)) :
    ∃ w w1 w2, Laplacian.start (R := ℝ) sz N n = .ok w ∧
      w.setInDataByIndices (fun g => φ fun i => ((g.getD i 0 : ℝ) + 1 / 2) / N) = .ok w1 ∧ w1.applyFilter = .ok w2 ∧
      Partition w2 sz (List.replicate n N) ∧
      ∀ f ∈ w2, ∀ g, InBox f.lo f.hi g → InGrid (List.replicate n N) g → ∃ y, f.outData[cellPos f.lo f.hi g]? = some y ∧
        |y - 1 / (N : ℝ) ^ 2 * ∑ j, φ2 j fun i => ((g.getD i 0 : ℝ) + 1 / 2) / N| ≤ n * M / (12 * (N : ℝ) ^ 4) := by
  obtain ⟨w, e, _, h, _⟩ := C29_driver_partial (K := ℝ) sz N n hr hN hex
  obtain ⟨w1, w2, e1, e2, hpart, hout, _⟩ := h fun g => φ fun i => ((g.getD i 0 : ℝ) + 1 / 2) / N
  refine ⟨w, w1, w2, e, e1, e2, hpart, fun f hf g hg hgrid => ⟨_, hout f hf g hg, ?_⟩⟩
  have hN0 := replicate_pos hr
  have hNR : (0 : ℝ) < N := by exact_mod_cast hN0
  have hl := hgrid.length_eq
  rw [List.length_replicate] at hl
  set x : Fin n → ℝ := fun i => ((g.getD i 0 : ℝ) + 1 / 2) / N with hx
  -- neighbours
  have hnb : ∀ (j : Fin n) (s : Int), (φ fun i => (((neighbour (List.replicate n N) j s g).getD i 0 : ℝ) + 1 / 2) / N) =
      φ (x + Pi.single j ((s : ℝ) * (1 / N))) := by
    intro j s
    have hj : (j : Nat) < g.length := by omega
    have h2 : ((((g.getD j 0 : Int) + s) % (N : Int)).toNat : Int) = ((g.getD j 0 : Int) + s) % (N : Int) :=
      Int.toNat_of_nonneg (Int.emod_nonneg _ (by omega))
    have h3 : (((((g.getD j 0 : Int) + s) % (N : Int)).toNat : Nat) : ℝ) =
        (g.getD j 0 : ℝ) + s - (N : ℝ) * ((((g.getD j 0 : Int) + s) / (N : Int) : Int) : ℝ) := by
      have h4 := congrArg (fun z : Int => (z : ℝ)) (h2.trans (Int.emod_def _ _))
      push_cast at h4
      exact h4
    have hper' := periodic_int (L := List.replicate n 1) (φ := φ)
      (fun x i => by
        rw [List.getD_eq_getElem?_getD, List.getElem?_replicate, if_pos i.2]
        exact hper x i)
      (x + Pi.single j ((s : ℝ) * (1 / N))) j (-(((g.getD j 0 : Int) + s) / (N : Int)))
    rw [← hper']
    congr 1
    funext i
    simp only [Pi.add_apply, hx]
    by_cases hij : i = j
    · subst hij
      rw [Pi.single_eq_same, Pi.single_eq_same]
      have h1 : (neighbour (List.replicate n N) i s g).getD i 0 = (((g.getD i 0 : Int) + s) % (N : Int)).toNat := by
        rw [neighbour, List.getD_eq_getElem?_getD, List.getElem?_set_self hj, natGetD_of_lt (l := List.replicate n N) (by simp),
          List.getElem_replicate]
        rfl
      rw [h1, h3, List.getD_eq_getElem?_getD (l := List.replicate n (1 : ℝ)), List.getElem?_replicate, if_pos i.2]
      push_cast
      simp only [Option.getD_some]
      field_simp
      ring
    · rw [Pi.single_eq_of_ne hij, Pi.single_eq_of_ne hij]
      have h1 : (neighbour (List.replicate n N) j s g).getD i 0 = g.getD i 0 := by
        rw [neighbour, List.getD_eq_getElem?_getD, List.getElem?_set_ne (fun e => hij (Fin.ext e.symm)),
          ← List.getD_eq_getElem?_getD]
      rw [h1]
      ring
  rw [laplace_eq, List.length_replicate,
    Finset.sum_range (f := fun j => (φ fun i => (((neighbour (List.replicate n N) j 1 g).getD i 0 : ℝ) + 1 / 2) / N) +
      (φ fun i => (((neighbour (List.replicate n N) j (-1) g).getD i 0 : ℝ) + 1 / 2) / N) - 2 * φ x)]
  simp only [hnb]
  rw [mul_sum, ← sum_sub_distrib]
  refine le_trans (abs_sum_le_sum_abs _ _) ?_
  have key : ∀ j : Fin n, |φ (x + Pi.single j (((1 : Int) : ℝ) * (1 / N))) + φ (x + Pi.single j (((-1 : Int) : ℝ) * (1 / N))) - 2 * φ x -
      1 / (N : ℝ) ^ 2 * φ2 j x| ≤ M / (12 * (N : ℝ) ^ 4) := by
    intro j
    obtain ⟨F1, F3, hF⟩ := hφ j x
    have h := second_difference (F := fun s => φ (x + Pi.single j s)) (fun s => (hF s).1) (fun s => (hF s).2.1)
      (fun s => (hF s).2.2.1) (fun a b => (hF a).2.2.2 b) (h := 1 / N) (by positivity)
    simp only [Pi.single_zero, add_zero] at h
    have e1 : (((1 : Int) : ℝ) * (1 / (N : ℝ))) = 1 / N := by push_cast; ring
    have e2 : (((-1 : Int) : ℝ) * (1 / (N : ℝ))) = -(1 / N) := by push_cast; ring
    rw [e1, e2]
    have e3 : (1 / (N : ℝ)) ^ 2 = 1 / (N : ℝ) ^ 2 := by rw [one_div, one_div, inv_pow]
    have e4 : M / 12 * (1 / (N : ℝ)) ^ 4 = M / (12 * (N : ℝ) ^ 4) := by field_simp
    rw [e3, e4] at h
    exact h
  refine le_trans (sum_le_sum fun j _ => key j) (le_of_eq ?_)
  rw [sum_const, card_univ, Fintype.card_fin, nsmul_eq_mul]
  ring

/-- The sine wave along the first of two axes. -/
theorem sine_fourTimes (j : Fin 2) : FourTimes ((2 * Real.pi) ^ 4) j (fun x => Real.sin (2 * Real.pi * x 0))
    (fun x => if j = 0 then -(2 * Real.pi) ^ 2 * Real.sin (2 * Real.pi * x 0) else 0) := by
  intro x
  by_cases hj : j = 0
  · subst hj
    have hx : ∀ s, (x + (Pi.single 0 s : Fin 2 → ℝ)) 0 = x 0 + s := fun s => by simp
    simp only [hx, if_true]
    have ha : ∀ s, HasDerivAt (fun s => 2 * Real.pi * (x 0 + s)) (2 * Real.pi) s := fun s => by
      have := ((hasDerivAt_id s).const_add (x 0)).const_mul (2 * Real.pi)
      rw [mul_one] at this
      exact this
    refine ⟨fun s => Real.cos (2 * Real.pi * (x 0 + s)) * (2 * Real.pi),
      fun s => -(2 * Real.pi) ^ 2 * (Real.cos (2 * Real.pi * (x 0 + s)) * (2 * Real.pi)), fun s => ⟨(ha s).sin, ?_, ?_, ?_⟩⟩
    · have := (ha s).cos.mul_const (2 * Real.pi)
      have e : -Real.sin (2 * Real.pi * (x 0 + s)) * (2 * Real.pi) * (2 * Real.pi) =
        -(2 * Real.pi) ^ 2 * Real.sin (2 * Real.pi * (x 0 + s)) := by ring
      rw [e] at this
      exact this
    · exact (ha s).sin.const_mul _
    · intro t
      have h := Real.abs_cos_sub_cos_le (2 * Real.pi * (x 0 + s)) (2 * Real.pi * (x 0 + t))
      have e1 : 2 * Real.pi * (x 0 + s) - 2 * Real.pi * (x 0 + t) = 2 * Real.pi * (s - t) := by ring
      rw [e1, abs_mul, abs_of_pos Real.two_pi_pos] at h
      have e2 : ∀ a b : ℝ, -(2 * Real.pi) ^ 2 * (a * (2 * Real.pi)) - -(2 * Real.pi) ^ 2 * (b * (2 * Real.pi)) =
        -((2 * Real.pi) ^ 3 * (a - b)) := fun a b => by ring
      rw [e2, abs_neg, abs_mul, abs_of_pos (pow_pos Real.two_pi_pos 3), pow_succ (2 * Real.pi) 3, mul_assoc _ (2 * Real.pi)]
      exact mul_le_mul_of_nonneg_left h (pow_pos Real.two_pi_pos 3).le
  · have hx : ∀ s, (x + (Pi.single j s : Fin 2 → ℝ)) 0 = x 0 := fun s => by simp [Pi.single_eq_of_ne (Ne.symm hj)]
    simp only [hx, if_neg hj]
    refine ⟨fun _ => 0, fun _ => 0, fun s => ⟨hasDerivAt_const _ _, hasDerivAt_const _ _, hasDerivAt_const _ _, fun t => ?_⟩⟩
    simp only [sub_self, abs_zero]
    positivity

/-- C74 for a sine wave on 64 x 64 cells and 4 processes. -/
example [HasMax ℝ] : ∃ w w1 w2, Laplacian.start (R := ℝ) 4 64 2 = .ok w ∧
    w.setInDataByIndices (fun g => Real.sin (2 * Real.pi * (((g.getD 0 0 : ℝ) + 1 / 2) / 64))) = .ok w1 ∧ w1.applyFilter = .ok w2 ∧
      Partition w2 4 [64, 64] ∧
      ∀ f ∈ w2, ∀ g, InBox f.lo f.hi g → InGrid [64, 64] g → ∃ y, f.outData[cellPos f.lo f.hi g]? = some y ∧
        |y - 1 / (64 : ℝ) ^ 2 * (-(2 * Real.pi) ^ 2 * Real.sin (2 * Real.pi * (((g.getD 0 0 : ℝ) + 1 / 2) / 64)))| ≤
          2 * (2 * Real.pi) ^ 4 / (12 * (64 : ℝ) ^ 4) := by
  have h := C74_second_order 4 64 2
    ⟨by decide, by decide, by decide, by decide, by decide, by decide, by decide, by decide⟩ (by decide)
    ⟨[2, 2], .cons (by decide) (.cons (by decide) .nil), rfl⟩ ((2 * Real.pi) ^ 4) (fun x => Real.sin (2 * Real.pi * x 0))
    (fun j x => if j = 0 then -(2 * Real.pi) ^ 2 * Real.sin (2 * Real.pi * x 0) else 0)
    (fun x j => by
      by_cases hj : j = 0
      · subst hj
        have e : 2 * Real.pi * (x + (Pi.single 0 1 : Fin 2 → ℝ)) 0 = 2 * Real.pi * x 0 + 2 * Real.pi := by
          simp
          ring
        rw [e, Real.sin_add_two_pi]
      · have e : (x + (Pi.single j 1 : Fin 2 → ℝ)) 0 = x 0 := by simp [Pi.single_eq_of_ne (Ne.symm hj)]
        rw [e])
    sine_fourTimes
  simpa [Fin.sum_univ_two] using h

end Fidi
