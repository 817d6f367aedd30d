import Verif.Props.UpwindStable

/-
Property C83: the upwind solver creates no oscillations.
-/
set_option linter.unusedSectionVars false

namespace Fidi
open Spec Upwind Finset

section
variable {K : Type} [Field K] [LinearOrder K] [IsStrictOrderedRing K]

/-- C83: let `D` hold the differences between the values of the cells displaced by `d` and the cells of the initial field, `E` those
of the final field. If the total Courant number is at most 1, the sum of the absolute differences does not grow (with `d` a unit
displacement: the total variation along an axis), and the differences stay within their initial bounds (a field that rises nowhere
faster than by some number per cell goes on to do so). -/
theorem C83_variation (N : List Nat) (hN : N ≠ []) (hdim : N.length < 2 ^ 64) (hpos : ∀ n ∈ N, 0 < n)
    (hcells : N.prod < 2 ^ 31) (haxis : ∀ n ∈ N, n < 2 ^ 30) (v L : List K) (hv : v.length = N.length)
    (hL : L.length = N.length) (hLpos : ∀ x ∈ L, 0 < x) (s0 : Upwind K)
    (hnew : Upwind.new N.length v L N = .ok s0) (dt : K) (hdt : 0 ≤ dt) (hc : courant dt v L N ≤ 1)
    (d : List Int) (hd : d.length = N.length) (f D : List K) (u : List Nat → K) (hf : Stores N f u)
    (hD : Stores N D fun g => u (shiftMod N g d) - u g) (k : Int) :
    ∃ s w E, { s0 with f := f }.advect k dt = .ok s ∧ Stores N s.f w ∧ Stores N E (fun g => w (shiftMod N g d) - w g) ∧
      (E.map fun x => |x|).sum ≤ (D.map fun x => |x|).sum ∧
      ∀ lo hi, (∀ x ∈ D, lo ≤ x ∧ x ≤ hi) → ∀ x ∈ E, lo ≤ x ∧ x ≤ hi := by
  obtain ⟨_, _, e⟩ := advect_spec hN hdim ⟨hpos, hcells, haxis⟩ hv hL hnew hf k dt
  rw [courant_eq] at hc
  have hw := fun j (_ : j < N.length) => weight_nonneg (v := v) (N := N) hdt hLpos j
  rw [coeff_neg] at e
  have hstep := iter_shift (N := N) (upDir v) (fun j => -(dt * |v.getD j 0| / cellWidth L N j)) k.toNat hd u
  refine ⟨_, _, _, e, Stores.listOf hpos _, Stores.listOf hpos _, ?_, ?_⟩
  · have habs : ∀ a : List Nat → K, (listOf N a).map (fun x => |x|) = listOf N fun g => |a g| := by
      intro a
      simp only [listOf, List.map_map]
      rfl
    rw [(stores_iff hpos).1 hD, habs, habs, sum_listOf, sum_listOf]
    refine le_trans (le_of_eq (total_congr hpos fun g hg => ?_)) (total_abs_iter hpos (upDir v) hw hc k.toNat _)
    rw [← iter_sub, hstep g hg]
  · intro lo hi hb x hx
    simp only [listOf, List.mem_map, List.mem_range] at hx
    obtain ⟨i, _, rfl⟩ := hx
    have hg := cellAt_inGrid hpos i
    rw [← hstep _ hg, iter_sub]
    exact iter_between _ hw hc (fun g hg => hb _ (List.mem_iff_getElem?.2 ⟨_, hD.2 g hg⟩)) k.toNat _ hg

end

/-- Four cells, Courant number 1/2: the variation of the field does not grow beyond its initial value 12, and the differences stay
between -6 and 4. -/
example : ∃ s w E, { (built [(1 : ℚ)] [1] [4]) with f := [1, 5, 7, 3] }.advect 9 (1 / 8) = .ok s ∧ Stores [4] s.f w ∧
    Stores [4] E (fun g => w (shiftMod [4] g [1]) - w g) ∧ (E.map fun x => |x|).sum ≤ 12 ∧ ∀ x ∈ E, -6 ≤ x ∧ x ≤ 4 := by
  have hst : ∀ f : List ℚ, f.length = 4 → Stores [4] f fun g => f.getD (rankOf [4] g) 0 := fun f hf => exists_field (by simpa using hf)
  obtain ⟨s, w, E, h1, h2, h3, h4, h5⟩ := C83_variation [4] (by simp) (by simp) (by simp) (by simp) (by simp) [(1 : ℚ)] [1] rfl rfl
    (by simp) _ (new_built (by simp) (by simp) ⟨by simp, by simp, by simp⟩ rfl rfl) (1 / 8) (by norm_num)
    (by decide +kernel) [1] rfl [1, 5, 7, 3] [4, 2, -4, -2] _ (hst _ rfl) ⟨rfl, by
      intro g hg
      obtain ⟨a, rfl⟩ : ∃ a, g = [a] := by
        match g, hg.length_eq with
        | [a], _ => exact ⟨a, rfl⟩
      simp only [InGrid, and_true] at hg
      have : ∀ a < 4, ([4, 2, -4, -2] : List ℚ)[rankOf [4] [a]]? = some (([1, 5, 7, 3] : List ℚ).getD
          (rankOf [4] (shiftMod [4] [a] [1])) 0 - ([1, 5, 7, 3] : List ℚ).getD (rankOf [4] [a]) 0) := by decide +kernel
      exact this a hg⟩ 9
  refine ⟨s, w, E, h1, h2, h3, h4.trans (by decide +kernel), h5 (-6) 4 (by decide +kernel)⟩

/-- Without the Courant condition the variation grows: three cells, Courant number 2, one step. -/
example : ∃ s, { (built [(1 : ℚ)] [1] [3]) with f := [1, 0, 0] }.advect 1 (2 / 3) = .ok s ∧ s.f = [-1, 2, 0] := by
  obtain ⟨_, _, e⟩ := advect_spec (R := ℚ) (N := [3]) (v := [1]) (L := [1]) (by simp) (by simp) ⟨by simp, by simp, by simp⟩ rfl rfl
    (new_built (by simp) (by simp) ⟨by simp, by simp, by simp⟩ rfl rfl) (exists_field (f := [1, 0, 0]) rfl) 1 (2 / 3)
  refine ⟨_, e, ?_⟩
  change listOf [3] _ = _
  decide +kernel

end Fidi
