import Verif.Lemmas.FilterWide
import Verif.Props.FilterShapes
import Verif.Props.FilterAny

/-
Property C22 for offsets along one axis, of any width.
-/
namespace Fidi
open Spec

section
variable {R : Type} [Zero R] [Add R] [Mul R] [Div R] [NatCast R] [LT R] [DecidableLT R] [HasMax R]

/-- C22: an offset of two cells or more along one axis, be it narrower or wider than the sub-domains or the grid, is
computed for no grid (of up to 2^31 cells), no process count with a valid decomposition, no weight and no input: the
filter is not constructed, or setting its input or applying it does not end normally. -/
theorem C22_wide_offset_never (nprocs : Nat) (dims : List Nat) (xmins xmaxs : List R) (off : List Int) (v : R)
    (hr : InRange nprocs dims) (hex : ∃ d, ValidDecomp nprocs dims d) (hcells : dims.prod ≤ 2 ^ 31)
    (hlen : off.length = dims.length) (hint : ∀ o ∈ off, -(2 : Int) ^ 31 ≤ o ∧ o < 2 ^ 31) (a : Nat)
    (hax : ∀ k, k ≠ a → off.getD k 0 = 0) (hwide : 2 ≤ (off.getD a 0).natAbs) (u : List Nat → R) (w2 : World R) :
    (World.new nprocs dims xmins xmaxs [(off, v)] >>= fun w => w.setInDataByIndices u >>= fun w1 => w1.applyFilter) ≠
      .ok w2 := by
  intro hall
  obtain ⟨w, ew, hall⟩ := (M.bind_ok_iff _ _ _).1 hall
  obtain ⟨w1, ew1, hall⟩ := (M.bind_ok_iff _ _ _).1 hall
  have hp := hr.procs
  have hp1 := hr.procs1
  obtain ⟨d, hg, hb⟩ := build_found (R := R) hr.procs1 (by omega) hr.ne hr.pos hr.axes hr.cells hex
  have h0 : Cfg.Good ⟨nprocs, dims, d, xmins, xmaxs, []⟩ := good_of_range hr hg xmins xmaxs [] (by simp)
  obtain ⟨_, hw⟩ := mapM_ok_get _ _ _ ew
  obtain ⟨f, hf, hfw⟩ := hw 0 0 (by rw [List.getElem?_range (by omega)])
  by_cases hmin : off.getD a 0 = -(2 : Int) ^ 31
  · exact min_new_never h0 hb hlen hmin v f hf
  have hint' : ∀ o ∈ off, -(2 : Int) ^ 31 < o ∧ o < 2 ^ 31 := by
    intro o ho
    obtain ⟨h1, h2⟩ := hint o ho
    refine ⟨?_, h2⟩
    rcases h1.lt_or_eq with h1 | h1
    · exact h1
    · obtain ⟨i, hi, rfl⟩ := List.getElem_of_mem ho
      rw [← getD_of_lt (z := 0) hi] at h1
      by_cases hia : i = a
      · subst hia; exact absurd h1.symm hmin
      · rw [hax i hia] at h1; exact absurd h1 (by decide)
  by_cases hfit : (off.getD a 0).natAbs ≤ (localExtents dims d).getD a 0
  · have h := good_of_range hr hg xmins xmaxs [(off, v)] (by
      intro kv hkv
      obtain rfl := List.mem_singleton.1 hkv
      refine ⟨hlen, hint', fun i hi => ?_⟩
      rw [ghostWidth_axis hax]
      by_cases hia : i = a
      · rw [hia]; exact hfit
      · exact absurd (hax i hia) hi)
    obtain ⟨w', e', h1⟩ := world_new h hb
    have e' : World.new nprocs dims xmins xmaxs [(off, v)] = .ok w' := e'
    rw [e'] at ew
    obtain rfl := Except.ok.inj ew
    obtain ⟨w1', e1', h2⟩ := world_set h h1 u
    rw [e1'] at ew1
    obtain rfl := Except.ok.inj ew1
    exact world_never h h2 (fun x f h => h.shape) (kv := (off, v)) (List.mem_singleton.2 rfl)
      (wide_never h hcells (List.mem_singleton.2 rfl) hax hwide) w2 hall
  · obtain ⟨_, hw1⟩ := mapM_ok_get _ _ _ ew1
    obtain ⟨f1, hf1, _⟩ := hw1 0 f hfw
    exact wide_set_never h0 hb hlen hint' hax (by show (localExtents dims d).getD a 0 < _; omega) v hf u f1 hf1

end

section
variable {K : Type} [Field K] [LT K] [DecidableLT K] [HasMax K]

/-- C22: for every grid of up to 2^31 cells, process count with a valid decomposition, offset along one axis (any `int`)
and weight other than 0, the filter computes the periodic stencil of all inputs if, and only if, the offset is one cell at
most and, if it is negative, the extent along its axis is a power of two. -/
theorem C22_axis_offset_iff (nprocs : Nat) (dims : List Nat) (xmins xmaxs : List K) (off : List Int) (v : K) (hv : v ≠ 0)
    (hr : InRange nprocs dims) (hex : ∃ d, ValidDecomp nprocs dims d) (hcells : dims.prod ≤ 2 ^ 31)
    (hlen : off.length = dims.length) (hint : ∀ o ∈ off, -(2 : Int) ^ 31 ≤ o ∧ o < 2 ^ 31) (a : Nat)
    (hax : ∀ k, k ≠ a → off.getD k 0 = 0) :
    (∀ u : List Nat → K, ComputesStencil nprocs dims xmins xmaxs [(off, v)] u) ↔
      (off.getD a 0).natAbs ≤ 1 ∧ (off.getD a 0 < 0 → dims.getD a 1 ∣ 2 ^ 64) := by
  by_cases hwide : 2 ≤ (off.getD a 0).natAbs
  · refine ⟨fun hall => ?_, fun ⟨h, _⟩ => by omega⟩
    obtain ⟨w, w1, w2, e, e1, e2, _⟩ := hall fun _ => 0
    refine absurd ?_ (C22_wide_offset_never nprocs dims xmins xmaxs off v hr hex hcells hlen hint a hax hwide
      (fun _ => 0) w2)
    rw [e, M.ok_bind, e1, M.ok_bind, e2]
  · have hu : UnitOffset dims.length off := by
      refine ⟨hlen, fun o ho => ?_⟩
      obtain ⟨i, hi, rfl⟩ := List.getElem_of_mem ho
      rw [← getD_of_lt (z := 0) hi]
      by_cases hia : i = a
      · subst hia; omega
      · rw [hax i hia]; omega
    have hwr : WrapExact dims off ↔ (off.getD a 0 < 0 → dims.getD a 1 ∣ 2 ^ 64) := by
      refine ⟨fun h => h a, fun h i hi => ?_⟩
      by_cases hia : i = a
      · subst hia; exact h hi
      · rw [hax i hia] at hi; exact absurd hi (by decide)
    rw [← hwr]
    constructor
    · intro hall
      obtain ⟨d, hd, w, _, _, hiff⟩ := C22_offset_iff nprocs dims xmins xmaxs off v hv hr hex hcells
        (fun d hd => unit_offsetFits hd.1 hr.pos hu)
      exact ⟨by omega, (hiff.1 hall).2⟩
    · rintro ⟨_, hw⟩ u
      refine C22_unit_offsets_partial nprocs dims xmins xmaxs [(off, v)] u hr hex (fun kv hkv => ?_) (fun d _ kv hkv => ?_)
        (fun kv hkv => ?_)
      · obtain rfl := List.mem_singleton.1 hkv; exact hu
      · obtain rfl := List.mem_singleton.1 hkv
        intro i j hij hi hj
        by_cases hia : i = a
        · exact absurd (hax j (by omega)) hj
        · exact absurd (hax i hia) hi
      · obtain rfl := List.mem_singleton.1 hkv; exact hw

end

/-! ### Examples -/

/-- The hypotheses on 6 x 4 cells and three processes, with the offset (0, -9), wider than the grid. -/
example : InRange 3 [6, 4] ∧ (∃ d, ValidDecomp 3 [6, 4] d) ∧ [6, 4].prod ≤ 2 ^ 31 ∧
    (∀ o ∈ ([0, -9] : List Int), -(2 : Int) ^ 31 ≤ o ∧ o < 2 ^ 31) ∧
    (∀ k, k ≠ 1 → ([0, -9] : List Int).getD k 0 = 0) ∧ 2 ≤ (([0, -9] : List Int).getD 1 0).natAbs := by
  refine ⟨⟨by decide, by decide, by decide, by decide, by decide, by decide, by decide, by decide⟩,
    ⟨[3, 1], .cons (by decide) (.cons (by decide) .nil), rfl⟩, by decide, by decide, ?_, by decide⟩
  rintro (_ | _ | k) hk
  · rfl
  · exact absurd rfl hk
  · simp

/-- What runs of this kind do: the offset 9 on 4 cells stops when the input is set; (0, 1) on 6 x 4 cells is computed. -/
example :
    (World.new 1 [4] [0] [1] [(([9] : List Int), (1 : ℚ))] >>= fun w =>
      w.setInDataByIndices (fun g => (g.getD 0 0 : ℚ)) >>= fun w => pure (w.map fun f => f.inData)) =
        .error .outOfBounds ∧
    (World.new 3 [3, 2] [0, 0] [1, 1] [(([0, 1] : List Int), (2 : ℚ))] >>= fun w =>
      w.setInDataByIndices (fun g => (g.getD 0 0 + 10 * g.getD 1 0 : ℚ)) >>= fun w => w.applyFilter >>= fun w =>
      pure (w.map fun f => (f.lo, f.outData))) = .ok [([0, 0], [20, 0]), ([1, 0], [22, 2]), ([2, 0], [24, 4])] := by
  constructor <;> decide +kernel

end Fidi
