import Verif.Lemmas.CubeDecompDouble
import Verif.Lemmas.CubeDecompFirst
import Verif.Props.CubeDecomp

/-
Property C11 with the `double` numbers of the code: `F64` are IEEE doubles (round to nearest even, underflow, overflow,
infinities, NaN). The selection of a decomposition compares rounded quotients.
-/
namespace Fidi
open Spec CubeDecomp

/-- C11: on grids of at most 2^32 cells rounding does not change the decomposition that is chosen. -/
theorem C11_double (self : CubeDecomp) (nprocs : Nat) (dims : List Nat) (hp1 : 1 ≤ nprocs)
    (hp2 : nprocs < 2 ^ 31) (hne : dims ≠ []) (hpos : ∀ n ∈ dims, 0 < n) (hax : dims.length < 32)
    (hsize : dims.prod ≤ 2 ^ 32) : build F64 self nprocs dims = build ℚ self nprocs dims :=
  build_double self nprocs dims hp1 hp2 hne hpos hax hsize

/-- C11 (part) for the code's `double`: the decomposition chosen is at least as good, in exact arithmetic, as any valid
decomposition that is not the first one in the enumeration order.
Missing: the first valid decomposition, with which the claim is false (`C11_minimizes_double_fails`). -/
theorem C11_minimizes_double_partial (self c : CubeDecomp) (nprocs : Nat) (dims : List Nat) (hp1 : 1 ≤ nprocs)
    (hp2 : nprocs < 2 ^ 31) (hne : dims ≠ []) (hpos : ∀ n ∈ dims, 0 < n) (hax : dims.length < 32)
    (hsize : dims.prod ≤ 2 ^ 32) (h : build F64 self nprocs dims = .ok (true, c)) (d e : List Nat)
    (hd : ValidDecomp nprocs dims d) (he : ValidDecomp nprocs dims e) (hlt : e.reverse < d.reverse) :
    surfaceToVolume dims c.getDecomp ≤ surfaceToVolume dims d :=
  C11_minimizes_partial self c nprocs dims hp1 hp2 hne hpos hax hsize
    (by rw [← C11_double self nprocs dims hp1 hp2 hne hpos hax hsize]; exact h) d e hd he hlt

/-- C11 is false of the code's `double` too. -/
theorem C11_minimizes_double_fails :
    ¬ ∀ (c : CubeDecomp) (nprocs : Nat) (dims : List Nat), 1 ≤ nprocs → nprocs < 2 ^ 31 → dims ≠ [] →
      (∀ n ∈ dims, 0 < n) → dims.prod ≤ 2 ^ 32 → build F64 CubeDecomp.empty nprocs dims = .ok (true, c) →
      ∀ d, ValidDecomp nprocs dims d → surfaceToVolume dims c.getDecomp ≤ surfaceToVolume dims d := by
  intro h
  have hb : build ℚ CubeDecomp.empty ((2 : Nat) : Int) [100, 2] =
      .ok (true, { nprocs := 2, ndims := 2, decomp := [1, 2], dims := [100, 2],
                   localDims := [100, 1], mit := some (builtIter [0, 0] [1, 2] true) }) := by
    decide +kernel
  rw [← C11_double _ 2 [100, 2] (by decide) (by decide) (by decide) (by decide) (by decide) (by decide)] at hb
  have := h _ 2 _ (by decide) (by decide) (by decide) (by decide) (by decide) hb [2, 1]
    ⟨.cons (by decide) (.cons (by decide) .nil), by decide⟩
  norm_num [surfaceToVolume, surface, localExtents, getDecomp, List.range_succ] at this

/-- C11: when the claim holds. `f` is the valid decomposition that comes first in the enumeration order (the last axis having
the highest weight). The decomposition chosen is optimal exactly if some axis has a single cell, or no other decomposition is
valid, or another one is at least as good as `f`. -/
theorem C11_minimizes_iff (self c : CubeDecomp) (nprocs : Nat) (dims : List Nat) (hp1 : 1 ≤ nprocs)
    (hp2 : nprocs < 2 ^ 31) (hne : dims ≠ []) (hpos : ∀ n ∈ dims, 0 < n) (hax : dims.length < 32)
    (hsize : dims.prod ≤ 2 ^ 32) (h : build F64 self nprocs dims = .ok (true, c)) (f : List Nat)
    (hf : ValidDecomp nprocs dims f) (hfirst : ∀ e, ValidDecomp nprocs dims e → e = f ∨ f.reverse < e.reverse) :
    (∀ d, ValidDecomp nprocs dims d → surfaceToVolume dims c.getDecomp ≤ surfaceToVolume dims d) ↔
      1 ∈ dims ∨ (∀ e, ValidDecomp nprocs dims e → e = f) ∨
        ∃ e, ValidDecomp nprocs dims e ∧ e ≠ f ∧ surfaceToVolume dims e ≤ surfaceToVolume dims f := by
  rw [C11_double self nprocs dims hp1 hp2 hne hpos hax hsize] at h
  by_cases hunit : 1 ∈ dims
  · exact ⟨fun _ => Or.inl hunit, fun _ d hd =>
      C11_minimizes_unit_axis_partial self c nprocs dims hp1 hp2 hpos hax hsize hunit h d hd⟩
  have hE := EnumOK.of_prod hne hpos hax hsize
  have hval : ∀ d, d ∈ validList nprocs dims ↔ ValidDecomp nprocs dims d := by
    intro d
    rw [mem_validList hE]
    constructor
    · rintro ⟨h1, h2⟩
      refine ⟨h1, ?_⟩
      have := (accepts_iff (by omega) (by omega) ((prod_le_of_dvd h1 hpos).trans hsize)).1 h2
      exact_mod_cast this
    · rintro ⟨h1, h2⟩
      refine ⟨h1, (accepts_iff (by omega) (by omega) ((prod_le_of_dvd h1 hpos).trans hsize)).2 ?_⟩
      exact_mod_cast h2
  have hsort := validList_sorted (nprocs := nprocs) hpos hunit
  have hcost : ∀ d, ValidDecomp nprocs dims d → costW ℚ dims d = surfaceToVolume dims d ∧
      costW ℚ dims d < HasMax.dblMax := by
    intro d hd
    rw [costW_eq hd.1 hpos hax hsize]
    exact ⟨rfl, surfaceToVolume_lt hd.1 hpos hax hsize⟩
  have hb := build_some (R := ℚ) self nprocs dims hE (List.ne_nil_of_mem ((hval f).2 hf))
  rw [h] at hb
  simp only [Except.ok.injEq, Prod.mk.injEq, true_and] at hb
  have hc : c.getDecomp = bestOf (costW ℚ dims) (validList nprocs dims) := by rw [hb]; rfl
  rw [hc]
  clear hb hc
  match hvl : validList nprocs dims with
  | [] => rw [← hval, hvl] at hf; simp at hf
  | v :: vs =>
    rw [hvl] at hsort
    rw [List.pairwise_cons] at hsort
    have hmem : ∀ d, ValidDecomp nprocs dims d ↔ d = v ∨ d ∈ vs := fun d => by rw [← hval, hvl, List.mem_cons]
    obtain rfl : v = f := by
      rcases hfirst v ((hmem v).2 (Or.inl rfl)) with h | h
      · exact h
      · rcases (hmem f).1 hf with h' | h'
        · exact h'.symm
        · exact absurd (List.lt_trans h (hsort.1 f h')) (List.lt_irrefl _)
    have hvs : ∀ d ∈ vs, d ≠ v := fun d hd e => List.lt_irrefl _ (e ▸ hsort.1 d hd)
    match vs, hvs, hmem with
    | [], _, hmem =>
      have all : ∀ e, ValidDecomp nprocs dims e → e = v := fun e he => by simpa using (hmem e).1 he
      refine ⟨fun _ => Or.inr (Or.inl all), fun _ d hd => ?_⟩
      rw [all d hd]
      exact le_refl _
    | a :: vs, hvs, hmem =>
      have hva : ∀ d ∈ a :: vs, ValidDecomp nprocs dims d := fun d hd => (hmem d).2 (Or.inr hd)
      have hbm := bestOf_mem_tail (costW ℚ dims) v a vs (hcost a (hva a (by simp))).2
      have hle := bestOf_le (costW ℚ dims) v (a :: vs) (fun d hd => (hcost d (hva d hd)).2)
      rw [(hcost _ (hva _ hbm)).1] at hle
      constructor
      · intro hopt
        exact Or.inr (Or.inr ⟨_, hva _ hbm, hvs _ hbm, hopt v hf⟩)
      · rintro (h1 | h1 | ⟨e, he, hne', hev⟩) d hd
        · exact absurd h1 hunit
        · exact absurd (h1 a (hva a (by simp))) (hvs a (by simp))
        · have le_of : ∀ d ∈ a :: vs, surfaceToVolume dims (bestOf (costW ℚ dims) (v :: a :: vs)) ≤ surfaceToVolume dims d := by
            intro d hd
            have := hle d hd
            rwa [(hcost d (hva d hd)).1] at this
          rcases (hmem d).1 hd with rfl | hd
          · exact (le_of e (((hmem e).1 he).resolve_left hne')).trans hev
          · exact le_of d hd

/-- Both sides of the characterisation occur: on 8 x 8 with 4 processes the first decomposition is [4, 1] and [2, 2] is better;
on 100 x 2 with 2 processes the first one, [2, 1], is better than the only other one. -/
example : (ValidDecomp 4 [8, 8] [4, 1] ∧ ValidDecomp 4 [8, 8] [2, 2] ∧
      surfaceToVolume [8, 8] [2, 2] ≤ surfaceToVolume [8, 8] [4, 1]) ∧
    (ValidDecomp 2 [100, 2] [2, 1] ∧ ValidDecomp 2 [100, 2] [1, 2] ∧
      ¬ surfaceToVolume [100, 2] [1, 2] ≤ surfaceToVolume [100, 2] [2, 1]) :=
  ⟨⟨⟨.cons (by decide) (.cons (by decide) .nil), by decide⟩, ⟨.cons (by decide) (.cons (by decide) .nil), by decide⟩,
    by decide +kernel⟩, ⟨.cons (by decide) (.cons (by decide) .nil), by decide⟩,
    ⟨.cons (by decide) (.cons (by decide) .nil), by decide⟩, by decide +kernel⟩

/-- 6 processes on a 12 x 18 grid with IEEE doubles: valid decompositions, in the order of the code, [6, 1], [3, 2], [2, 3]
and [1, 6], with the rounded ratios 20/36, 13/36, 12/36 and 15/36. -/
example : (∃ c, build F64 CubeDecomp.empty ((6 : Nat) : Int) [12, 18] = .ok (true, c) ∧ c.getDecomp = [2, 3]) ∧
    ValidDecomp 6 [12, 18] [6, 1] ∧ [6, 1].reverse < [1, 6].reverse := by
  exact ⟨exists_ok_pair (by decide +kernel), ⟨.cons (by decide) (.cons (by decide) .nil), by decide⟩, by decide⟩

end Fidi
