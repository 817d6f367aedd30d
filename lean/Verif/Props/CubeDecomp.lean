import Verif.Lemmas.CubeDecompGeom
import Mathlib.Tactic.NormNum
import Mathlib.Tactic.NormNum.Prime
import Mathlib.Data.Rat.Cast.Order
import Mathlib.Algebra.Order.Field.Basic

/-
Properties C07-C15: the domain decomposition.
`R` stands for `double` in the cost function: any type with the operations used, no laws assumed.
-/
namespace Fidi
open Spec CubeDecomp

section
variable {R : Type} [Div R] [NatCast R] [LT R] [DecidableLT R] [HasMax R]

/-! ### C07 -/

/-- C07 (part): on grids of at most 2^32 cells (and fewer than 32 axes) a decomposition that is found is valid.
Missing: larger grids, where the claim is false (`C07_found_is_valid_fails`). -/
theorem C07_found_is_valid_partial (self c : CubeDecomp) (nprocs : Nat) (dims : List Nat)
    (hp1 : 1 ≤ nprocs) (hp2 : nprocs < 2 ^ 31) (hne : dims ≠ []) (hpos : ∀ n ∈ dims, 0 < n)
    (hax : dims.length < 32) (hsize : dims.prod ≤ 2 ^ 32)
    (h : build R self nprocs dims = .ok (true, c)) : ValidDecomp nprocs dims c.getDecomp := by
  have hE := EnumOK.of_prod hne hpos hax hsize
  by_cases hv : validList nprocs dims = []
  · rw [build_none self nprocs dims hE hv] at h
    simp at h
  · rw [build_some self nprocs dims hE hv] at h
    simp only [Except.ok.injEq, Prod.mk.injEq, true_and] at h
    have hm := bestOf_mem (costW R dims) _ hv
    rw [mem_validList hE] at hm
    subst h
    refine ⟨hm.1, ?_⟩
    have := (accepts_iff (by omega) (by omega) ((prod_le_of_dvd hm.1 hpos).trans hsize)).1 hm.2
    exact_mod_cast this

/-- C07 (part): on grids of any size with fewer than 2^64 candidates, the entries of a decomposition that is found
divide the dimensions and their product equals nprocs modulo 2^32. -/
theorem C07_found_is_valid_mod_partial (self c : CubeDecomp) (nprocs : Nat) (dims : List Nat)
    (hp2 : nprocs < 2 ^ 31) (hne : dims ≠ []) (hpos : ∀ n ∈ dims, 0 < n)
    (hsize : 2 ^ dims.length * dims.prod < 2 ^ 64)
    (h : build R self nprocs dims = .ok (true, c)) :
    List.Forall₂ (fun n k => k ∣ n) dims c.getDecomp ∧ c.getDecomp.prod % 2 ^ 32 = nprocs := by
  have hE : EnumOK dims := EnumOK.of_bound hne hpos hsize
  by_cases hv : validList nprocs dims = []
  · rw [build_none self nprocs dims hE hv] at h
    simp at h
  · rw [build_some self nprocs dims hE hv] at h
    simp only [Except.ok.injEq, Prod.mk.injEq, true_and] at h
    have hm := bestOf_mem (costW R dims) _ hv
    rw [mem_validList hE] at hm
    subst h
    refine ⟨hm.1, ?_⟩
    have h2 := hm.2
    unfold accepts at h2
    rw [accumulateInt_eq, decide_eq_true_iff] at h2
    show (bestOf (costW R dims) (validList nprocs dims)).prod % 2 ^ 32 = nprocs
    revert h2
    generalize (bestOf (costW R dims) (validList nprocs dims)).prod = p
    unfold szOfInt W W32
    rw [Int.bmod_def]
    intro h2
    split at h2 <;> omega

end

/-- C07 is false beyond 2^32 cells: on the 1321 x 1300 x 2501 grid with 4 processes `build` reports success with a
decomposition into 4294967300 sub-domains, because the product is accumulated in an `int`. -/
theorem C07_found_is_valid_fails :
    ¬ ∀ (c : CubeDecomp) (nprocs : Nat) (dims : List Nat), 1 ≤ nprocs → nprocs < 2 ^ 31 → dims ≠ [] →
      (∀ n ∈ dims, 0 < n) → build ℚ CubeDecomp.empty nprocs dims = .ok (true, c) →
      ValidDecomp nprocs dims c.getDecomp := by
  intro h
  have hb : build ℚ CubeDecomp.empty 4 [1321, 1300, 2501] =
      .ok (true, { nprocs := 4, ndims := 3, decomp := [1321, 1300, 2501], dims := [1321, 1300, 2501],
                   localDims := [1, 1, 1], mit := some (builtIter [0, 0, 0] [1321, 1300, 2501] true) }) := by
    decide +kernel
  have := (h _ 4 _ (by decide) (by decide) (by decide) (by decide) hb).2
  exact absurd this (by decide)

/-- The hypotheses of the two partial theorems are met by a 6 x 4 grid on 4 processes. -/
example : ∃ c, build ℚ CubeDecomp.empty ((4 : Nat) : Int) [6, 4] = .ok (true, c) ∧ c.getDecomp = [1, 4] ∧
    2 ^ [6, 4].length * [6, 4].prod < 2 ^ 64 ∧ [6, 4].prod ≤ 2 ^ 32 :=
  exists_ok_pair (by decide +kernel)

/-! ### C08 -/

section
variable {R : Type} [Div R] [NatCast R] [LT R] [DecidableLT R] [HasMax R]

/-- C08 (part): on grids of at most 2^32 cells (and fewer than 32 axes) `build` always terminates normally, returns
true iff a valid decomposition exists, and leaves an empty decomposition otherwise.
Missing: larger grids, where the claim is false (`C08_found_iff_exists_fails`). -/
theorem C08_found_iff_exists_partial (self : CubeDecomp) (nprocs : Nat) (dims : List Nat)
    (hp1 : 1 ≤ nprocs) (hp2 : nprocs < 2 ^ 31) (hne : dims ≠ []) (hpos : ∀ n ∈ dims, 0 < n)
    (hax : dims.length < 32) (hsize : dims.prod ≤ 2 ^ 32) :
    ∃ b c, build R self nprocs dims = .ok (b, c) ∧ (b = true ↔ ∃ d, ValidDecomp nprocs dims d) ∧
      (b = false → c.getDecomp = []) := by
  have hE := EnumOK.of_prod hne hpos hax hsize
  have key : ∀ d, d ∈ validList nprocs dims ↔ ValidDecomp nprocs dims d := by
    intro d
    rw [mem_validList hE]
    constructor
    · rintro ⟨h1, h2⟩
      refine ⟨h1, ?_⟩
      have := (accepts_iff (by omega) (by omega) ((prod_le_of_dvd h1 hpos).trans hsize)).1 h2
      exact_mod_cast this
    · rintro ⟨h1, h2⟩
      refine ⟨h1, ?_⟩
      apply (accepts_iff (by omega) (by omega) ((prod_le_of_dvd h1 hpos).trans hsize)).2
      exact_mod_cast h2
  by_cases hv : validList nprocs dims = []
  · refine ⟨_, _, build_none self nprocs dims hE hv, ?_, fun _ => rfl⟩
    simp only [Bool.false_eq_true, false_iff, not_exists]
    intro d hd
    have := (key d).2 hd
    rw [hv] at this
    simp at this
  · refine ⟨_, _, build_some self nprocs dims hE hv, ?_, by simp⟩
    simp only [true_iff]
    exact ⟨_, (key _).1 (bestOf_mem (costW R dims) _ hv)⟩

/-- C08: on grids of any size with fewer than 2^64 candidates, `build` terminates normally and returns true exactly if there are divisors
of the dimensions whose product equals nprocs modulo 2^32; otherwise it leaves an empty decomposition. -/
theorem C08_found_mod_iff (self : CubeDecomp) (nprocs : Nat) (dims : List Nat)
    (hp2 : nprocs < 2 ^ 31) (hne : dims ≠ []) (hpos : ∀ n ∈ dims, 0 < n) (hsize : 2 ^ dims.length * dims.prod < 2 ^ 64) :
    ∃ b c, build R self nprocs dims = .ok (b, c) ∧
      (b = true ↔ ∃ d, List.Forall₂ (fun n k => k ∣ n) dims d ∧ d.prod % 2 ^ 32 = nprocs) ∧
      (b = false → c.getDecomp = []) := by
  have hE := EnumOK.of_bound hne hpos hsize
  have hacc : ∀ p : Nat, szOfInt ((p : Int).bmod W32) = szOfInt nprocs ↔ p % 2 ^ 32 = nprocs := by
    intro p
    unfold szOfInt W W32
    rw [Int.bmod_def]
    constructor
    · intro h; split at h <;> omega
    · intro h; split <;> omega
  have key : ∀ d, d ∈ validList nprocs dims ↔ List.Forall₂ (fun n k => k ∣ n) dims d ∧ d.prod % 2 ^ 32 = nprocs := by
    intro d
    rw [mem_validList hE]
    unfold accepts
    rw [accumulateInt_eq, decide_eq_true_iff, hacc]
  by_cases hv : validList nprocs dims = []
  · refine ⟨_, _, build_none self nprocs dims hE hv, ?_, fun _ => rfl⟩
    simp only [Bool.false_eq_true, false_iff, not_exists]
    intro d hd
    have := (key d).2 hd
    rw [hv] at this
    simp at this
  · refine ⟨_, _, build_some self nprocs dims hE hv, ?_, by simp⟩
    simp only [true_iff]
    exact ⟨_, (key _).1 (bestOf_mem (costW R dims) _ hv)⟩

/-- C08: both sides of the equivalence occur beyond 2^32 cells, where 4 processes are accepted and 9 are not. -/
example : 2 ^ [1321, 1300, 2501].length * [1321, 1300, 2501].prod < 2 ^ 64 ∧ 2 ^ 32 < [1321, 1300, 2501].prod ∧
    List.Forall₂ (fun n k => k ∣ n) [1321, 1300, 2501] [1321, 1300, 2501] ∧ [1321, 1300, 2501].prod % 2 ^ 32 = 4 ∧
    (build ℚ CubeDecomp.empty ((9 : Nat) : Int) [1321, 1300, 2501]).map Prod.fst = .ok false := by
  refine ⟨by decide, by decide, ?_, by decide, by decide +kernel⟩
  exact .cons (dvd_refl _) (.cons (dvd_refl _) (.cons (dvd_refl _) .nil))

end

/-- C08 is false beyond 2^32 cells: 41 is not a product of divisors of 657, 569 and 11489, yet `build` returns true. -/
theorem C08_found_iff_exists_fails :
    ¬ ∀ (nprocs : Nat) (dims : List Nat), 1 ≤ nprocs → nprocs < 2 ^ 31 → dims ≠ [] → (∀ n ∈ dims, 0 < n) →
      ∃ b c, build ℚ CubeDecomp.empty nprocs dims = .ok (b, c) ∧ (b = true ↔ ∃ d, ValidDecomp nprocs dims d) := by
  intro h
  obtain ⟨b, c, hb, hiff⟩ := h 41 [657, 569, 11489] (by decide) (by decide) (by decide) (by decide)
  have hb' : build ℚ CubeDecomp.empty ((41 : Nat) : Int) [657, 569, 11489] =
      .ok (true, { nprocs := 41, ndims := 3, decomp := [657, 569, 11489], dims := [657, 569, 11489],
                   localDims := [1, 1, 1], mit := some (builtIter [0, 0, 0] [657, 569, 11489] true) }) := by
    decide +kernel
  rw [hb'] at hb
  simp only [Except.ok.injEq, Prod.mk.injEq] at hb
  obtain ⟨d, hd, hp⟩ := hiff.1 hb.1.symm
  obtain ⟨x, y, z, rfl⟩ : ∃ x y z, d = [x, y, z] := by
    have := hd.length_eq
    match d, this with
    | [x, y, z], _ => exact ⟨x, y, z, rfl⟩
  simp only [List.forall₂_cons, List.Forall₂.nil, and_true] at hd
  have hpr : Nat.Prime 41 := by norm_num
  have h41 : (41 : Nat) ∣ x * (y * z) := ⟨1, by simpa [List.prod_cons] using hp⟩
  rcases hpr.dvd_mul.1 h41 with hx | hyz
  · exact absurd (hx.trans hd.1) (by decide)
  · rcases hpr.dvd_mul.1 hyz with hy | hz
    · exact absurd (hy.trans hd.2.1) (by decide)
    · exact absurd (hz.trans hd.2.2) (by decide)

/-- Both outcomes of C08 occur. -/
example : (∃ c, build ℚ CubeDecomp.empty ((6 : Nat) : Int) [4, 9] = .ok (true, c) ∧ c.getDecomp = [2, 3]) ∧
    (∃ c, build ℚ CubeDecomp.empty ((5 : Nat) : Int) [4, 9] = .ok (false, c) ∧ c.getDecomp = []) :=
  ⟨exists_ok_pair (by decide +kernel), exists_ok_pair (by decide +kernel)⟩

/-! ### C09, C10 -/

section
variable {R : Type} [Div R] [NatCast R] [LT R] [DecidableLT R] [HasMax R]

theorem good_of_build {self c : CubeDecomp} {nprocs : Nat} {dims : List Nat} (hp2 : nprocs < 2 ^ 31)
    (hpos : ∀ n ∈ dims, 0 < n) (hlt : ∀ n ∈ dims, n < 2 ^ 64) (hlen : dims.length < 2 ^ 64)
    (h : build R self nprocs dims = .ok (true, c)) (hv : ValidDecomp nprocs dims c.getDecomp) :
    GoodDecomp nprocs dims c.getDecomp ∧ c = movedDecomp nprocs dims c.getDecomp 0 := by
  have h1 := build_true_inv self c nprocs dims hlen h hv.1.length_eq.symm (forall₂_dvd_pos hv.1 hpos).2
  exact ⟨⟨hv, h1.2, hpos, hp2, hlt, hlen⟩, h1.1⟩

/-- C09: after a `build` that found a valid decomposition the queries of the `nprocs` ranks are defined, every cell of
the grid belongs to the sub-domain of exactly one rank, and every cell of a sub-domain is a cell of the grid. -/
theorem C09_partition (self c : CubeDecomp) (nprocs : Nat) (dims : List Nat) (hp2 : nprocs < 2 ^ 31)
    (hpos : ∀ n ∈ dims, 0 < n) (hlt : ∀ n ∈ dims, n < 2 ^ 64) (hlen : dims.length < 2 ^ 64)
    (h : build R self nprocs dims = .ok (true, c)) (hv : ValidDecomp nprocs dims c.getDecomp) :
    ∃ lo hi : Nat → List Nat,
      (∀ r < nprocs, Prod.fst <$> c.getBegIndices r = .ok (lo r) ∧ Prod.fst <$> c.getEndIndices r = .ok (hi r)) ∧
      (∀ g, InGrid dims g → ∃! r, r < nprocs ∧ InBox (lo r) (hi r) g) ∧
      (∀ r < nprocs, ∀ g, InBox (lo r) (hi r) g → InGrid dims g) := by
  obtain ⟨g, hc⟩ := good_of_build hp2 hpos hlt hlen h hv
  generalize c.getDecomp = d at *
  subst hc
  have hco : ∀ r, ∃ x, r < nprocs → InGrid d x ∧ rankOf d x = r := by
    intro r
    by_cases hr : r < nprocs
    · obtain ⟨x, hx⟩ := exists_coords g.d_pos (by rw [g.valid.2]; exact hr)
      exact ⟨x, fun _ => hx⟩
    · exact ⟨[], fun h => absurd h hr⟩
  choose x hx using hco
  have hL := localExtents_pos hv.1 hpos
  have hLl := length_localExtents hv.1
  refine ⟨fun r => subLo (localExtents dims d) (x r), fun r => subHi (localExtents dims d) (x r), ?_, ?_, ?_⟩
  · intro r hr
    obtain ⟨h1, h2⟩ := hx r hr
    have a := getBegIndices_eq g (x r) h1 nprocs 0
    have b := getEndIndices_eq g (x r) h1 nprocs 0
    rw [h2] at a b
    rw [a, b]
    exact ⟨rfl, rfl⟩
  · intro cell hcell
    have hq := quot_inGrid hv.1 hcell
    have hr := rankOf_lt hq
    rw [g.valid.2] at hr
    refine ⟨rankOf d (List.zipWith (· / ·) cell (localExtents dims d)), ⟨hr, ?_⟩, ?_⟩
    · obtain ⟨h1, h2⟩ := hx _ hr
      have := rankOf_inj h1 hq h2
      simp only [this]
      rw [inBox_sub_iff hL (by rw [hLl]; exact hq.length_eq)]
      exact ⟨by rw [hcell.length_eq, hLl, g.length_eq], rfl⟩
    · rintro r ⟨hr', hin⟩
      obtain ⟨h1, h2⟩ := hx r hr'
      rw [inBox_sub_iff hL (by rw [hLl]; exact h1.length_eq)] at hin
      rw [← h2, hin.2]
  · intro r hr cell hcell
    exact sub_inGrid hv.1 (hx r hr).1 hcell

/-- C09 for grids of at most 2^32 cells: no validity hypothesis is needed. -/
theorem C09_partition_small (self c : CubeDecomp) (nprocs : Nat) (dims : List Nat) (hp1 : 1 ≤ nprocs)
    (hp2 : nprocs < 2 ^ 31) (hne : dims ≠ []) (hpos : ∀ n ∈ dims, 0 < n) (hax : dims.length < 32)
    (hsize : dims.prod ≤ 2 ^ 32) (h : build R self nprocs dims = .ok (true, c)) :
    ∃ lo hi : Nat → List Nat,
      (∀ r < nprocs, Prod.fst <$> c.getBegIndices r = .ok (lo r) ∧ Prod.fst <$> c.getEndIndices r = .ok (hi r)) ∧
      (∀ g, InGrid dims g → ∃! r, r < nprocs ∧ InBox (lo r) (hi r) g) ∧
      (∀ r < nprocs, ∀ g, InBox (lo r) (hi r) g → InGrid dims g) := by
  have hv := C07_found_is_valid_partial self c nprocs dims hp1 hp2 hne hpos hax hsize h
  refine C09_partition self c nprocs dims hp2 hpos ?_ (by omega) h hv
  intro n hn
  have := mem_le_prod hpos hn
  omega

/-- C10: along every axis every rank owns exactly `dims[i] / decomp[i] ≥ 1` consecutive cells, so every rank owns
`(product of dims) / nprocs` cells. -/
theorem C10_equal_shares (self c : CubeDecomp) (nprocs : Nat) (dims : List Nat) (hp2 : nprocs < 2 ^ 31)
    (hpos : ∀ n ∈ dims, 0 < n) (hlt : ∀ n ∈ dims, n < 2 ^ 64) (hlen : dims.length < 2 ^ 64)
    (h : build R self nprocs dims = .ok (true, c)) (hv : ValidDecomp nprocs dims c.getDecomp)
    (r : Nat) (hr : r < nprocs) :
    ∃ lo hi, Prod.fst <$> c.getBegIndices r = .ok lo ∧ Prod.fst <$> c.getEndIndices r = .ok hi ∧
      (∀ i, i < dims.length → ∃ n k l u, dims[i]? = some n ∧ c.getDecomp[i]? = some k ∧ lo[i]? = some l ∧
        hi[i]? = some u ∧ 1 ≤ n / k ∧ u = l + n / k) ∧
      volume lo hi * nprocs = dims.prod := by
  obtain ⟨g, hc⟩ := good_of_build hp2 hpos hlt hlen h hv
  generalize c.getDecomp = d at *
  subst hc
  obtain ⟨x, hx, rfl⟩ := exists_coords g.d_pos (by rw [g.valid.2]; exact hr)
  refine ⟨subLo (localExtents dims d) x, subHi (localExtents dims d) x, ?_, ?_, ?_, ?_⟩
  · rw [getBegIndices_eq g x hx]; rfl
  · rw [getEndIndices_eq g x hx]; rfl
  · intro i hi
    have h1 : i < d.length := by rw [g.length_eq]; exact hi
    have h2 : i < x.length := by rw [hx.length_eq]; exact h1
    have h3 : i < (localExtents dims d).length := by rw [length_localExtents hv.1]; exact h1
    refine ⟨dims[i], d[i], x[i] * (dims[i] / d[i]), (x[i] + 1) * (dims[i] / d[i]), by simp [hi], by simp [h1], ?_, ?_, ?_, ?_⟩
    · simp [subLo, h2, localExtents, hi, h1]
    · simp [subHi, h2, localExtents, hi, h1]
    · have := localExtents_pos hv.1 hpos _ (List.getElem_mem h3)
      simp only [localExtents, List.getElem_zipWith] at this
      exact this
    · rw [Nat.add_mul, Nat.one_mul]
  · have e : extents (subLo (localExtents dims d) x) (subHi (localExtents dims d) x) = localExtents dims d := by
      have hl := length_localExtents hv.1
      have hxl := hx.length_eq
      apply List.ext_getElem
      · simp [extents, subLo, subHi, hl, hxl]
      · intro i h1 h2
        simp only [extents, subLo, subHi, List.getElem_zipWith]
        rw [Nat.add_mul, Nat.one_mul, Nat.add_sub_cancel_left]
    unfold volume
    rw [e, ← hv.2]
    have := hv.1
    clear * - this
    induction this with
    | nil => simp [localExtents]
    | @cons n k ns ks hk _ ih =>
      simp only [localExtents, List.zipWith_cons_cons, List.prod_cons] at ih ⊢
      rw [← ih]
      calc n / k * (List.zipWith (· / ·) ns ks).prod * (k * ks.prod)
          = (n / k * k) * ((List.zipWith (· / ·) ns ks).prod * ks.prod) := by ring
        _ = _ := by rw [Nat.div_mul_cancel hk]

end

/-- The hypotheses of C09, C10 and C13-C14 are met by a 6 x 4 grid on 4 processes; rank 3 owns the cells
`[0,3) ... [6,4)`. -/
example : ∃ c, build ℚ CubeDecomp.empty ((4 : Nat) : Int) [6, 4] = .ok (true, c) ∧
    ValidDecomp 4 [6, 4] c.getDecomp ∧ Prod.fst <$> c.getBegIndices 3 = .ok [0, 3] ∧
    Prod.fst <$> c.getEndIndices 3 = .ok [6, 4] := by
  refine ⟨⟨4, 2, [1, 4], [6, 4], [6, 1], some (builtIter [0, 0] [1, 4] true)⟩, by decide +kernel, ?_, by decide +kernel,
    by decide +kernel⟩
  exact ⟨.cons (by decide) (.cons (by decide) .nil), by decide⟩

/-! ### C11 -/

/-- C11 (part): on grids of at most 2^32 cells, in exact arithmetic, the decomposition chosen is at least as good as any
valid decomposition `d` that is not the first one in the enumeration order (the order in which the last axis has the
highest weight): there is a valid `e` before `d`.
Missing: the first valid decomposition, which the selection loop skips; with it the claim is false
(`C11_minimizes_fails`). -/
theorem C11_minimizes_partial (self c : CubeDecomp) (nprocs : Nat) (dims : List Nat) (hp1 : 1 ≤ nprocs)
    (hp2 : nprocs < 2 ^ 31) (hne : dims ≠ []) (hpos : ∀ n ∈ dims, 0 < n) (hax : dims.length < 32)
    (hsize : dims.prod ≤ 2 ^ 32) (h : build ℚ self nprocs dims = .ok (true, c)) (d e : List Nat)
    (hd : ValidDecomp nprocs dims d) (he : ValidDecomp nprocs dims e) (hlt : e.reverse < d.reverse) :
    surfaceToVolume dims c.getDecomp ≤ surfaceToVolume dims d := by
  have hE := EnumOK.of_prod hne hpos hax hsize
  have hacc : ∀ d, ValidDecomp nprocs dims d → accepts nprocs d = true := by
    rintro d ⟨h1, h2⟩
    apply (accepts_iff (by omega) (by omega) ((prod_le_of_dvd h1 hpos).trans hsize)).2
    exact_mod_cast h2
  have hm := accepted_in_tail hpos hd.1 he.1 (hacc d hd) (hacc e he) hlt
  have hdiv : ∀ d ∈ validList nprocs dims, List.Forall₂ (fun n k => k ∣ n) dims d :=
    fun d hd => ((mem_validList hE _ _).1 hd).1
  match hvl : validList nprocs dims with
  | [] => rw [hvl] at hm; simp at hm
  | v :: vs =>
    rw [hvl] at hm
    have hb := build_some (R := ℚ) self nprocs dims hE (by rw [hvl]; simp)
    rw [h] at hb
    simp only [Except.ok.injEq, Prod.mk.injEq, true_and] at hb
    have hbm := hdiv _ (bestOf_mem (costW ℚ dims) (validList nprocs dims) (by rw [hvl]; simp))
    have hle := bestOf_le (costW ℚ dims) v vs (by
      intro a ha
      have := hdiv a (by rw [hvl]; simp [ha])
      rw [costW_eq this hpos hax hsize]
      exact surfaceToVolume_lt this hpos hax hsize) d hm
    rw [← hvl, costW_eq hd.1 hpos hax hsize, costW_eq hbm hpos hax hsize] at hle
    rw [hb]
    exact hle

/-- C11 (part): when some axis has a single cell every valid decomposition is enumerated twice and the choice is optimal
among all of them. -/
theorem C11_minimizes_unit_axis_partial (self c : CubeDecomp) (nprocs : Nat) (dims : List Nat) (hp1 : 1 ≤ nprocs)
    (hp2 : nprocs < 2 ^ 31) (hpos : ∀ n ∈ dims, 0 < n) (hax : dims.length < 32)
    (hsize : dims.prod ≤ 2 ^ 32) (hunit : 1 ∈ dims) (h : build ℚ self nprocs dims = .ok (true, c)) (d : List Nat)
    (hd : ValidDecomp nprocs dims d) : surfaceToVolume dims c.getDecomp ≤ surfaceToVolume dims d := by
  have hne : dims ≠ [] := by rintro rfl; simp at hunit
  have hE := EnumOK.of_prod hne hpos hax hsize
  have hacc : accepts nprocs d = true := by
    obtain ⟨h1, h2⟩ := hd
    apply (accepts_iff (by omega) (by omega) ((prod_le_of_dvd h1 hpos).trans hsize)).2
    exact_mod_cast h2
  have hm := accepted_in_tail_unit hpos hd.1 hacc hunit
  have hdiv : ∀ d ∈ validList nprocs dims, List.Forall₂ (fun n k => k ∣ n) dims d :=
    fun d hd => ((mem_validList hE _ _).1 hd).1
  match hvl : validList nprocs dims with
  | [] => rw [hvl] at hm; simp at hm
  | v :: vs =>
    rw [hvl] at hm
    have hb := build_some (R := ℚ) self nprocs dims hE (by rw [hvl]; simp)
    rw [h] at hb
    simp only [Except.ok.injEq, Prod.mk.injEq, true_and] at hb
    have hbm := hdiv _ (bestOf_mem (costW ℚ dims) (validList nprocs dims) (by rw [hvl]; simp))
    have hle := bestOf_le (costW ℚ dims) v vs (by
      intro a ha
      have := hdiv a (by rw [hvl]; simp [ha])
      rw [costW_eq this hpos hax hsize]
      exact surfaceToVolume_lt this hpos hax hsize) d hm
    rw [← hvl, costW_eq hd.1 hpos hax hsize, costW_eq hbm hpos hax hsize] at hle
    rw [hb]
    exact hle

/-- C11 is false: on a 100 x 2 grid with 2 processes the decomposition [1, 2] (ratio 101/100) is chosen although
[2, 1] has ratio 52/100. -/
theorem C11_minimizes_fails :
    ¬ ∀ (c : CubeDecomp) (nprocs : Nat) (dims : List Nat), 1 ≤ nprocs → nprocs < 2 ^ 31 → dims ≠ [] →
      (∀ n ∈ dims, 0 < n) → dims.prod ≤ 2 ^ 32 → build ℚ CubeDecomp.empty nprocs dims = .ok (true, c) →
      ∀ d, ValidDecomp nprocs dims d → surfaceToVolume dims c.getDecomp ≤ surfaceToVolume dims d := by
  intro h
  have hb : build ℚ CubeDecomp.empty ((2 : Nat) : Int) [100, 2] =
      .ok (true, { nprocs := 2, ndims := 2, decomp := [1, 2], dims := [100, 2],
                   localDims := [100, 1], mit := some (builtIter [0, 0] [1, 2] true) }) := by
    decide +kernel
  have := h _ 2 _ (by decide) (by decide) (by decide) (by decide) (by decide) hb [2, 1]
    ⟨.cons (by decide) (.cons (by decide) .nil), by decide⟩
  norm_num [surfaceToVolume, surface, localExtents, getDecomp, List.range_succ] at this

/-- The hypotheses of the partial theorems: 4 processes on 8 x 8, where [4,1] comes before [1,4], and an axis of
extent 1. -/
example : (∃ c, build ℚ CubeDecomp.empty ((4 : Nat) : Int) [8, 8] = .ok (true, c) ∧ c.getDecomp = [2, 2]) ∧
    ValidDecomp 4 [8, 8] [1, 4] ∧ ValidDecomp 4 [8, 8] [4, 1] ∧ [4, 1].reverse < [1, 4].reverse :=
  ⟨exists_ok_pair (by decide +kernel), ⟨.cons (by decide) (.cons (by decide) .nil), by decide⟩,
    ⟨.cons (by decide) (.cons (by decide) .nil), by decide⟩, by decide⟩
example : ∃ c, build ℚ CubeDecomp.empty ((4 : Nat) : Int) [8, 8, 1] = .ok (true, c) ∧ c.getDecomp = [2, 2, 1] :=
  exists_ok_pair (by decide +kernel)

/-! ### C12, C13, C14 -/

section
variable {R : Type} [Div R] [NatCast R] [LT R] [DecidableLT R] [HasMax R]

/-- C12 (part): for directions with `|dir[i]| ≤ decomp[i]`, `getNeighborRank` of the rank at coordinates `x` is the
rank (less than `nprocs`) at the coordinates shifted by `dir` modulo the decomposition; every rank has coordinates.
Missing: longer directions (the index is wrapped only once), for which the claim is false
(`C12_neighbour_fails`), and more than 2^30 processes. -/
theorem C12_neighbour_partial (self c : CubeDecomp) (nprocs : Nat) (dims : List Nat) (hp2 : nprocs ≤ 2 ^ 30)
    (hpos : ∀ n ∈ dims, 0 < n) (hlt : ∀ n ∈ dims, n < 2 ^ 64) (hlen : dims.length < 2 ^ 64)
    (h : build R self nprocs dims = .ok (true, c)) (hv : ValidDecomp nprocs dims c.getDecomp)
    (r : Nat) (hr : r < nprocs) (dir : List Int)
    (hdir : List.Forall₂ (fun (n : Nat) (s : Int) => -(n : Int) ≤ s ∧ s ≤ n) c.getDecomp dir) :
    ∃ x, InGrid c.getDecomp x ∧ rankOf c.getDecomp x = r ∧
      ∃ q, Prod.fst <$> c.getNeighborRank r dir = .ok ((q : Nat) : Int) ∧ q < nprocs ∧
        q = rankOf c.getDecomp (shiftMod c.getDecomp x dir) := by
  obtain ⟨g, hc⟩ := good_of_build (by omega) hpos hlt hlen h hv
  generalize c.getDecomp = d at *
  subst hc
  obtain ⟨x, hx, rfl⟩ := exists_coords g.d_pos (by rw [g.valid.2]; exact hr)
  refine ⟨x, hx, rfl, _, ?_, ?_, rfl⟩
  · rw [getNeighborRank_eq g x hx dir hdir (fun k hk => by have := g.d_le k hk; omega)]
    rfl
  · have := rankOf_lt (shiftMod_inGrid hx hdir.length_eq.symm)
    rwa [g.valid.2] at this

/-- C13: going in direction `dir` and back in direction `-dir` returns to the starting rank. -/
theorem C13_symmetric (self c : CubeDecomp) (nprocs : Nat) (dims : List Nat) (hp2 : nprocs ≤ 2 ^ 30)
    (hpos : ∀ n ∈ dims, 0 < n) (hlt : ∀ n ∈ dims, n < 2 ^ 64) (hlen : dims.length < 2 ^ 64)
    (h : build R self nprocs dims = .ok (true, c)) (hv : ValidDecomp nprocs dims c.getDecomp)
    (r : Nat) (hr : r < nprocs) (dir : List Int)
    (hdir : List.Forall₂ (fun (n : Nat) (s : Int) => -(n : Int) ≤ s ∧ s ≤ n) c.getDecomp dir) :
    ∃ q : Int, Prod.fst <$> c.getNeighborRank r dir = .ok q ∧
      Prod.fst <$> c.getNeighborRank q (dir.map fun s => -s) = .ok (r : Int) := by
  obtain ⟨g, hc⟩ := good_of_build (by omega) hpos hlt hlen h hv
  generalize c.getDecomp = d at *
  subst hc
  obtain ⟨x, hx, rfl⟩ := exists_coords g.d_pos (by rw [g.valid.2]; exact hr)
  have hs : ∀ k ∈ d, 2 * k ≤ 2 ^ 31 := fun k hk => by have := g.d_le k hk; omega
  refine ⟨(rankOf d (shiftMod d x dir) : Nat), ?_, ?_⟩
  · rw [getNeighborRank_eq g x hx dir hdir hs]; rfl
  · have hl := hdir.length_eq.symm
    rw [getNeighborRank_eq g _ (shiftMod_inGrid hx hl) _ (shortDir_neg hdir) hs, shiftMod_neg hx hl]
    rfl

/-- C13, second half: for a fixed direction distinct ranks have distinct neighbours. -/
theorem C13_injective (self c : CubeDecomp) (nprocs : Nat) (dims : List Nat) (hp2 : nprocs ≤ 2 ^ 30)
    (hpos : ∀ n ∈ dims, 0 < n) (hlt : ∀ n ∈ dims, n < 2 ^ 64) (hlen : dims.length < 2 ^ 64)
    (h : build R self nprocs dims = .ok (true, c)) (hv : ValidDecomp nprocs dims c.getDecomp)
    (r₁ r₂ : Nat) (hr₁ : r₁ < nprocs) (hr₂ : r₂ < nprocs) (dir : List Int)
    (hdir : List.Forall₂ (fun (n : Nat) (s : Int) => -(n : Int) ≤ s ∧ s ≤ n) c.getDecomp dir)
    (he : Prod.fst <$> c.getNeighborRank r₁ dir = Prod.fst <$> c.getNeighborRank r₂ dir) : r₁ = r₂ := by
  obtain ⟨q₁, a₁, b₁⟩ := C13_symmetric self c nprocs dims hp2 hpos hlt hlen h hv r₁ hr₁ dir hdir
  obtain ⟨q₂, a₂, b₂⟩ := C13_symmetric self c nprocs dims hp2 hpos hlt hlen h hv r₂ hr₂ dir hdir
  rw [a₁, a₂] at he
  injection he with he
  subst he
  rw [b₁] at b₂
  injection b₂ with b₂
  exact_mod_cast b₂

/-- C14: if a cell of rank `r` is, along every axis where `dir` is ±1, on the corresponding face of the sub-domain
(and `dir` is 0 along the other axes), then the periodic image of the cell one step further in direction `dir` is
owned by `getNeighborRank(r, dir)`. -/
theorem C14_neighbour_owns_adjacent (self c : CubeDecomp) (nprocs : Nat) (dims : List Nat) (hp2 : nprocs ≤ 2 ^ 30)
    (hpos : ∀ n ∈ dims, 0 < n) (hlt : ∀ n ∈ dims, n < 2 ^ 64) (hlen : dims.length < 2 ^ 64)
    (h : build R self nprocs dims = .ok (true, c)) (hv : ValidDecomp nprocs dims c.getDecomp)
    (r : Nat) (hr : r < nprocs) (dir : List Int) (hdl : dir.length = dims.length) (lo hi cell : List Nat)
    (hlo : Prod.fst <$> c.getBegIndices r = .ok lo) (hhi : Prod.fst <$> c.getEndIndices r = .ok hi)
    (hcell : InBox lo hi cell)
    (hface : ∀ i, i < dims.length → dir.getD i 0 = 0 ∨
      (dir.getD i 0 = 1 ∧ cell.getD i 0 + 1 = hi.getD i 0) ∨ (dir.getD i 0 = -1 ∧ cell.getD i 0 = lo.getD i 0)) :
    ∃ (q : Int) (lo' hi' : List Nat), Prod.fst <$> c.getNeighborRank r dir = .ok q ∧
      Prod.fst <$> c.getBegIndices q = .ok lo' ∧ Prod.fst <$> c.getEndIndices q = .ok hi' ∧
      InBox lo' hi' (shiftMod dims cell dir) := by
  obtain ⟨g, hc⟩ := good_of_build (by omega) hpos hlt hlen h hv
  generalize c.getDecomp = d at *
  subst hc
  obtain ⟨x, hx, rfl⟩ := exists_coords g.d_pos (by rw [g.valid.2]; exact hr)
  have hs : ∀ k ∈ d, 2 * k ≤ 2 ^ 31 := fun k hk => by have := g.d_le k hk; omega
  rw [getBegIndices_eq g x hx] at hlo
  rw [getEndIndices_eq g x hx] at hhi
  have hlo' : lo = subLo (localExtents dims d) x := by injection hlo with h; exact h.symm
  have hhi' : hi = subHi (localExtents dims d) x := by injection hhi with h; exact h.symm
  subst hlo' hhi'
  have hdir : ShortDir d dir := by
    refine List.forall₂_iff_get.2 ⟨by rw [hdl, g.length_eq], ?_⟩
    intro i h1 h2
    have := hface i (by omega)
    have hk := g.d_pos _ (List.getElem_mem h1)
    simp only [List.getD_eq_getElem?_getD, List.getElem?_eq_getElem h2, Option.getD_some] at this
    simp only [List.get_eq_getElem]
    omega
  have hsg := shiftMod_inGrid hx hdir.length_eq.symm
  refine ⟨(rankOf d (shiftMod d x dir) : Nat), _, _, ?_, ?_, ?_,
    adjacency hv.1 hpos hx hdl hcell hface⟩
  · rw [getNeighborRank_eq g x hx dir hdir hs]; rfl
  · rw [getBegIndices_eq g _ hsg]; rfl
  · rw [getEndIndices_eq g _ hsg]; rfl

end

/-- C12 is false for long directions: with one process on a 4-cell axis the neighbour two steps away is "rank 1". -/
theorem C12_neighbour_fails :
    ¬ ∀ (c : CubeDecomp) (nprocs : Nat) (dims : List Nat) (r : Nat) (dir : List Int), 1 ≤ nprocs → nprocs ≤ 2 ^ 30 →
      (∀ n ∈ dims, 0 < n) → build ℚ CubeDecomp.empty nprocs dims = .ok (true, c) →
      ValidDecomp nprocs dims c.getDecomp → r < nprocs → dir.length = dims.length →
      ∃ q : Nat, Prod.fst <$> c.getNeighborRank r dir = .ok (q : Int) ∧ q < nprocs := by
  intro h
  obtain ⟨q, h1, h2⟩ := h
    { nprocs := 1, ndims := 1, decomp := [1], dims := [4], localDims := [4], mit := some (builtIter [0] [1] true) }
    1 [4] 0 [2] (by decide) (by decide) (by decide) (by decide +kernel)
    ⟨.cons (by decide) .nil, by decide⟩ (by decide) (by decide)
  have h3 : Prod.fst <$> getNeighborRank
      { nprocs := 1, ndims := 1, decomp := [1], dims := [4], localDims := [4], mit := some (builtIter [0] [1] true) }
      ((0 : Nat) : Int) [2] = .ok 1 := by decide +kernel
  rw [h3] at h1
  injection h1 with h1
  omega

/-- C12-C14 on a 6 x 4 grid with 4 processes: the upper neighbour of rank 3 is rank 0, which owns the periodic image
of the cell across the boundary. -/
example : ∃ c, build ℚ CubeDecomp.empty ((4 : Nat) : Int) [6, 4] = .ok (true, c) ∧
    Prod.fst <$> c.getNeighborRank 3 [0, 1] = .ok 0 ∧ Prod.fst <$> c.getNeighborRank 0 [0, -1] = .ok 3 ∧
    InBox [0, 3] [6, 4] [2, 3] ∧ shiftMod [6, 4] [2, 3] [0, 1] = [2, 0] ∧ InBox [0, 0] [6, 1] [2, 0] := by
  refine ⟨⟨4, 2, [1, 4], [6, 4], [6, 1], some (builtIter [0, 0] [1, 4] true)⟩, by decide +kernel, by decide +kernel,
    by decide +kernel, by decide, by decide +kernel, by decide⟩

/-! ### C15 -/

/-- Queries of a decomposition object. -/
inductive DecompQuery where
  | beg (rk : Int)
  | fin (rk : Int)
  | neighbour (rk : Int) (dir : List Int)
  | decomp

/-- Calls made on a decomposition object. -/
inductive DecompOp where
  | build (nprocs : Int) (dims : List Nat)
  | query (q : DecompQuery)

/-- Answers of the queries. -/
inductive DecompAnswer where
  | indices (v : List Nat)
  | rank (r : Int)

/-- Make a query: the answer and the object afterwards. -/
def ask (c : CubeDecomp) : DecompQuery → M (DecompAnswer × CubeDecomp)
  | .beg rk => do let (v, c) ← c.getBegIndices rk; pure (.indices v, c)
  | .fin rk => do let (v, c) ← c.getEndIndices rk; pure (.indices v, c)
  | .neighbour rk dir => do let (v, c) ← c.getNeighborRank rk dir; pure (.rank v, c)
  | .decomp => pure (.indices c.getDecomp, c)

/-- A history of calls. -/
def runDecomp (R : Type) [Div R] [NatCast R] [LT R] [DecidableLT R] [HasMax R] (c : CubeDecomp) :
    List DecompOp → M CubeDecomp
  | [] => pure c
  | .build nprocs dims :: ops => do let (_, c) ← build R c nprocs dims; runDecomp R c ops
  | .query q :: ops => do let (_, c) ← ask c q; runDecomp R c ops

theorem moveMit_norm {c c' : CubeDecomp} (h : normD c = normD c') (rk : Int) : c.moveMit rk = c'.moveMit rk := by
  obtain ⟨a1, a2, a3, a4, a5, m⟩ := c
  obtain ⟨b1, b2, b3, b4, b5, m'⟩ := c'
  simp only [normD, CubeDecomp.mk.injEq] at h
  obtain ⟨rfl, rfl, rfl, rfl, rfl, h⟩ := h
  unfold moveMit
  cases m with
  | none => cases m' with
    | none => rfl
    | some => simp at h
  | some m => cases m' with
    | none => simp at h
    | some m' =>
      simp only [Option.map_some, Option.some.injEq] at h
      have : m.move (szOfInt rk) = m'.move (szOfInt rk) := by
        have := congrArg (fun x : MultiArrayIter => x.move (szOfInt rk)) h
        simpa [MultiArrayIter.move, MultiArrayIter.begin'] using this
      simp only [this]

theorem moveMit_normD {c c' : CubeDecomp} {inds : List Nat} {rk : Int} (h : c.moveMit rk = .ok (inds, c')) :
    normD c' = normD c := by
  unfold moveMit at h
  cases hm : c.mit with
  | none => rw [hm] at h; simp at h
  | some m =>
    rw [hm] at h
    obtain ⟨i, _, h⟩ := (M.bind_ok_iff _ _ _).1 h
    simp only [M.pure_eq, Except.ok.injEq, Prod.mk.injEq] at h
    rw [← h.2]
    simp [normD, hm, MultiArrayIter.move, MultiArrayIter.begin']

theorem ask_norm {c c' : CubeDecomp} (h : normD c = normD c') (q : DecompQuery) :
    Prod.fst <$> ask c q = Prod.fst <$> ask c' q := by
  cases q with
  | beg rk => simp only [ask, getBegIndices, moveMit_norm h]
  | fin rk => simp only [ask, getEndIndices, moveMit_norm h]
  | neighbour rk dir => simp only [ask, getNeighborRank, moveMit_norm h]
  | decomp =>
    have := congrArg CubeDecomp.decomp h
    simp only [normD] at this
    simp [ask, getDecomp, this]

theorem ask_normD {c c' : CubeDecomp} {q : DecompQuery} {a : DecompAnswer} (h : ask c q = .ok (a, c')) :
    normD c' = normD c := by
  cases q with
  | beg rk =>
    simp only [ask, getBegIndices] at h
    obtain ⟨⟨v, c1⟩, h1, h⟩ := (M.bind_ok_iff _ _ _).1 h
    obtain ⟨⟨i, c2⟩, h2, h1⟩ := (M.bind_ok_iff _ _ _).1 h1
    obtain ⟨w, h3, h1⟩ := (M.bind_ok_iff _ _ _).1 h1
    simp at h h1
    rw [← h.2, ← h1.2]
    exact moveMit_normD h2
  | fin rk =>
    simp only [ask, getEndIndices] at h
    obtain ⟨⟨v, c1⟩, h1, h⟩ := (M.bind_ok_iff _ _ _).1 h
    obtain ⟨⟨i, c2⟩, h2, h1⟩ := (M.bind_ok_iff _ _ _).1 h1
    obtain ⟨w, h3, h1⟩ := (M.bind_ok_iff _ _ _).1 h1
    simp at h h1
    rw [← h.2, ← h1.2]
    exact moveMit_normD h2
  | neighbour rk dir =>
    simp only [ask, getNeighborRank] at h
    obtain ⟨⟨v, c1⟩, h1, h⟩ := (M.bind_ok_iff _ _ _).1 h
    obtain ⟨⟨i, c2⟩, h2, h1⟩ := (M.bind_ok_iff _ _ _).1 h1
    obtain ⟨w, h3, h1⟩ := (M.bind_ok_iff _ _ _).1 h1
    simp only at h1
    split at h1
    · simp at h1
    · obtain ⟨y, _, h1⟩ := (M.bind_ok_iff _ _ _).1 h1
      simp at h h1
      rw [← h.2, ← h1.2]
      exact moveMit_normD h2
  | decomp => simp [ask] at h; rw [h.2]

section
variable {R : Type} [Div R] [NatCast R] [LT R] [DecidableLT R] [HasMax R]

theorem runDecomp_queries {c c' : CubeDecomp} {qs : List DecompQuery}
    (h : runDecomp R c (qs.map .query) = .ok c') : normD c' = normD c := by
  induction qs generalizing c with
  | nil => simp [runDecomp] at h; rw [h]
  | cons q qs ih =>
    simp only [List.map_cons, runDecomp] at h
    obtain ⟨⟨a, c1⟩, h1, h⟩ := (M.bind_ok_iff _ _ _).1 h
    rw [ih h, ask_normD h1]

/-- C15: take any two histories of calls (builds and queries, with any arguments) on a new object, each followed by
`build(nprocs, dims)` and any further queries. If the build succeeds in one history it succeeds in the other, and
every query then gets the same answer (or is undefined) in both. -/
theorem C15_history_independent (ops₁ ops₂ : List DecompOp) (qs₁ qs₂ : List DecompQuery) (nprocs : Int)
    (dims : List Nat) (hlen : dims.length < 2 ^ 64) (s₁ s₂ c₁ e₁ : CubeDecomp)
    (_h₁ : runDecomp R CubeDecomp.empty ops₁ = .ok s₁) (_h₂ : runDecomp R CubeDecomp.empty ops₂ = .ok s₂)
    (hb : build R s₁ nprocs dims = .ok (true, c₁)) (hq₁ : runDecomp R c₁ (qs₁.map .query) = .ok e₁) :
    ∃ c₂, build R s₂ nprocs dims = .ok (true, c₂) ∧
      ∀ e₂, runDecomp R c₂ (qs₂.map .query) = .ok e₂ → ∀ q, Prod.fst <$> ask e₁ q = Prod.fst <$> ask e₂ q := by
  obtain ⟨c₂, h3, _, h4⟩ := build_history s₁ s₂ nprocs dims hlen true c₁ hb
  refine ⟨c₂, h3, fun e₂ hq₂ q => ask_norm ?_ q⟩
  rw [runDecomp_queries hq₁, runDecomp_queries hq₂, h4 rfl]

/-- C15: a failing `build` fails whatever the history. -/
theorem C15_failure_history_independent (ops₁ ops₂ : List DecompOp) (nprocs : Int) (dims : List Nat)
    (hlen : dims.length < 2 ^ 64) (s₁ s₂ c₁ : CubeDecomp)
    (_h₁ : runDecomp R CubeDecomp.empty ops₁ = .ok s₁) (_h₂ : runDecomp R CubeDecomp.empty ops₂ = .ok s₂)
    (hb : build R s₁ nprocs dims = .ok (false, c₁)) :
    ∃ c₂, build R s₂ nprocs dims = .ok (false, c₂) ∧ c₂.getDecomp = c₁.getDecomp := by
  obtain ⟨c₂, h3, h4, _⟩ := build_history s₁ s₂ nprocs dims hlen false c₁ hb
  exact ⟨c₂, h3, h4⟩

end

/-- Two different histories meeting the hypotheses of C15. -/
example : ∃ s₁ s₂ c₁ e₁ e₂,
    runDecomp ℚ CubeDecomp.empty [.build 2 [4], .query (.beg 1), .query (.neighbour 0 [1])] = .ok s₁ ∧
    runDecomp ℚ CubeDecomp.empty [.build 5 [4, 4], .query .decomp] = .ok s₂ ∧
    build ℚ s₁ 4 [6, 4] = .ok (true, c₁) ∧
    runDecomp ℚ c₁ ([.beg 2, .fin 0].map .query) = .ok e₁ ∧ runDecomp ℚ c₁ ([.fin 3].map .query) = .ok e₂ ∧
    s₁ ≠ s₂ ∧ e₁ ≠ e₂ :=
  ⟨movedDecomp 2 [4] [2] 0, ⟨5, 2, [], [4, 4], [], none⟩, builtDecomp 4 [6, 4] [1, 4], movedDecomp 4 [6, 4] [1, 4] 0,
    movedDecomp 4 [6, 4] [1, 4] 3, by decide +kernel, by decide +kernel, by decide +kernel, by decide +kernel, by decide +kernel,
    by decide +kernel, by decide +kernel⟩

end Fidi
