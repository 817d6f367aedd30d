import Verif.Lemmas.FilterAnyWrap
import Verif.Lemmas.FilterMany
import Verif.Props.FilterOne

/-
Property C22 on any number of processes, for offsets of any shape that fit the sub-domains.
-/
namespace Fidi
open Spec

section
variable {R : Type} [Zero R] [Add R] [Mul R] [Div R] [NatCast R] [LT R] [DecidableLT R] [HasMax R]

omit [Zero R] [Add R] [Mul R] [Div R] [NatCast R] [LT R] [DecidableLT R] [HasMax R] in
private theorem zero_shift {d g : List Nat} {off : List Int} (hg : InGrid d g) (hl : off.length = d.length)
    (h : off.countP (· ≠ 0) = 0) : shiftMod d g off = g := by
  have e := (shiftMod_inGrid hg hl).length_eq
  have e' := hg.length_eq
  apply List.ext_getElem (by omega)
  intro i i1 i2
  have i3 : i < d.length := by omega
  rw [← getD_of_lt (z := 0) i1, getD_shiftMod i i3 hg.length_eq hl]
  have hz : off.getD i 0 = 0 := by
    by_contra hi
    exact absurd h (countP_ne hi)
  have := (inGrid_iff_getElem.1 hg).2 i i3 i2
  rw [hz, getD_of_lt i2, getD_of_lt i3, toNat_emod (v := g[i]) this 0 (by omega)]

omit [Div R] [NatCast R] [LT R] [DecidableLT R] [HasMax R] in
private theorem computed_of {c : Cfg R} (h : c.Good) (hcells : c.dims.prod ≤ 2 ^ 31)
    (ho : ∀ kv ∈ c.st, OffsetWorksWith (firstWidth (c.st.map Prod.fst) kv.1) c.d c.L kv.1) (hwr : ∀ kv ∈ c.st, WrapExact c.dims kv.1) {w : World R}
    {u : List Nat → R} (hw : Ranks c (fun x f => Holds c x u f) w) :
    ∃ w', w.applyFilter = .ok w' ∧ Partition w' c.nprocs c.dims ∧ OutputIs w' (stencilStep c.dims c.st u) := by
  have e64 : ∀ kv ∈ c.st, ∀ g, InGrid c.dims g → shift64 c.dims g kv.1 = shiftMod c.dims g kv.1 := fun kv hkv g hg =>
    shift64_eq_any hg h.dint (h.st kv hkv).1 (fun o ho' => ((h.st kv hkv).2.1 o ho').2) (hwr kv hkv)
  obtain ⟨w', e, h1⟩ := world_any h hcells (fun kv hkv => ⟨works_tame h hcells hkv (ho kv hkv), fun x hx => by
    obtain ⟨y, hy, hn, hserve⟩ := served_of h hkv (width_of c) (ho kv hkv) hx
    refine ⟨y, hy, hn, fun g hg hout => ?_⟩
    rw [e64 kv hkv g (h.grid hx hg)] at hout ⊢
    refine ⟨fun hz => hout ?_, (hserve g hg).resolve_left hout⟩
    rw [zero_shift (h.grid hx hg) (h.st kv hkv).1 hz]
    exact hg⟩) hw
  refine ⟨w', e, partition_of h h1 (fun x f h => h.1.shape), ?_⟩
  intro f hf g hg
  obtain ⟨x, hx, _, hp⟩ := h1.mem h hf
  have hg' := hg
  rw [hp.1.shape.lo, hp.1.shape.hi] at hg'
  rw [output_of h h1 (fun x f h => ⟨h.1.shape, h.2⟩) f hf g hg, Option.some_inj]
  unfold stencilStep64 stencilStep
  apply List.foldl_ext
  intro acc kv hkv
  rw [e64 kv hkv g (h.grid hx hg')]

/-- C22: for every grid of up to 2^31 cells, process count with a valid decomposition and stencil of offsets that fit the
sub-domains, let `d` be the decomposition the filter finds. If every offset satisfies `OffsetWorksWith` for layers as wide as
the largest component of the first offset with the same signs, and the extents along which it is negative are powers of two,
the filter computes the stencil of every input. -/
theorem C22_offsets_computed (nprocs : Nat) (dims : List Nat) (xmins xmaxs : List R) (st : StdMap (List Int) R)
    (hr : InRange nprocs dims) (hex : ∃ d, ValidDecomp nprocs dims d) (hcells : dims.prod ≤ 2 ^ 31)
    (hfit : ∀ d, ValidDecomp nprocs dims d → ∀ kv ∈ st, OffsetFits dims d kv.1) :
    ∃ d, ValidDecomp nprocs dims d ∧ ∃ w, World.new nprocs dims xmins xmaxs st = .ok w ∧
      (∀ f ∈ w, extents f.lo f.hi = localExtents dims d) ∧
      ((∀ kv ∈ st, OffsetWorksWith (firstWidth (st.map Prod.fst) kv.1) d (localExtents dims d) kv.1 ∧ WrapExact dims kv.1) →
        ∀ u, ComputesStencil nprocs dims xmins xmaxs st u) := by
  have hp := hr.procs
  obtain ⟨d, hg, hb⟩ := build_found (R := R) hr.procs1 (by omega) hr.ne hr.pos hr.axes hr.cells hex
  have h := good_of_range hr hg xmins xmaxs st (hfit d hg.valid)
  obtain ⟨w, e, h0⟩ := world_new h hb
  refine ⟨d, hg.valid, w, e, ?_, fun hall u => ?_⟩
  · intro f hm
    obtain ⟨x, hx, _, hs⟩ := h0.mem h hm
    rw [hs.1.lo, hs.1.hi]
    exact h.ext hx
  · obtain ⟨w1, e1, h1⟩ := world_set h h0 u
    obtain ⟨w2, e2, h2, h3⟩ := computed_of h hcells (fun kv hkv => (hall kv hkv).1)
      (fun kv hkv => (hall kv hkv).2) h1
    exact ⟨w, w1, w2, e, e1, e2, h2, h3⟩

end

section
variable {K : Type} [Field K] [LT K] [DecidableLT K] [HasMax K]

private theorem zero_works {m : Nat} {d L dims : List Nat} {off : List Int} (hl : off.length = d.length)
    (h : off.countP (· ≠ 0) = 0) : OffsetWorksWith m d L off ∧ WrapExact dims off := by
  have hz : ∀ i, off.getD i 0 = 0 := by
    intro i
    by_contra hi
    exact absurd h (countP_ne hi)
  refine ⟨⟨?_, fun i hi => absurd (hz i) hi, fun i j _ hi => absurd (hz i) hi⟩, fun i hi => ?_⟩
  · have e : off.map (fun o => o - o.sign) = List.replicate off.length 0 := by
      refine List.eq_replicate_iff.2 ⟨by simp, fun b hb => ?_⟩
      obtain ⟨o, ho, rfl⟩ := List.mem_map.1 hb
      obtain ⟨i, hi, rfl⟩ := List.getElem_of_mem ho
      have := hz i
      rw [getD_of_lt hi] at this
      rw [this]
      rfl
    rw [e, hl]
    clear hl e h hz
    induction d with
    | nil => rfl
    | cons n d ih =>
      rw [List.length_cons, List.replicate_succ, rankOfInt_cons _ _ _ _ (by simp), ih]
      ring
  · rw [hz i] at hi
    exact absurd hi (by decide)

omit [LT K] [DecidableLT K] [HasMax K] in
private theorem foldl_zero {l : List (List Int × K)} (h : ∀ kv ∈ l, kv.2 = 0) (v : List Int → K) (b : K) :
    l.foldl (fun acc p => acc + p.2 * v p.1) b = b := by
  induction l generalizing b with
  | nil => rfl
  | cons kv l ih =>
    rw [List.foldl_cons, h kv (List.mem_cons_self ..), zero_mul, add_zero, ih fun k hk => h k (List.mem_cons_of_mem _ hk)]

/-- What follows if the stencil is computed for all inputs and only one weight is not 0. -/
private theorem works_of_computed {c : Cfg K} (h : c.Good) (hcells : c.dims.prod ≤ 2 ^ 31) {off : List Int} {a : K} (ha : a ≠ 0)
    {pre post : List (List Int × K)} (hst : c.st = pre ++ (off, a) :: post) (hpre : ∀ kv ∈ pre, kv.2 = 0)
    (hpost : ∀ kv ∈ post, kv.2 = 0)
    {w : World K}
    {Q : List Nat → Filter K → Prop} (h0 : Ranks c (fun x f => Shape c x c.tab f ∧ Q x f) w)
    (hall : ∀ u : List Nat → K, ∃ w1 w2, w.setInDataByIndices u = .ok w1 ∧ w1.applyFilter = .ok w2 ∧
      OutputIs w2 (stencilStep c.dims c.st u)) : OffsetWorksWith (firstWidth (c.st.map Prod.fst) off) c.d c.L off ∧
      WrapExact c.dims off := by
  have hkv : (off, a) ∈ c.st := by rw [hst]; simp
  by_cases hz : off.countP (· ≠ 0) = 0
  · exact zero_works (by rw [(h.st _ hkv).1, h.good.length_eq]) hz
  -- what each process reads
  have run : ∀ x, InGrid c.d x → ∀ g, InBox (c.lo x) (c.hi x) g → ∃ y, InGrid c.d y ∧
      rankOfInt c.d (shiftedCoords c.d x off) = (rankOf c.d y : Nat) ∧
      (InBox (c.lo x) (c.hi x) (shiftMod c.dims g off) ∧ shiftMod c.dims g off = shift64 c.dims g off ∨
        InWindow c y off (shiftMod c.dims g off) ∧ ∃ m bi, StdMap.find c.tab.gh (sideOf off) = some m ∧
          (winIt c y (sideOf off) m 0).computeBigIndexInt
            ((shift64 c.dims g off).map (fun n : Nat => (n : Int))) = .ok bi ∧
          szOfInt bi = flatOf false (faceLo (c.lo y) (c.hi y) (sideOf off) m)
            (faceHi (c.lo y) (c.hi y) (sideOf off) m) (shiftMod c.dims g off)) := by
    intro x hx g hgx
    obtain ⟨v1, v2, a1, a2, ho⟩ := hall fun t => if t = shiftMod c.dims g off then 1 else 0
    obtain ⟨w1, e1, h1⟩ := world_set h h0 fun t => if t = shiftMod c.dims g off then (1 : K) else 0
    rw [e1] at a1
    obtain rfl := Except.ok.inj a1
    obtain ⟨y, f, hy, hn, hf, hs, hval⟩ := world_value_many h hcells hst hpre hpost hz h1 a2 hx
    obtain ⟨t, ht, hcase⟩ := hval g hgx
    have b := ho f (List.mem_of_getElem? hf) g (by rw [hs.lo, hs.hi]; exact hgx)
    rw [hs.lo, hs.hi, ← flatOf_eq_cellPos _ _ _ (by rw [h.len_lo hx, h.len_hi hx]) hgx.length_lo, ht, Option.some_inj] at b
    unfold stencilStep at b
    rw [hst, List.foldl_append, foldl_zero hpre fun o => (if shiftMod c.dims g o = shiftMod c.dims g off then (1 : K) else 0),
      List.foldl_cons, foldl_zero hpost fun o => (if shiftMod c.dims g o = shiftMod c.dims g off then (1 : K) else 0)] at b
    have htt : t = shiftMod c.dims g off := by
      by_contra hne
      rw [if_neg hne] at b
      apply ha
      simpa using b.symm
    subst htt
    exact ⟨y, hy, hn, hcase⟩
  refine ⟨works_of h hkv (width_of c hz) (fun x hx => ?_), wrap_of h hcells hkv (fun x hx g hgx => ?_)⟩
  · obtain ⟨y, hy, hn, _⟩ := run x hx _ (tupleAt_inBox false (h.box hx) 0)
    refine ⟨y, hy, hn, fun g hgx => ?_⟩
    obtain ⟨y', hy', hn', hcase⟩ := run x hx g hgx
    rw [hn] at hn'
    obtain rfl := rankOf_inj hy hy' (by exact_mod_cast hn')
    rcases hcase with ⟨hc, _⟩ | ⟨hc, _⟩
    · exact Or.inl hc
    · exact Or.inr hc
  · obtain ⟨y, hy, _, hcase⟩ := run x hx g hgx
    rcases hcase with ⟨_, hc⟩ | ⟨hc, m, bi, hm, hb1, hb2⟩
    · exact Or.inl hc.symm
    · unfold InWindow at hc
      rw [hm] at hc
      exact Or.inr ⟨y, m, bi, hy, hm, hc, hb1, hb2⟩

/-- C22: for every grid of up to 2^31 cells, process count with a valid decomposition, offset that fits the sub-domains
and weight other than 0, let `d` be the decomposition the filter finds. The filter computes the periodic stencil of all
inputs if, and only if, the offset satisfies `OffsetWorks` and the extents along which it is negative are powers of
two. -/
theorem C22_offset_iff (nprocs : Nat) (dims : List Nat) (xmins xmaxs : List K) (off : List Int) (a : K) (ha : a ≠ 0)
    (hr : InRange nprocs dims) (hex : ∃ d, ValidDecomp nprocs dims d) (hcells : dims.prod ≤ 2 ^ 31)
    (hfit : ∀ d, ValidDecomp nprocs dims d → OffsetFits dims d off) :
    ∃ d, ValidDecomp nprocs dims d ∧ ∃ w, World.new nprocs dims xmins xmaxs [(off, a)] = .ok w ∧
      (∀ f ∈ w, extents f.lo f.hi = localExtents dims d) ∧
      ((∀ u : List Nat → K, ComputesStencil nprocs dims xmins xmaxs [(off, a)] u) ↔
        OffsetWorks d (localExtents dims d) off ∧ WrapExact dims off) := by
  have hp := hr.procs
  obtain ⟨d, hg, hb⟩ := build_found (R := K) hr.procs1 (by omega) hr.ne hr.pos hr.axes hr.cells hex
  have hone : ∀ kv ∈ [(off, a)], kv = (off, a) := fun kv hkv => List.mem_singleton.1 hkv
  have h := good_of_range hr hg xmins xmaxs [(off, a)] (fun kv hkv => by rw [hone kv hkv]; exact hfit d hg.valid)
  obtain ⟨w, e, h0⟩ := world_new h hb
  have hfirst : firstWidth [off] off = ghostWidth off := by simp [firstWidth]
  refine ⟨d, hg.valid, w, e, ?_, fun hall => ?_, ?_⟩
  · intro f hm
    obtain ⟨x, hx, _, hs⟩ := h0.mem h hm
    rw [hs.1.lo, hs.1.hi]
    exact h.ext hx
  · rw [OffsetWorks, ← hfirst]
    refine works_of_computed (pre := []) (post := []) h hcells ha rfl (by simp) (by simp) h0 fun u => ?_
    obtain ⟨v, v1, v2, a0, a1, a2, _, ho⟩ := hall u
    rw [e] at a0
    obtain rfl := Except.ok.inj a0
    exact ⟨v1, v2, a1, a2, ho⟩
  · rintro ⟨hw1, hw2⟩ u
    obtain ⟨w1, e1, h1⟩ := world_set h h0 u
    obtain ⟨w2, e2, h2, h3⟩ := computed_of h hcells (fun kv hkv => by rw [hone kv hkv]; rw [OffsetWorks, ← hfirst] at hw1; exact hw1)
      (fun kv hkv => by rw [hone kv hkv]; exact hw2) h1
    exact ⟨w, w1, w2, e, e1, e2, h2, h3⟩

/-- C22 for stencils of several offsets: for every grid of up to 2^31 cells, process count with a valid decomposition and list of
offsets that fit the sub-domains, let `d` be the decomposition the filter finds, which does not depend on the weights. The
filter computes the periodic stencil of all inputs with these offsets and all weights if, and only if, every one of the offsets
satisfies `OffsetWorksWith` for layers as wide as the largest component of the first offset with the same signs, and the
extents along which it is negative are powers of two. -/
theorem C22_offsets_iff (nprocs : Nat) (dims : List Nat) (xmins xmaxs : List K) (offs : List (List Int))
    (hr : InRange nprocs dims) (hex : ∃ d, ValidDecomp nprocs dims d) (hcells : dims.prod ≤ 2 ^ 31)
    (hfit : ∀ d, ValidDecomp nprocs dims d → ∀ off ∈ offs, OffsetFits dims d off) :
    ∃ d, ValidDecomp nprocs dims d ∧
      (∀ a : List K, ∃ w, World.new nprocs dims xmins xmaxs (offs.zip a) = .ok w ∧
        ∀ f ∈ w, extents f.lo f.hi = localExtents dims d) ∧
      ((∀ a : List K, a.length = offs.length → ∀ u : List Nat → K, ComputesStencil nprocs dims xmins xmaxs (offs.zip a) u) ↔
        ∀ off ∈ offs, OffsetWorksWith (firstWidth offs off) d (localExtents dims d) off ∧ WrapExact dims off) := by
  have hp := hr.procs
  obtain ⟨d, hg, hb⟩ := build_found (R := K) hr.procs1 (by omega) hr.ne hr.pos hr.axes hr.cells hex
  have hmem : ∀ (a : List K), ∀ kv ∈ offs.zip a, kv.1 ∈ offs := fun a kv hkv => (List.of_mem_zip (a := kv.1) (b := kv.2) hkv).1
  have h : ∀ a, Cfg.Good ⟨nprocs, dims, d, xmins, xmaxs, offs.zip a⟩ := fun a =>
    good_of_range hr hg xmins xmaxs (offs.zip a) (fun kv hkv => hfit d hg.valid _ (hmem a kv hkv))
  have hkeys : ∀ a : List K, a.length = offs.length → (offs.zip a).map Prod.fst = offs := fun a ha =>
    List.map_fst_zip (by omega)
  refine ⟨d, hg.valid, fun a => ?_, fun hall off hoff => ?_, fun hall a ha u => ?_⟩
  · obtain ⟨w, e, h0⟩ := world_new (h a) hb
    refine ⟨w, e, fun f hm => ?_⟩
    obtain ⟨x, hx, _, hs⟩ := h0.mem (h a) hm
    rw [hs.1.lo, hs.1.hi]
    exact (h a).ext hx
  · obtain ⟨p, q, rfl⟩ := List.append_of_mem hoff
    have hzip : (p ++ off :: q).zip (List.replicate p.length (0 : K) ++ 1 :: List.replicate q.length 0) =
        p.zip (List.replicate p.length 0) ++ (off, 1) :: q.zip (List.replicate q.length 0) := by
      rw [List.zip_append (by simp), List.zip_cons_cons]
    have hzero : ∀ (l : List (List Int)), ∀ kv ∈ l.zip (List.replicate l.length (0 : K)), kv.2 = 0 := fun l kv hkv =>
      List.eq_of_mem_replicate (List.of_mem_zip (a := kv.1) (b := kv.2) hkv).2
    obtain ⟨w, e, h0⟩ := world_new (h (List.replicate p.length (0 : K) ++ 1 :: List.replicate q.length 0)) hb
    have hk := hkeys (List.replicate p.length (0 : K) ++ 1 :: List.replicate q.length 0) (by simp)
    conv in firstWidth _ _ => rw [← hk]
    refine works_of_computed (h _) hcells one_ne_zero hzip (hzero p) (hzero q) h0 fun u => ?_
    obtain ⟨v, v1, v2, a0, a1, a2, _, ho⟩ := hall (List.replicate p.length (0 : K) ++ 1 :: List.replicate q.length 0) (by simp) u
    rw [e] at a0
    obtain rfl := Except.ok.inj a0
    exact ⟨v1, v2, a1, a2, ho⟩
  · obtain ⟨w, e, h0⟩ := world_new (h a) hb
    obtain ⟨w1, e1, h1⟩ := world_set (h a) h0 u
    obtain ⟨w2, e2, h2, h3⟩ := computed_of (h a) hcells (fun kv hkv => by
      have := (hall _ (hmem a kv hkv)).1
      rw [← hkeys a ha] at this
      exact this)
      (fun kv hkv => (hall _ (hmem a kv hkv)).2) h1
    exact ⟨w, w1, w2, e, e1, e2, h2, h3⟩

end

/-! ### Examples -/

/-- On three processes the first axis of 6 x 7 x 4 and of 6 x 2 x 2 cells is decomposed. -/
private theorem decomp_three {b c : Nat} (hb : ¬ 3 ∣ b) (hc : ¬ 3 ∣ c) {d : List Nat} (h : ValidDecomp 3 [6, b, c] d) :
    d = [3, 1, 1] := by
  obtain ⟨h1, h2⟩ := h
  match d, h1, h2 with
  | [x, y, z], .cons _ (.cons hy (.cons hz .nil)), h2 =>
    have h3 : x * (y * z) = 3 := by simpa using h2
    have hx : x = 3 := by
      rcases (Nat.dvd_prime Nat.prime_three).1 ⟨y * z, h3.symm⟩ with rfl | rfl
      · rw [Nat.one_mul] at h3
        rcases (Nat.dvd_prime Nat.prime_three).1 ⟨z, h3.symm⟩ with rfl | rfl
        · rw [Nat.one_mul] at h3
          subst h3
          exact absurd hz hc
        · exact absurd hy hb
      · rfl
    subst hx
    have h4 : y * z = 1 := by omega
    obtain ⟨rfl, rfl⟩ := mul_eq_one.1 h4
    rfl

private theorem fits_three {b c : Nat} (hb : 2 ≤ b) (hc : 2 ≤ c) {o : Int} (ho : o = 0 ∨ o = 1) :
    OffsetFits [6, b, c] [3, 1, 1] [o, 2, -2] := by
  rcases ho with rfl | rfl
  all_goals
    refine ⟨rfl, by decide, ?_⟩
    rintro (_ | _ | _ | i) h
    · first
        | exact absurd rfl h
        | exact Nat.le_refl 2
    · show 2 ≤ b / 1
      omega
    · show 2 ≤ c / 1
      omega
    · simp at h

/-- The hypotheses of `C22_offset_iff` with two offsets that are computed and one that is not: on 6 x 7 x 4 cells and three
processes (0, 2, -2) is, and (1, 2, -2) is not, but on 6 x 2 x 2 cells it is. -/
example :
    (InRange 3 [6, 7, 4] ∧ (∃ d, ValidDecomp 3 [6, 7, 4] d) ∧ (∀ d, ValidDecomp 3 [6, 7, 4] d → d = [3, 1, 1]) ∧
      OffsetFits [6, 7, 4] [3, 1, 1] [0, 2, -2] ∧ OffsetFits [6, 7, 4] [3, 1, 1] [1, 2, -2] ∧
      OffsetWorks [3, 1, 1] (localExtents [6, 7, 4] [3, 1, 1]) [0, 2, -2] ∧ WrapExact [6, 7, 4] [0, 2, -2] ∧
      ¬ OffsetWorks [3, 1, 1] (localExtents [6, 7, 4] [3, 1, 1]) [1, 2, -2]) ∧
    (InRange 3 [6, 2, 2] ∧ (∃ d, ValidDecomp 3 [6, 2, 2] d) ∧ (∀ d, ValidDecomp 3 [6, 2, 2] d → d = [3, 1, 1]) ∧
      OffsetFits [6, 2, 2] [3, 1, 1] [1, 2, -2] ∧
      OffsetWorks [3, 1, 1] (localExtents [6, 2, 2] [3, 1, 1]) [1, 2, -2] ∧ WrapExact [6, 2, 2] [1, 2, -2]) := by
  have hw : ∀ {b : Nat} {o : Int} {c : Nat}, ¬ o < 0 → c ∣ 2 ^ 64 → WrapExact [6, b, c] [o, 2, -2] := by
    intro b o c ho hc
    rintro (_ | _ | _ | i) h
    · exact absurd h ho
    · exact absurd h (show ¬ (2 : Int) < 0 by decide)
    · exact hc
    · simp at h
  refine ⟨⟨⟨by decide, by decide, by decide, by decide, by decide, by decide, by decide, by decide⟩,
    ⟨[3, 1, 1], .cons (by decide) (.cons (by decide) (.cons (by decide) .nil)), rfl⟩,
    fun d hd => decomp_three (by decide) (by decide) hd, fits_three (by decide) (by decide) (.inl rfl),
    fits_three (by decide) (by decide) (.inr rfl), ⟨by decide, ?_, ?_⟩, hw (by decide) (by decide), ?_⟩,
    ⟨⟨by decide, by decide, by decide, by decide, by decide, by decide, by decide, by decide⟩,
    ⟨[3, 1, 1], .cons (by decide) (.cons (by decide) (.cons (by decide) .nil)), rfl⟩,
    fun d hd => decomp_three (by decide) (by decide) hd, fits_three (by decide) (by decide) (.inr rfl),
    ⟨by decide, ?_, ?_⟩, hw (by decide) (by decide)⟩⟩
  · rintro (_ | _ | _ | i) h h'
    · exact absurd rfl h
    · exact absurd rfl h'
    · exact absurd rfl h'
    · simp at h
  · rintro (_ | _ | _ | i) j _ h _
    · exact absurd rfl h
    · exact .inl rfl
    · exact .inl rfl
    · simp at h
  · intro h
    rcases h.cover 0 1 (by decide) (by decide) (by decide) with h | h
    · exact absurd h (by decide)
    · exact absurd h.1 (by decide)
  · rintro (_ | _ | _ | i) h h'
    · rfl
    · exact absurd rfl h'
    · exact absurd rfl h'
    · simp at h
  · rintro (_ | _ | _ | i) (_ | _ | _ | j) hij h h'
    all_goals first
      | exact absurd rfl hij
      | exact .inl rfl
      | exact .inr ⟨rfl, .inl rfl⟩
      | (exfalso; simp at h; done)
      | (exfalso; simp at h')

/-- The stencils with the offsets (0, 2, -2) and (1, 2, -2) on three processes: on 6 x 2 x 2 cells they are computed for all
weights and inputs, on 6 x 7 x 4 cells they are not. -/
example :
    (∀ a : List ℚ, a.length = 2 → ∀ u, ComputesStencil 3 [6, 2, 2] [0, 0, 0] [1, 1, 1]
      (([[0, 2, -2], [1, 2, -2]] : List (List Int)).zip a) u) ∧
    ¬ ∀ a : List ℚ, a.length = 2 → ∀ u, ComputesStencil 3 [6, 7, 4] [0, 0, 0] [1, 1, 1]
      (([[0, 2, -2], [1, 2, -2]] : List (List Int)).zip a) u := by
  have hw : ∀ {b : Nat} {o : Int} {c : Nat}, ¬ o < 0 → c ∣ 2 ^ 64 → WrapExact [6, b, c] [o, 2, -2] := by
    intro b o c ho hc
    rintro (_ | _ | _ | i) h
    · exact absurd h ho
    · exact absurd h (show ¬ (2 : Int) < 0 by decide)
    · exact hc
    · simp at h
  have hfit : ∀ {b c : Nat}, 2 ≤ b → 2 ≤ c → ∀ off ∈ ([[0, 2, -2], [1, 2, -2]] : List (List Int)),
      OffsetFits [6, b, c] [3, 1, 1] off := by
    intro b c hb hc off hoff
    rcases List.mem_cons.1 hoff with rfl | hoff
    · exact fits_three hb hc (.inl rfl)
    · rw [List.mem_singleton.1 hoff]
      exact fits_three hb hc (.inr rfl)
  constructor
  · obtain ⟨d, hd, _, hiff⟩ := C22_offsets_iff (K := ℚ) 3 [6, 2, 2] [0, 0, 0] [1, 1, 1] [[0, 2, -2], [1, 2, -2]]
      ⟨by decide, by decide, by decide, by decide, by decide, by decide, by decide, by decide⟩
      ⟨[3, 1, 1], .cons (by decide) (.cons (by decide) (.cons (by decide) .nil)), rfl⟩ (by decide)
      (fun d hd => by rw [decomp_three (by decide) (by decide) hd]; exact hfit (by decide) (by decide))
    refine hiff.2 fun off hoff => ?_
    rw [decomp_three (by decide) (by decide) hd]
    rcases List.mem_cons.1 hoff with rfl | hoff
    · refine ⟨⟨by decide, ?_, ?_⟩, hw (by decide) (by decide)⟩
      · rintro (_ | _ | _ | i) h h'
        · exact absurd rfl h
        · exact absurd rfl h'
        · exact absurd rfl h'
        · simp at h
      · rintro (_ | _ | _ | i) j _ h _
        · exact absurd rfl h
        · exact .inl rfl
        · exact .inl rfl
        · simp at h
    · rw [List.mem_singleton.1 hoff]
      refine ⟨⟨by decide, ?_, ?_⟩, hw (by decide) (by decide)⟩
      · rintro (_ | _ | _ | i) h h'
        · rfl
        · exact absurd rfl h'
        · exact absurd rfl h'
        · simp at h
      · rintro (_ | _ | _ | i) (_ | _ | _ | j) hij h h'
        all_goals first
          | exact absurd rfl hij
          | exact .inl rfl
          | exact .inr ⟨rfl, .inl rfl⟩
          | (exfalso; simp at h; done)
          | (exfalso; simp at h')
  · intro hall
    obtain ⟨d, hd, _, hiff⟩ := C22_offsets_iff (K := ℚ) 3 [6, 7, 4] [0, 0, 0] [1, 1, 1] [[0, 2, -2], [1, 2, -2]]
      ⟨by decide, by decide, by decide, by decide, by decide, by decide, by decide, by decide⟩
      ⟨[3, 1, 1], .cons (by decide) (.cons (by decide) (.cons (by decide) .nil)), rfl⟩ (by decide)
      (fun d hd => by rw [decomp_three (by decide) (by decide) hd]; exact hfit (by decide) (by decide))
    obtain rfl := decomp_three (by decide) (by decide) hd
    rcases (hiff.1 hall [1, 2, -2] (by decide)).1.cover 0 1 (by decide) (by decide) (by decide) with h | h
    · exact absurd h (by decide)
    · exact absurd h.1 (by decide)

/-- Two offsets with the same signs share the layer of the first one: with (1, 2, -2) in front, (1, 1, -1) is computed on
6 x 2 x 2 cells and three processes, but on its own it is not. -/
example : OffsetWorksWith (firstWidth [[1, 2, -2], [1, 1, -1]] [1, 1, -1]) [3, 1, 1] (localExtents [6, 2, 2] [3, 1, 1]) [1, 1, -1] ∧
    ¬ OffsetWorks [3, 1, 1] (localExtents [6, 2, 2] [3, 1, 1]) [1, 1, -1] := by
  refine ⟨⟨by decide, ?_, ?_⟩, fun h => ?_⟩
  · rintro (_ | _ | _ | i) h h'
    · rfl
    · exact absurd rfl h'
    · exact absurd rfl h'
    · simp at h
  · rintro (_ | _ | _ | i) (_ | _ | _ | j) hij h h'
    all_goals first
      | exact absurd rfl hij
      | exact .inl rfl
      | exact .inr ⟨rfl, .inl rfl⟩
      | (exfalso; simp at h; done)
      | (exfalso; simp at h')
  · rcases h.cover 0 1 (by decide) (by decide) (by decide) with h | h
    · exact absurd h (by decide)
    · exact absurd h.1 (by decide)

end Fidi
