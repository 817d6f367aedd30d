import Verif.Lemmas.FilterProcs
import Verif.Props.FilterWrap

/-
Properties C16, C17 and C18 on any number of processes, for stencils of offsets along one axis on grids of up to 2^31 cells
of any extents: what the filter does, without a condition on the extents.
-/
namespace Fidi
open Spec

section
variable {R : Type} [Zero R] [Add R] [Mul R] [Div R] [NatCast R] [LT R] [DecidableLT R] [HasMax R]

/-- C16, C18: for every grid of up to 2^31 cells, process count with a valid decomposition, stencil of offsets along one
axis, input and number of rounds of `applyFilter` and `copyOutToIn`, let `d` be the decomposition the filter finds. If
negative indices are reduced (modulo 2^64, then modulo the extent) to the neighbour or to a cell of the first sub-domain
(`WrapLocal`), the rounds end normally and the result is that of the stencil with this displacement (`shift64`).
Otherwise the first round reads outside of an array. -/
theorem C18_every_process_count (nprocs : Nat) (dims : List Nat) (xmins xmaxs : List R) (st : StdMap (List Int) R)
    (u : List Nat → R) (hr : InRange nprocs dims) (hex : ∃ d, ValidDecomp nprocs dims d)
    (ha : ∀ kv ∈ st, AxisOffset dims.length kv.1) (hcells : dims.prod ≤ 2 ^ 31) :
    ∃ d, ValidDecomp nprocs dims d ∧ ∃ w w1, World.new nprocs dims xmins xmaxs st = .ok w ∧
      (∀ f ∈ w, extents f.lo f.hi = localExtents dims d) ∧ w.setInDataByIndices u = .ok w1 ∧
      ((∀ kv ∈ st, WrapLocal dims d kv.1) → ∀ n, ∃ w2, w1.iterate n = .ok w2 ∧ Partition w2 nprocs dims ∧
        InputIs w2 (stencilIter64 dims st u n)) ∧
      ((∃ kv ∈ st, ¬ WrapLocal dims d kv.1) → ∀ n, w1.iterate (n + 1) = .error .outOfBounds) := by
  obtain ⟨d, hf, hv, hb⟩ := axis_of_range hr hex xmins xmaxs st ha
  obtain ⟨w, e, h0⟩ := world_new hf.toGood hb
  obtain ⟨w1, e1, h1⟩ := world_set hf.toGood h0 u
  refine ⟨d, hv, w, w1, e, ?_, e1, ?_, ?_⟩
  · intro f hm
    obtain ⟨x, hx, _, hs⟩ := h0.mem hf.toGood hm
    rw [hs.1.lo, hs.1.hi]
    exact hf.toGood.ext hx
  · intro hl n
    obtain ⟨w2, e2, h2⟩ := world_iterate64 hf
      (fun x hx kv hkv => cell_local hf hkv (ha kv hkv) (hl kv hkv) hx) n h1
    exact ⟨w2, e2, partition_of hf.toGood h2 (fun x f h => h.shape),
      input_of hf.toGood h2 (fun x f h => ⟨h.shape, h.data⟩)⟩
  · intro hl n
    unfold World.iterate
    rw [world_error hf ha hcells hl h1]
    rfl

/-- C16: the same for one call of `applyFilter`. -/
theorem C16_every_process_count (nprocs : Nat) (dims : List Nat) (xmins xmaxs : List R) (st : StdMap (List Int) R)
    (u : List Nat → R) (hr : InRange nprocs dims) (hex : ∃ d, ValidDecomp nprocs dims d)
    (ha : ∀ kv ∈ st, AxisOffset dims.length kv.1) (hcells : dims.prod ≤ 2 ^ 31) :
    ∃ d, ValidDecomp nprocs dims d ∧ ∃ w w1, World.new nprocs dims xmins xmaxs st = .ok w ∧
      (∀ f ∈ w, extents f.lo f.hi = localExtents dims d) ∧ w.setInDataByIndices u = .ok w1 ∧
      ((∀ kv ∈ st, WrapLocal dims d kv.1) → ∃ w2, w1.applyFilter = .ok w2 ∧ Partition w2 nprocs dims ∧
        (∀ f ∈ w2, ∀ g, InBox f.lo f.hi g → InGrid dims g) ∧ OutputIs w2 (stencilStep64 dims st u)) ∧
      ((∃ kv ∈ st, ¬ WrapLocal dims d kv.1) → w1.applyFilter = .error .outOfBounds) := by
  obtain ⟨d, hf, hv, hb⟩ := axis_of_range hr hex xmins xmaxs st ha
  obtain ⟨w, e, h0⟩ := world_new hf.toGood hb
  obtain ⟨w1, e1, h1⟩ := world_set hf.toGood h0 u
  refine ⟨d, hv, w, w1, e, ?_, e1, ?_, ?_⟩
  · intro f hm
    obtain ⟨x, hx, _, hs⟩ := h0.mem hf.toGood hm
    rw [hs.1.lo, hs.1.hi]
    exact hf.toGood.ext hx
  · intro hl
    obtain ⟨w2, e2, h2⟩ := world_apply64 hf
      (fun x hx kv hkv => cell_local hf hkv (ha kv hkv) (hl kv hkv) hx) h1
    refine ⟨w2, e2, partition_of hf.toGood h2 (fun x f h => h.1.shape), ?_,
      output_of hf.toGood h2 (fun x f h => ⟨h.1.shape, h.2⟩)⟩
    intro f hm g hg
    obtain ⟨x, hx, _, hs⟩ := h2.mem hf.toGood hm
    rw [hs.1.shape.lo, hs.1.shape.hi] at hg
    exact hf.toGood.grid hx hg
  · exact fun hl => world_error hf ha hcells hl h1

/-- C17: for every grid of up to 2^31 cells and stencil of offsets along one axis, runs on any two process counts that end
normally give bit for bit the same value in every cell. No condition on the extents. -/
theorem C17_same_if_both_end (p q : Nat) (dims : List Nat) (xmins xmaxs : List R) (st : StdMap (List Int) R)
    (u : List Nat → R) (n : Nat) (hp : InRange p dims) (hq : InRange q dims)
    (hexp : ∃ d, ValidDecomp p dims d) (hexq : ∃ d, ValidDecomp q dims d)
    (ha : ∀ kv ∈ st, AxisOffset dims.length kv.1) (hcells : dims.prod ≤ 2 ^ 31) (wp wq : World R)
    (ep : (World.new p dims xmins xmaxs st >>= fun w => w.setInDataByIndices u >>= fun w => w.iterate n) = .ok wp)
    (eq : (World.new q dims xmins xmaxs st >>= fun w => w.setInDataByIndices u >>= fun w => w.iterate n) = .ok wq) :
    Partition wp p dims ∧ Partition wq q dims ∧
      ∀ fp ∈ wp, ∀ fq ∈ wq, ∀ g, InBox fp.lo fp.hi g → InBox fq.lo fq.hi g →
        ∃ v, fp.inData[cellPos fp.lo fp.hi g]? = some v ∧ fq.inData[cellPos fq.lo fq.hi g]? = some v := by
  have key : ∀ (r : Nat) (w2 : World R), InRange r dims → (∃ d, ValidDecomp r dims d) →
      (World.new r dims xmins xmaxs st >>= fun w => w.setInDataByIndices u >>= fun w => w.iterate n) = .ok w2 →
      Partition w2 r dims ∧ InputIs w2 (stencilIter64 dims st u n) := by
    intro r w2 hr hex e
    obtain ⟨d, hv, w, w1, e0, _, e1, hok, herr⟩ := C18_every_process_count r dims xmins xmaxs st u hr hex ha hcells
    rw [e0, M.ok_bind, e1, M.ok_bind] at e
    by_cases hl : ∀ kv ∈ st, WrapLocal dims d kv.1
    · obtain ⟨w2', e2, h1, h2⟩ := hok hl n
      rw [e2] at e
      obtain rfl := Except.ok.inj e
      exact ⟨h1, h2⟩
    · cases n with
      | zero =>
        obtain ⟨d, hf, _, hb⟩ := axis_of_range hr hex xmins xmaxs st ha
        obtain ⟨v, a, h0⟩ := world_new hf.toGood hb
        obtain ⟨v1, a1, h1⟩ := world_set hf.toGood h0 u
        rw [e0] at a
        obtain rfl := Except.ok.inj a
        rw [e1] at a1
        obtain rfl := Except.ok.inj a1
        obtain rfl := Except.ok.inj e
        exact ⟨partition_of hf.toGood h1 (fun x f h => h.shape),
          input_of hf.toGood h1 (fun x f h => ⟨h.shape, h.data⟩)⟩
      | succ n =>
        rw [herr (by simpa using hl) n] at e
        cases e
  obtain ⟨h1, h2⟩ := key p wp hp hexp ep
  obtain ⟨h3, h4⟩ := key q wq hq hexq eq
  exact ⟨h1, h3, fun fp hfp fq hfq g hg hg' => ⟨_, h2 fp hfp g hg, h4 fq hfq g hg'⟩⟩

end

section
variable {K : Type} [Field K] [LT K] [DecidableLT K] [HasMax K]

omit [LT K] [DecidableLT K] [HasMax K] in
/-- A sum over a stencil with one term that is not 0. -/
theorem foldl_single (st : List (List Int × K)) (v : List Int → K) (acc : K) (o : List Int) (a : K)
    (hnd : (st.map Prod.fst).Nodup) (hm : (o, a) ∈ st) (h1 : v o = 1) (h0 : ∀ kv ∈ st, kv.1 ≠ o → v kv.1 = 0) :
    st.foldl (fun acc p => acc + p.2 * v p.1) acc = acc + a := by
  have hz : ∀ (l : List (List Int × K)) (acc : K), (∀ kv ∈ l, v kv.1 = 0) →
      l.foldl (fun acc p => acc + p.2 * v p.1) acc = acc := by
    intro l
    induction l with
    | nil => intro acc _; rfl
    | cons b l ih =>
      intro acc h
      rw [List.foldl_cons, h b (by simp), mul_zero, add_zero]
      exact ih acc fun kv hkv => h kv (by simp [hkv])
  induction st generalizing acc with
  | nil => simp at hm
  | cons b st ih =>
    rw [List.map_cons, List.nodup_cons] at hnd
    rw [List.foldl_cons]
    rcases List.mem_cons.1 hm with rfl | hm'
    · rw [hz]
      · simp only [h1, mul_one]
      · intro kv hkv
        refine h0 kv (by simp [hkv]) fun e => hnd.1 ?_
        exact List.mem_map.2 ⟨kv, hkv, e⟩
    · have hb : b.1 ≠ o := fun e => hnd.1 (by rw [e]; exact List.mem_map_of_mem hm')
      rw [h0 b (by simp) hb, mul_zero, add_zero]
      exact ih acc hnd.2 hm' fun kv hkv => h0 kv (by simp [hkv])

omit [LT K] [DecidableLT K] [HasMax K] in
theorem foldl_none (st : List (List Int × K)) (v : List Int → K) (acc : K) (h0 : ∀ kv ∈ st, v kv.1 = 0) :
    st.foldl (fun acc p => acc + p.2 * v p.1) acc = acc := by
  induction st generalizing acc with
  | nil => rfl
  | cons b l ih =>
    rw [List.foldl_cons, h0 b (by simp), mul_zero, add_zero]
    exact ih acc fun kv hkv => h0 kv (by simp [hkv])

/-- C16: for every grid of up to 2^31 cells, process count with a valid decomposition and stencil of different offsets
along one axis with weights other than 0, the filter computes the periodic stencil of all inputs if, and only if, the
extents along which offsets are negative are powers of two. -/
theorem C16_axis_stencil_iff (nprocs : Nat) (dims : List Nat) (xmins xmaxs : List K) (st : StdMap (List Int) K)
    (hr : InRange nprocs dims) (hex : ∃ d, ValidDecomp nprocs dims d) (ha : ∀ kv ∈ st, AxisOffset dims.length kv.1)
    (hcells : dims.prod ≤ 2 ^ 31) (hnd : (st.map Prod.fst).Nodup) (hne : ∀ kv ∈ st, kv.2 ≠ 0) :
    (∀ u : List Nat → K, ComputesStencil nprocs dims xmins xmaxs st u) ↔ ∀ kv ∈ st, WrapExact dims kv.1 := by
  constructor
  · rintro h ⟨o, a⟩ hkv j hneg
    by_contra hdiv
    obtain ⟨hj, em, e0⟩ := neg_axis (ha _ hkv) hneg
    have hp := hr.pos _ (List.getElem_mem hj)
    have h31 := hr.ext _ (List.getElem_mem hj)
    have hdiv' : ¬ dims[j] ∣ 2 ^ 64 := by rwa [getD_of_lt hj] at hdiv
    have hn3 : 2 < dims[j] := by
      by_contra hc
      apply hdiv'
      have : dims[j] = 1 ∨ dims[j] = 2 := by omega
      rcases this with e | e <;> rw [e] <;> decide
    have hw : (2 ^ 64 - 1) % dims[j] ≠ dims[j] - 1 := fun e => hdiv' ((wrap_neg_iff hp).1 e)
    have hg0 : InGrid dims (List.replicate dims.length 0) :=
      inGrid_iff_getElem.2 ⟨by simp, fun i h1 _ => by simpa using hr.pos _ (List.getElem_mem h1)⟩
    -- the component along the axis of the displaced cells
    have hz : (List.replicate dims.length 0).getD j 0 = 0 := by simp [hj]
    have c64 : ∀ kv ∈ st, (shift64 dims (List.replicate dims.length 0) kv.1).getD j 0 ≠ dims[j] - 1 := by
      intro kv hkv'
      have hu := axis_unit (ha kv hkv')
      rw [getD_shift64 j hj (by simp) hu.1, hz, getD_of_lt hj]
      rcases unitD hu j with e | e | e
      · rw [e, wrap_minus]; exact hw
      · rw [e]; simp; omega
      · rw [e]
        have : ((((0 : Nat) : Int) + 1) % 2 ^ 64).toNat = 1 := by decide
        rw [this, Nat.mod_eq_of_lt (by omega)]
        omega
    have cmod : ∀ kv ∈ st, kv.1 ≠ o → (shiftMod dims (List.replicate dims.length 0) kv.1).getD j 0 ≠ dims[j] - 1 := by
      intro kv hkv' hko
      have hu := axis_unit (ha kv hkv')
      rw [getD_shiftMod j hj (by simp) hu.1, hz, getD_of_lt hj]
      rcases unitD hu j with e | e | e
      · exfalso
        apply hko
        obtain ⟨_, _, e0'⟩ := neg_axis (ha kv hkv') (by rw [e]; decide : kv.1.getD j 0 < 0)
        have l1 := hu.1
        have l2 : o.length = dims.length := (ha _ hkv).1
        apply ext_of_getElem? (by rw [l1, l2])
        intro i hi
        have : kv.1.getD i 0 = o.getD i 0 := by
          by_cases eij : i = j
          · subst eij; rw [e, em]
          · rw [e0 i eij, e0' i eij]
        rw [getD_of_lt (by omega), getD_of_lt hi] at this
        rw [List.getElem?_eq_getElem (by omega), List.getElem?_eq_getElem hi, this]
      · rw [e]; simp; omega
      · rw [e]
        have : (((0 : Nat) : Int) + 1) = ((1 : Nat) : Int) := by norm_num
        rw [this, ← Int.natCast_mod, Int.toNat_natCast, Nat.mod_eq_of_lt (by omega)]
        omega
    have co : (shiftMod dims (List.replicate dims.length 0) o).getD j 0 = dims[j] - 1 := by
      rw [getD_shiftMod j hj (by simp) (ha _ hkv).1, hz, getD_of_lt hj, em]
      have e2 : (((0 : Nat) : Int) + -1) = -1 := by norm_num
      rw [e2, ← Int.add_emod_right, Int.emod_eq_of_lt (by omega) (by omega)]
      omega
    -- the run
    let u : List Nat → K := fun t => if t.getD j 0 = dims[j] - 1 then 1 else 0
    obtain ⟨d, _, w, w1, a0, _, a1, hok, herr⟩ := C16_every_process_count nprocs dims xmins xmaxs st u hr hex ha hcells
    obtain ⟨v, v1, v2, b0, b1, b2, hpart, hout⟩ := h u
    rw [a0] at b0
    obtain rfl := Except.ok.inj b0
    rw [a1] at b1
    obtain rfl := Except.ok.inj b1
    by_cases hl : ∀ kv ∈ st, WrapLocal dims d kv.1
    · obtain ⟨w2, a2, _, _, hout'⟩ := hok hl
      rw [a2] at b2
      obtain rfl := Except.ok.inj b2
      obtain ⟨r, ⟨f, hf, hb⟩, _⟩ := hpart.2 _ hg0
      have hm := List.mem_of_getElem? hf
      have e1 := hout f hm _ hb
      rw [hout' f hm _ hb, Option.some_inj] at e1
      unfold stencilStep64 stencilStep at e1
      rw [foldl_none st (fun off => u (shift64 dims (List.replicate dims.length 0) off)) 0
          (fun kv hkv' => if_neg (c64 kv hkv')),
        foldl_single st (fun off => u (shiftMod dims (List.replicate dims.length 0) off)) 0 o a hnd hkv (if_pos co)
          (fun kv hkv' hko => if_neg (cmod kv hkv' hko)), zero_add] at e1
      exact hne _ hkv e1.symm
    · rw [herr (by simpa using hl)] at b2
      cases b2
  · exact fun hw u => C16_periodic_stencil_partial nprocs dims xmins xmaxs st u hr hex ha hw

end

/-! ### Examples -/

private theorem axis_line {o : Int} (h : o = -1 ∨ o = 0 ∨ o = 1) : AxisOffset 1 [o] := by
  refine ⟨rfl, by simpa using h, 0, ?_⟩
  intro i hi
  cases i with
  | zero => exact absurd rfl hi
  | succ i => rfl

/-- Twelve cells on an axis and the left neighbour: the remainder of 2^64 - 1 by 12 is 3. On two processes of six cells
that is a cell of the first one, and the run ends with a wrong value in cell 0; on four processes of three cells it is
not, and the run reads outside of an array. -/
example : InRange 2 [12] ∧ InRange 4 [12] ∧ ValidDecomp 2 [12] [2] ∧ ValidDecomp 4 [12] [4] ∧
    (∀ kv ∈ [(([-1] : List Int), (1 : ℚ)), ([1], 1)], AxisOffset [12].length kv.1) ∧ [12].prod ≤ 2 ^ 31 ∧
    ([(([-1] : List Int), (1 : ℚ)), ([1], 1)].map Prod.fst).Nodup ∧
    WrapLocal [12] [2] [-1] ∧ WrapLocal [12] [2] [1] ∧ ¬ WrapLocal [12] [4] [-1] ∧ ¬ WrapExact [12] [-1] := by
  refine ⟨⟨by decide, by decide, by decide, by decide, by decide, by decide, by decide, by decide⟩,
    ⟨by decide, by decide, by decide, by decide, by decide, by decide, by decide, by decide⟩,
    ⟨.cons (by decide) .nil, rfl⟩, ⟨.cons (by decide) .nil, rfl⟩, ?_, by decide, by decide, ?_, ?_, ?_, ?_⟩
  · intro kv hkv
    simp only [List.mem_cons, List.not_mem_nil, or_false] at hkv
    rcases hkv with rfl | rfl
    · exact axis_line (Or.inl rfl)
    · exact axis_line (Or.inr (Or.inr rfl))
  · intro i hi
    cases i with
    | zero => right; decide
    | succ i => simp at hi
  · intro i hi
    cases i with
    | zero => exact absurd hi (by decide)
    | succ i => simp at hi
  · intro h
    rcases h 0 (by decide) with h | h <;> exact absurd h (by decide)
  · intro h
    exact absurd (h 0 (by decide)) (by decide)

/-- The output data of the two runs, rank by rank, for the field whose value is the index of the cell. -/
example : (World.new 2 [12] [0] [1] [(([-1] : List Int), (1 : ℚ))] >>= fun w =>
      w.setInDataByIndices (fun g => (g.getD 0 0 : ℚ)) >>= fun w => w.applyFilter >>= fun w =>
      pure (w.map fun f => f.outData)) = .ok [[3, 0, 1, 2, 3, 4], [5, 6, 7, 8, 9, 10]] ∧
    (World.new 4 [12] [0] [1] [(([-1] : List Int), (1 : ℚ))] >>= fun w =>
      w.setInDataByIndices (fun g => (g.getD 0 0 : ℚ)) >>= fun w => w.applyFilter >>= fun w =>
      pure (w.map fun f => f.outData)) = .error .outOfBounds := by
  constructor <;> decide +kernel

end Fidi
