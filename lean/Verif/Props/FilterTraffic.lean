import Verif.Lemmas.FilterTraffic
import Verif.Props.FilterRun
import Verif.Lemmas.GridSum

/-
Property C84: the data that the ranks of the filter fetch from each other.
-/
namespace Fidi
open Spec Run

section
variable {R : Type} [Zero R] [Add R] [Mul R]

/-- The claim about the calls of `MPI_Get` made so far in an interleaving of `n` rounds. -/
structure TrafficOk (nprocs n : Nat) (d L : List Nat) (st : StdMap (List Int) R) (prog : List (Op R)) (log : List GetCall)
    (s : List (Proc R)) : Prop where
  /-- at any time the calls of a rank are the first ones of the plan -/
  sofar : ∀ x, InGrid d x → (log.filter fun m => m.origin = rankOf d x) <+:
    (List.replicate n (plannedCalls d L (st.map Prod.fst) x)).flatten
  /-- a rank that has finished made all calls of the plan -/
  all : ∀ x, InGrid d x → ∀ p, s[rankOf d x]? = some p → Finished prog p →
    (log.filter fun m => m.origin = rankOf d x) = (List.replicate n (plannedCalls d L (st.map Prod.fst) x)).flatten
  /-- only the ranks make calls -/
  ranks : ∀ m ∈ log, m.origin < nprocs
  /-- the number of calls of all ranks -/
  number : (∀ p ∈ s, Finished prog p) → log.length =
    nprocs * n * ((st.map Prod.fst).filter fun off => off.any (· ≠ 0)).length
  /-- the elements fetched by all ranks -/
  volume : (∀ p ∈ s, Finished prog p) → (log.map GetCall.count).sum =
    nprocs * n * (((st.map Prod.fst).filter fun off => off.any (· ≠ 0)).map (layerCells L)).sum

theorem planned_length (d L : List Nat) (offs : List (List Int)) (x : List Nat) (n : Nat) :
    (List.replicate n (plannedCalls d L offs x)).flatten.length = n * (offs.filter fun off => off.any (· ≠ 0)).length := by
  simp [plannedCalls]

theorem planned_count (d L : List Nat) (offs : List (List Int)) (x : List Nat) (n : Nat) :
    ((List.replicate n (plannedCalls d L offs x)).flatten.map GetCall.count).sum =
      n * ((offs.filter fun off => off.any (· ≠ 0)).map (layerCells L)).sum := by
  induction n with
  | zero => simp
  | succ n ih =>
    rw [List.replicate_succ, List.flatten_cons, List.map_append, List.sum_append, ih, Nat.succ_mul, Nat.add_comm]
    congr 2
    unfold plannedCalls
    rw [List.map_map]
    rfl

theorem sum_map_one {α : Type} (l : List α) : (l.map fun _ => 1).sum = l.length := by simp

theorem sum_same {P n k : Nat} {g : Nat → Nat} (h : ∀ r < P, g r = n * k) : ((List.range P).map g).sum = P * n * k := by
  rw [List.map_congr_left fun r hr => h r (List.mem_range.1 hr), List.map_const', List.sum_replicate, List.length_range,
    smul_eq_mul, Nat.mul_assoc]

theorem traffic_ok {c : Cfg R} (h : c.Unit) {u : List Nat → R} {n : Nat} {w0 w1 w2 : World R}
    (hw : Ranks c (fun x f => Shape c x c.tab f) w0) (e1 : w0.setInDataByIndices u = .ok w1)
    (e2 : w1.iterate n = .ok w2) {strong : Bool} {log : List GetCall} {s : List (Proc R)}
    (hs : Logged strong (program c.st u n) w0 log s) :
    TrafficOk c.nprocs n c.d c.L c.st (program c.st u n) log s := by
  have hL := lock_program h.toGood hw e1 e2
  have h0 : worldAt w0 (program c.st u n) 0 = w0 := rfl
  have hc : CallsInv c (program c.st u n) log s := calls_inv h hL (by rw [h0]; exact hs)
  have hi : Inv c (program c.st u n) (worldAt w0 (program c.st u n)) s :=
    inv_reachable hL (by rw [h0]; exact logged_reachable hs)
  have all : ∀ x, InGrid c.d x → ∀ p, s[rankOf c.d x]? = some p → Finished (program c.st u n) p →
      (log.filter fun m => m.origin = rankOf c.d x) =
        (List.replicate n (plannedCalls c.d c.L (c.st.map Prod.fst) x)).flatten := by
    intro x hx p hp hf
    rw [hc.own x hx p hp, hf.1, hf.2, ← program_calls x u n]
    unfold callsAt
    rw [List.take_length]
    simp [lev]
  refine ⟨?_, all, hc.ranks, ?_, ?_⟩
  · intro x hx
    have hlt : rankOf c.d x < s.length := by
      rw [hi.len, ← h.good.valid.2]; exact rankOf_lt hx
    have hp := List.getElem?_eq_getElem hlt
    rw [hc.own x hx _ hp, ← program_calls x u n]
    unfold callsAt
    generalize (s[rankOf c.d x]).done = k
    have e : (program c.st u n).flatMap (opCalls c x) =
        ((program c.st u n).take k).flatMap (opCalls c x) ++ ((program c.st u n).drop k).flatMap (opCalls c x) := by
      rw [← List.flatMap_append, List.take_append_drop]
    rw [e]
    refine (List.prefix_append_right_inj _).2 ?_
    split
    · cases hk : (program c.st u n)[k]? with
      | none => simp
      | some op =>
        obtain ⟨hk1, hk2⟩ := List.getElem?_eq_some_iff.1 hk
        rw [List.drop_eq_getElem_cons hk1, hk2, List.flatMap_cons]
        simp
    · exact List.nil_prefix
  · intro hf
    rw [← sum_map_one, sum_by_rank (fun _ => 1) _ log hc.ranks]
    refine sum_same fun r hr => ?_
    obtain ⟨x, hx, rfl⟩ := h.toGood.coords hr
    have hlt : rankOf c.d x < s.length := by rw [hi.len]; exact hr
    rw [sum_map_one, all x hx _ (List.getElem?_eq_getElem hlt) (hf _ (List.getElem_mem hlt)), planned_length]
  · intro hf
    rw [sum_by_rank GetCall.count _ log hc.ranks]
    refine sum_same fun r hr => ?_
    obtain ⟨x, hx, rfl⟩ := h.toGood.coords hr
    have hlt : rankOf c.d x < s.length := by rw [hi.len]; exact hr
    rw [all x hx _ (List.getElem?_eq_getElem hlt) (hf _ (List.getElem_mem hlt)), planned_count]

end

section
variable {R : Type} [Zero R] [Add R] [Mul R] [Div R] [NatCast R] [LT R] [DecidableLT R] [HasMax R]

/-- C84: for every grid, process count, stencil of offsets one cell wide along an axis, input and number of rounds for
which the lock-step execution is defined, let `d` be the decomposition the filter finds. In every interleaving of the
ranks each rank makes, in every round and in the order of the stencil, one call of `MPI_Get` for each offset other than
zero: to the rank displaced by the offset on the periodic process grid, of as many elements as the face of a sub-domain
has cells. It makes no other calls, whatever the data are. -/
theorem C84_traffic (nprocs : Nat) (dims : List Nat) (xmins xmaxs : List R) (st : StdMap (List Int) R)
    (u : List Nat → R) (n : Nat) (hr : InRange nprocs dims) (hex : ∃ d, ValidDecomp nprocs dims d)
    (ha : ∀ kv ∈ st, AxisOffset dims.length kv.1) :
    ∃ d, ValidDecomp nprocs dims d ∧ ∃ w0 w1, World.new nprocs dims xmins xmaxs st = .ok w0 ∧
      (∀ f ∈ w0, extents f.lo f.hi = localExtents dims d) ∧ w0.setInDataByIndices u = .ok w1 ∧
      ∀ w2, w1.iterate n = .ok w2 → ∀ strong log s, Logged strong (program st u n) w0 log s →
        TrafficOk nprocs n d (localExtents dims d) st (program st u n) log s := by
  obtain ⟨d, hf, hv, hb⟩ := axis_of_range hr hex xmins xmaxs st ha
  obtain ⟨w0, e0, h0⟩ := world_new hf.toGood hb
  obtain ⟨w1, e1, _⟩ := world_set hf.toGood h0 u
  refine ⟨d, hv, w0, w1, e0, ?_, e1, ?_⟩
  · intro f hm
    obtain ⟨x, hx, _, hs⟩ := h0.mem hf.toGood hm
    rw [hs.1.lo, hs.1.hi]
    exact hf.toGood.ext hx
  intro w2 e2 strong log s hs
  exact traffic_ok hf (w0 := w0) ⟨h0.1, fun x f hx hf => (h0.2 x f hx hf).1⟩ e1 e2 hs

end

/-! The drivers. -/

theorem layerCells_axis : ∀ (L : List Nat) (i : Nat) (o : Int), o ≠ 0 → i < L.length →
    layerCells L ((List.replicate L.length 0).set i o) = (L.eraseIdx i).prod
  | [], _, _, _, h => by simp at h
  | l :: L, 0, o, ho, _ => by
    have e : ∀ L : List Nat, layerCells L (List.replicate L.length 0) = L.prod := by
      intro L
      induction L with
      | nil => rfl
      | cons l L ih => simp [layerCells, List.replicate_succ, ih]
    simp [layerCells, List.replicate_succ, ho, e]
  | l :: L, i + 1, o, ho, h => by
    have := layerCells_axis L i o ho (by simpa using h)
    simp [layerCells, List.replicate_succ, this]

theorem axis_any {n i : Nat} {o : Int} (ho : o ≠ 0) (hi : i < n) : ((List.replicate n (0 : Int)).set i o).any (· ≠ 0) = true := by
  rw [List.any_eq_true]
  refine ⟨o, List.mem_iff_getElem.2 ⟨i, by simpa using hi, by simp⟩, by simpa using ho⟩

theorem axes_cells (L : List Nat) (o : Int) (ho : o ≠ 0) :
    (((List.range L.length).map fun i => (List.replicate L.length (0 : Int)).set i o).filter fun off => off.any (· ≠ 0)) =
      (List.range L.length).map fun i => (List.replicate L.length (0 : Int)).set i o := by
  refine List.filter_eq_self.2 fun off h => ?_
  obtain ⟨i, hi, rfl⟩ := List.mem_map.1 h
  exact axis_any ho (List.mem_range.1 hi)

theorem axes_sum (L : List Nat) (o : Int) (ho : o ≠ 0) :
    (((List.range L.length).map fun i => (List.replicate L.length (0 : Int)).set i o).map (layerCells L)).sum = surface L := by
  unfold surface
  rw [List.map_map]
  congr 1
  refine List.map_congr_left fun i hi => ?_
  exact layerCells_axis L i o ho (List.mem_range.1 hi)

section
variable {R : Type} [Zero R] [One R] [Add R] [Mul R] [Div R] [Neg R] [NatCast R] [LT R] [DecidableLT R] [HasMax R]

omit [Zero R] [Add R] [Div R] [LT R] [DecidableLT R] [HasMax R] in
theorem lap_keys (n : Nat) : (lapStencil (R := R) n).map Prod.fst =
    ((List.range n).map fun i => (List.replicate n (0 : Int)).set i (-1)) ++ [List.replicate n 0] ++
      ((List.range n).map fun i => (List.replicate n (0 : Int)).set i 1).reverse := by
  unfold lapStencil
  simp [List.map_map, Function.comp_def]

omit [Zero R] [Add R] [Div R] [LT R] [DecidableLT R] [HasMax R] in
theorem lap_filtered (L : List Nat) :
    (((lapStencil (R := R) L.length).map Prod.fst).filter fun off => off.any (· ≠ 0)) =
      ((List.range L.length).map fun i => (List.replicate L.length (0 : Int)).set i (-1)) ++
        ((List.range L.length).map fun i => (List.replicate L.length (0 : Int)).set i 1).reverse := by
  have : ([List.replicate L.length (0 : Int)].filter fun off => off.any (· ≠ 0)) = [] := by
    rw [List.filter_eq_nil_iff]
    intro off h
    rw [List.mem_singleton] at h
    subst h
    simp [List.any_replicate]
  rw [lap_keys, List.filter_append, List.filter_append, axes_cells L (-1) (by decide), List.filter_reverse,
    axes_cells L 1 (by decide), this, List.append_nil]

omit [Zero R] [Add R] [Div R] [LT R] [DecidableLT R] [HasMax R] in
theorem lap_cells (L : List Nat) :
    ((((lapStencil (R := R) L.length).map Prod.fst).filter fun off => off.any (· ≠ 0)).map (layerCells L)).sum =
      2 * surface L := by
  rw [lap_filtered, List.map_append, List.sum_append, axes_sum L (-1) (by decide), List.map_reverse, List.sum_reverse,
    axes_sum L 1 (by decide), Nat.two_mul]

/-- C84 for `laplacian`: in one application of its stencil on `n` axes all ranks together fetch twice the surface of a
sub-domain (one face per axis, the quantity the decomposition is chosen by) times the number of ranks, in every
interleaving and whatever the data are. -/
theorem C84_laplacian_volume (sz N n : Nat) (xmins xmaxs : List R) (u : List Nat → R) (rounds : Nat)
    (hr : InRange sz (List.replicate n N)) (hex : ∃ d, ValidDecomp sz (List.replicate n N) d) :
    ∃ st : StdMap (List Int) R, Laplacian.stencil n = .ok st ∧
    ∃ d, ValidDecomp sz (List.replicate n N) d ∧ ∃ w0 w1, World.new sz (List.replicate n N) xmins xmaxs st = .ok w0 ∧
      (∀ f ∈ w0, extents f.lo f.hi = localExtents (List.replicate n N) d) ∧ w0.setInDataByIndices u = .ok w1 ∧
      ∀ w2, w1.iterate rounds = .ok w2 → ∀ strong log s, Logged strong (program st u rounds) w0 log s →
        (∀ p ∈ s, Finished (program st u rounds) p) →
          log.length = sz * rounds * (2 * n) ∧
          (log.map GetCall.count).sum = sz * rounds * (2 * surface (localExtents (List.replicate n N) d)) := by
  have haxis : ∀ kv ∈ lapStencil (R := R) n, AxisOffset (List.replicate n N).length kv.1 := by
    intro kv hkv
    rw [List.length_replicate]
    rcases mem_lapEntries ((lapStencil_perm n).mem_iff.1 hkv) with h | ⟨i, _, h | h⟩
    · rw [h]; exact zeroOff_axis n
    · rw [h]; exact axisOff_axis (.inr (.inr rfl))
    · rw [h]; exact axisOff_axis (.inl rfl)
  refine ⟨lapStencil n, laplacian_stencil_eq n, ?_⟩
  obtain ⟨d, hv, w0, w1, e0, hl, e1, hall⟩ :=
    C84_traffic sz (List.replicate n N) xmins xmaxs (lapStencil (R := R) n) u rounds hr hex haxis
  refine ⟨d, hv, w0, w1, e0, hl, e1, ?_⟩
  intro w2 e2 strong log s hs hf
  have ht := hall w2 e2 strong log s hs
  have hlen : (localExtents (List.replicate n N) d).length = n := by
    rw [length_localExtents hv.1, ← hv.1.length_eq, List.length_replicate]
  have h1 := lap_filtered (R := R) (localExtents (List.replicate n N) d)
  have h2 := lap_cells (R := R) (localExtents (List.replicate n N) d)
  rw [hlen] at h1 h2
  refine ⟨?_, ?_⟩
  · rw [ht.number hf, h1]
    simp
    omega
  · rw [ht.volume hf, h2]

end

section
variable {R : Type} [Zero R] [One R] [Add R] [Sub R] [Mul R] [Div R] [NatCast R] [IntCast R] [LT R] [DecidableLT R]
  [HasMax R]

/-- C84 for `upwindMpi`: in one time step all ranks together fetch the surface of a sub-domain (one face per axis) times
the number of ranks, in every interleaving and whatever the data are: only the upwind faces. -/
theorem C84_upwindMpi_volume (h01 : (0 : R) < 1) (courant : R) (sz N : Nat) (xmins xmaxs : List R) (u : List Nat → R)
    (rounds : Nat) (hr : InRange sz [N, N, N]) (hex : ∃ d, ValidDecomp sz [N, N, N] d) :
    ∃ st : StdMap (List Int) R, UpwindMpi.stencil courant N 3 (List.replicate 3 1) (List.replicate 3 1) = .ok st ∧
    ∃ d, ValidDecomp sz [N, N, N] d ∧ ∃ w0 w1, World.new sz [N, N, N] xmins xmaxs st = .ok w0 ∧
      (∀ f ∈ w0, extents f.lo f.hi = localExtents [N, N, N] d) ∧ w0.setInDataByIndices u = .ok w1 ∧
      ∀ w2, w1.iterate rounds = .ok w2 → ∀ strong log s, Logged strong (program st u rounds) w0 log s →
        (∀ p ∈ s, Finished (program st u rounds) p) →
          log.length = sz * rounds * 3 ∧
          (log.map GetCall.count).sum = sz * rounds * surface (localExtents [N, N, N] d) := by
  refine ⟨_, upwindMpi_stencil h01 courant N, ?_⟩
  generalize driverWeight courant N = w
  generalize (1 : R) - w - w - w = v
  have haxis : ∀ kv ∈ ([([-1, 0, 0], w), ([0, -1, 0], w), ([0, 0, -1], w), ([0, 0, 0], v)] : StdMap (List Int) R),
      AxisOffset [N, N, N].length kv.1 := by
    intro kv hkv
    simp only [List.mem_cons, List.not_mem_nil, or_false] at hkv
    rcases hkv with rfl | rfl | rfl | rfl
    · exact axisOff_axis (n := 3) (j := 0) (.inl rfl)
    · exact axisOff_axis (n := 3) (j := 1) (.inl rfl)
    · exact axisOff_axis (n := 3) (j := 2) (.inl rfl)
    · exact zeroOff_axis 3
  obtain ⟨d, hv, w0, w1, e0, hl, e1, hall⟩ := C84_traffic sz [N, N, N] xmins xmaxs _ u rounds hr hex haxis
  refine ⟨d, hv, w0, w1, e0, hl, e1, ?_⟩
  intro w2 e2 strong log s hs hf
  have ht := hall w2 e2 strong log s hs
  have hlen : (localExtents [N, N, N] d).length = 3 := by
    rw [length_localExtents hv.1, ← hv.1.length_eq]; rfl
  refine ⟨ht.number hf, ?_⟩
  rw [ht.volume hf]
  congr 1
  generalize localExtents [N, N, N] d = L at hlen
  match L, hlen with
  | [a, b, c], _ => simp [surface, layerCells, List.range_succ]

end

section
variable {R : Type} [Zero R] [Add R] [Mul R]

/-- Every state reached has a record of calls. -/
theorem reachable_logged {strong : Bool} {prog : List (Op R)} {w : World R} {s : List (Proc R)}
    (h : Reachable strong prog w s) : ∃ log, Logged strong prog w log s := by
  induction h with
  | start => exact ⟨[], .start⟩
  | step _ hst ih =>
    obtain ⟨log, hl⟩ := ih
    obtain ⟨r, p, p', hr, h, rfl⟩ := hst
    exact ⟨_, .step hl hr h⟩

end

private def ramp (t : List Nat) : ℚ := (t.headD 0 : Nat)
private def three : StdMap (List Int) ℚ := [([-1, 0], 3), ([0, 0], 1), ([0, 1], 5)]

/-- C84 is met by a non-trivial case: 4 x 4 cells on 4 processes, a stencil with two sides and 3 rounds. Every
interleaving can be continued to the end, where the ranks have made 24 calls of 2 elements each; those of rank 0 went to
the ranks 2 and 1 in turn. -/
example : ∃ w0, World.new 4 [4, 4] [0, 0] [1, 1] three = .ok w0 ∧ ∀ strong s, Reachable strong (program three ramp 3) w0 s →
    ∃ s' log, Relation.ReflTransGen (Step strong (program three ramp 3)) s s' ∧
      Logged strong (program three ramp 3) w0 log s' ∧ log.length = 24 ∧ (log.map GetCall.count).sum = 48 ∧
      (log.filter fun m => m.origin = 0) = [⟨0, 2, 2⟩, ⟨0, 1, 2⟩, ⟨0, 2, 2⟩, ⟨0, 1, 2⟩, ⟨0, 2, 2⟩, ⟨0, 1, 2⟩] := by
  have hr : InRange 4 [4, 4] := ⟨by decide, by decide, by decide, by decide, by decide, by decide, by decide, by decide⟩
  have hv : ∃ d, ValidDecomp 4 [4, 4] d := ⟨[2, 2], .cons (by decide) (.cons (by decide) .nil), rfl⟩
  have ha : ∀ kv ∈ three, AxisOffset [4, 4].length kv.1 := by
    intro kv hkv
    simp only [three, List.mem_cons, List.not_mem_nil, or_false] at hkv
    rcases hkv with rfl | rfl | rfl
    · exact axisOff_axis (n := 2) (j := 0) (.inl rfl)
    · exact zeroOff_axis 2
    · exact axisOff_axis (n := 2) (j := 1) (.inr (.inr rfl))
  have e : ((World.new 4 [4, 4] [0, 0] [1, 1] three : M (World ℚ)) >>= fun w => w.setInDataByIndices ramp >>=
      fun w => w.iterate 3 >>= fun w => pure (w.map fun f => extents f.lo f.hi)) =
      .ok [[2, 2], [2, 2], [2, 2], [2, 2]] := by
    decide +kernel
  obtain ⟨d, hd, w0, w1, e0, hl, e1, hall⟩ := C84_traffic 4 [4, 4] [0, 0] [1, 1] three ramp 3 hr hv ha
  refine ⟨w0, e0, fun strong s hs => ?_⟩
  have hfit : ∀ d, ValidDecomp 4 [4, 4] d → ∀ kv ∈ three, OffsetFits [4, 4] d kv.1 :=
    fun d hd kv hkv => unit_offsetFits hd.1 (by decide) (axis_unit (ha kv hkv))
  obtain ⟨w0', w1', e0', e1', hsch⟩ := C26_every_schedule 4 [4, 4] [0, 0] [1, 1] three ramp 3 hr hv hfit
  obtain rfl : w0' = w0 := Except.ok.inj (e0'.symm.trans e0)
  obtain rfl : w1' = w1 := Except.ok.inj (e1'.symm.trans e1)
  rw [e0, M.ok_bind, e1, M.ok_bind] at e
  obtain ⟨w2, e2, e3⟩ := (M.bind_ok_iff _ _ _).1 e
  have eL : ((World.new 4 [4, 4] [0, 0] [1, 1] three : M (World ℚ)) >>= fun w =>
      pure (w.map fun f => extents f.lo f.hi)) = .ok [[2, 2], [2, 2], [2, 2], [2, 2]] := by decide +kernel
  rw [e0, M.ok_bind] at eL
  have eL := Except.ok.inj eL
  have hd2 : d = [2, 2] := by
    have hL : localExtents [4, 4] d = [2, 2] := by
      match w0', eL, hl with
      | f :: _, eL, hl =>
        rw [← hl f List.mem_cons_self]
        simp only [List.map_cons, List.cons.injEq] at eL
        exact eL.1
    match d, hd.1 with
    | [a, b], .cons h1 (.cons h2 .nil) =>
      simp only [localExtents, List.zipWith_cons_cons, List.zipWith_nil_left, List.cons.injEq, and_true] at hL
      have ha4 := Nat.div_mul_cancel h1
      have hb4 := Nat.div_mul_cancel h2
      rw [hL.1] at ha4
      rw [hL.2] at hb4
      rw [show a = 2 by omega, show b = 2 by omega]
  subst hd2
  obtain ⟨s', h1, h2⟩ := (hsch w2 e2 strong s hs).reaches
  have hs' : Reachable strong (program three ramp 3) w0' s' := by
    clear h2
    induction h1 with
    | refl => exact hs
    | tail _ hst ih => exact .step ih hst
  obtain ⟨log, hlog⟩ := reachable_logged hs'
  have ht := hall w2 e2 strong log s' hlog
  refine ⟨s', log, h1, hlog, (ht.number h2).trans (by decide), (ht.volume h2).trans (by decide), ?_⟩
  have hx : InGrid [2, 2] [0, 0] := by simp [InGrid]
  have hlen : 0 < s'.length := by
    have := (hsch w2 e2 strong s' hs').final h2
    have hl2 : w2.length = 4 := by
      have := congrArg List.length (Except.ok.inj e3)
      simpa using this
    rw [← List.length_map (f := Proc.f), this, hl2]; decide
  exact (ht.all [0, 0] hx _ (List.getElem?_eq_getElem hlen) (h2 _ (List.getElem_mem hlen))).trans (by decide)

end Fidi
