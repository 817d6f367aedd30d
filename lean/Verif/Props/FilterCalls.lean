import Verif.Lemmas.FilterTrace
import Verif.Lemmas.FilterSave
import Verif.Props.Filter
import Verif.Model.Exact
import Mathlib.Tactic.Linarith
import Mathlib.Tactic.FieldSimp
import Mathlib.Tactic.Ring

/-
Properties C19, C20, C24, C25, C27: windows, check sum, invalid decompositions, positions, resources of the filter.
-/
namespace Fidi
open Spec

section
variable {R : Type} [Zero R] [Div R] [NatCast R] [LT R] [DecidableLT R] [HasMax R]

/-! ### C19 -/

/-- The filter has a source window for the side of every offset of the stencil that is not zero. The window of each side
has one element for each cell of a layer along the faces of that side, as thick as an offset of the stencil with that
side, in column-major order, and the elements are the input data of the cells. -/
def WindowsMirrorInput (st : List (List Int × R)) (f : Filter R) : Prop :=
  (∀ kv ∈ st, (∃ o ∈ kv.1, o ≠ 0) → ∃ win, StdMap.find f.windows (sideOf kv.1) = some win) ∧
  ∀ side win, StdMap.find f.windows side = some win →
    ∃ m src b, (∃ kv ∈ st, side = sideOf kv.1 ∧ m = ghostWidth kv.1) ∧
      f.winBuf[win]? = some src ∧ f.bufs[src]? = some b ∧
      b.length = volume (faceLo f.lo f.hi side m) (faceHi f.lo f.hi side m) ∧
      ∀ t, InBox (faceLo f.lo f.hi side m) (faceHi f.lo f.hi side m) t →
        InBox f.lo f.hi t ∧ ∃ v, f.inData[cellPos f.lo f.hi t]? = some v ∧
          b[cellPos (faceLo f.lo f.hi side m) (faceHi f.lo f.hi side m) t]? = some (some v)

omit [Zero R] [Div R] [NatCast R] [LT R] [DecidableLT R] [HasMax R] in
theorem mirror_of_settled {c : Cfg R} (h : c.Good) {x : List Nat} (hx : InGrid c.d x) {f : Filter R}
    (hs : Settled c x f) : WindowsMirrorInput c.st f := by
  obtain ⟨u, hs, hd, hm⟩ := hs
  obtain ⟨t1, _, t3⟩ := tab_fold (c.st.map Prod.fst)
  constructor
  · intro kv hkv ⟨o, ho, hne⟩
    rw [hs.wins]
    refine t1 kv.1 (List.mem_map.2 ⟨kv, hkv, rfl⟩) ?_
    rw [Nat.ne_zero_iff_zero_lt, List.countP_pos_iff]
    exact ⟨o, ho, by simpa using hne⟩
  intro side win hw
  rw [hs.wins] at hw
  obtain ⟨h1, h2, m, h3, h4⟩ := h.tab_ok.link _ _ hw
  have hbuf := hm _ _ _ hw h3
  have hface := h.face hx h4
  obtain ⟨o, ho, _, ho1, ho2⟩ := t3 _ _ h3
  obtain ⟨kv, hkv, rfl⟩ := List.mem_map.1 ho
  refine ⟨m, 2 * win, _, ⟨kv, hkv, ho1, ho2⟩, ?_, hbuf, ?_, ?_⟩
  · rw [hs.winBuf]; simp [h1]
  · rw [hs.lo, hs.hi]; simp
  · intro t ht
    rw [hs.lo, hs.hi] at ht ⊢
    have hin := hface.sub (h.box hx) ht
    refine ⟨hin, u t, ?_, ?_⟩
    · rw [hd]; exact holds_cell h hx hin
    · have hb := hface.boxLt (h.box hx)
      rw [← flatOf_eq_cellPos _ _ _ hb.length_eq ht.length_lo, List.getElem?_map, boxData_at u ht]
      rfl

omit [Zero R] in
/-- The hypotheses on grid, processes and stencil give the invariant of the constructor on all ranks. -/
theorem setup_good (nprocs : Nat) (dims : List Nat) (xmins xmaxs : List R) (st : StdMap (List Int) R)
    (hr : InRange nprocs dims) (hex : ∃ d, ValidDecomp nprocs dims d)
    (hf : ∀ d, ValidDecomp nprocs dims d → ∀ kv ∈ st, OffsetFits dims d kv.1) :
    ∃ d, Cfg.Good ⟨nprocs, dims, d, xmins, xmaxs, st⟩ ∧
      CubeDecomp.build R CubeDecomp.empty nprocs dims = .ok (true, movedDecomp nprocs dims d 0) := by
  have hp := hr.procs
  obtain ⟨d, hg, hb⟩ := build_found (R := R) hr.procs1 (by omega) hr.ne hr.pos hr.axes hr.cells hex
  exact ⟨d, good_of_range hr hg xmins xmaxs st (hf d hg.valid), hb⟩

/-- C19: for every grid, process count, stencil whose offsets are no wider than the sub-domains and input, the
constructor ends normally; and after every history of calls that ends normally and that contains a call of
`setInData`, `setInDataByIndices` or `copyOutToIn` by rank `r`, the source windows of rank `r` hold the input data of
rank `r`. Calls are those of any rank, and the collective ones. -/
theorem C19_windows_mirror_input [One R] [Add R] [Sub R] [Mul R] (nprocs : Nat) (dims : List Nat) (xmins xmaxs : List R)
    (st : StdMap (List Int) R) (hr : InRange nprocs dims) (hex : ∃ d, ValidDecomp nprocs dims d)
    (hf : ∀ d, ValidDecomp nprocs dims d → ∀ kv ∈ st, OffsetFits dims d kv.1) :
    ∃ w, World.new nprocs dims xmins xmaxs st = .ok w ∧
      ∀ (before after : List (Call R)) (r : Nat) (l : LocalCall R) (w' : World R), l.Sets →
        runCalls w (before ++ .on r l :: after) = .ok w' →
        ∃ f, w'[r]? = some f ∧ f.rk = r ∧ WindowsMirrorInput st f := by
  obtain ⟨d, hg, hb⟩ := setup_good nprocs dims xmins xmaxs st hr hex hf
  obtain ⟨w, e, h0⟩ := world_new hg hb
  refine ⟨w, e, ?_⟩
  intro before after r l w' hl he
  have hsh : Ranks ⟨nprocs, dims, d, xmins, xmaxs, st⟩ (fun x f => Shape ⟨nprocs, dims, d, xmins, xmaxs, st⟩ x
      (Cfg.tab ⟨nprocs, dims, d, xmins, xmaxs, st⟩) f) w := ⟨h0.1, fun x f hx hf => (h0.2 x f hx hf).1⟩
  have hr' : r < nprocs := by
    have he2 := he
    unfold runCalls at he2
    rw [List.foldlM_append] at he2
    obtain ⟨w1, e1, he2⟩ := (M.bind_ok_iff _ _ _).1 he2
    rw [List.foldlM_cons] at he2
    obtain ⟨w2, e2, _⟩ := (M.bind_ok_iff _ _ _).1 he2
    obtain ⟨f, e3, _⟩ := (M.bind_ok_iff _ _ _).1 e2
    have h1 := (calls_shape hg hsh e1).1
    by_contra hc
    rw [rd_of_ge (by rw [h1]; exact Nat.le_of_not_lt hc)] at e3
    cases e3
  obtain ⟨x, hx, rfl⟩ := hg.coords hr'
  obtain ⟨f, hf', hs⟩ := calls_set hg hsh hx hl he
  exact ⟨f, hf', hs.choose_spec.shape.rk, mirror_of_settled hg hx hs⟩

/-! ### C24 -/

/-- C24 (part): for grids of at most 2^32 cells (and fewer than 32 axes), every rank, stencil and process count: if no
decomposition exists the constructor ends normally, `isDecompValid()` is false, no window or buffer is created and the
destructor frees nothing; if one exists and the constructor ends normally, `isDecompValid()` is true.
Missing: larger grids, where the search for a decomposition is wrong (`C08_found_iff_exists_fails`). -/
theorem C24_invalid_decomposition_partial (rk : Int) (nprocs : Nat) (dims : List Nat) (xmins xmaxs : List R)
    (st : StdMap (List Int) R) (hp1 : 1 ≤ nprocs) (hp2 : nprocs < 2 ^ 31) (hne : dims ≠ []) (hpos : ∀ n ∈ dims, 0 < n)
    (hax : dims.length < 32) (hsize : dims.prod ≤ 2 ^ 32) :
    ((¬ ∃ d, ValidDecomp nprocs dims d) → ∃ f, Filter.new rk nprocs dims xmins xmaxs st = .ok f ∧
      f.validDecomp = false ∧ f.windows = [] ∧ f.trace = [] ∧ f.destroy.trace = []) ∧
    ((∃ d, ValidDecomp nprocs dims d) → ∀ f, Filter.new rk nprocs dims xmins xmaxs st = .ok f →
      f.validDecomp = true) := by
  obtain ⟨b, cd, e, hb, _⟩ := C08_found_iff_exists_partial (R := R) CubeDecomp.empty nprocs dims hp1 hp2 hne hpos hax hsize
  constructor
  · intro hno
    have hb' : b = false := by
      cases b with
      | false => rfl
      | true => exact absurd (hb.1 rfl) hno
    subst hb'
    refine ⟨{ Filter.initial rk nprocs dims xmins xmaxs with dcmp := cd }, ?_, rfl, rfl, rfl, rfl⟩
    unfold Filter.new
    dsimp only [Filter.initial]
    rw [e]
    rfl
  · intro hex f hf
    obtain ⟨_, _, _, _, ⟨cd', e'⟩, _⟩ := new_tables hf
    rw [e] at e'
    have := Except.ok.inj e'
    rw [Prod.mk.injEq] at this
    rw [← this.1]
    exact hb.2 hex

/-- C24: on grids of any size with fewer than 2^64 candidates, `isDecompValid()` of a filter whose constructor ends normally is true
exactly if there are divisors of the dimensions whose product equals the number of processes modulo 2^32. If there are none the
constructor ends normally, no window or buffer is created and the destructor frees nothing. -/
theorem C24_valid_mod_iff (rk : Int) (nprocs : Nat) (dims : List Nat) (xmins xmaxs : List R) (st : StdMap (List Int) R)
    (hp2 : nprocs < 2 ^ 31) (hne : dims ≠ []) (hpos : ∀ n ∈ dims, 0 < n) (hsize : 2 ^ dims.length * dims.prod < 2 ^ 64) :
    (∀ f, Filter.new rk nprocs dims xmins xmaxs st = .ok f →
      (f.validDecomp = true ↔ ∃ d, List.Forall₂ (fun n k => k ∣ n) dims d ∧ d.prod % 2 ^ 32 = nprocs)) ∧
    ((¬ ∃ d, List.Forall₂ (fun n k => k ∣ n) dims d ∧ d.prod % 2 ^ 32 = nprocs) →
      ∃ f, Filter.new rk nprocs dims xmins xmaxs st = .ok f ∧
        f.validDecomp = false ∧ f.windows = [] ∧ f.trace = [] ∧ f.destroy.trace = []) := by
  obtain ⟨b, cd, e, hb, _⟩ := C08_found_mod_iff (R := R) CubeDecomp.empty nprocs dims hp2 hne hpos hsize
  constructor
  · intro f hf
    obtain ⟨_, _, _, _, ⟨cd', e'⟩, _⟩ := new_tables hf
    rw [e] at e'
    have := Except.ok.inj e'
    rw [Prod.mk.injEq] at this
    rw [← this.1]
    exact hb
  · intro hno
    have hb' : b = false := by
      cases b with
      | false => rfl
      | true => exact absurd (hb.1 rfl) hno
    subst hb'
    refine ⟨{ Filter.initial rk nprocs dims xmins xmaxs with dcmp := cd }, ?_, rfl, rfl, rfl, rfl⟩
    unfold Filter.new
    dsimp only [Filter.initial]
    rw [e]
    rfl

/-! ### C27 -/

/-- C27 (part): if the constructor ends normally, whatever the stencil, then over the life of the filter no resource
call is made twice, only what the constructor acquired is released, and only by the destructor; a window exposes
allocated memory. If moreover the offsets of the stencil point to different sides, everything acquired is released.
Missing: the memory of a window outlives the window, and everything is released for all stencils; both are false
(`C27_freed_while_exposed_fails`, `C27_all_released_fails`). -/
theorem C27_resources_partial (rk : Int) (nprocs : Nat) (dims : List Nat) (xmins xmaxs : List R)
    (st : StdMap (List Int) R) (f : Filter R) (hf : Filter.new rk nprocs dims xmins xmaxs st = .ok f) :
    ∃ rel, f.destroy.trace = f.trace ++ rel ∧ f.destroy.trace.Nodup ∧
      (∀ b, MpiEvent.freeMem b ∉ f.trace) ∧ (∀ w, MpiEvent.winFree w ∉ f.trace) ∧
      (∀ b, MpiEvent.allocMem b ∉ rel) ∧ (∀ w b, MpiEvent.winCreate w b ∉ rel) ∧
      (∀ b, MpiEvent.freeMem b ∈ rel → MpiEvent.allocMem b ∈ f.trace) ∧
      (∀ w, MpiEvent.winFree w ∈ rel → ∃ b, MpiEvent.winCreate w b ∈ f.trace) ∧
      (∀ w b, MpiEvent.winCreate w b ∈ f.trace → MpiEvent.allocMem b ∈ f.trace) ∧
      ((∀ kv ∈ st, kv.1.length = dims.length ∧ ∀ o ∈ kv.1, -(2 : Int) ^ 31 < o ∧ o < 2 ^ 31) →
        (st.map fun kv => sideOf kv.1).Nodup →
        (∀ b, MpiEvent.allocMem b ∈ f.trace → MpiEvent.freeMem b ∈ rel) ∧
        (∀ w b, MpiEvent.winCreate w b ∈ f.trace → MpiEvent.winFree w ∈ rel)) := by
  obtain ⟨_, _, _, _, _, _, n, ht, hfull⟩ := new_tables hf
  have hmem : ∀ w ∈ f.windows.map Prod.snd, w < n := by
    intro w hw
    obtain ⟨⟨s, w'⟩, h, rfl⟩ := List.mem_map.1 hw
    exact (ht.link _ _ ((StdMap.mem_iff_find ht.sorted _ _).1 h)).1
  refine ⟨released (f.windows.map Prod.snd), ?_, ?_, ?_, ?_, ?_, ?_, ?_, ?_, ?_, ?_⟩
  · rw [destroy_trace ht, ht.trace]
  · rw [destroy_trace ht, List.nodup_append]
    refine ⟨nodup_created n, nodup_released (nodup_windows ht), ?_⟩
    intro e h1 e' h2 heq
    subst heq
    obtain ⟨w, _, h1⟩ := mem_created.1 h1
    obtain ⟨w', _, h2⟩ := mem_released.1 h2
    rcases h1 with rfl | rfl | rfl <;> simp at h2
  · intro b h; rw [ht.trace] at h; obtain ⟨w, _, h⟩ := mem_created.1 h; simp at h
  · intro b h; rw [ht.trace] at h; obtain ⟨w, _, h⟩ := mem_created.1 h; simp at h
  · intro b h; obtain ⟨w, _, h⟩ := mem_released.1 h; simp at h
  · intro w b h; obtain ⟨w, _, h⟩ := mem_released.1 h; simp at h
  · intro b h
    obtain ⟨w, hw, h⟩ := mem_released.1 h
    rw [ht.trace, mem_created]
    refine ⟨w, hmem w hw, ?_⟩
    rcases h with h | h | h
    · left; simpa using h
    · right; left; simpa using h
    · cases h
  · intro w' h
    obtain ⟨w, hw, h⟩ := mem_released.1 h
    have : w' = w := by simpa using h
    subst this
    rw [ht.trace]
    exact ⟨2 * w', mem_created.2 ⟨w', hmem w' hw, .inr (.inr rfl)⟩⟩
  · intro w b h
    rw [ht.trace] at h ⊢
    obtain ⟨w', hw, h⟩ := mem_created.1 h
    have : w = w' ∧ b = 2 * w' := by simpa using h
    exact mem_created.2 ⟨w', hw, .inl (by rw [this.2])⟩
  · intro h1 h2
    have hall := hfull h1 h2
    have hin : ∀ w < n, w ∈ f.windows.map Prod.snd := by
      intro w hw
      obtain ⟨s, hs⟩ := hall w hw
      exact List.mem_map.2 ⟨(s, w), (StdMap.mem_iff_find ht.sorted _ _).2 hs, rfl⟩
    constructor
    · intro b h
      rw [ht.trace] at h
      obtain ⟨w, hw, h⟩ := mem_created.1 h
      rw [mem_released]
      refine ⟨w, hin w hw, ?_⟩
      rcases h with h | h | h
      · left; simpa using h
      · right; left; simpa using h
      · cases h
    · intro w b h
      rw [ht.trace] at h
      obtain ⟨w', hw, h⟩ := mem_created.1 h
      have : w = w' ∧ b = 2 * w' := by simpa using h
      rw [mem_released]
      exact ⟨w', hin w' hw, .inr (.inr (by rw [this.1]))⟩

end

/-! ### C20 -/

/-- The check sum of filters built by the constructor. -/
theorem check_sum_of {R : Type} [AddCommMonoid R] {c : Cfg R} (hg : c.Good) (hp1 : 1 ≤ c.nprocs) {w1 : World R}
    (hsh : Ranks c (fun x f => Shape c x c.tab f) w1) (input : Bool) :
    (∃ rs w2, w1.CheckSum input rs w2) ∧
    ∀ rs w2, w1.CheckSum input rs w2 → rs.length = c.nprocs ∧ (∀ r, 1 ≤ r → r < c.nprocs → rs[r]? = some 0) ∧
      ∀ (v : List Nat → R) (cells : List (List Nat)),
        (if input then InputIs w1 v else OutputIs w1 v) → cells.Nodup → (∀ g, g ∈ cells ↔ InGrid c.dims g) →
        rs[0]? = some (cells.map v).sum := by
  obtain ⟨ps, e1, hl, hP⟩ := mapM_ok w1 (fun f => f.localSum input)
    (fun i p => ∃ f, w1[i]? = some f ∧ p.1 = (if input then f.inData else f.outData).sum) (by
      intro i f hf
      obtain ⟨x, hx, _, hs⟩ := hsh.mem hg (List.mem_of_getElem? hf)
      obtain ⟨f', e⟩ := localSum_eq hg hx hs input
      exact ⟨_, e, f, hf, rfl⟩)
  have hfst : ps.map Prod.fst = w1.map fun f => (if input then f.inData else f.outData).sum := by
    apply List.ext_getElem (by simp [hl])
    intro i h1 h2
    simp only [List.getElem_map]
    have h3 : i < ps.length := by simpa using h1
    obtain ⟨f, hf, hp⟩ := hP i ps[i] (List.getElem?_eq_getElem h3)
    rw [List.getElem?_eq_getElem (by rw [← hl]; exact h3), Option.some_inj] at hf
    rw [hp, ← hf]
  have hlen : w1.length = c.nprocs := hsh.1
  constructor
  · obtain ⟨r, hr'⟩ := sumTree_exists (xs := ps.map Prod.fst) (by
      intro h0
      have : ps.length = 0 := by simpa using h0
      omega)
    exact ⟨_, _, ps, r, e1, rfl, ⟨_, List.Perm.refl _, hr'⟩, rfl⟩
  · rintro rs w2 ⟨ps', total, e1', _, hsum, rfl⟩
    rw [e1] at e1'
    obtain rfl := Except.ok.inj e1'
    refine ⟨by simp [hlen], ?_, ?_⟩
    · intro r h1 h2
      rw [List.getElem?_map, List.getElem?_range (by omega), Option.map_some, if_neg (by omega)]
    · intro v cells hv hnd hmem
      rw [List.getElem?_map, List.getElem?_range (by omega), Option.map_some, if_pos rfl, Option.some_inj]
      rw [mpiSum_sum hsum, hfst]
      have hdata : w1.map (fun f => (if input then f.inData else f.outData).sum) =
          w1.map (fun f => ((boxCells f.lo f.hi).map v).sum) := by
        apply List.map_congr_left
        intro f hf
        obtain ⟨x, hx, _, hs⟩ := hsh.mem hg hf
        congr 1
        rw [← boxData_eq_map, hs.lo, hs.hi]
        apply List.ext_getElem
        · rw [length_boxData, hg.vol hx]; cases input
          · exact hs.outLen
          · exact hs.inLen
        · intro i h1 h2
          have h3 : i < volume (c.lo x) (c.hi x) := by simpa using h2
          have hin := tupleAt_inBox false (hg.box hx) i
          have hpos : cellPos (c.lo x) (c.hi x) (tupleAt false (c.lo x) (c.hi x) i) = i := by
            rw [← flatOf_eq_cellPos _ _ _ (hg.box hx).length_eq hin.length_lo, flatOf_tupleAt false (hg.box hx),
              Nat.mod_eq_of_lt h3]
          simp only [boxData, List.getElem_map, List.getElem_range]
          have hcell : (if input then f.inData else f.outData)[i]? = some (v (tupleAt false (c.lo x) (c.hi x) i)) := by
            cases input
            · have := hv f hf (tupleAt false (c.lo x) (c.hi x) i) (by rw [hs.lo, hs.hi]; exact hin)
              rw [hs.lo, hs.hi, hpos] at this
              exact this
            · have := hv f hf (tupleAt false (c.lo x) (c.hi x) i) (by rw [hs.lo, hs.hi]; exact hin)
              rw [hs.lo, hs.hi, hpos] at this
              exact this
          rw [List.getElem?_eq_getElem h1, Option.some_inj] at hcell
          exact hcell
      rw [hdata]
      obtain ⟨a1, a2⟩ := all_cells hg hsh
      have hperm : (w1.flatMap fun f => boxCells f.lo f.hi).Perm cells := by
        rw [List.perm_ext_iff_of_nodup a1 hnd]
        intro g
        rw [a2, hmem]
      rw [← (hperm.map v).sum_eq, List.map_flatMap, List.flatMap_def, List.sum_flatten, List.map_map]
      rfl

/-- C20: for every grid, process count, fitting stencil and history of calls, `computeCheckSum` ends normally and,
whatever the order and bracketing in which MPI adds the contributions, returns on rank 0 the sum over all cells of the
grid of the input data (`input`) or output data, and 0 on the other ranks. `v` is the field held by the ranks; `cells`
is any enumeration of the cells without repetition, so the value does not depend on the decomposition. Addition is
commutative and associative (exact). -/
theorem C20_check_sum {R : Type} [AddCommMonoid R] [One R] [Sub R] [Mul R] [Div R] [NatCast R] [LT R] [DecidableLT R]
    [HasMax R] (nprocs : Nat) (dims : List Nat) (xmins xmaxs : List R) (st : StdMap (List Int) R)
    (hr : InRange nprocs dims) (hex : ∃ d, ValidDecomp nprocs dims d)
    (hf : ∀ d, ValidDecomp nprocs dims d → ∀ kv ∈ st, OffsetFits dims d kv.1)
    (calls : List (Call R)) (w w1 : World R) (hw : World.new nprocs dims xmins xmaxs st = .ok w)
    (hc : runCalls w calls = .ok w1) (input : Bool) :
    (∃ rs w2, w1.CheckSum input rs w2) ∧
    ∀ rs w2, w1.CheckSum input rs w2 → rs.length = nprocs ∧ (∀ r, 1 ≤ r → r < nprocs → rs[r]? = some 0) ∧
      ∀ (v : List Nat → R) (cells : List (List Nat)),
        (if input then InputIs w1 v else OutputIs w1 v) → cells.Nodup → (∀ g, g ∈ cells ↔ InGrid dims g) →
        rs[0]? = some (cells.map v).sum := by
  obtain ⟨d, hg, hb⟩ := setup_good nprocs dims xmins xmaxs st hr hex hf
  obtain ⟨w0, e, h0⟩ := world_new hg hb
  have e' : World.new nprocs dims xmins xmaxs st = .ok w0 := e
  rw [hw] at e'
  obtain rfl := Except.ok.inj e'
  generalize hcfg : (⟨nprocs, dims, d, xmins, xmaxs, st⟩ : Cfg R) = c at hg h0
  have hn : c.nprocs = nprocs := by rw [← hcfg]
  have hdim : c.dims = dims := by rw [← hcfg]
  have hsh : Ranks c (fun x f => Shape c x c.tab f) w1 :=
    calls_shape hg ⟨h0.1, fun x f hx hf => (h0.2 x f hx hf).1⟩ hc
  have h := check_sum_of hg (by rw [hn]; exact hr.procs1) hsh input
  rw [hn, hdim] at h
  exact h

/-! ### C25 -/

/-- C25: in exact arithmetic, for every domain of positive extents and every cell, `getPosition` is strictly inside the
domain along every axis, cells that are consecutive along an axis are one cell width apart, and the first and the last
cell are half a cell from the boundary. It does not matter whether the decomposition is valid. -/
theorem C25_cell_centres {K : Type} [Field K] [LinearOrder K] [IsStrictOrderedRing K] [HasMax K] (rk : Int) (nprocs : Nat)
    (dims : List Nat) (xmins xmaxs : List K) (st : StdMap (List Int) K) (f : Filter K)
    (hf : Filter.new rk nprocs dims xmins xmaxs st = .ok f) (h1 : xmins.length = dims.length)
    (h2 : xmaxs.length = dims.length) (hlt : ∀ i, i < dims.length → xmins.getD i 0 < xmaxs.getD i 0)
    (g : List Nat) (hg : InGrid dims g) :
    ∃ pos, f.getPosition g = .ok pos ∧ pos.length = dims.length ∧ ∀ i, i < dims.length →
      xmins.getD i 0 < pos.getD i 0 ∧ pos.getD i 0 < xmaxs.getD i 0 ∧
      (g.getD i 0 = 0 → pos.getD i 0 - xmins.getD i 0 = (xmaxs.getD i 0 - xmins.getD i 0) / (dims.getD i 0) / 2) ∧
      (g.getD i 0 + 1 = dims.getD i 0 →
        xmaxs.getD i 0 - pos.getD i 0 = (xmaxs.getD i 0 - xmins.getD i 0) / (dims.getD i 0) / 2) ∧
      ∀ g', InGrid dims g' → g'.getD i 0 = g.getD i 0 + 1 → ∃ pos', f.getPosition g' = .ok pos' ∧
        pos'.getD i 0 - pos.getD i 0 = (xmaxs.getD i 0 - xmins.getD i 0) / (dims.getD i 0) := by
  obtain ⟨c1, c2, c3, c4, _⟩ := new_tables hf
  have key : ∀ g, InGrid dims g → f.getPosition g = .ok ((List.range dims.length).map fun i =>
      xmins.getD i 0 + ((g.getD i 0 : Nat) + 1 / 2) * ((xmaxs.getD i 0 - xmins.getD i 0) / (dims.getD i 0 : Nat))) := by
    intro g hg
    have hl := hg.length_eq
    unfold Filter.getPosition
    rw [c1, c2, c3, c4]
    rw [forUp_fill dims.length _ (by simp) (fun i =>
      xmins.getD i 0 + ((g.getD i 0 : Nat) + 1 / 2) * ((xmaxs.getD i 0 - xmins.getD i 0) / (dims.getD i 0 : Nat)))]
    intro i v hi hv _
    rw [rd_of_lt (by omega), M.ok_bind, rd_of_lt (by omega), M.ok_bind, rd_of_lt (by omega), M.ok_bind,
      rd_of_lt (by omega), M.ok_bind, M.ok_bind, wr_of_lt (by omega)]
    rw [getD_of_lt (by omega : i < xmins.length), getD_of_lt (by omega : i < xmaxs.length),
      getD_of_lt (by omega : i < dims.length), getD_of_lt (by omega : i < g.length)]
    simp
  have get : ∀ (F : Nat → K) i, i < dims.length → ((List.range dims.length).map F).getD i 0 = F i := by
    intro F i hi
    rw [getD_of_lt (by simpa using hi)]
    simp
  refine ⟨_, key g hg, by simp, ?_⟩
  intro i hi
  have hn : g.getD i 0 < dims.getD i 0 := by
    have hl := hg.length_eq
    rw [getD_of_lt hi, getD_of_lt (by omega : i < g.length)]
    exact inGrid_getElem hg i hi (by omega)
  have hlt' := hlt i hi
  rw [get _ i hi]
  refine ⟨?_, ?_, ?_, ?_, fun g' hg' he => ⟨_, key g' hg', by rw [get _ i hi, he]; push_cast; ring⟩⟩
  all_goals clear key hlt hf
  all_goals generalize xmins.getD i 0 = a at *
  all_goals generalize xmaxs.getD i 0 = b at *
  all_goals generalize dims.getD i 0 = n at *
  all_goals have hn0 : (0 : K) < n := by exact_mod_cast (by omega : 0 < n)
  all_goals have hD : 0 < (b - a) / (n : K) := div_pos (by linarith) hn0
  all_goals have hbn : b = a + n * ((b - a) / (n : K)) := by field_simp; ring
  all_goals generalize (b - a) / (n : K) = D at *
  all_goals have hk : ((g.getD i 0 : Nat) : K) + 1 ≤ n := by exact_mod_cast hn
  all_goals have hk0 : (0 : K) ≤ ((g.getD i 0 : Nat) : K) := by exact_mod_cast Nat.zero_le _
  · have : 0 < (((g.getD i 0 : Nat) : K) + 1 / 2) * D := mul_pos (by linarith) hD
    linarith
  · have : (((g.getD i 0 : Nat) : K) + 1 / 2) * D < n * D := mul_lt_mul_of_pos_right (by linarith) hD
    linarith
  · intro h0; rw [h0]; push_cast; ring
  · intro h0
    have : (n : K) = ((g.getD i 0 : Nat) : K) + 1 := by rw [← h0]; push_cast; rfl
    rw [hbn, this]; ring

/-! ### Examples and counterexamples -/

/-- The field used below: the first index. -/
private def first (t : List Nat) : ℚ := (t.headD 0 : Nat)

private theorem range8 : InRange 2 [8] :=
  ⟨by decide, by decide, by decide, by decide, by decide, by decide, by decide, by decide⟩

private theorem valid8 : ∃ d, ValidDecomp 2 [8] d := ⟨[2], .cons (by decide) .nil, rfl⟩

/-- Two offsets, one of them two cells wide. -/
private def wide : StdMap (List Int) ℚ := [([-1], 2), ([2], 3)]

private theorem wide_fits : ∀ d, ValidDecomp 2 [8] d → ∀ kv ∈ wide, OffsetFits [8] d kv.1 := by
  intro d hd kv hkv
  obtain ⟨k, rfl⟩ : ∃ k, d = [k] := by
    match d, hd.1 with
    | [k], _ => exact ⟨k, rfl⟩
  have hk : k = 2 := by simpa using hd.2
  subst hk
  simp only [wide, List.mem_cons, List.not_mem_nil, or_false] at hkv
  rcases hkv with rfl | rfl
  · refine ⟨rfl, by decide, ?_⟩
    intro i hi
    match i, hi with
    | 0, _ => decide
    | i + 1, h => simp at h
  · refine ⟨rfl, by decide, ?_⟩
    intro i hi
    match i, hi with
    | 0, _ => decide
    | i + 1, h => simp at h

/-- C19 and C20 are met by non-trivial cases: 8 cells on 2 processes, data set twice on rank 1, printed, summed and
saved. The last line shows the windows and the input data of rank 1. -/
example : InRange 2 [8] ∧ (∃ d, ValidDecomp 2 [8] d) ∧
    (∀ d, ValidDecomp 2 [8] d → ∀ kv ∈ wide, OffsetFits [8] d kv.1) ∧
    (World.new 2 [8] [0] [1] wide >>= fun w => runCalls w
      ([.on 1 (.setInDataByIndices first), .on 0 (.setInDataByIndices first), .checkSum true, .saveVTK] ++
        .on 1 (.setInDataByIndices fun t => first t * 10) :: [.on 1 (.printData true), .checkSum true]) >>= fun w =>
      pure (w.map fun f => (f.windows.map Prod.fst, f.inData, f.bufs.map (·.map (·.getD 0))))) =
    .ok [([[-1], [1]], [0, 1, 2, 3], [[3], [0], [0, 1], [0, 0]]),
      ([[-1], [1]], [40, 50, 60, 70], [[70], [0], [40, 50], [0, 0]])] :=
  ⟨range8, valid8, wide_fits, by decide +kernel⟩

/-- C20: three ranks hold 1, 2 and 4; MPI may add 4 to the sum of the others. -/
example : MpiSum [(1 : ℚ), 2, 4] (4 + (2 + 1)) :=
  ⟨[4, 2, 1], by decide, .node (.leaf 4) (.node (.leaf 2) (.leaf 1))⟩

/-- C24 is met by 7 cells on 2 processes, which cannot be decomposed, and 8 cells, which can. -/
example : (¬ ∃ d, ValidDecomp 2 [7] d) ∧ (∃ d, ValidDecomp 2 [8] d) := by
  refine ⟨?_, valid8⟩
  rintro ⟨d, hd⟩
  obtain ⟨k, rfl⟩ : ∃ k, d = [k] := by
    match d, hd.1 with
    | [k], _ => exact ⟨k, rfl⟩
  have hk : k = 2 := by simpa using hd.2
  subst hk
  have := hd.1
  simp only [List.forall₂_cons, List.Forall₂.nil, and_true] at this
  revert this
  decide

/-- C25 is met by a 2 x 4 grid. -/
example : ∃ f : Filter ℚ, Filter.new 0 2 [2, 4] [0, -1] [1, 7] [] = .ok f ∧ InGrid [2, 4] [1, 3] ∧
    f.getPosition [1, 3] = .ok [3 / 4, 6] := by
  have h : ((Filter.new 0 2 [2, 4] [0, -1] [1, 7] [] : M (Filter ℚ)) >>= fun f => f.getPosition [1, 3]) =
      .ok [3 / 4, 6] := by decide +kernel
  obtain ⟨f, e, h⟩ := (M.bind_ok_iff _ _ _).1 h
  exact ⟨f, e, by decide, h⟩

private def traceOf (dims : List Nat) (st : StdMap (List Int) ℚ) : M (List MpiEvent) :=
  Filter.new 0 1 dims [0] [1] st >>= fun f => pure f.destroy.trace

/-- C27: the trace of a filter with two sides. -/
example : traceOf [8] [([-1], 1), ([1], 1)] = .ok
    [.allocMem 0, .allocMem 1, .winCreate 0 0, .allocMem 2, .allocMem 3, .winCreate 1 2,
      .freeMem 2, .freeMem 3, .winFree 1, .freeMem 0, .freeMem 1, .winFree 0] := by decide +kernel

/-- C27 is false: the destructor frees the memory of a window before the window. -/
theorem C27_freed_while_exposed_fails : ¬ ∀ (dims : List Nat) (st : StdMap (List Int) ℚ) (f : Filter ℚ),
    Filter.new 0 1 dims [0] [1] st = .ok f → ∀ w b, MpiEvent.winCreate w b ∈ f.destroy.trace →
      ∀ pre post, f.destroy.trace = pre ++ .freeMem b :: post → MpiEvent.winFree w ∈ pre := by
  intro h
  have e : traceOf [8] [([-1], 1)] =
      .ok [.allocMem 0, .allocMem 1, .winCreate 0 0, .freeMem 0, .freeMem 1, .winFree 0] := by decide +kernel
  obtain ⟨f, e1, e2⟩ := (M.bind_ok_iff _ _ _).1 e
  have e3 := Except.ok.inj e2
  have := h _ _ f e1 0 0 (by rw [e3]; decide) [.allocMem 0, .allocMem 1, .winCreate 0 0] [.freeMem 1, .winFree 0]
    (by rw [e3]; rfl)
  simp at this

/-- C27 is false: of two offsets that point to the same side, window and buffers of the second are never freed. -/
theorem C27_all_released_fails : ¬ ∀ (dims : List Nat) (st : StdMap (List Int) ℚ) (f : Filter ℚ),
    Filter.new 0 1 dims [0] [1] st = .ok f → ∀ b, MpiEvent.allocMem b ∈ f.destroy.trace →
      MpiEvent.freeMem b ∈ f.destroy.trace := by
  intro h
  have e : traceOf [8] [([1], 1), ([2], 1)] =
      .ok [.allocMem 0, .allocMem 1, .winCreate 0 0, .allocMem 2, .allocMem 3, .winCreate 1 2,
        .freeMem 0, .freeMem 1, .winFree 0] := by decide +kernel
  obtain ⟨f, e1, e2⟩ := (M.bind_ok_iff _ _ _).1 e
  have e3 := Except.ok.inj e2
  have := h _ _ f e1 2 (by rw [e3]; decide)
  rw [e3] at this
  simp at this

end Fidi
