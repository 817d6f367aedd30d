import Verif.Lemmas.FilterPrint
import Verif.Lemmas.FilterProcs
import Verif.Props.FilterCalls
import Verif.Props.FilterWrap

/-
Property C64: what the print methods of the filter write.
-/
namespace Fidi
open Spec

/-- C64: for all corners `lo`, `hi` with the same number of axes the listed cells are those of the box, each once, at its
column-major position. -/
theorem C64_listed_cells (lo hi : List Nat) (hl : lo.length = hi.length) :
    (cellList lo hi).Nodup ∧ (∀ t, t ∈ cellList lo hi ↔ InBox lo hi t) ∧
      ∀ t, InBox lo hi t → (cellList lo hi)[cellPos lo hi t]? = some t :=
  ⟨nodup_cellList lo hi, mem_cellList hl, fun _ ht => cellList_at ht⟩

/-- Non-vacuity of `C64_listed_cells`. -/
example : cellList [0, 3] [2, 5] = [[0, 3], [1, 3], [0, 4], [1, 4]] := by decide

section
variable {R : Type} [Zero R] [Div R] [NatCast R] [LT R] [DecidableLT R] [HasMax R] [DoubleText R]

omit [Div R] [NatCast R] [LT R] [DecidableLT R] [HasMax R] [DoubleText R] in
/-- The data of a rank, as a field. -/
theorem data_of {c : Cfg R} (h : c.Good) {x : List Nat} (hx : InGrid c.d x) {f : Filter R} (hs : Shape c x c.tab f)
    (input : Bool) : ∃ u, (if input then f.inData else f.outData) = boxData (c.lo x) (c.hi x) u :=
  exists_boxData (h.box hx) _ (by rw [h.vol hx]; cases input; exacts [hs.outLen, hs.inLen])

omit [Zero R] [Div R] [NatCast R] [LT R] [DecidableLT R] [HasMax R] [DoubleText R] in
theorem data_at {c : Cfg R} (h : c.Good) {x : List Nat} (hx : InGrid c.d x) {f : Filter R} (hs : Shape c x c.tab f)
    {data : List R} {u : List Nat → R} (e : data = boxData (c.lo x) (c.hi x) u) {t : List Nat} (ht : InBox f.lo f.hi t) :
    data[cellPos f.lo f.hi t]? = some (u t) := by
  rw [hs.lo, hs.hi] at ht ⊢
  rw [e]
  exact holds_cell h hx ht

/-- C64: for every grid, process count, stencil whose offsets are no wider than the sub-domains and history of calls of the
ranks that ends normally, `printInData` (`input`) and `printOutData` of every rank end normally. They write the rank, then
for each cell of the rank in column-major order a line with the indices of the cell in the whole grid and its value. The
ranks together list each cell of the grid once. The filter is left as before, but for the position of the iterator. -/
theorem C64_prints_data [One R] [Add R] [Sub R] [Mul R] (nprocs : Nat) (dims : List Nat) (xmins xmaxs : List R)
    (st : StdMap (List Int) R) (hr : InRange nprocs dims) (hex : ∃ d, ValidDecomp nprocs dims d)
    (hf : ∀ d, ValidDecomp nprocs dims d → ∀ kv ∈ st, OffsetFits dims d kv.1) :
    ∃ w, World.new nprocs dims xmins xmaxs st = .ok w ∧
      ∀ (calls : List (Call R)) (w' : World R), runCalls w calls = .ok w' →
        w'.length = nprocs ∧
        (w'.flatMap fun f => cellList f.lo f.hi).Nodup ∧
        (∀ g, g ∈ (w'.flatMap fun f => cellList f.lo f.hi) ↔ InGrid dims g) ∧
        ∀ (r : Nat) (f : Filter R), w'[r]? = some f → ∀ input : Bool, ∃ u f',
          (∀ t, InBox f.lo f.hi t → (if input then f.inData else f.outData)[cellPos f.lo f.hi t]? = some (u t)) ∧
          f.printDataText input = .ok (("[" ++ toString r ++ "] " ++ (if input then "inData" else "outData") ++
            ": \n").toList ++
              listing DoubleText.showDouble r (if input then "inData" else "outData") f.lo f.hi u, f') ∧
          f' = { f with mit := f'.mit } := by
  obtain ⟨d, hg, hb⟩ := setup_good nprocs dims xmins xmaxs st hr hex hf
  obtain ⟨w, e, h0⟩ := world_new hg hb
  refine ⟨w, e, fun calls w' he => ?_⟩
  have hsh := calls_shape hg ⟨h0.1, fun x f hx hf => (h0.2 x f hx hf).1⟩ he
  have hcells : (w'.flatMap fun f => cellList f.lo f.hi) = w'.flatMap fun f => boxCells f.lo f.hi := by
    rw [List.flatMap_def, List.flatMap_def]
    congr 1
    apply List.map_congr_left
    intro f hf
    obtain ⟨x, hx, _, hs⟩ := hsh.mem hg hf
    rw [hs.lo, hs.hi]
    exact cellList_eq (hg.box hx)
  obtain ⟨a1, a2⟩ := all_cells hg hsh
  rw [hcells]
  refine ⟨hsh.1, a1, a2, fun r f hrf input => ?_⟩
  have hr' : r < nprocs := by
    have := hsh.1
    by_contra hc
    rw [List.getElem?_eq_none (by rw [this]; exact Nat.le_of_not_lt hc)] at hrf
    cases hrf
  obtain ⟨x, hx, rfl⟩ := hg.coords hr'
  have hs := hsh.2 x f hx hrf
  obtain ⟨u, hu⟩ := data_of hg hx hs input
  refine ⟨u, _, fun t ht => data_at hg hx hs hu ht, printDataText_eq hg hx hs input u hu, rfl⟩

/-- C64: after a history of calls with a call of `setInData`, `setInDataByIndices` or `copyOutToIn` by rank `r`,
`printSrcDataWindow` of rank `r` ends normally for the side of every offset of the stencil that is not zero. It writes the
side, then for each cell of the layer along this side, as thick as an offset of the stencil with this side, a line with
the indices of the cell and its input data. -/
theorem C64_prints_source [One R] [Add R] [Sub R] [Mul R] (nprocs : Nat) (dims : List Nat) (xmins xmaxs : List R)
    (st : StdMap (List Int) R) (hr : InRange nprocs dims) (hex : ∃ d, ValidDecomp nprocs dims d)
    (hf : ∀ d, ValidDecomp nprocs dims d → ∀ kv ∈ st, OffsetFits dims d kv.1) :
    ∃ w, World.new nprocs dims xmins xmaxs st = .ok w ∧
      ∀ (before after : List (Call R)) (r : Nat) (l : LocalCall R) (w' : World R), l.Sets →
        runCalls w (before ++ .on r l :: after) = .ok w' →
        ∃ f u, w'[r]? = some f ∧ (∀ t, InBox f.lo f.hi t → f.inData[cellPos f.lo f.hi t]? = some (u t)) ∧
          ∀ kv ∈ st, (∃ o ∈ kv.1, o ≠ 0) → ∃ m f', (∃ kv' ∈ st, sideOf kv.1 = sideOf kv'.1 ∧ m = ghostWidth kv'.1) ∧
            (∀ t, InBox (faceLo f.lo f.hi (sideOf kv.1) m) (faceHi f.lo f.hi (sideOf kv.1) m) t → InBox f.lo f.hi t) ∧
            f.printWindowText (sideOf kv.1) true = .ok (("[" ++ toString r ++ "] srcData for side: ").toList ++
              blanks (sideOf kv.1) ++ "\n".toList ++ listing DoubleText.showDouble r "srcData"
                (faceLo f.lo f.hi (sideOf kv.1) m) (faceHi f.lo f.hi (sideOf kv.1) m) u, f') ∧
            f' = { f with winIter := f'.winIter } := by
  obtain ⟨d, hg, hb⟩ := setup_good nprocs dims xmins xmaxs st hr hex hf
  obtain ⟨w, e, h0⟩ := world_new hg hb
  refine ⟨w, e, ?_⟩
  intro before after r l w' hl he
  have hsh : Ranks ⟨nprocs, dims, d, xmins, xmaxs, st⟩ (fun x f => Shape ⟨nprocs, dims, d, xmins, xmaxs, st⟩ x
      (Cfg.tab ⟨nprocs, dims, d, xmins, xmaxs, st⟩) f) w := ⟨h0.1, fun x f hx hf => (h0.2 x f hx hf).1⟩
  have hr' : r < nprocs := by
    have he2 := he
    unfold runCalls at he2
    rw [List.foldlM_append] at he2
    obtain ⟨w1, e1, he2⟩ := (M.bind_ok_iff _ _ _).1 he2
    rw [List.foldlM_cons] at he2
    obtain ⟨w2, e2, _⟩ := (M.bind_ok_iff _ _ _).1 he2
    obtain ⟨f, e3, _⟩ := (M.bind_ok_iff _ _ _).1 e2
    have h1 := (calls_shape hg hsh e1).1
    by_contra hc
    rw [rd_of_ge (by rw [h1]; exact Nat.le_of_not_lt hc)] at e3
    cases e3
  obtain ⟨x, hx, rfl⟩ := hg.coords hr'
  obtain ⟨f, hf', u, hs, hd, hm⟩ := calls_set hg hsh hx hl he
  refine ⟨f, u, hf', fun t ht => data_at hg hx hs hd ht, ?_⟩
  intro kv hkv ⟨o, ho, hne⟩
  obtain ⟨t1, _, t3⟩ := tab_fold (st.map Prod.fst)
  obtain ⟨win, hw⟩ := t1 kv.1 (List.mem_map.2 ⟨kv, hkv, rfl⟩) (by
    rw [Nat.ne_zero_iff_zero_lt, List.countP_pos_iff]
    exact ⟨o, ho, by simpa using hne⟩)
  obtain ⟨h1, h2, m, h3, h4⟩ := hg.tab_ok.link _ _ hw
  obtain ⟨o', ho', _, ho1, ho2⟩ := t3 _ _ h3
  obtain ⟨kv', hkv', rfl⟩ := List.mem_map.1 ho'
  refine ⟨m, _, ⟨kv', hkv', ho1, ho2⟩, ?_, printWindowText_eq hg hx hs hw h3 true u (hm _ _ _ hw h3), rfl⟩
  intro t ht
  rw [hs.lo, hs.hi] at ht ⊢
  exact (hg.face hx h4).sub (hg.box hx) ht

/-- C64 (part): for every grid, process count, stencil of offsets along one axis and input, if `applyFilter` ends normally
then `printDstDataWindow` of every rank ends normally afterwards for the side of every offset of the stencil that is not
zero. It writes a line for each cell of the own layer along this side, with the input data of the cell of the neighbour at
the same place of its sub-domain, i.e. displaced by the offset times the width of the sub-domains, periodically. Missing:
the indices written are those of the cell; false (`C64_prints_received_fails`). -/
theorem C64_prints_received_partial [Add R] [Mul R] (nprocs : Nat) (dims : List Nat) (xmins xmaxs : List R)
    (st : StdMap (List Int) R) (u : List Nat → R) (hr : InRange nprocs dims) (hex : ∃ d, ValidDecomp nprocs dims d)
    (ha : ∀ kv ∈ st, AxisOffset dims.length kv.1) :
    ∃ w w1, World.new nprocs dims xmins xmaxs st = .ok w ∧ w.setInDataByIndices u = .ok w1 ∧
      ∀ w2, w1.applyFilter = .ok w2 → ∀ (r : Nat) (f : Filter R), w2[r]? = some f →
        ∀ kv ∈ st, (∃ o ∈ kv.1, o ≠ 0) → ∃ f',
          f.printWindowText (sideOf kv.1) false = .ok (("[" ++ toString r ++ "] dstData for side: \n").toList ++
            blanks (sideOf kv.1) ++ "\n".toList ++ listing DoubleText.showDouble r "dstData"
              (faceLo f.lo f.hi (sideOf kv.1) 1) (faceHi f.lo f.hi (sideOf kv.1) 1) (fun t =>
                u (shiftMod dims t (List.zipWith (fun o (l : Nat) => o * (l : Int)) kv.1 (extents f.lo f.hi)))), f') ∧
          f' = { f with winIter := f'.winIter } := by
  obtain ⟨d, hg, hv, hb⟩ := axis_of_range hr hex xmins xmaxs st ha
  obtain ⟨w, e, h0⟩ := world_new hg.toGood hb
  obtain ⟨w1, e1, h1⟩ := world_set hg.toGood h0 u
  refine ⟨w, w1, e, e1, ?_⟩
  intro w2 e2 r f hrf kv hkv ⟨o, ho, hne⟩
  obtain ⟨hl, hget⟩ := mapM_ok_get _ w1 w2 e2
  have hr' : r < nprocs := by
    have := h1.1
    by_contra hc
    rw [List.getElem?_eq_none (by rw [hl, this]; exact Nat.le_of_not_lt hc)] at hrf
    cases hrf
  obtain ⟨x, hx, rfl⟩ := hg.toGood.coords hr'
  obtain ⟨f1, hf1, hp⟩ := Ranks.exists (h := hg.toGood) h1 hx
  obtain ⟨f2, e3, h2⟩ := hget _ _ hf1
  rw [h2, Option.some_inj] at hrf
  subst hrf
  obtain ⟨hh, hrec⟩ := applyFilter_received hg hx (get_serves hg.toGood h1) hp e3
  have h0' : kv.1.countP (· ≠ 0) ≠ 0 := by
    rw [Nat.ne_zero_iff_zero_lt, List.countP_pos_iff]
    exact ⟨o, ho, by simpa using hne⟩
  obtain ⟨win, hw, hgh⟩ := hg.window hkv h0'
  have hfit := hg.fits hkv
  rw [hgh, Option.getD_some] at hfit
  have hbuf := hrec kv hkv win hw
  rw [neighbour_data hg.toGood hx (hg.unit kv hkv).1 hfit u] at hbuf
  have := printWindowText_eq hg.toGood hx hh.shape hw hgh false _ (by
    simp only [Bool.false_eq_true, if_false]; exact hbuf)
  simp only [Bool.false_eq_true, if_false] at this
  have eL : extents f2.lo f2.hi = Cfg.L ⟨nprocs, dims, d, xmins, xmaxs, st⟩ := by
    rw [hh.shape.lo, hh.shape.hi]
    exact hg.toGood.ext hx
  rw [eL]
  exact ⟨_, this, rfl⟩

/-- C64: printing a window of a side of the stencil right after the constructor, before any data are set or received, reads
memory nothing was written to. -/
theorem C64_window_not_set (nprocs : Nat) (dims : List Nat) (xmins xmaxs : List R)
    (st : StdMap (List Int) R) (hr : InRange nprocs dims) (hex : ∃ d, ValidDecomp nprocs dims d)
    (hf : ∀ d, ValidDecomp nprocs dims d → ∀ kv ∈ st, OffsetFits dims d kv.1) :
    ∃ w, World.new nprocs dims xmins xmaxs st = .ok w ∧ w.length = nprocs ∧
      ∀ f ∈ w, ∀ kv ∈ st, (∃ o ∈ kv.1, o ≠ 0) → ∀ src, f.printWindowText (sideOf kv.1) src = .error .uninitialized := by
  obtain ⟨d, hg, hb⟩ := setup_good nprocs dims xmins xmaxs st hr hex hf
  obtain ⟨w, e, h0⟩ := world_new hg hb
  refine ⟨w, e, h0.1, ?_⟩
  intro f hm kv hkv ⟨o, ho, hne⟩ src
  obtain ⟨x, hx, hget, hs, _⟩ := h0.mem hg hm
  have hnone : ∀ b ∈ f.bufs, ∀ e ∈ b, e = none := by
    unfold World.new at e
    obtain ⟨hl, hget'⟩ := mapM_ok_get _ _ _ e
    have hlt : rankOf d x < nprocs := hg.rank_lt hx
    obtain ⟨f2, e2, h2⟩ := hget' _ _ (List.getElem?_range hlt)
    rw [hget, Option.some_inj] at h2
    subst h2
    exact new_none e2
  obtain ⟨t1, _, t3⟩ := tab_fold (st.map Prod.fst)
  obtain ⟨win, hw⟩ := t1 kv.1 (List.mem_map.2 ⟨kv, hkv, rfl⟩) (by
    rw [Nat.ne_zero_iff_zero_lt, List.countP_pos_iff]
    exact ⟨o, ho, by simpa using hne⟩)
  obtain ⟨h1, h2, m, h3, h4⟩ := hg.tab_ok.link _ _ hw
  obtain ⟨⟨b1, hb1, _⟩, ⟨b2, hb2, _⟩⟩ := hs.buflen _ _ _ hw h3
  unfold Filter.printWindowText
  dsimp only
  cases src with
  | true => rw [printWindow_none hg hx hs hw h3 true hb1 (hnone _ (List.mem_of_getElem? hb1))]; rfl
  | false => rw [printWindow_none hg hx hs hw h3 false hb2 (hnone _ (List.mem_of_getElem? hb2))]; rfl

/-- C64: after every history of calls, printing a window of a side that is not one of an offset of the stencil follows the
end iterator of a map. -/
theorem C64_unknown_side [One R] [Add R] [Sub R] [Mul R] (nprocs : Nat) (dims : List Nat) (xmins xmaxs : List R)
    (st : StdMap (List Int) R) (hr : InRange nprocs dims) (hex : ∃ d, ValidDecomp nprocs dims d)
    (hf : ∀ d, ValidDecomp nprocs dims d → ∀ kv ∈ st, OffsetFits dims d kv.1) (calls : List (Call R)) (w w' : World R)
    (hw : World.new nprocs dims xmins xmaxs st = .ok w) (hc : runCalls w calls = .ok w') (side : List Int)
    (hside : ∀ kv ∈ st, (∃ o ∈ kv.1, o ≠ 0) → side ≠ sideOf kv.1) :
    ∀ f ∈ w', ∀ src, f.printWindowText side src = .error .nullDeref := by
  obtain ⟨d, hg, hb⟩ := setup_good nprocs dims xmins xmaxs st hr hex hf
  obtain ⟨w0, e, h0⟩ := world_new hg hb
  have e' : World.new nprocs dims xmins xmaxs st = .ok w0 := e
  rw [hw] at e'
  obtain rfl := Except.ok.inj e'
  have hsh := calls_shape hg ⟨h0.1, fun x f hx hf => (h0.2 x f hx hf).1⟩ hc
  intro f hm src
  obtain ⟨x, hx, _, hs⟩ := hsh.mem hg hm
  have hn : StdMap.find f.winData side = none := by
    rw [hs.wdata]
    cases ed : StdMap.find (Cfg.tab ⟨nprocs, dims, d, xmins, xmaxs, st⟩).wdata side with
    | none => rfl
    | some p =>
      exfalso
      obtain ⟨win, hwin⟩ := hg.tab_ok.data _ _ ed
      obtain ⟨_, _, m, h3, _⟩ := hg.tab_ok.link _ _ hwin
      obtain ⟨o, ho, h0, ho1, _⟩ := (tab_fold (st.map Prod.fst)).2.2 _ _ h3
      obtain ⟨kv, hkv, rfl⟩ := List.mem_map.1 ho
      refine hside kv hkv ?_ ho1
      rw [Nat.ne_zero_iff_zero_lt, List.countP_pos_iff] at h0
      obtain ⟨o, ho, hne⟩ := h0
      exact ⟨o, ho, by simpa using hne⟩
  unfold Filter.printWindowText Filter.printWindow
  dsimp only
  rw [hn]
  rfl

/-- C64: without a decomposition, the constructor ends normally but none of the print methods may be called: the iterator
over the cells is not initialized and there is no window. -/
theorem C64_no_decomposition (rk : Int) (nprocs : Nat) (dims : List Nat) (xmins xmaxs : List R)
    (st : StdMap (List Int) R) (hp1 : 1 ≤ nprocs) (hp2 : nprocs < 2 ^ 31) (hne : dims ≠ []) (hpos : ∀ n ∈ dims, 0 < n)
    (hax : dims.length < 32) (hsize : dims.prod ≤ 2 ^ 32) (hno : ¬ ∃ d, ValidDecomp nprocs dims d) :
    ∃ f, Filter.new rk nprocs dims xmins xmaxs st = .ok f ∧ f.validDecomp = false ∧
      (∀ input, f.printDataText input = .error .uninitialized) ∧
      ∀ side src, f.printWindowText side src = .error .nullDeref := by
  obtain ⟨b, cd, e, hb, _⟩ := C08_found_iff_exists_partial (R := R) CubeDecomp.empty nprocs dims hp1 hp2 hne hpos hax hsize
  have hb' : b = false := by
    cases b with
    | false => rfl
    | true => exact absurd (hb.1 rfl) hno
  subst hb'
  refine ⟨{ Filter.initial rk nprocs dims xmins xmaxs with dcmp := cd }, ?_, rfl, fun input => rfl, fun side src => rfl⟩
  unfold Filter.new
  dsimp only [Filter.initial]
  rw [e]
  rfl

end

/-! ### Examples and counterexample -/

/-- Doubles of the examples, which are integers. -/
local instance printDouble : DoubleText ℚ := ⟨fun _ => 0, fun q => showInt q.num⟩

/-- The field of the examples: the index. -/
private def ramp (t : List Nat) : ℚ := ((t.headD 0 : Nat) : ℚ)

private theorem range4 : InRange 2 [4] :=
  ⟨by decide, by decide, by decide, by decide, by decide, by decide, by decide, by decide⟩

private theorem valid4 : ∃ d, ValidDecomp 2 [4] d := ⟨[2], .cons (by decide) .nil, rfl⟩

private theorem axis_next {v : ℚ} : ∀ kv ∈ ([([1], v)] : StdMap (List Int) ℚ), AxisOffset [4].length kv.1 := by
  intro kv hkv
  rw [List.mem_singleton.1 hkv]
  refine ⟨rfl, by simp, 0, fun i hi => ?_⟩
  cases i with
  | zero => exact absurd rfl hi
  | succ i => rfl

private theorem fits_next {v : ℚ} : ∀ d, ValidDecomp 2 [4] d → ∀ kv ∈ ([([1], v)] : StdMap (List Int) ℚ),
    OffsetFits [4] d kv.1 := by
  intro d hd kv hkv
  exact unit_offsetFits hd.1 (by decide) (axis_unit (axis_next kv hkv))

/-- What a method of every rank writes after `setInDataByIndices` of the index and `applyFilter`, on 4 cells and 2
processes. -/
private def written (g : Filter ℚ → M (Str × Filter ℚ)) : M (List String) := do
  let w ← World.new 2 [4] [0] [1] [([1], 2)]
  let w ← w.setInDataByIndices ramp
  let w ← w.applyFilter
  let ps ← w.mapM g
  pure (ps.map fun p => String.ofList p.1)

/-- Non-vacuity of `C64_prints_data`, `C64_prints_source`, `C64_window_not_set` and `C64_unknown_side`: 4 cells on 2
processes, 2 times the value of the next cell. -/
example : InRange 2 [4] ∧ (∃ d, ValidDecomp 2 [4] d) ∧
    (∀ d, ValidDecomp 2 [4] d → ∀ kv ∈ ([([1], 2)] : StdMap (List Int) ℚ), OffsetFits [4] d kv.1) ∧
    written (·.printDataText false) = .ok
      ["[0] outData: \n\t[0] inds = 0  outData = 2\n\t[0] inds = 1  outData = 4\n",
        "[1] outData: \n\t[1] inds = 2  outData = 6\n\t[1] inds = 3  outData = 0\n"] ∧
    written (·.printWindowText [-1] true) = .ok
      ["[0] srcData for side: -1 \n\t[0] inds = 0  srcData = 0\n",
        "[1] srcData for side: -1 \n\t[1] inds = 2  srcData = 2\n"] ∧
    (∀ kv ∈ ([([1], 2)] : StdMap (List Int) ℚ), (∃ o ∈ kv.1, o ≠ 0) → [1] ≠ sideOf kv.1) := by
  refine ⟨range4, valid4, fits_next, by decide +kernel, by decide +kernel, by decide⟩

/-- Non-vacuity of `C64_prints_received_partial`: the values are those of cells 2 and 0. -/
example : (∀ kv ∈ ([([1], 2)] : StdMap (List Int) ℚ), AxisOffset [4].length kv.1) ∧
    written (·.printWindowText [-1] false) = .ok
      ["[0] dstData for side: \n-1 \n\t[0] inds = 0  dstData = 2\n",
        "[1] dstData for side: \n-1 \n\t[1] inds = 2  dstData = 0\n"] :=
  ⟨axis_next, by decide +kernel⟩

/-- Non-vacuity of `C64_no_decomposition`: 7 cells on 2 processes. -/
example : ¬ ∃ d, ValidDecomp 2 [7] d := by
  rintro ⟨d, hd⟩
  obtain ⟨k, rfl⟩ : ∃ k, d = [k] := by
    match d, hd.1 with
    | [k], _ => exact ⟨k, rfl⟩
  have hk : k = 2 := by simpa using hd.2
  subst hk
  have := hd.1
  simp only [List.forall₂_cons, List.Forall₂.nil, and_true] at this
  revert this
  decide

/-- C64 is false: `printDstDataWindow` does not write the indices of the cells whose values it writes. -/
theorem C64_prints_received_fails : ¬ ∀ (nprocs : Nat) (dims : List Nat) (xmins xmaxs : List ℚ)
    (st : StdMap (List Int) ℚ) (u : List Nat → ℚ) (w w1 w2 : World ℚ), InRange nprocs dims →
    (∃ d, ValidDecomp nprocs dims d) → (∀ kv ∈ st, AxisOffset dims.length kv.1) →
    World.new nprocs dims xmins xmaxs st = .ok w → w.setInDataByIndices u = .ok w1 → w1.applyFilter = .ok w2 →
    ∀ f ∈ w2, ∀ kv ∈ st, (∃ o ∈ kv.1, o ≠ 0) → ∀ lines f', f.printWindow (sideOf kv.1) false = .ok (lines, f') →
      ∀ p ∈ lines, p.2 = u p.1 := by
  intro h
  have e : (World.new 2 [4] [0] [1] [([1], 2)] >>= fun w => w.setInDataByIndices ramp >>= fun w1 =>
      w1.applyFilter >>= fun w2 => w2.mapM (fun f => do pure (← f.printWindow [-1] false).1)) =
      .ok [[([0], 2)], [([2], 0)]] := by decide +kernel
  obtain ⟨w, e0, e⟩ := (M.bind_ok_iff _ _ _).1 e
  obtain ⟨w1, e1, e⟩ := (M.bind_ok_iff _ _ _).1 e
  obtain ⟨w2, e2, e⟩ := (M.bind_ok_iff _ _ _).1 e
  obtain ⟨hl, hget⟩ := mapM_ok_get _ _ _ e
  have hlt : 0 < w2.length := by rw [← hl]; decide
  obtain ⟨b, e3, e4⟩ := hget 0 _ (List.getElem?_eq_getElem hlt)
  obtain ⟨⟨lines, f'⟩, e5, e6⟩ := (M.bind_ok_iff _ _ _).1 e3
  obtain rfl := Except.ok.inj e6
  have e7 : lines = [([0], 2)] := by simpa using e4.symm
  have := h 2 [4] [0] [1] [([1], 2)] ramp w w1 w2 range4 valid4 axis_next e0 e1 e2 _ (List.getElem_mem hlt) ([1], 2)
    (by simp) ⟨1, by simp, by decide⟩ lines f' e5 ([0], 2) (by rw [e7]; simp)
  revert this
  decide +kernel

end Fidi
