import Verif.Props.FilterCalls

/-
Property C21: `saveVTK` reassembles the field.
-/
namespace Fidi
open Spec
variable {R : Type}

theorem outData_of {c : Cfg R} (h : c.Good) {w : World R} (hw : Ranks c (fun x f => Shape c x c.tab f) w)
    {v : List Nat → R} (hv : OutputIs w v) (x : List Nat) (f : Filter R) (hx : InGrid c.d x)
    (hf : w[rankOf c.d x]? = some f) : f.outData = boxData (c.lo x) (c.hi x) v := by
  have hs := hw.2 x f hx hf
  apply List.ext_getElem
  · rw [length_boxData, h.vol hx]; exact hs.outLen
  · intro i h1 h2
    have h3 : i < volume (c.lo x) (c.hi x) := by simpa using h2
    have hin := tupleAt_inBox false (h.box hx) i
    have := hv f (List.mem_of_getElem? hf) (tupleAt false (c.lo x) (c.hi x) i) (by rw [hs.lo, hs.hi]; exact hin)
    rw [hs.lo, hs.hi, ← flatOf_eq_cellPos _ _ _ (h.box hx).length_eq hin.length_lo, flatOf_tupleAt false (h.box hx),
      Nat.mod_eq_of_lt h3, List.getElem?_eq_getElem h1, Option.some_inj] at this
    simp only [boxData, List.getElem_map, List.getElem_range]
    exact this

/-- The receive buffer of a rank other than 0 is empty. -/
theorem gatherRecv_other {c : Cfg R} (h : c.Good) {x : List Nat} {f : Filter R} (hs : Shape c x c.tab f)
    (h0 : rankOf c.d x ≠ 0) : f.gatherRecv = .error .outOfBounds := by
  unfold Filter.gatherRecv Filter.recvSize
  rw [totalCells_eq h hs, M.ok_bind, hs.rk, if_neg (by exact_mod_cast h0), M.pure_eq, M.ok_bind, if_pos rfl]
  rfl

theorem gatherRecv_root {c : Cfg R} (h : c.Good) {x : List Nat} {f : Filter R} (hs : Shape c x c.tab f)
    (h0 : rankOf c.d x = 0) : f.gatherRecv = .ok () := by
  have hp := prod_pos_of h.good.pos
  unfold Filter.gatherRecv Filter.recvSize
  rw [totalCells_eq h hs, M.ok_bind, hs.rk, if_pos (by exact_mod_cast h0), M.pure_eq, M.ok_bind, if_neg (by omega)]
  rfl

variable [Zero R] [One R] [Add R] [Sub R] [Mul R] [Div R] [NatCast R] [LT R] [DecidableLT R] [HasMax R]

/-- C21 (part): for every grid of at most 2^31 cells, process count, fitting stencil and history of calls, and
whatever field `v` the output data are: the gathered field has one position for each cell and holds at the column-major
position of each cell the value of its owner; each cell has one owner and each position belongs to one cell. This holds
of `saveVTK` itself with one process, and of `saveField`, where `&recvBuffer.front()` of an empty buffer is harmless,
with any number of processes.
Missing: more than one process (`C21_empty_front_fails`) and larger grids (`C21_overflow_fails`), where the behaviour is
undefined. -/
theorem C21_field_partial (nprocs : Nat) (dims : List Nat) (xmins xmaxs : List R)
    (st : StdMap (List Int) R) (hr : InRange nprocs dims) (hex : ∃ d, ValidDecomp nprocs dims d)
    (hf : ∀ d, ValidDecomp nprocs dims d → ∀ kv ∈ st, OffsetFits dims d kv.1) (hsize : dims.prod ≤ 2 ^ 31)
    (calls : List (Call R)) (w w1 : World R) (hw : World.new nprocs dims xmins xmaxs st = .ok w)
    (hc : runCalls w calls = .ok w1) (v : List Nat → R) (hv : OutputIs w1 v) :
    ∃ field w2, w1.saveField = .ok (field, w2) ∧ (nprocs = 1 → w1.saveVTK = .ok (field, w2)) ∧
      field.length = dims.prod ∧ (∀ g, InGrid dims g → field[colMajor dims g]? = some (v g)) ∧
      Partition w1 nprocs dims ∧ ∀ p, p < dims.prod → ∃! g, InGrid dims g ∧ colMajor dims g = p := by
  obtain ⟨d, hg, hb⟩ := setup_good nprocs dims xmins xmaxs st hr hex hf
  obtain ⟨w0, e, h0⟩ := world_new hg hb
  have e' : World.new nprocs dims xmins xmaxs st = .ok w0 := e
  rw [hw] at e'
  obtain rfl := Except.ok.inj e'
  have hsh := calls_shape hg ⟨h0.1, fun x f hx hf => (h0.2 x f hx hf).1⟩ hc
  obtain ⟨field, w2, e2, hF⟩ := saveField_eq hg hsh (outData_of hg hsh hv) hsize
  refine ⟨field, w2, e2, ?_, hF.1, fun g hg' => hF.2 g hg' trivial, partition_of hg hsh (fun _ _ h => h), ?_⟩
  · intro h1
    have hl := hsh.1
    dsimp only at hl
    obtain ⟨f, rfl⟩ : ∃ f, w1 = [f] := List.length_eq_one_iff.1 (by rw [hl, h1])
    obtain ⟨x, hx, hx0, hs⟩ := hsh.mem hg (List.mem_singleton.2 rfl)
    have hx1 : rankOf d x = 0 := by
      have := List.getElem?_eq_some_iff.1 hx0
      simpa using this.1
    unfold World.saveVTK
    rw [List.mapM_cons, gatherRecv_root hg hs hx1]
    exact e2
  · intro p hp
    obtain ⟨g, h1, h2⟩ := colMajor_surj hr.pos hp
    refine ⟨g, ⟨h1, h2⟩, ?_⟩
    rintro g' ⟨h3, h4⟩
    exact colMajor_inj h3 h1 (by rw [h4, h2])

/-- C21 is false: with more than one process `saveVTK` always takes the address of the first element of an empty
buffer. -/
theorem C21_empty_front_fails (nprocs : Nat) (dims : List Nat) (xmins xmaxs : List R)
    (st : StdMap (List Int) R) (hr : InRange nprocs dims) (hex : ∃ d, ValidDecomp nprocs dims d)
    (hf : ∀ d, ValidDecomp nprocs dims d → ∀ kv ∈ st, OffsetFits dims d kv.1) (hp : 2 ≤ nprocs)
    (calls : List (Call R)) (w w1 : World R) (hw : World.new nprocs dims xmins xmaxs st = .ok w)
    (hc : runCalls w calls = .ok w1) : ∀ r, w1.saveVTK ≠ .ok r := by
  obtain ⟨d, hg, hb⟩ := setup_good nprocs dims xmins xmaxs st hr hex hf
  obtain ⟨w0, e, h0⟩ := world_new hg hb
  have e' : World.new nprocs dims xmins xmaxs st = .ok w0 := e
  rw [hw] at e'
  obtain rfl := Except.ok.inj e'
  have hsh := calls_shape hg ⟨h0.1, fun x f hx hf => (h0.2 x f hx hf).1⟩ hc
  intro r he
  unfold World.saveVTK at he
  obtain ⟨us, e1, _⟩ := (M.bind_ok_iff _ _ _).1 he
  obtain ⟨x, hx, h1⟩ := hg.coords (r := 1) hp
  obtain ⟨f, hf1, hs⟩ := Ranks.exists (h := hg) hsh hx
  obtain ⟨u, e2, _⟩ := (mapM_ok_get _ _ _ e1).2 _ f hf1
  rw [gatherRecv_other hg hs (by omega)] at e2
  cases e2

/-- C21 is false: on grids with 2^31 cells or more outside the last sub-domain, the `int` product `rk * nLocal` of the
assembly overflows, even if the empty buffers were harmless. -/
theorem C21_overflow_fails (nprocs : Nat) (dims : List Nat) (xmins xmaxs : List R)
    (st : StdMap (List Int) R) (hr : InRange nprocs dims) (hex : ∃ d, ValidDecomp nprocs dims d)
    (hf : ∀ d, ValidDecomp nprocs dims d → ∀ kv ∈ st, OffsetFits dims d kv.1)
    (hsize : 2 ^ 31 + dims.prod / nprocs ≤ dims.prod)
    (calls : List (Call R)) (w w1 : World R) (hw : World.new nprocs dims xmins xmaxs st = .ok w)
    (hc : runCalls w calls = .ok w1) : ∀ r, w1.saveField ≠ .ok r := by
  obtain ⟨d, hg, hb⟩ := setup_good nprocs dims xmins xmaxs st hr hex hf
  obtain ⟨w0, e, h0⟩ := world_new hg hb
  have e' : World.new nprocs dims xmins xmaxs st = .ok w0 := e
  rw [hw] at e'
  obtain rfl := Except.ok.inj e'
  have hsh := calls_shape hg ⟨h0.1, fun x f hx hf => (h0.2 x f hx hf).1⟩ hc
  intro r he
  unfold World.saveField at he
  cases w1 with
  | nil =>
    have := hsh.1
    have := hr.procs1
    simp at *
  | cons root others =>
    dsimp only at he
    obtain ⟨recv, _, he⟩ := (M.bind_ok_iff _ _ _).1 he
    obtain ⟨⟨field, f'⟩, e2, _⟩ := (M.bind_ok_iff _ _ _).1 he
    obtain ⟨x, hx, _, hs⟩ := hsh.mem hg (List.mem_cons_self)
    have hp1 := hr.procs1
    have h1 := assemble_no_overflow hg hx hs e2 (nprocs - 1) (by dsimp only; omega)
    have h2 := hg.prod
    dsimp only at h2
    generalize Cfg.L _ = L at h1 h2
    have h3 : dims.prod / nprocs = L.prod := by rw [← h2]; exact Nat.mul_div_cancel _ (by omega)
    have h4 : (nprocs - 1) * L.prod + L.prod = dims.prod := by
      rw [← h2, ← Nat.succ_mul, Nat.mul_comm]; congr 1; omega
    omega

/-! ### Examples -/

/-- C21: 4 x 2 cells on 2 processes, with the values 10 i + j, saved after one application of the identity. -/
example : (World.new 2 [4, 2] [0, 0] [1, 1] [([0, 0], (1 : ℚ))] >>= fun w => runCalls w
      [.on 0 (.setInDataByIndices fun t => 10 * (t.getD 0 0 : Nat) + (t.getD 1 0 : Nat)),
        .on 1 (.setInDataByIndices fun t => 10 * (t.getD 0 0 : Nat) + (t.getD 1 0 : Nat)), .applyFilter] >>= fun w =>
      w.saveField >>= fun p => pure p.1) = .ok [0, 10, 20, 30, 1, 11, 21, (31 : ℚ)] ∧
    colMajor [4, 2] [2, 1] = 6 := by decide +kernel

/-- The hypotheses of `C21_overflow_fails` are met by a square grid of 65536 cells a side on 4 processes. -/
example : InRange 4 [65536, 65536] ∧ (∃ d, ValidDecomp 4 [65536, 65536] d) ∧
    2 ^ 31 + ([65536, 65536] : List Nat).prod / 4 ≤ ([65536, 65536] : List Nat).prod :=
  ⟨⟨by decide, by decide, by decide, by decide, by decide, by decide, by decide, by decide⟩,
    ⟨[2, 2], .cons (by decide) (.cons (by decide) .nil), rfl⟩, by decide⟩

end Fidi
