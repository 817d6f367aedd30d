import Verif.Lemmas.FilterRunEnd

/-
The lock-step execution of `Model/Filter.lean`, unit by unit.
-/
namespace Fidi
namespace Run
open Spec
variable {R : Type} {c : Cfg R} [Zero R] [Add R] [Mul R]

/-- The lock-step execution of a list of units. -/
def runOps (w : World R) (ops : List (Op R)) : M (World R) := ops.foldlM (fun w op => w.mapM (opStep w.get op)) w

omit [Zero R] [Add R] [Mul R] in
theorem mapM_split {α : Type} (g h : α → M α) : ∀ (w w' : List α), w.mapM (fun f => g f >>= h) = .ok w' →
    ∃ w1, w.mapM g = .ok w1 ∧ w1.mapM h = .ok w'
  | [], w', e => by
    rw [List.mapM_nil] at e
    obtain rfl := Except.ok.inj e
    exact ⟨[], rfl, rfl⟩
  | a :: l, w', e => by
    rw [List.mapM_cons] at e
    obtain ⟨b, e1, e⟩ := (M.bind_ok_iff _ _ _).1 e
    obtain ⟨a1, e2, e1⟩ := (M.bind_ok_iff _ _ _).1 e1
    obtain ⟨bs, e3, e⟩ := (M.bind_ok_iff _ _ _).1 e
    obtain rfl := Except.ok.inj e
    obtain ⟨l1, e4, e5⟩ := mapM_split g h l bs e3
    refine ⟨a1 :: l1, ?_, ?_⟩
    · rw [List.mapM_cons, e2, M.ok_bind, e4, M.ok_bind]; rfl
    · rw [List.mapM_cons, e1, M.ok_bind, e5, M.ok_bind]; rfl

omit [Zero R] [Add R] [Mul R] in
theorem mapM_same {α β : Type} {g h : α → M β} : ∀ {l : List α}, (∀ a ∈ l, g a = h a) → l.mapM g = l.mapM h
  | [], _ => rfl
  | a :: l, e => by
    rw [List.mapM_cons, List.mapM_cons, e a (by simp), mapM_same fun b hb => e b (by simp [hb])]

/-- Each rank of `w'` has the windows of `w`. -/
def SameWindows (c : Cfg R) (w w' : World R) : Prop :=
  Ranks c (fun x f' => ∃ f, w[rankOf c.d x]? = some f ∧ Kept c x f f') w'

omit [Zero R] [Add R] [Mul R] in
theorem SameWindows.shape {w w' : World R} (h : SameWindows c w w') : Ranks c (fun x f => Shape c x c.tab f) w' :=
  ⟨h.1, fun x f hx hf => (h.2 x f hx hf).choose_spec.2.shape⟩

omit [Zero R] [Add R] [Mul R] in
theorem SameWindows.get (hg : c.Good) {w w' : World R} (hw : Ranks c (fun x f => Shape c x c.tab f) w)
    (h : SameWindows c w w') : w'.get = w.get := by
  funext rank win n
  unfold World.get
  by_cases h0 : rank < 0 ∨ n < 0
  · rw [if_pos h0, if_pos h0]; rfl
  rw [if_neg h0, if_neg h0]
  by_cases hr : rank.toNat < c.nprocs
  · obtain ⟨x, hx, hxr⟩ := hg.coords hr
    rw [← hxr]
    obtain ⟨f', hf', f, hf, hk⟩ := Ranks.exists (h := hg) h hx
    rw [hf, hf']
    dsimp only
    have hs := hw.2 x f hx hf
    by_cases hwn : win < c.tab.n
    · rw [winBuf_of hs hwn, winBuf_of hk.shape hwn]
      dsimp only
      have : rd f'.bufs (2 * win) = rd f.bufs (2 * win) := by
        have := hk.src win
        by_cases hl : 2 * win < f.bufs.length
        · rw [rd_of_some (List.getElem?_eq_getElem hl), rd_of_some (this.trans (List.getElem?_eq_getElem hl))]
        · rw [hs.nbufs] at hl; omega
      rw [this]
    · have e : ∀ {g : Filter R}, Shape c x c.tab g → g.winBuf[win]? = none := by
        intro g hg
        rw [hg.winBuf]
        exact List.getElem?_eq_none (by simpa using hwn)
      rw [e hs, e hk.shape]
  · rw [List.getElem?_eq_none (by rw [h.1]; omega), List.getElem?_eq_none (by rw [hw.1]; omega)]

/-- Units that do not change the windows. -/
def Quiet : Op R → Prop
  | .loc g => g = Filter.zeroOut
  | .entry _ => True

theorem quiet_kept (hg : c.Good) {x : List Nat} {f f' : Filter R} {G : Filter.Getter R} {op : Op R} (hq : Quiet op)
    (hs : Shape c x c.tab f) (he : opStep G op f = .ok f') : Kept c x f f' := by
  cases op with
  | loc g => have hq' : g = _ := hq; subst hq'; exact zeroOut_kept hs he
  | entry kv => exact applyEntry_kept hg hs he

omit [Zero R] [Add R] [Mul R] in
theorem SameWindows.trans {w w1 w2 : World R} (h : SameWindows c w w1) (h' : SameWindows c w1 w2) : SameWindows c w w2 := by
  refine ⟨h'.1, fun x f hx hf => ?_⟩
  obtain ⟨f1, h1, k1⟩ := h'.2 x f hx hf
  obtain ⟨f0, h0, k0⟩ := h.2 x f1 hx h1
  exact ⟨f0, h0, k0.trans k1⟩

omit [Zero R] [Add R] [Mul R] in
theorem SameWindows.refl {w : World R} (hw : Ranks c (fun x f => Shape c x c.tab f) w) : SameWindows c w w :=
  ⟨hw.1, fun x f hx hf => ⟨f, hf, Kept.refl (hw.2 x f hx hf)⟩⟩

/-- Ranks that run several quiet units each can be run unit by unit. -/
theorem run_quiet (hg : c.Good) : ∀ (ops : List (Op R)) (w w' : World R), (∀ op ∈ ops, Quiet op) →
    Ranks c (fun x f => Shape c x c.tab f) w →
    w.mapM (fun f => ops.foldlM (fun f op => opStep w.get op f) f) = .ok w' → runOps w ops = .ok w'
  | [], w, w', _, _, e => by
    have : w.mapM (fun f => ([] : List (Op R)).foldlM (fun f op => opStep w.get op f) f) = .ok w := by
      have := List.mapM_pure (m := M) (l := w) (f := id)
      simpa using this
    rw [this] at e
    obtain rfl := Except.ok.inj e
    rfl
  | op :: ops, w, w', hq, hw, e => by
    simp only [List.foldlM_cons] at e
    obtain ⟨w1, e1, e2⟩ := mapM_split _ _ w w' e
    have hs : SameWindows c w w1 := ranks_mapM_kept hg hw _ (fun x f f' _ hs he => quiet_kept hg (hq op (by simp)) hs he) e1
    rw [← hs.get hg hw] at e2
    have := run_quiet hg ops w1 w' (fun o ho => hq o (by simp [ho])) hs.shape e2
    unfold runOps at this ⊢
    rw [List.foldlM_cons, e1, M.ok_bind]
    exact this

theorem runOps_same (hg : c.Good) : ∀ (ops : List (Op R)) (w w' : World R), (∀ op ∈ ops, Quiet op) →
    Ranks c (fun x f => Shape c x c.tab f) w → runOps w ops = .ok w' → SameWindows c w w'
  | [], w, w', _, hw, e => by
    obtain rfl := Except.ok.inj e
    exact .refl hw
  | op :: ops, w, w', hq, hw, e => by
    unfold runOps at e
    rw [List.foldlM_cons] at e
    obtain ⟨w1, e1, e2⟩ := (M.bind_ok_iff _ _ _).1 e
    have hs : SameWindows c w w1 := ranks_mapM_kept hg hw _ (fun x f f' _ hs he => quiet_kept hg (hq op (by simp)) hs he) e1
    exact hs.trans (runOps_same hg ops w1 w' (fun o ho => hq o (by simp [ho])) hs.shape e2)

/-- The units of `applyFilter`. -/
def applyOps (st : List (List Int × R)) : List (Op R) := .loc Filter.zeroOut :: st.map .entry

omit [Add R] [Mul R] in
theorem applyOps_quiet (st : List (List Int × R)) : ∀ op ∈ applyOps st, Quiet op := by
  intro op h
  unfold applyOps at h
  rcases List.mem_cons.1 h with rfl | h
  · rfl
  · obtain ⟨kv, _, rfl⟩ := List.mem_map.1 h
    trivial

theorem run_apply (hg : c.Good) {w w' : World R} (hw : Ranks c (fun x f => Shape c x c.tab f) w)
    (e : w.applyFilter = .ok w') : runOps w (applyOps c.st) = .ok w' := by
  refine run_quiet hg _ w w' (applyOps_quiet _) hw ?_
  unfold World.applyFilter at e
  rw [← e]
  refine mapM_same fun f hf => ?_
  obtain ⟨x, hx, _, hp⟩ := Ranks.mem hg hw hf
  unfold applyOps Filter.applyFilter
  rw [List.foldlM_cons]
  show (f.zeroOut >>= fun f => (c.st.map Op.entry).foldlM (fun f op => opStep w.get op f) f) = _
  cases ez : f.zeroOut with
  | error => rfl
  | ok f1 =>
    rw [M.ok_bind, M.ok_bind, (zeroOut_kept hp ez).shape.st, List.foldlM_map]
    rfl

omit [Zero R] in
theorem runOps_append (w : World R) (a b : List (Op R)) : runOps w (a ++ b) = runOps w a >>= fun w => runOps w b := by
  unfold runOps
  rw [List.foldlM_append]

omit [Zero R] in
theorem runOps_loc (w : World R) (g : Filter R → M (Filter R)) : runOps w [.loc g] = w.mapM g := by
  unfold runOps
  rw [List.foldlM_cons]
  show (w.mapM g >>= fun w => pure w) = _
  rw [bind_pure]

/-- The units of one round. -/
def roundOps (st : List (List Int × R)) : List (Op R) := applyOps st ++ [.loc Filter.copyOutToIn]

omit [Add R] [Mul R] in
theorem copy_shape (hg : c.Good) {w w' : World R} (hw : Ranks c (fun x f => Shape c x c.tab f) w)
    (e : w.copyOutToIn = .ok w') : Ranks c (fun x f => Shape c x c.tab f) w' := by
  obtain ⟨w2, e2, h2⟩ := ranks_mapM hg (Q := fun x f => Shape c x c.tab f) hw Filter.copyOutToIn (by
    intro x f hx hs
    obtain ⟨u, hu⟩ := exists_boxData (hg.box hx) f.outData (by rw [hs.outLen, hg.vol hx])
    obtain ⟨f2, e2, h2, _⟩ := copyOutToIn_ok hg hx hs u hu
    exact ⟨f2, e2, h2.shape⟩)
  have : w.copyOutToIn = .ok w2 := e2
  rw [this] at e
  obtain rfl := Except.ok.inj e
  exact h2

omit [Zero R] [Add R] [Mul R] in
theorem set_shape (hg : c.Good) {w w' : World R} {u : List Nat → R} (hw : Ranks c (fun x f => Shape c x c.tab f) w)
    (e : w.setInDataByIndices u = .ok w') : Ranks c (fun x f => Shape c x c.tab f) w' := by
  obtain ⟨w2, e2, h2⟩ := ranks_mapM hg (Q := fun x f => Shape c x c.tab f) hw (fun f => f.setInDataByIndices u) (by
    intro x f hx hs
    obtain ⟨f2, e2, h2, _⟩ := setInDataByIndices_ok hg hx hs u
    exact ⟨f2, e2, h2.shape⟩)
  have : w.setInDataByIndices u = .ok w2 := e2
  rw [this] at e
  obtain rfl := Except.ok.inj e
  exact h2

theorem run_rounds (hg : c.Good) : ∀ (n : Nat) (w w' : World R), Ranks c (fun x f => Shape c x c.tab f) w →
    w.iterate n = .ok w' →
    runOps w (List.replicate n (roundOps c.st)).flatten = .ok w' ∧ Ranks c (fun x f => Shape c x c.tab f) w'
  | 0, w, w', hw, e => by
    obtain rfl := Except.ok.inj e
    exact ⟨rfl, hw⟩
  | n + 1, w, w', hw, e => by
    unfold World.iterate at e
    obtain ⟨w1, e1, e⟩ := (M.bind_ok_iff _ _ _).1 e
    obtain ⟨w2, e2, e⟩ := (M.bind_ok_iff _ _ _).1 e
    have a1 := run_apply hg hw e1
    have s1 := (runOps_same hg _ w w1 (applyOps_quiet _) hw a1).shape
    have s2 := copy_shape hg s1 e2
    obtain ⟨a3, s3⟩ := run_rounds hg n w2 w' s2 e
    refine ⟨?_, s3⟩
    rw [List.replicate_succ, List.flatten_cons, runOps_append]
    unfold roundOps at a3 ⊢
    rw [runOps_append, a1, M.ok_bind, runOps_loc]
    have : w1.mapM Filter.copyOutToIn = .ok w2 := e2
    rw [this, M.ok_bind]
    exact a3

theorem run_program (hg : c.Good) {u : List Nat → R} {n : Nat} {w0 w1 w2 : World R}
    (hw : Ranks c (fun x f => Shape c x c.tab f) w0) (e1 : w0.setInDataByIndices u = .ok w1)
    (e2 : w1.iterate n = .ok w2) : runOps w0 (program c.st u n) = .ok w2 := by
  have h1 := set_shape hg hw e1
  have := (run_rounds hg n w1 w2 h1 e2).1
  show runOps w0 ([.loc fun f => f.setInDataByIndices u] ++ (List.replicate n (roundOps c.st)).flatten) = _
  rw [runOps_append, runOps_loc]
  have e1' : w0.mapM (fun f => f.setInDataByIndices u) = .ok w1 := e1
  rw [e1', M.ok_bind, this]

omit [Add R] [Mul R] in
/-- The number of units of one round. -/
theorem roundOps_length (st : List (List Int × R)) : (roundOps st).length = st.length + 2 := by
  unfold roundOps applyOps
  simp

omit [Add R] [Mul R] in
theorem program_length (st : List (List Int × R)) (u : List Nat → R) (n : Nat) :
    (program st u n).length = 1 + n * (st.length + 2) := by
  show ((.loc fun f => f.setInDataByIndices u) :: (List.replicate n (roundOps st)).flatten : List (Op R)).length = _
  rw [List.length_cons, List.length_flatten, List.map_replicate, List.sum_replicate, roundOps_length]
  simp; omega

omit [Add R] [Mul R] in
theorem program_split (st : List (List Int × R)) (u : List Nat → R) {t n : Nat} (h : t ≤ n) :
    program st u n = program st u t ++ (List.replicate (n - t) (roundOps st)).flatten := by
  show ((.loc fun f => f.setInDataByIndices u) :: (List.replicate n (roundOps st)).flatten : List (Op R)) =
    ((.loc fun f => f.setInDataByIndices u) :: (List.replicate t (roundOps st)).flatten) ++ _
  rw [List.cons_append, ← List.flatten_append, ← List.replicate_add, show t + (n - t) = n by omega]

/-- The filters after `d` units. -/
def worldAt (w : World R) (prog : List (Op R)) (d : Nat) : World R :=
  match runOps w (prog.take d) with
  | .ok w' => w'
  | .error _ => w

omit [Zero R] in
theorem worldAt_ok {w w' : World R} {prog : List (Op R)} (h : runOps w prog = .ok w') (d : Nat) :
    runOps w (prog.take d) = .ok (worldAt w prog d) := by
  rw [← List.take_append_drop d prog, runOps_append] at h
  obtain ⟨w1, e1, _⟩ := (M.bind_ok_iff _ _ _).1 h
  unfold worldAt
  rw [e1]

omit [Zero R] in
theorem worldAt_next {w w' : World R} {prog : List (Op R)} (h : runOps w prog = .ok w') {d : Nat} {op : Op R}
    (ho : prog[d]? = some op) :
    (worldAt w prog d).mapM (opStep (worldAt w prog d).get op) = .ok (worldAt w prog (d + 1)) := by
  have h1 := worldAt_ok h d
  have h2 := worldAt_ok h (d + 1)
  rw [List.take_add_one, ho, Option.toList_some, runOps_append, h1, M.ok_bind] at h2
  unfold runOps at h2
  rw [List.foldlM_cons] at h2
  obtain ⟨w2, e1, e2⟩ := (M.bind_ok_iff _ _ _).1 h2
  rw [e1]
  exact congrArg Except.ok (Except.ok.inj e2)

/-- Units that occur in the program. -/
def Known (u : List Nat → R) (op : Op R) : Prop :=
  Quiet op ∨ op = .loc (fun f => f.setInDataByIndices u) ∨ op = .loc Filter.copyOutToIn

theorem known_shape (hg : c.Good) {u : List Nat → R} {op : Op R} (hk : Known u op) {w w' : World R}
    (hw : Ranks c (fun x f => Shape c x c.tab f) w) (e : w.mapM (opStep w.get op) = .ok w') :
    Ranks c (fun x f => Shape c x c.tab f) w' := by
  rcases hk with hq | rfl | rfl
  · have : SameWindows c w w' := ranks_mapM_kept hg hw _ (fun x f f' _ hs he => quiet_kept hg hq hs he) e
    exact this.shape
  · exact set_shape hg hw (u := u) e
  · exact copy_shape hg hw e

omit [Add R] [Mul R] in
theorem program_known (u : List Nat → R) (n : Nat) : ∀ op ∈ program c.st u n, Known u op := by
  intro op h
  have h' : op ∈ ((.loc fun f => f.setInDataByIndices u) :: (List.replicate n (roundOps c.st)).flatten : List (Op R)) := h
  rcases List.mem_cons.1 h' with rfl | h'
  · exact .inr (.inl rfl)
  · obtain ⟨l, h1, h2⟩ := List.mem_flatten.1 h'
    rw [List.eq_of_mem_replicate h1] at h2
    unfold roundOps at h2
    rcases List.mem_append.1 h2 with h2 | h2
    · exact .inl (applyOps_quiet _ op h2)
    · rw [List.mem_singleton] at h2
      exact .inr (.inr h2)

omit [Add R] [Mul R] in
theorem program_entry (u : List Nat → R) (n : Nat) (kv : List Int × R) (h : Op.entry kv ∈ program c.st u n) : kv ∈ c.st := by
  have h' : Op.entry kv ∈ ((.loc fun f => f.setInDataByIndices u) :: (List.replicate n (roundOps c.st)).flatten : List (Op R)) := h
  rcases List.mem_cons.1 h' with h' | h'
  · cases h'
  · obtain ⟨l, h1, h2⟩ := List.mem_flatten.1 h'
    rw [List.eq_of_mem_replicate h1] at h2
    unfold roundOps applyOps at h2
    simp only [List.mem_append, List.mem_cons, List.mem_map, reduceCtorEq, false_or, List.not_mem_nil, or_false] at h2
    obtain ⟨kv', h3, h4⟩ := h2
    cases h4
    exact h3

/-- The lock-step execution meets the requirements of the invariant. -/
theorem lock_program (hg : c.Good) {u : List Nat → R} {n : Nat} {w0 w1 w2 : World R}
    (hw : Ranks c (fun x f => Shape c x c.tab f) w0) (e1 : w0.setInDataByIndices u = .ok w1)
    (e2 : w1.iterate n = .ok w2) :
    Lock c (program c.st u n) (worldAt w0 (program c.st u n)) := by
  have hrun := run_program hg hw e1 e2
  refine ⟨hg, program_entry u n, ?_, fun d op ho => worldAt_next hrun ho⟩
  intro d
  induction d with
  | zero => intro _; exact hw
  | succ d ih =>
    intro hd
    have ho : (program c.st u n)[d]? = some (program c.st u n)[d] := List.getElem?_eq_getElem (by omega)
    exact known_shape hg (program_known u n _ (List.getElem_mem _)) (ih (by omega)) (worldAt_next hrun ho)

/-- At the boundary of the rounds the units agree with the rounds. -/
theorem worldAt_round (hg : c.Good) {u : List Nat → R} {n t : Nat} (ht : t ≤ n) {w0 w1 w2 : World R}
    (hw : Ranks c (fun x f => Shape c x c.tab f) w0) (e1 : w0.setInDataByIndices u = .ok w1)
    (e2 : w1.iterate n = .ok w2) {wt : World R} (e3 : w1.iterate t = .ok wt) :
    worldAt w0 (program c.st u n) (1 + t * (c.st.length + 2)) = wt := by
  have h1 := worldAt_ok (run_program hg hw e1 e2) (1 + t * (c.st.length + 2))
  rw [program_split c.st u ht, List.take_left' (program_length c.st u t), run_program hg hw e1 e3] at h1
  rw [program_split c.st u ht]
  exact (Except.ok.inj h1).symm

/-- The rounds before the last one end normally. -/
theorem iterate_prefix : ∀ {n t : Nat} {w w2 : World R}, t ≤ n → w.iterate n = .ok w2 → ∃ wt, w.iterate t = .ok wt
  | _, 0, w, _, _, _ => ⟨w, rfl⟩
  | 0, t + 1, _, _, h, _ => by omega
  | n + 1, t + 1, w, w2, h, e => by
    unfold World.iterate at e
    obtain ⟨w1, e1, e⟩ := (M.bind_ok_iff _ _ _).1 e
    obtain ⟨w3, e3, e⟩ := (M.bind_ok_iff _ _ _).1 e
    obtain ⟨wt, hwt⟩ := iterate_prefix (n := n) (t := t) (by omega) e
    refine ⟨wt, ?_⟩
    unfold World.iterate
    rw [e1, M.ok_bind, e3, M.ok_bind, hwt]

/-- Within the filter step of round `t` the windows are those at its beginning. -/
theorem worldAt_within (hg : c.Good) {u : List Nat → R} {n t j : Nat} (ht : t < n) (hj : j ≤ c.st.length + 1)
    {w0 w1 w2 : World R} (hw : Ranks c (fun x f => Shape c x c.tab f) w0) (e1 : w0.setInDataByIndices u = .ok w1)
    (e2 : w1.iterate n = .ok w2) {wt : World R} (e3 : w1.iterate t = .ok wt) :
    SameWindows c wt (worldAt w0 (program c.st u n) (1 + t * (c.st.length + 2) + j)) := by
  have h1 := worldAt_ok (run_program hg hw e1 e2) (1 + t * (c.st.length + 2) + j)
  have hsh := (run_rounds hg t w1 wt (set_shape hg hw e1) e3).2
  refine runOps_same hg ((applyOps c.st).take j) _ _ (fun op h => applyOps_quiet _ op (List.mem_of_mem_take h)) hsh ?_
  rw [← h1, program_split c.st u (Nat.le_of_lt ht), List.take_append, program_length]
  rw [List.take_of_length_le (l := program c.st u t) (by rw [program_length]; omega), runOps_append, run_program hg hw e1 e3, M.ok_bind]
  congr 1
  obtain ⟨m, hm⟩ : ∃ m, n - t = m + 1 := ⟨n - t - 1, by omega⟩
  rw [hm, List.replicate_succ, List.flatten_cons, show 1 + t * (c.st.length + 2) + j - (1 + t * (c.st.length + 2)) = j by omega]
  unfold roundOps
  rw [List.append_assoc, List.take_append_of_le_length]
  unfold applyOps
  simpa using hj

end Run
end Fidi
