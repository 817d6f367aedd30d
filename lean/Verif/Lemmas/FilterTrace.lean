import Verif.Lemmas.FilterCalls

/-
What the constructor records whatever the stencil, if it ends normally: constants, resources.
-/
namespace Fidi
open Spec
variable {R : Type}

/-- Resources created by `n` windows. -/
def created (n : Nat) : List MpiEvent :=
  (List.range n).flatMap fun w => [.allocMem (2 * w), .allocMem (2 * w + 1), .winCreate w (2 * w)]

/-- Resources released for the windows `l`. -/
def released (l : List Nat) : List MpiEvent :=
  l.flatMap fun w => [.freeMem (2 * w), .freeMem (2 * w + 1), .winFree w]

/-- The tables of windows of a filter that has created `n` windows. -/
structure Tables (n : Nat) (f : Filter R) : Prop where
  sorted : StdMap.Sorted f.windows
  link : ∀ s w, StdMap.find f.windows s = some w → w < n ∧ StdMap.find f.winData s = some (2 * w, 2 * w + 1)
  data : ∀ s p, StdMap.find f.winData s = some p → ∃ w, StdMap.find f.windows s = some w
  inj : ∀ s s' w, StdMap.find f.windows s = some w → StdMap.find f.windows s' = some w → s = s'
  nbufs : f.bufs.length = 2 * n
  nwins : f.winBuf.length = n
  trace : f.trace = created n

/-- The parts of a filter that never change. -/
def SameConst (f f' : Filter R) : Prop :=
  f'.ndims = f.ndims ∧ f'.globalDims = f.globalDims ∧ f'.xmins = f.xmins ∧ f'.xmaxs = f.xmaxs ∧
    f'.validDecomp = f.validDecomp

theorem getWindowIter_ok {f f' : Filter R} {r : Int} {s : List Int} {it : MultiArrayIter}
    (h : f.getWindowIter r s = .ok (it, f')) : ∃ cd, f' = { f with dcmp := cd } := by
  unfold Filter.getWindowIter at h
  obtain ⟨⟨l, cd⟩, _, h⟩ := (M.bind_ok_iff _ _ _).1 h
  obtain ⟨⟨u, cd2⟩, _, h⟩ := (M.bind_ok_iff _ _ _).1 h
  obtain ⟨⟨l', u'⟩, _, h⟩ := (M.bind_ok_iff _ _ _).1 h
  obtain ⟨it', _, h⟩ := (M.bind_ok_iff _ _ _).1 h
  have := Except.ok.inj h
  rw [Prod.mk.injEq] at this
  exact ⟨cd2, this.2.symm⟩

theorem created_succ (n : Nat) :
    created (n + 1) = created n ++ [.allocMem (2 * n), .allocMem (2 * n + 1), .winCreate n (2 * n)] := by
  simp [created, List.range_succ]

theorem tables_insert {n : Nat} {f f' : Filter R} (ht : Tables n f) (side : List Int)
    (hwin : f'.windows = StdMap.insert f.windows side n)
    (hdat : f'.winData = StdMap.insert f.winData side (2 * n, 2 * n + 1))
    (hb : f'.bufs.length = 2 * (n + 1)) (hw : f'.winBuf.length = n + 1) (htr : f'.trace = created (n + 1)) :
    Tables (n + 1) f' := by
  have key : ∀ s w, StdMap.find f'.windows s = some w ↔
      (s = side ∧ w = (StdMap.find f.windows side).getD n) ∨ (s ≠ side ∧ StdMap.find f.windows s = some w) := by
    intro s w
    rw [hwin, StdMap.find_insert]
    by_cases e : s = side
    · rw [if_pos e, Option.some_inj]
      simp only [e, true_and, ne_eq, not_true_eq_false, false_and, or_false]
      exact eq_comm
    · rw [if_neg e]
      simp [e]
  have hnone : StdMap.find f.windows side = none → StdMap.find f.winData side = none := by
    intro h
    cases e : StdMap.find f.winData side with
    | none => rfl
    | some p => obtain ⟨w, hw'⟩ := ht.data _ _ e; rw [h] at hw'; simp at hw'
  refine ⟨by rw [hwin]; exact StdMap.sorted_insert ht.sorted _ _, ?_, ?_, ?_, hb, hw, htr⟩
  · intro s w h
    rw [hdat, StdMap.find_insert]
    rcases (key s w).1 h with ⟨rfl, rfl⟩ | ⟨hs, h⟩
    · rw [if_pos rfl]
      cases e : StdMap.find f.windows s with
      | none => rw [hnone e]; exact ⟨by simp, rfl⟩
      | some w0 =>
        obtain ⟨h1, h2⟩ := ht.link _ _ e
        rw [h2]
        exact ⟨by simp only [Option.getD_some]; omega, rfl⟩
    · rw [if_neg hs]
      obtain ⟨h1, h2⟩ := ht.link _ _ h
      exact ⟨by omega, h2⟩
  · intro s p h
    rw [hdat, StdMap.find_insert] at h
    by_cases e : s = side
    · exact ⟨_, (key s _).2 (.inl ⟨e, rfl⟩)⟩
    · rw [if_neg e] at h
      obtain ⟨w, hw'⟩ := ht.data _ _ h
      exact ⟨w, (key s w).2 (.inr ⟨e, hw'⟩)⟩
  · have aux : ∀ s w, s ≠ side → StdMap.find f.windows s = some w →
        w ≠ (StdMap.find f.windows side).getD n := by
      intro s w hs h he
      cases e : StdMap.find f.windows side with
      | none => rw [e, Option.getD_none] at he; have := (ht.link _ _ h).1; omega
      | some w0 =>
        rw [e, Option.getD_some] at he
        exact hs (ht.inj _ _ _ h (he ▸ e))
    intro s s' w h h'
    rcases (key s w).1 h with ⟨e, hw1⟩ | ⟨e, h1⟩ <;> rcases (key s' w).1 h' with ⟨e', hw2⟩ | ⟨e', h2⟩
    · rw [e, e']
    · exact absurd hw1 (aux _ _ e' h2)
    · exact absurd hw2 (aux _ _ e h1)
    · exact ht.inj _ _ _ h1 h2

/-- One branch of the stencil. -/
theorem addWindow_tables {n : Nat} {f f' : Filter R} (ht : Tables n f) {kv : List Int × R}
    (h : f.addWindow kv = .ok f') :
    f' = f ∨
    (Tables (n + 1) f' ∧ SameConst f f' ∧ ∃ side, f.getSideFromOffset kv.1 = .ok side ∧
      f'.windows = StdMap.insert f.windows side n) := by
  unfold Filter.addWindow at h
  dsimp only at h
  obtain ⟨m, em, h⟩ := (M.bind_ok_iff _ _ _).1 h
  by_cases h0 : m = 0
  · rw [if_pos h0] at h
    exact .inl (Except.ok.inj h).symm
  rw [if_neg h0] at h
  obtain ⟨side, e1, h⟩ := (M.bind_ok_iff _ _ _).1 h
  obtain ⟨g, _, h⟩ := (M.bind_ok_iff _ _ _).1 h
  unfold Filter.newWindow at h
  obtain ⟨⟨it, f2⟩, e2, h⟩ := (M.bind_ok_iff _ _ _).1 h
  obtain ⟨cd, rfl⟩ := getWindowIter_ok e2
  dsimp only at h
  split at h
  · cases h
  obtain rfl := Except.ok.inj h
  right
  have hb := ht.nbufs
  have hw := ht.nwins
  refine ⟨?_, ⟨rfl, rfl, rfl, rfl, rfl⟩, side, e1, by simp only [hw]⟩
  refine tables_insert ht side (by simp only [hw]) (by simp only [hb]) ?_ ?_ ?_
  · simp only [List.length_append, List.length_cons, List.length_nil, hb]; omega
  · simp only [List.length_append, List.length_cons, List.length_nil, hw]
  · simp only [ht.trace, hb, hw, created_succ]

/-- All branches of the stencil. -/
theorem addWindows_tables (st : List (List Int × R)) : ∀ {n : Nat} {f f' : Filter R}, Tables n f →
    st.foldlM Filter.addWindow f = .ok f' → ∃ n', Tables n' f' ∧ SameConst f f' ∧
      ((∀ w < n, ∃ s, StdMap.find f.windows s = some w) →
        (∀ kv ∈ st, kv.1.length = f.ndims ∧ IntOffset kv.1) → (st.map fun kv => sideOf kv.1).Nodup →
        (∀ kv ∈ st, StdMap.find f.windows (sideOf kv.1) = none) →
        ∀ w < n', ∃ s, StdMap.find f'.windows s = some w) := by
  induction st with
  | nil =>
    intro n f f' ht h
    obtain rfl := Except.ok.inj h
    exact ⟨n, ht, ⟨rfl, rfl, rfl, rfl, rfl⟩, fun h _ _ _ => h⟩
  | cons kv st ih =>
    intro n f f' ht h
    rw [List.foldlM_cons] at h
    obtain ⟨f1, e1, hf1⟩ := (M.bind_ok_iff _ _ _).1 h
    rcases addWindow_tables ht e1 with rfl | ⟨ht1, hc1, side, es, hw⟩
    · obtain ⟨n', h1, h2, h3⟩ := ih ht hf1
      refine ⟨n', h1, h2, fun a b c d => h3 a (fun kv h => b kv (by simp [h])) ?_ (fun kv h => d kv (by simp [h]))⟩
      rw [List.map_cons, List.nodup_cons] at c
      exact c.2
    · obtain ⟨n', h1, h2, h3⟩ := ih ht1 hf1
      refine ⟨n', h1, ?_, ?_⟩
      · obtain ⟨a1, a2, a3, a4, a5⟩ := hc1
        obtain ⟨b1, b2, b3, b4, b5⟩ := h2
        exact ⟨b1.trans a1, b2.trans a2, b3.trans a3, b4.trans a4, b5.trans a5⟩
      · intro a b c d
        rw [List.map_cons, List.nodup_cons] at c
        obtain ⟨b1, b2⟩ := b kv (by simp)
        rw [getSideFromOffset_eq f kv.1 b1 b2] at es
        obtain rfl := Except.ok.inj es
        apply h3
        · intro w hwn
          rw [hw]
          by_cases e : w = n
          · exact ⟨sideOf kv.1, by rw [StdMap.find_insert, if_pos rfl, d kv (by simp), Option.getD_none, e]⟩
          · obtain ⟨s, hs⟩ := a w (by omega)
            refine ⟨s, ?_⟩
            rw [StdMap.find_insert, if_neg]
            · exact hs
            · rintro rfl
              rw [d kv (by simp)] at hs
              simp at hs
        · intro kv' h'
          rw [hc1.1]
          exact b kv' (by simp [h'])
        · exact c.2
        · intro kv' h'
          rw [hw, StdMap.find_insert, if_neg]
          · exact d kv' (by simp [h'])
          · intro e
            exact c.1 (List.mem_map.2 ⟨kv', h', e⟩)

/-- The constructor, if it ends normally. -/
theorem new_tables [Zero R] [Div R] [NatCast R] [LT R] [DecidableLT R] [HasMax R] {rk sz : Int} {dims : List Nat}
    {xmins xmaxs : List R} {st : StdMap (List Int) R} {f : Filter R}
    (h : Filter.new rk sz dims xmins xmaxs st = .ok f) :
    f.ndims = dims.length ∧ f.globalDims = dims ∧ f.xmins = xmins ∧ f.xmaxs = xmaxs ∧
    (∃ cd, CubeDecomp.build R CubeDecomp.empty sz dims = .ok (f.validDecomp, cd)) ∧
    (f.validDecomp = false → f.windows = [] ∧ f.winData = [] ∧ f.trace = [] ∧ f.mit = none) ∧
    ∃ n, Tables n f ∧ ((∀ kv ∈ st, kv.1.length = dims.length ∧ IntOffset kv.1) →
      (st.map fun kv => sideOf kv.1).Nodup → ∀ w < n, ∃ s, StdMap.find f.windows s = some w) := by
  have t0 : ∀ g : Filter R, g.windows = [] → g.winData = [] → g.bufs = [] → g.winBuf = [] → g.trace = [] →
      Tables 0 g := by
    intro g h1 h2 h3 h4 h5
    refine ⟨by rw [h1]; exact StdMap.sorted_nil, ?_, ?_, ?_, by rw [h3]; rfl, by rw [h4]; rfl, by rw [h5]; rfl⟩
    · intro s w h; rw [h1] at h; simp [StdMap.find] at h
    · intro s w h; rw [h2] at h; simp [StdMap.find] at h
    · intro s s' w h; rw [h1] at h; simp [StdMap.find] at h
  unfold Filter.new at h
  dsimp only [Filter.initial] at h
  obtain ⟨⟨valid, cd⟩, e1, h⟩ := (M.bind_ok_iff _ _ _).1 h
  dsimp only at h
  cases valid with
  | false =>
    rw [if_neg (by decide)] at h
    obtain rfl := Except.ok.inj h
    exact ⟨rfl, rfl, rfl, rfl, ⟨cd, e1⟩, fun _ => ⟨rfl, rfl, rfl, rfl⟩, 0, t0 _ rfl rfl rfl rfl rfl,
      fun _ _ w hw => absurd hw (by omega)⟩
  | true =>
    rw [if_pos rfl] at h
    obtain ⟨⟨lo, cd2⟩, _, h⟩ := (M.bind_ok_iff _ _ _).1 h
    obtain ⟨⟨hi, cd3⟩, _, h⟩ := (M.bind_ok_iff _ _ _).1 h
    obtain ⟨mit, _, h⟩ := (M.bind_ok_iff _ _ _).1 h
    obtain ⟨n', h1, h2, h3⟩ := addWindows_tables st (n := 0) (t0 _ rfl rfl rfl rfl rfl) h
    obtain ⟨b1, b2, b3, b4, b5⟩ := h2
    refine ⟨b1, b2, b3, b4, ⟨cd, by rw [b5]; exact e1⟩, ?_, n', h1, ?_⟩
    · intro hf; rw [b5] at hf; cases hf
    · intro a c
      exact h3 (fun w hw => absurd hw (by omega)) a c (fun _ _ => rfl)

/-- The destructor. -/
theorem destroy_trace {n : Nat} {f : Filter R} (ht : Tables n f) :
    f.destroy.trace = created n ++ released (f.windows.map Prod.snd) := by
  have key : ∀ (l : List (List Int × Nat)) (g : Filter R), g.windows = f.windows → g.winData = f.winData →
      (∀ kv ∈ l, StdMap.find f.windows kv.1 = some kv.2) →
      (l.foldl (fun self kv => Filter.deleteWindow self kv.1) g).trace = g.trace ++ released (l.map Prod.snd) := by
    intro l
    induction l with
    | nil => intro g _ _ _; simp [released]
    | cons kv l ih =>
      intro g h1 h2 h3
      have e1 := h3 kv (by simp)
      have e2 := (ht.link _ _ e1).2
      have e3 : g.deleteWindow kv.1 =
          { g with trace := g.trace ++ [.freeMem (2 * kv.2), .freeMem (2 * kv.2 + 1)] ++ [.winFree kv.2] } := by
        unfold Filter.deleteWindow
        rw [h2, e2]
        dsimp only
        rw [h1, e1]
      have e4 := ih { g with trace := g.trace ++ [.freeMem (2 * kv.2), .freeMem (2 * kv.2 + 1)] ++ [.winFree kv.2] }
        h1 h2 (fun kv h => h3 kv (by simp [h]))
      rw [List.foldl_cons, e3, e4]
      simp [released]
  unfold Filter.destroy
  rw [key f.windows f rfl rfl (fun kv h => (StdMap.mem_iff_find ht.sorted kv.1 kv.2).1 h), ht.trace]

theorem mem_created {n : Nat} {e : MpiEvent} : e ∈ created n ↔
    ∃ w < n, e = .allocMem (2 * w) ∨ e = .allocMem (2 * w + 1) ∨ e = .winCreate w (2 * w) := by
  simp [created]

theorem mem_released {l : List Nat} {e : MpiEvent} : e ∈ released l ↔
    ∃ w ∈ l, e = .freeMem (2 * w) ∨ e = .freeMem (2 * w + 1) ∨ e = .winFree w := by
  simp [released]

theorem nodup_created (n : Nat) : (created n).Nodup := by
  unfold created
  rw [List.nodup_flatMap]
  refine ⟨fun w _ => by simp, ?_⟩
  refine List.nodup_range.imp ?_
  intro a b hab e h1 h2
  simp only [List.mem_cons, List.not_mem_nil, or_false] at h1 h2
  rcases h1 with rfl | rfl | rfl <;> simp at h2 <;> omega

theorem nodup_released {l : List Nat} (hl : l.Nodup) : (released l).Nodup := by
  unfold released
  rw [List.nodup_flatMap]
  refine ⟨fun w _ => by simp, ?_⟩
  refine hl.imp ?_
  intro a b hab e h1 h2
  simp only [List.mem_cons, List.not_mem_nil, or_false] at h1 h2
  rcases h1 with rfl | rfl | rfl <;> simp at h2 <;> omega

theorem nodup_windows {n : Nat} {f : Filter R} (ht : Tables n f) : (f.windows.map Prod.snd).Nodup := by
  have h1 : f.windows.Nodup := by
    have : (f.windows.map Prod.fst).Nodup := List.Pairwise.imp (fun h => ne_of_lt h) ht.sorted
    exact List.Nodup.of_map _ this
  apply List.Nodup.map_on _ h1
  rintro ⟨s, w⟩ h ⟨s', w'⟩ h' (rfl : w = w')
  rw [StdMap.mem_iff_find ht.sorted] at h h'
  rw [ht.inj _ _ _ h h']

end Fidi
