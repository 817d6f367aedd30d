import Verif.Lemmas.FilterTrace

/-
How many windows the constructor of `Filter` creates, and for which sides it keeps one.
-/
namespace Fidi
open Spec
variable {R : Type}

/-- The sides of the offsets that are not zero, in the order of the stencil. -/
def leakSides (st : List (List Int × R)) : List (List Int) :=
  (st.filter fun kv => kv.1.any (· ≠ 0)).map fun kv => sideOf kv.1

theorem addWindow_count {n : Nat} {f f' : Filter R} (ht : Tables n f) {kv : List Int × R}
    (hd : f.ndims < W) (hl : kv.1.length = f.ndims) (hi : IntOffset kv.1) (h : f.addWindow kv = .ok f') :
    Tables (n + (leakSides [kv]).length) f' ∧ SameConst f f' ∧
      ∀ s, s ∈ f'.windows.map Prod.fst ↔ s ∈ f.windows.map Prod.fst ∨ s ∈ leakSides [kv] := by
  have keys : ∀ (g : Filter R) n, Tables n g → ∀ s, s ∈ g.windows.map Prod.fst ↔ ∃ w, StdMap.find g.windows s = some w := by
    intro g n ht s
    constructor
    · intro h
      obtain ⟨⟨s', w⟩, h', rfl⟩ := List.mem_map.1 h
      exact ⟨w, (StdMap.mem_iff_find ht.sorted _ _).1 h'⟩
    · rintro ⟨w, h⟩
      exact List.mem_map.2 ⟨(s, w), (StdMap.mem_iff_find ht.sorted _ _).2 h, rfl⟩
  have hz : kv.1.countP (· ≠ 0) = 0 ↔ ¬ kv.1.any (· ≠ 0) = true := by
    rw [List.countP_eq_zero, List.any_eq_true]
    push Not
    rfl
  by_cases h0 : kv.1.any (· ≠ 0) = true
  · have hs : leakSides [kv] = [sideOf kv.1] := by unfold leakSides; rw [List.filter_cons, if_pos h0]; rfl
    rcases addWindow_tables ht h with rfl | ⟨h1, h2, side, es, hw⟩
    · exfalso
      unfold Filter.addWindow at h
      dsimp only at h
      rw [getNumberOfNonZeroElements_eq kv.1 (by omega), M.ok_bind, if_neg (by rw [hz]; exact fun c => c h0),
        getSideFromOffset_eq _ kv.1 hl hi, M.ok_bind] at h
      obtain ⟨g, _, h⟩ := (M.bind_ok_iff _ _ _).1 h
      unfold Filter.newWindow at h
      obtain ⟨⟨it, f2⟩, e2, h⟩ := (M.bind_ok_iff _ _ _).1 h
      obtain ⟨cd, rfl⟩ := getWindowIter_ok e2
      dsimp only at h
      split at h
      · cases h
      have := congrArg (fun f : Filter R => f.bufs.length) (Except.ok.inj h)
      simp at this
    · rw [getSideFromOffset_eq f kv.1 hl hi] at es
      obtain rfl := Except.ok.inj es
      rw [hs]
      refine ⟨h1, h2, ?_⟩
      intro s
      rw [keys _ _ h1, keys _ _ ht, hw, List.mem_singleton]
      constructor
      · rintro ⟨w, e⟩
        rw [StdMap.find_insert] at e
        by_cases c : s = sideOf kv.1
        · exact .inr c
        · rw [if_neg c] at e
          exact .inl ⟨w, e⟩
      · intro e
        rw [StdMap.find_insert]
        by_cases c : s = sideOf kv.1
        · rw [if_pos c]; exact ⟨_, rfl⟩
        · rw [if_neg c]; exact e.resolve_right c
  · have hs : leakSides [kv] = [] := by unfold leakSides; rw [List.filter_cons, if_neg h0]; rfl
    unfold Filter.addWindow at h
    dsimp only at h
    rw [getNumberOfNonZeroElements_eq kv.1 (by omega), M.ok_bind, if_pos (hz.2 h0)] at h
    obtain rfl := Except.ok.inj h
    rw [hs]
    exact ⟨ht, ⟨rfl, rfl, rfl, rfl, rfl⟩, fun s => by simp⟩

theorem addWindows_count (st : List (List Int × R)) : ∀ {n : Nat} {f f' : Filter R}, Tables n f → f.ndims < W →
    (∀ kv ∈ st, kv.1.length = f.ndims ∧ IntOffset kv.1) → st.foldlM Filter.addWindow f = .ok f' →
    Tables (n + (leakSides st).length) f' ∧
      ∀ s, s ∈ f'.windows.map Prod.fst ↔ s ∈ f.windows.map Prod.fst ∨ s ∈ leakSides st := by
  induction st with
  | nil =>
    intro n f f' ht _ _ h
    obtain rfl := Except.ok.inj h
    exact ⟨ht, fun s => by simp [leakSides]⟩
  | cons kv st ih =>
    intro n f f' ht hd ho h
    rw [List.foldlM_cons] at h
    obtain ⟨f1, e1, hf1⟩ := (M.bind_ok_iff _ _ _).1 h
    obtain ⟨h1, h2, h3⟩ := addWindow_count ht hd (ho kv (by simp)).1 (ho kv (by simp)).2 e1
    have hsplit : leakSides (kv :: st) = leakSides [kv] ++ leakSides st := by
      unfold leakSides
      rw [← List.map_append, ← List.filter_append]
      rfl
    obtain ⟨h4, h5⟩ := ih h1 (by rw [h2.1]; exact hd) (fun kv' h' => by rw [h2.1]; exact ho kv' (by simp [h'])) hf1
    rw [hsplit, List.length_append, ← Nat.add_assoc]
    refine ⟨h4, fun s => ?_⟩
    rw [h5, h3, List.mem_append, or_assoc]

/-- The tables after a constructor that found a decomposition. -/
theorem new_count [Zero R] [Div R] [NatCast R] [LT R] [DecidableLT R] [HasMax R] {rk sz : Int} {dims : List Nat}
    {xmins xmaxs : List R} {st : StdMap (List Int) R} {f : Filter R} (hd : dims.length < W)
    (ho : ∀ kv ∈ st, kv.1.length = dims.length ∧ IntOffset kv.1)
    (h : Filter.new rk sz dims xmins xmaxs st = .ok f) (hv : f.validDecomp = true) :
    Tables (leakSides st).length f ∧ ∀ s, s ∈ f.windows.map Prod.fst ↔ s ∈ leakSides st := by
  unfold Filter.new at h
  dsimp only [Filter.initial] at h
  obtain ⟨⟨valid, cd⟩, e1, h⟩ := (M.bind_ok_iff _ _ _).1 h
  dsimp only at h
  cases valid with
  | false =>
    rw [if_neg (by decide)] at h
    obtain rfl := Except.ok.inj h
    cases hv
  | true =>
    rw [if_pos rfl] at h
    obtain ⟨⟨lo, cd2⟩, _, h⟩ := (M.bind_ok_iff _ _ _).1 h
    obtain ⟨⟨hi, cd3⟩, _, h⟩ := (M.bind_ok_iff _ _ _).1 h
    obtain ⟨mit, _, h⟩ := (M.bind_ok_iff _ _ _).1 h
    have t0 : ∀ g : Filter R, g.windows = [] → g.winData = [] → g.bufs = [] → g.winBuf = [] → g.trace = [] →
        Tables 0 g := by
      intro g h1 h2 h3 h4 h5
      refine ⟨by rw [h1]; exact StdMap.sorted_nil, ?_, ?_, ?_, by rw [h3]; rfl, by rw [h4]; rfl, by rw [h5]; rfl⟩
      · intro s w h; rw [h1] at h; simp [StdMap.find] at h
      · intro s w h; rw [h2] at h; simp [StdMap.find] at h
      · intro s s' w h; rw [h1] at h; simp [StdMap.find] at h
    obtain ⟨h1, h2⟩ := addWindows_count st (n := 0) (t0 _ rfl rfl rfl rfl rfl) hd ho h
    rw [Nat.zero_add] at h1
    exact ⟨h1, fun s => by rw [h2]; simp⟩

/-- The sides for which a window is kept, without repetition. -/
theorem windows_card {n : Nat} {f : Filter R} (ht : Tables n f) {l : List (List Int)}
    (h : ∀ s, s ∈ f.windows.map Prod.fst ↔ s ∈ l) : f.windows.length = l.dedup.length := by
  have hnd : (f.windows.map Prod.fst).Nodup := List.Pairwise.imp (fun h => ne_of_lt h) ht.sorted
  have : (f.windows.map Prod.fst).Perm l.dedup := by
    rw [List.perm_ext_iff_of_nodup hnd (List.nodup_dedup l)]
    intro s
    rw [h, List.mem_dedup]
  rw [← this.length_eq, List.length_map]

end Fidi
