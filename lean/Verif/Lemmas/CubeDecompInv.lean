import Verif.Lemmas.CubeDecomp

/-
What a successful `build` implies, without any bound on the grid; independence of the history.
-/
namespace Fidi
open Spec

section
variable {R : Type} [Div R] [NatCast R] [LT R] [DecidableLT R] [HasMax R]

/-- A loop that writes entry `i` at iteration `i` does not depend on the initial content of the vector. -/
theorem forUp_wr_eq {α : Type} (n : Nat) (v : List α) (hv : v.length = n) (g : Nat → M α) :
    (forUp 0 n v fun i v => do wr v i (← g i)) = (List.range n).mapM g := by
  have key : ∀ m, m ≤ n → (forUp 0 m v fun i v => do wr v i (← g i)) =
      ((List.range m).mapM g >>= fun l => pure (l ++ v.drop m)) := by
    intro m
    induction m with
    | zero => intro _; rw [forUp_of_ge (Nat.le_refl _)]; simp
    | succ m ih =>
      intro hm
      rw [forUp_succ (Nat.zero_le _), ih (by omega), List.range_succ, List.mapM_append]
      cases e : (List.range m).mapM g with
      | error x => rfl
      | ok l =>
        have hl : l.length = m := by
          have : ∀ (xs : List Nat) (l : List α), xs.mapM g = .ok l → l.length = xs.length := by
            intro xs
            induction xs with
            | nil => intro l h; simp at h; subst h; rfl
            | cons x xs ih =>
              intro l h
              rw [List.mapM_cons] at h
              obtain ⟨a, _, h⟩ := (M.bind_ok_iff _ _ _).1 h
              obtain ⟨b, hb, h⟩ := (M.bind_ok_iff _ _ _).1 h
              simp at h; subst h
              simp [ih b hb]
          simpa using this _ _ e
        simp only [M.ok_bind, M.pure_eq]
        cases e2 : g m with
        | error x => simp [e2]
        | ok y =>
          have hd : 0 < (v.drop m).length := by simp; omega
          simp only [List.mapM_cons, List.mapM_nil, e2, M.ok_bind, M.pure_eq]
          rw [wr_of_lt (by simp [hl]; omega)]
          congr 1
          rw [List.set_append_right _ _ (by omega), hl, Nat.sub_self, List.append_assoc]
          congr 1
          rw [List.drop_eq_getElem_cons (by omega : m < v.length)]
          rfl
  rw [key n (Nat.le_refl _), List.drop_of_length_le (by omega)]
  cases (List.range n).mapM g with
  | error x => rfl
  | ok l => simp

theorem build_indep (self : Option MultiArrayIter) (lo hi : List Nat) (rm : Bool) (hn : lo.length < W) :
    MultiArrayIter.build self lo hi rm = MultiArrayIter.build none lo hi rm := by
  by_cases h0 : lo = []
  · subst h0; rw [build_nil, build_nil]
  · by_cases h : lo.length ≤ hi.length
    · rw [build_eq self lo hi rm h0 h hn, build_eq none lo hi rm h0 h hn]
    · rw [build_short self lo hi rm (by omega), build_short none lo hi rm (by omega)]

theorem loop_length {α : Type} (n : Nat) (v w : List α) (hv : v.length = n) (g : Nat → M α)
    (h : (forUp 0 n v fun i v => do wr v i (← g i)) = .ok w) : w.length = n := by
  rw [forUp_wr_eq n v hv g] at h
  have : ∀ (xs : List Nat) (l : List α), xs.mapM g = .ok l → l.length = xs.length := by
    intro xs
    induction xs with
    | nil => intro l h; simp at h; subst h; rfl
    | cons x xs ih =>
      intro l h
      rw [List.mapM_cons] at h
      obtain ⟨a, _, h⟩ := (M.bind_ok_iff _ _ _).1 h
      obtain ⟨b, hb, h⟩ := (M.bind_ok_iff _ _ _).1 h
      simp at h; subst h
      simp [ih b hb]
  simpa using this _ _ h

/-- Shape of the result of `computeOptimalDecomp`. -/
theorem computeOptimalDecomp_inv (self self' : CubeDecomp) (d : List Nat) (hn : self.ndims < W)
    (h : self.computeOptimalDecomp R = .ok (d, self')) :
    (d = [] ∧ self' = self) ∨
    self' = { self with mit := some (builtIter (List.replicate self.ndims 0) d true) } := by
  unfold CubeDecomp.computeOptimalDecomp at h
  obtain ⟨pn, _, h⟩ := (M.bind_ok_iff _ _ _).1 h
  obtain ⟨ns, _, h⟩ := (M.bind_ok_iff _ _ _).1 h
  obtain ⟨it, _, h⟩ := (M.bind_ok_iff _ _ _).1 h
  obtain ⟨valid, _, h⟩ := (M.bind_ok_iff _ _ _).1 h
  split at h
  · simp at h; left; exact ⟨h.1, h.2.symm⟩
  · obtain ⟨best, _, h⟩ := (M.bind_ok_iff _ _ _).1 h
    obtain ⟨mit, hm, h⟩ := (M.bind_ok_iff _ _ _).1 h
    have h' := (build_ok_iff _ _ _ _ (by simpa using hn) _).1 hm
    simp at h
    right
    rw [← h.2, ← h.1, h'.2.2]

/-- A successful `build` with a valid decomposition leaves the expected object, for grids of any size. -/
theorem build_true_inv (self c : CubeDecomp) (nprocs : Int) (dims : List Nat) (hn : dims.length < W)
    (h : CubeDecomp.build R self nprocs dims = .ok (true, c))
    (hlen : c.decomp.length = dims.length) (hpos : ∀ k ∈ c.decomp, 0 < k) :
    c = builtDecomp nprocs dims c.decomp ∧ dims ≠ [] := by
  unfold CubeDecomp.build at h
  obtain ⟨⟨d, s⟩, h1, h⟩ := (M.bind_ok_iff _ _ _).1 h
  simp only at h
  split at h
  · simp at h
  · rename_i hd
    obtain ⟨ld, h2, h⟩ := (M.bind_ok_iff _ _ _).1 h
    simp only [M.pure_eq, Except.ok.injEq, Prod.mk.injEq, true_and] at h
    subst h
    simp only at hlen hpos ⊢
    rcases computeOptimalDecomp_inv _ _ _ hn h1 with ⟨h3, _⟩ | h3
    · subst h3; simp at hd
    · subst h3
      simp only at h2
      have := local_loop dims d (resize self.localDims d.length 0) hlen (by simp [hlen]) hpos
      rw [hlen] at h2 this
      rw [this] at h2
      injection h2 with h2
      subst h2
      refine ⟨rfl, ?_⟩
      intro h0; subst h0; exact hd (by simpa using hlen)

/-- The object with its iterator rewound. -/
def normD (c : CubeDecomp) : CubeDecomp := { c with mit := c.mit.map (·.begin') }

/-- The decomposition computed does not depend on what the object was before. -/
theorem computeOptimalDecomp_indep (s1 s2 : CubeDecomp) (hn : s1.ndims < W) (h1 : s1.nprocs = s2.nprocs)
    (h2 : s1.ndims = s2.ndims) (h3 : s1.dims = s2.dims) :
    (do let r ← s1.computeOptimalDecomp R; pure r.1 : M (List Nat)) =
      (do let r ← s2.computeOptimalDecomp R; pure r.1) := by
  obtain ⟨np, nd, dc1, dm, ld1, m1⟩ := s1
  obtain ⟨np', nd', dc2, dm', ld2, m2⟩ := s2
  simp only at h1 h2 h3 hn
  subst h1 h2 h3
  unfold CubeDecomp.computeOptimalDecomp
  simp only
  have e : ∀ best, MultiArrayIter.build m1 (List.replicate nd 0) best true =
      MultiArrayIter.build m2 (List.replicate nd 0) best true := fun best => by
    rw [build_indep m1 _ _ _ (by simpa using hn), build_indep m2 _ _ _ (by simpa using hn)]
  simp only [bind_assoc]
  congr 1; funext pn
  congr 1; funext ns
  congr 1; funext it
  have eg : CubeDecomp.gatherValid { nprocs := np, ndims := nd, decomp := dc1, dims := dm, localDims := ld1, mit := m1 } pn it =
      CubeDecomp.gatherValid { nprocs := np, ndims := nd, decomp := dc2, dims := dm, localDims := ld2, mit := m2 } pn it := rfl
  rw [eg]
  congr 1; funext valid
  split
  · rfl
  · have es : CubeDecomp.selectBest R { nprocs := np, ndims := nd, decomp := dc1, dims := dm, localDims := ld1, mit := m1 } valid =
      CubeDecomp.selectBest R { nprocs := np, ndims := nd, decomp := dc2, dims := dm, localDims := ld2, mit := m2 } valid := rfl
    rw [es]
    simp only [bind_assoc, e]
    congr 1

/-- `build` does not depend on what the object was before: same outcome and, on success, same object. -/
theorem build_history (s1 s2 : CubeDecomp) (nprocs : Int) (dims : List Nat) (hn : dims.length < W) (b : Bool)
    (c : CubeDecomp) (h : CubeDecomp.build R s1 nprocs dims = .ok (b, c)) :
    ∃ c', CubeDecomp.build R s2 nprocs dims = .ok (b, c') ∧ c'.decomp = c.decomp ∧ (b = true → c' = c) := by
  unfold CubeDecomp.build at h ⊢
  obtain ⟨⟨d, s⟩, h1, h⟩ := (M.bind_ok_iff _ _ _).1 h
  have hi := computeOptimalDecomp_indep (R := R) { s1 with nprocs := nprocs, ndims := dims.length, dims := dims }
    { s2 with nprocs := nprocs, ndims := dims.length, dims := dims } hn rfl rfl rfl
  rw [h1] at hi
  simp only [M.ok_bind, M.pure_eq] at hi
  obtain ⟨⟨d', s'⟩, h2, h3⟩ := (M.bind_ok_iff _ _ _).1 hi.symm
  simp only [Except.ok.injEq] at h3
  subst h3
  simp only [h2, M.ok_bind]
  rcases computeOptimalDecomp_inv _ _ _ hn h1 with ⟨h4, h5⟩ | h5
  · subst h4 h5
    simp only [List.length_nil, if_true, M.pure_eq, Except.ok.injEq, Prod.mk.injEq] at h ⊢
    obtain ⟨rfl, rfl⟩ := h
    exact ⟨_, ⟨rfl, rfl⟩, rfl, by simp⟩
  · rcases computeOptimalDecomp_inv _ _ _ hn h2 with ⟨h4, h6⟩ | h6
    · subst h4
      simp only [List.length_nil, if_true, M.pure_eq, Except.ok.injEq, Prod.mk.injEq] at h ⊢
      obtain ⟨rfl, rfl⟩ := h
      exact ⟨_, ⟨rfl, rfl⟩, rfl, by simp⟩
    · subst h5 h6
      simp only at h ⊢
      split at h
      · rename_i hd
        rw [if_pos hd]
        simp only [M.pure_eq, Except.ok.injEq, Prod.mk.injEq] at h ⊢
        obtain ⟨rfl, rfl⟩ := h
        exact ⟨_, ⟨rfl, rfl⟩, rfl, by simp⟩
      · rename_i hd
        rw [if_neg hd]
        obtain ⟨ld, h7, h⟩ := (M.bind_ok_iff _ _ _).1 h
        have e1 := forUp_wr_eq d'.length (resize s1.localDims d'.length 0) (by simp)
          (fun i => do szDiv (← rd dims i) (← rd d' i))
        have e2 := forUp_wr_eq d'.length (resize s2.localDims d'.length 0) (by simp)
          (fun i => do szDiv (← rd dims i) (← rd d' i))
        rw [← e1] at e2
        simp only [bind_assoc] at e2
        rw [e2, h7]
        simp only [M.ok_bind, M.pure_eq, Except.ok.injEq, Prod.mk.injEq] at h ⊢
        obtain ⟨rfl, rfl⟩ := h
        exact ⟨_, ⟨rfl, rfl⟩, rfl, fun _ => rfl⟩

end
end Fidi
