import Verif.Model.Schedule
import Mathlib.Data.List.Basic
import Mathlib.Tactic.Push

/-
Race-free regions: every execution gives the sequential result, none gets stuck and none faults.
-/
namespace Fidi

variable {A R : Type} [DecidableEq A]

/-- Iteration `i` writes only locations it owns and reads only those and locations that no iteration of the loop owns. -/
inductive Safe (owner : A → Option Nat) (alloc : A → Prop) (i : Nat) : Prog A R → Prop where
  | done : Safe owner alloc i .done
  | read {l : A} {k : R → Prog A R} (ha : alloc l) (ho : owner l = none ∨ owner l = some i)
      (hk : ∀ x, Safe owner alloc i (k x)) : Safe owner alloc i (.read l k)
  | write {l : A} {x : R} {k : Prog A R} (ha : alloc l) (ho : owner l = some i) (hk : Safe owner alloc i k) :
      Safe owner alloc i (.write l x k)

/-- No two iterations of a loop conflict. -/
structure RaceFree (reg : Region A R) (alloc : A → Prop) (owner : Nat → A → Option Nat) : Prop where
  safe : ∀ k i, k < reg.phases → i < reg.count k → Safe (owner k) alloc i (reg.prog k i)

section
variable {owner : A → Option Nat} {alloc : A → Prop} {i : Nat}

/-- A safe iteration changes only what it owns. -/
theorem Safe.run_other {p : Prog A R} (h : Safe owner alloc i p) (m : Mem A R) (l : A) (hl : owner l ≠ some i) :
    p.run m l = m l := by
  induction h generalizing m with
  | done => rfl
  | read _ _ _ ih => exact ih _ m
  | @write l' x k _ ho _ ih =>
    simp only [Prog.run]
    rw [ih]
    simp only [Mem.set]
    rw [if_neg]
    rintro rfl
    exact hl ho

/-- Its effect depends only on what it owns and on unowned locations. -/
theorem Safe.run_agree {p : Prog A R} (h : Safe owner alloc i p) (m m' : Mem A R)
    (hm : ∀ l, owner l = none ∨ owner l = some i → m l = m' l) (l : A) (hl : owner l = some i) :
    p.run m l = p.run m' l := by
  induction h generalizing m m' with
  | done => exact hm l (Or.inr hl)
  | @read l' k _ ho _ ih =>
    simp only [Prog.run]
    rw [hm l' ho]
    exact ih _ m m' hm
  | @write l' x k _ ho _ ih =>
    simp only [Prog.run]
    apply ih
    intro l'' h''
    simp only [Mem.set]
    rw [hm l'' h'']
end

/-- Memory after a loop whose iterations do not conflict. -/
def phaseMem (reg : Region A R) (owner : Nat → A → Option Nat) (k : Nat) (m : Mem A R) : Mem A R := fun l =>
  match owner k l with
  | some i => if i < reg.count k then (reg.prog k i).run m l else m l
  | none => m l

theorem seqPhase_eq {reg : Region A R} {alloc : A → Prop} {owner : Nat → A → Option Nat} (h : RaceFree reg alloc owner)
    {k : Nat} (hk : k < reg.phases) (m : Mem A R) : reg.seqPhase k m = phaseMem reg owner k m := by
  have key : ∀ n, n ≤ reg.count k → ∀ l, (List.range n).foldl (fun m i => (reg.prog k i).run m) m l =
      match owner k l with
      | some i => if i < n then (reg.prog k i).run m l else m l
      | none => m l := by
    intro n hn
    induction n with
    | zero => intro l; simp; cases owner k l <;> rfl
    | succ n ih =>
      have ih' := ih (by omega)
      intro l
      have hs := h.safe k n hk (by omega)
      rw [List.range_succ, List.foldl_append, List.foldl_cons, List.foldl_nil]
      by_cases ho : owner k l = some n
      · rw [hs.run_agree _ m ?_ l ho]
        · rw [ho]; simp
        · intro l' hl'
          rw [ih' l']
          rcases hl' with h' | h' <;> rw [h']
          simp
      · rw [hs.run_other _ l ho, ih' l]
        cases h' : owner k l with
        | none => rfl
        | some i =>
          have : i ≠ n := by rintro rfl; exact ho h'
          simp only
          by_cases hi : i < n
          · rw [if_pos hi, if_pos (by omega)]
          · rw [if_neg hi, if_neg (by omega)]
  funext l
  rw [Region.seqPhase, key _ (Nat.le_refl _) l]
  unfold phaseMem
  rfl

/-- Memory after the first `k` loops. -/
def Region.memAt (reg : Region A R) (k : Nat) (m : Mem A R) : Mem A R :=
  (List.range k).foldl (fun m k => reg.seqPhase k m) m

theorem Region.memAt_succ (reg : Region A R) (k : Nat) (m : Mem A R) :
    reg.memAt (k + 1) m = reg.seqPhase k (reg.memAt k m) := by
  simp [Region.memAt, List.range_succ]

/-- Invariant of the executions of a race-free region; `k` is the loop being executed. -/
structure PInv (reg : Region A R) (alloc : A → Prop) (owner : Nat → A → Option Nat) (T : Nat) (m : Mem A R) (k : Nat)
    (s : PState A R) : Prop where
  le : k ≤ reg.phases
  phase : ∀ t, t < T → s.phase t = k ∨ (s.phase t + 1 = k ∧ s.cur t = none)
  here : ∃ t, t < T ∧ s.phase t = k
  cur : ∀ t, t < T → ∀ i p, s.cur t = some (i, p) → k < reg.phases ∧ i < reg.count k ∧ s.started k i = true ∧
    Safe (owner k) alloc i p ∧
    ∀ l, owner k l = some i → p.run s.mem l = (reg.prog k i).run (reg.memAt k m) l
  uniq : ∀ t t', t < T → t' < T → ∀ i p p', s.cur t = some (i, p) → s.cur t' = some (i, p') → t = t'
  fresh : ∀ l i, owner k l = some i → s.started k i = false → s.mem l = reg.memAt k m l
  compl : ∀ l i, owner k l = some i → s.started k i = true → (∀ t, t < T → ∀ p, s.cur t ≠ some (i, p)) →
    s.mem l = (reg.prog k i).run (reg.memAt k m) l
  unowned : ∀ l, owner k l = none → s.mem l = reg.memAt k m l
  prev : ∀ k' i, k' < k → i < reg.count k' → s.started k' i = true
  later : ∀ k' i, k < k' ∨ reg.count k ≤ i ∧ k' = k ∨ reg.phases ≤ k' → s.started k' i = false

theorem PInv.init (reg : Region A R) (alloc : A → Prop) (owner : Nat → A → Option Nat) {T : Nat} (hT : 0 < T)
    (m : Mem A R) : PInv reg alloc owner T m 0 (.init m) where
  le := Nat.zero_le _
  phase := fun _ _ => Or.inl rfl
  here := ⟨0, hT, rfl⟩
  cur := by intro t _ i p h; simp [PState.init] at h
  uniq := by intro t t' _ _ i p p' h; simp [PState.init] at h
  fresh := fun _ _ _ _ => rfl
  compl := by intro l i _ h; simp [PState.init] at h
  unowned := fun _ _ => rfl
  prev := by intro k' i h; omega
  later := fun _ _ _ => rfl

variable {reg : Region A R} {alloc : A → Prop} {owner : Nat → A → Option Nat} {T : Nat} {m : Mem A R}
  {may : Nat → Nat → Nat → Prop}

@[simp] theorem updAt_self {α : Type} (f : Nat → α) (t : Nat) (x : α) : updAt f t x t = x := by simp [updAt]
theorem updAt_ne {α : Type} (f : Nat → α) {t t' : Nat} (x : α) (h : t' ≠ t) : updAt f t x t' = f t' := by
  simp [updAt, h]

/-- A memory access of the iteration of thread `t`. -/
theorem PInv.access {k : Nat} {s : PState A R} (h : PInv reg alloc owner T m k s) {t i : Nat} {p p' : Prog A R}
    {mem' : Mem A R} (ht : t < T) (hc : s.cur t = some (i, p)) (hsafe : Safe (owner k) alloc i p')
    (hrun : p'.run mem' = p.run s.mem) (hmem : ∀ l, owner k l ≠ some i → mem' l = s.mem l) :
    PInv reg alloc owner T m k { s with mem := mem', cur := updAt s.cur t (some (i, p')) } := by
  obtain ⟨c1, c2, c3, c4, c5⟩ := h.cur t ht i p hc
  refine { le := h.le, phase := ?_, here := h.here, cur := ?_, uniq := ?_, fresh := ?_, compl := ?_, unowned := ?_,
           prev := h.prev, later := h.later }
  · intro t' ht'
    by_cases e : t' = t
    · subst e
      rcases h.phase t' ht' with h1 | ⟨_, h1⟩
      · exact Or.inl h1
      · rw [hc] at h1; simp at h1
    · simp only [updAt_ne _ _ e]
      exact h.phase t' ht'
  · intro t' ht' j q hq
    by_cases e : t' = t
    · subst e
      simp only [updAt_self, Option.some.injEq, Prod.mk.injEq] at hq
      obtain ⟨rfl, rfl⟩ := hq
      refine ⟨c1, c2, c3, hsafe, fun l hl => ?_⟩
      simp only
      rw [hrun]
      exact c5 l hl
    · simp only [updAt_ne _ _ e] at hq
      obtain ⟨d1, d2, d3, d4, d5⟩ := h.cur t' ht' j q hq
      refine ⟨d1, d2, d3, d4, fun l hl => ?_⟩
      rw [← d5 l hl]
      apply d4.run_agree _ _ _ l hl
      intro l' hl'
      apply hmem
      rcases hl' with hl' | hl' <;> rw [hl']
      · simp
      · intro e2
        injection e2 with e2
        subst e2
        exact e (h.uniq t' t ht' ht _ _ _ hq hc)
  · intro t1 t2 h1 h2 j q q' e1 e2
    have f : ∀ t', t' < T → ∀ q, updAt s.cur t (some (i, p')) t' = some (j, q) → ∃ q, s.cur t' = some (j, q) := by
      intro t' _ q hq
      by_cases e : t' = t
      · subst e
        simp only [updAt_self, Option.some.injEq, Prod.mk.injEq] at hq
        exact ⟨p, by rw [hc, hq.1]⟩
      · rw [updAt_ne _ _ e] at hq
        exact ⟨q, hq⟩
    obtain ⟨q1, g1⟩ := f t1 h1 q e1
    obtain ⟨q2, g2⟩ := f t2 h2 q' e2
    exact h.uniq t1 t2 h1 h2 j q1 q2 g1 g2
  · intro l j hl hj
    simp only at hj ⊢
    rw [hmem l, h.fresh l j hl hj]
    intro e
    rw [hl] at e
    injection e with e
    subst e
    rw [c3] at hj
    simp at hj
  · intro l j hl hj hn
    simp only at hj ⊢
    have hji : j ≠ i := by
      rintro rfl
      exact hn t ht p' (by simp)
    rw [hmem l (by rw [hl]; simpa using hji)]
    apply h.compl l j hl hj
    intro t' ht' q hq
    by_cases e : t' = t
    · subst e
      rw [hc] at hq
      simp only [Option.some.injEq, Prod.mk.injEq] at hq
      exact hji hq.1.symm
    · exact hn t' ht' q (by simp only [updAt_ne _ _ e]; exact hq)
  · intro l hl
    simp only
    rw [hmem l (by rw [hl]; simp), h.unowned l hl]

/-- All iterations of loop `k` are completed: the memory is that after the loop. -/
theorem PInv.memAt_succ (hr : RaceFree reg alloc owner) {k : Nat} {s : PState A R} (h : PInv reg alloc owner T m k s)
    (hk : k < reg.phases) (hs : ∀ i, i < reg.count k → s.started k i = true) (hc : ∀ t, t < T → s.cur t = none) :
    s.mem = reg.memAt (k + 1) m := by
  rw [Region.memAt_succ, seqPhase_eq hr hk]
  funext l
  unfold phaseMem
  cases ho : owner k l with
  | none => exact h.unowned l ho
  | some i =>
    simp only
    split
    · next hi =>
      apply h.compl l i ho (hs i hi)
      intro t ht p hp
      rw [hc t ht] at hp
      simp at hp
    · next hi => exact h.fresh l i ho (h.later k i (Or.inr (Or.inl ⟨by omega, rfl⟩)))

theorem PInv.step (hr : RaceFree reg alloc owner) {k : Nat} {s s' : PState A R} (h : PInv reg alloc owner T m k s)
    (hs : PStep reg T may s s') : ∃ k', PInv reg alloc owner T m k' s' := by
  cases hs with
  | take t i ht hk hc hi hst hm =>
    -- the thread is in loop `k`
    have hph : s.phase t = k := by
      rcases h.phase t ht with e | ⟨e, _⟩
      · exact e
      · exfalso
        -- iterations of an earlier loop have all been handed out
        have := h.prev (s.phase t) i (by omega) hi
        rw [hst] at this
        simp at this
    rw [hph] at hk hi hst ⊢
    refine ⟨k, { le := h.le, phase := ?_, here := h.here, cur := ?_, uniq := ?_, fresh := ?_, compl := ?_,
                 unowned := h.unowned, prev := ?_, later := ?_ }⟩
    · intro t' ht'
      by_cases e : t' = t
      · subst e; exact Or.inl hph
      · simp only [updAt_ne _ _ e]; exact h.phase t' ht'
    · intro t' ht' j q hq
      by_cases e : t' = t
      · subst e
        simp only [updAt_self, Option.some.injEq, Prod.mk.injEq] at hq
        obtain ⟨rfl, rfl⟩ := hq
        have hsafe := hr.safe k i hk hi
        refine ⟨hk, hi, by simp, hsafe, fun l hl => ?_⟩
        apply hsafe.run_agree _ _ _ l hl
        intro l' hl'
        rcases hl' with hl' | hl'
        · exact h.unowned l' hl'
        · exact h.fresh l' i hl' hst
      · simp only [updAt_ne _ _ e] at hq
        obtain ⟨d1, d2, d3, d4, d5⟩ := h.cur t' ht' j q hq
        refine ⟨d1, d2, ?_, d4, d5⟩
        simp only [updAt_self]
        by_cases e2 : j = i
        · subst e2; simp
        · rw [updAt_ne _ _ e2]; exact d3
    · intro t1 t2 h1 h2 j q q' e1 e2
      by_cases a1 : t1 = t
      · by_cases a2 : t2 = t
        · rw [a1, a2]
        · exfalso
          subst a1
          simp only [updAt_self, updAt_ne _ _ a2, Option.some.injEq, Prod.mk.injEq] at e1 e2
          have := (h.cur t2 h2 j q' e2).2.2.1
          rw [← e1.1, hst] at this
          simp at this
      · by_cases a2 : t2 = t
        · exfalso
          subst a2
          simp only [updAt_self, updAt_ne _ _ a1, Option.some.injEq, Prod.mk.injEq] at e1 e2
          have := (h.cur t1 h1 j q e1).2.2.1
          rw [← e2.1, hst] at this
          simp at this
        · simp only [updAt_ne _ _ a1, updAt_ne _ _ a2] at e1 e2
          exact h.uniq t1 t2 h1 h2 j q q' e1 e2
    · intro l j hl hj
      simp only [updAt_self] at hj
      by_cases e2 : j = i
      · subst e2; simp at hj
      · rw [updAt_ne _ _ e2] at hj
        exact h.fresh l j hl hj
    · intro l j hl hj hn
      simp only [updAt_self] at hj
      have e2 : j ≠ i := by
        rintro rfl
        exact hn t ht (reg.prog k j) (by simp)
      rw [updAt_ne _ _ e2] at hj
      apply h.compl l j hl hj
      intro t' ht' q hq
      by_cases e : t' = t
      · subst e; rw [hc] at hq; simp at hq
      · exact hn t' ht' q (by simp only [updAt_ne _ _ e]; exact hq)
    · intro k' j hk' hj
      simp only
      rw [updAt_ne _ _ (by omega)]
      exact h.prev k' j hk' hj
    · intro k' j hj
      simp only
      by_cases e : k' = k
      · subst e
        simp only [updAt_self]
        by_cases e2 : j = i
        · subst e2
          exfalso
          rcases hj with hj | ⟨hj, _⟩ | hj <;> omega
        · rw [updAt_ne _ _ e2]; exact h.later k' j hj
      · rw [updAt_ne _ _ e]; exact h.later k' j hj
  | read t i l p ht hc =>
    obtain ⟨_, _, _, c4, _⟩ := h.cur t ht i _ hc
    cases c4 with
    | read ha ho hk =>
      exact ⟨k, h.access ht hc (hk _) rfl (fun _ _ => rfl)⟩
  | write t i l x p ht hc =>
    obtain ⟨_, _, _, c4, _⟩ := h.cur t ht i _ hc
    cases c4 with
    | write ha ho hk =>
      refine ⟨k, h.access ht hc hk rfl ?_⟩
      intro l' hl'
      simp only [Mem.set]
      rw [if_neg]
      rintro rfl
      exact hl' ho
  | finish t i ht hc =>
    obtain ⟨c1, c2, c3, c4, c5⟩ := h.cur t ht i _ hc
    refine ⟨k, { le := h.le, phase := ?_, here := h.here, cur := ?_, uniq := ?_, fresh := h.fresh, compl := ?_,
                 unowned := h.unowned, prev := h.prev, later := h.later }⟩
    · intro t' ht'
      by_cases e : t' = t
      · subst e
        rcases h.phase t' ht' with h1 | ⟨h1, _⟩
        · exact Or.inl h1
        · exact Or.inr ⟨h1, by simp⟩
      · simp only [updAt_ne _ _ e]; exact h.phase t' ht'
    · intro t' ht' j q hq
      by_cases e : t' = t
      · subst e; simp at hq
      · simp only [updAt_ne _ _ e] at hq; exact h.cur t' ht' j q hq
    · intro t1 t2 h1 h2 j q q' e1 e2
      by_cases a1 : t1 = t
      · subst a1; simp at e1
      · by_cases a2 : t2 = t
        · subst a2; simp at e2
        · simp only [updAt_ne _ _ a1, updAt_ne _ _ a2] at e1 e2
          exact h.uniq t1 t2 h1 h2 j q q' e1 e2
    · intro l j hl hj hn
      by_cases e2 : j = i
      · subst e2
        exact c5 l hl
      · apply h.compl l j hl hj
        intro t' ht' q hq
        by_cases e : t' = t
        · subst e
          rw [hc] at hq
          simp only [Option.some.injEq, Prod.mk.injEq] at hq
          exact e2 hq.1.symm
        · exact hn t' ht' q (by simp only [updAt_ne _ _ e]; exact hq)
  | barrier t ht hk hst ha =>
    rcases h.phase t ht with e | ⟨e, hcn⟩
    · -- the first thread to leave
      have hall : ∀ t', t' < T → s.phase t' = k ∧ s.cur t' = none := by
        intro t' ht'
        have := ha t' ht'
        rcases h.phase t' ht' with e' | ⟨e', _⟩
        · exact ⟨e', this.2 (by omega)⟩
        · omega
      rw [e] at hk hst ⊢
      have hmem := h.memAt_succ hr hk hst (fun t' ht' => (hall t' ht').2)
      refine ⟨k + 1, { le := hk, phase := ?_, here := ⟨t, ht, by simp⟩, cur := ?_, uniq := ?_, fresh := ?_, compl := ?_,
                       unowned := ?_, prev := ?_, later := ?_ }⟩
      · intro t' ht'
        by_cases e' : t' = t
        · subst e'; left; simp
        · right
          simp only [updAt_ne _ _ e']
          exact ⟨by rw [(hall t' ht').1], (hall t' ht').2⟩
      · intro t' ht' i p hp
        rw [show ({ s with phase := updAt s.phase t (k + 1) } : PState A R).cur t' = s.cur t' from rfl,
          (hall t' ht').2] at hp
        simp at hp
      · intro t1 t2 h1 h2 j q q' e1 e2
        exact h.uniq t1 t2 h1 h2 j q q' e1 e2
      · intro l i _ _; exact congrFun hmem l
      · intro l i _ hi
        have := h.later (k + 1) i (Or.inl (by omega))
        simp only at hi
        rw [this] at hi
        simp at hi
      · intro l _; exact congrFun hmem l
      · intro k' i hk' hi
        rcases Nat.lt_or_ge k' k with h1 | h1
        · exact h.prev k' i h1 hi
        · have : k' = k := by omega
          subst this
          exact hst i hi
      · intro k' i hki
        exact h.later k' i (by omega)
    · -- another thread follows
      refine ⟨k, { le := h.le, phase := ?_, here := ⟨t, ht, by simp [e]⟩, cur := h.cur, uniq := h.uniq, fresh := h.fresh,
                   compl := h.compl, unowned := h.unowned, prev := h.prev, later := h.later }⟩
      intro t' ht'
      by_cases e' : t' = t
      · subst e'; left; simp [e]
      · simp only [updAt_ne _ _ e']; exact h.phase t' ht'

theorem PInv.reach (hr : RaceFree reg alloc owner) (hT : 0 < T) {s : PState A R} (h : PReach reg T may m s) :
    ∃ k, PInv reg alloc owner T m k s := by
  induction h with
  | init => exact ⟨0, PInv.init reg alloc owner hT m⟩
  | step _ hs ih =>
    obtain ⟨k, hk⟩ := ih
    exact hk.step hr hs

/-- Every complete execution leaves the memory of the sequential one. -/
theorem PReach.final_mem (hr : RaceFree reg alloc owner) (hT : 0 < T) {s : PState A R} (h : PReach reg T may m s)
    (hf : s.Final reg T) : s.mem = reg.seq m := by
  obtain ⟨k, hk⟩ := PInv.reach hr hT h
  obtain ⟨t, ht, e⟩ := hk.here
  have : k = reg.phases := by rw [← e]; exact hf t ht
  subst this
  funext l
  rw [Region.seq]
  change s.mem l = reg.memAt reg.phases m l
  cases ho : owner reg.phases l with
  | none => exact hk.unowned l ho
  | some i => exact hk.fresh l i ho (hk.later _ i (Or.inr (Or.inr (Nat.le_refl _))))

/-- No execution runs into undefined behaviour. -/
theorem PReach.not_faulty (hr : RaceFree reg alloc owner) (hT : 0 < T) {s : PState A R} (h : PReach reg T may m s) :
    ¬ s.Faulty alloc T := by
  obtain ⟨k, hk⟩ := PInv.reach hr hT h
  rintro ⟨t, ht, i, h1⟩
  rcases h1 with ⟨e, h1⟩ | ⟨l, p, h1, h2⟩ | ⟨l, x, p, h1, h2⟩
  · obtain ⟨_, _, _, c4, _⟩ := hk.cur t ht i _ h1
    cases c4
  · obtain ⟨_, _, _, c4, _⟩ := hk.cur t ht i _ h1
    cases c4 with
    | read ha _ _ => exact h2 ha
  · obtain ⟨_, _, _, c4, _⟩ := hk.cur t ht i _ h1
    cases c4 with
    | write ha _ _ => exact h2 ha

/-- No execution gets stuck before its end. -/
theorem PReach.progress (hr : RaceFree reg alloc owner) (hT : 0 < T) (hcov : Covers reg T may) {s : PState A R}
    (h : PReach reg T may m s) (hf : ¬ s.Final reg T) : ∃ s', PStep reg T may s s' := by
  obtain ⟨k, hk⟩ := PInv.reach hr hT h
  by_cases hcur : ∃ t, t < T ∧ s.cur t ≠ none
  · obtain ⟨t, ht, hne⟩ := hcur
    obtain ⟨⟨i, p⟩, hp⟩ := Option.ne_none_iff_exists'.1 hne
    obtain ⟨_, _, _, c4, _⟩ := hk.cur t ht i p hp
    cases c4 with
    | done => exact ⟨_, .finish s t i ht hp⟩
    | read => exact ⟨_, .read s t i _ _ ht hp⟩
    | write => exact ⟨_, .write s t i _ _ _ ht hp⟩
  · have hnone : ∀ t, t < T → s.cur t = none := by
      intro t ht
      by_contra hne
      exact hcur ⟨t, ht, hne⟩
    by_cases hlag : ∃ t, t < T ∧ s.phase t + 1 = k
    · obtain ⟨t, ht, e⟩ := hlag
      refine ⟨_, .barrier s t ht (by have := hk.le; omega) (fun i hi => hk.prev _ i (by omega) hi) ?_⟩
      intro t' ht'
      refine ⟨?_, fun _ => hnone t' ht'⟩
      rcases hk.phase t' ht' with h1 | ⟨h1, _⟩ <;> omega
    · have hph : ∀ t, t < T → s.phase t = k := by
        intro t ht
        rcases hk.phase t ht with h1 | ⟨h1, _⟩
        · exact h1
        · exact absurd ⟨t, ht, h1⟩ hlag
      have hkl : k < reg.phases := by
        rcases Nat.lt_or_ge k reg.phases with h1 | h1
        · exact h1
        · exfalso
          apply hf
          intro t ht
          rw [hph t ht]
          have := hk.le
          omega
      by_cases hall : ∀ i, i < reg.count k → s.started k i = true
      · refine ⟨_, .barrier s 0 hT (by rw [hph 0 hT]; exact hkl) (by rw [hph 0 hT]; exact hall) ?_⟩
        intro t' ht'
        exact ⟨(by rw [hph 0 hT, hph t' ht']; exact Nat.le_refl k), fun _ => hnone t' ht'⟩
      · push Not at hall
        obtain ⟨i, hi, hns⟩ := hall
        obtain ⟨t, ht, hm⟩ := hcov k i hkl hi
        have e := hph t ht
        refine ⟨_, .take s t i ht (by rw [e]; exact hkl) (hnone t ht) (by rw [e]; exact hi) ?_ (by rw [e]; exact hm)⟩
        rw [e]
        simpa using hns

end Fidi
