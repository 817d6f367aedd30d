import Verif.Lemmas.Schedule
import Mathlib.Logic.Function.Iterate

/-
Two complements on executions: one thread executing equal iterations, and executions given by a list of actions.
-/
namespace Fidi

variable {A R : Type} [DecidableEq A]

/-! ### One thread -/

theorem countP_updAt (f : Nat → Bool) {i : Nat} (hf : f i = false) :
    ∀ n, (List.range n).countP (updAt f i true) = (List.range n).countP f + if i < n then 1 else 0
  | 0 => by simp
  | n + 1 => by
    rw [List.range_succ, List.countP_append, List.countP_append, countP_updAt f hf n]
    by_cases h : n = i
    · subst h
      simp [updAt, hf]
    · have e : updAt f i true n = f n := by simp [updAt, h]
      simp only [List.countP_cons, List.countP_nil, e]
      have h2 : i < n + 1 ↔ i < n := by omega
      simp only [h2]
      omega

/-- State of one thread executing copies of `p`. -/
structure OneInv (alloc : A → Prop) (p : Prog A R) (n : Nat) (m : Mem A R) (s : PState A R) : Prop where
  phase : s.phase 0 = 0 ∨ s.phase 0 = 1 ∧ s.cur 0 = none ∧ ∀ i, i < n → s.started 0 i = true
  idle : s.cur 0 = none → s.mem = p.run^[(List.range n).countP (s.started 0)] m
  busy : ∀ i q, s.cur 0 = some (i, q) → Safe (fun _ => some 0) alloc 0 q ∧
    q.run s.mem = p.run^[(List.range n).countP (s.started 0)] m

variable {reg : Region A R} {alloc : A → Prop} {p : Prog A R} {may : Nat → Nat → Nat → Prop} {m : Mem A R}

theorem OneInv.step (h1 : reg.phases = 1) (hp : ∀ i, i < reg.count 0 → reg.prog 0 i = p)
    (hsafe : Safe (fun _ => some 0) alloc 0 p) {s s' : PState A R} (h : OneInv alloc p (reg.count 0) m s)
    (hs : PStep reg 1 may s s') : OneInv alloc p (reg.count 0) m s' := by
  cases hs with
  | take t i ht hk hc hi hst hm =>
    obtain rfl : t = 0 := by omega
    have hph : s.phase 0 = 0 := by omega
    rw [hph] at hi hst
    refine ⟨?_, ?_, ?_⟩
    · exact Or.inl hph
    · intro e; simp [updAt] at e
    · intro j q e
      simp only [updAt, if_true, Option.some.injEq, Prod.mk.injEq, hph] at e
      obtain ⟨rfl, rfl⟩ := e
      rw [hp i hi]
      refine ⟨hsafe, ?_⟩
      simp only [hph]
      have e2 : updAt s.started 0 (updAt (s.started 0) i true) 0 = updAt (s.started 0) i true := by simp [updAt]
      rw [e2, countP_updAt _ hst, if_pos hi, Function.iterate_succ_apply', ← h.idle hc]
  | read t i l k ht hc =>
    obtain rfl : t = 0 := by omega
    obtain ⟨b1, b2⟩ := h.busy i _ hc
    refine ⟨?_, ?_, ?_⟩
    · rcases h.phase with e | ⟨_, e, _⟩
      · exact Or.inl e
      · rw [hc] at e; cases e
    · intro e; simp [updAt] at e
    · intro j q e
      simp only [updAt, if_true, Option.some.injEq, Prod.mk.injEq] at e
      obtain ⟨rfl, rfl⟩ := e
      cases b1 with
      | read _ _ hk => exact ⟨hk _, b2⟩
  | write t i l x k ht hc =>
    obtain rfl : t = 0 := by omega
    obtain ⟨b1, b2⟩ := h.busy i _ hc
    refine ⟨?_, ?_, ?_⟩
    · rcases h.phase with e | ⟨_, e, _⟩
      · exact Or.inl e
      · rw [hc] at e; cases e
    · intro e; simp [updAt] at e
    · intro j q e
      simp only [updAt, if_true, Option.some.injEq, Prod.mk.injEq] at e
      obtain ⟨rfl, rfl⟩ := e
      cases b1 with
      | write _ _ hk => exact ⟨hk, b2⟩
  | finish t i ht hc =>
    obtain rfl : t = 0 := by omega
    obtain ⟨b1, b2⟩ := h.busy i _ hc
    refine ⟨?_, ?_, ?_⟩
    · rcases h.phase with e | ⟨_, e, _⟩
      · exact Or.inl e
      · rw [hc] at e; cases e
    · intro _; exact b2
    · intro j q e; simp [updAt] at e
  | barrier t ht hk hst ha =>
    obtain rfl : t = 0 := by omega
    have hph : s.phase 0 = 0 := by omega
    have hc := (ha 0 (by omega)).2 rfl
    refine ⟨Or.inr ⟨by simp [updAt, hph], hc, ?_⟩, h.idle, h.busy⟩
    rw [hph] at hst
    exact hst

theorem OneInv.reach (h1 : reg.phases = 1) (hp : ∀ i, i < reg.count 0 → reg.prog 0 i = p)
    (hsafe : Safe (fun _ => some 0) alloc 0 p) {s : PState A R} (hs : PReach reg 1 may m s) :
    OneInv alloc p (reg.count 0) m s := by
  induction hs with
  | init => exact ⟨Or.inl rfl, fun _ => by simp [PState.init], fun i q h => by simp [PState.init] at h⟩
  | step _ hst ih => exact ih.step h1 hp hsafe hst

theorem OneInv.not_faulty {n : Nat} {s : PState A R} (h : OneInv alloc p n m s) : ¬ s.Faulty alloc 1 := by
  rintro ⟨t, ht, i, h1⟩
  obtain rfl : t = 0 := by omega
  rcases h1 with ⟨e, h1⟩ | ⟨l, q, h1, h2⟩ | ⟨l, x, q, h1, h2⟩
  · cases (h.busy i _ h1).1
  · cases (h.busy i _ h1).1 with
    | read ha _ _ => exact h2 ha
  · cases (h.busy i _ h1).1 with
    | write ha _ _ => exact h2 ha

theorem OneInv.final (h1 : reg.phases = 1) {s : PState A R} (h : OneInv alloc p (reg.count 0) m s)
    (hf : s.Final reg 1) : s.mem = p.run^[reg.count 0] m := by
  have e := hf 0 (by omega)
  rcases h.phase with e' | ⟨_, hc, hall⟩
  · omega
  · rw [h.idle hc, List.countP_eq_length.2]
    · simp
    · intro i hi
      exact hall i (by simpa using hi)

theorem OneInv.progress (h1 : reg.phases = 1) (hcov : Covers reg 1 may) {s : PState A R}
    (h : OneInv alloc p (reg.count 0) m s) (hf : ¬ s.Final reg 1) : ∃ s', PStep reg 1 may s s' := by
  have hph : s.phase 0 = 0 := by
    rcases h.phase with e | ⟨e, _, _⟩
    · exact e
    · refine absurd (fun t ht => ?_) hf
      obtain rfl : t = 0 := by omega
      rw [e, h1]
  cases hc : s.cur 0 with
  | some iq =>
    obtain ⟨i, q⟩ := iq
    cases (h.busy i q hc).1 with
    | done => exact ⟨_, .finish s 0 i (by omega) hc⟩
    | read _ _ _ => exact ⟨_, .read s 0 i _ _ (by omega) hc⟩
    | write _ _ _ => exact ⟨_, .write s 0 i _ _ _ (by omega) hc⟩
  | none =>
    by_cases hall : ∀ i, i < reg.count 0 → s.started 0 i = true
    · refine ⟨_, .barrier s 0 (by omega) (by omega) (by rw [hph]; exact hall) ?_⟩
      intro t' ht'
      obtain rfl : t' = 0 := by omega
      exact ⟨Nat.le_refl _, fun _ => hc⟩
    · push Not at hall
      obtain ⟨i, hi, hn⟩ := hall
      obtain ⟨t, ht, hm⟩ := hcov 0 i (by omega) hi
      obtain rfl : t = 0 := by omega
      exact ⟨_, .take s 0 i (by omega) (by omega) hc (by rw [hph]; exact hi) (by rw [hph]; simpa using hn)
        (by rw [hph]; exact hm)⟩

/-! ### Executions given by lists -/

/-- Actions of a scheduler. -/
inductive Action where
  | take (t i : Nat)
  | go (t : Nat)
  | pass (t : Nat)

/-- Executes one action with a dynamic schedule, if possible. -/
def act (reg : Region A R) (T : Nat) (s : PState A R) : Action → Option (PState A R)
  | .take t i =>
    if t < T ∧ s.phase t < reg.phases ∧ (s.cur t).isNone ∧ i < reg.count (s.phase t) ∧
        s.started (s.phase t) i = false then
      some { s with
        cur := updAt s.cur t (some (i, reg.prog (s.phase t) i))
        started := updAt s.started (s.phase t) (updAt (s.started (s.phase t)) i true) }
    else none
  | .go t =>
    if t < T then
      match s.cur t with
      | some (i, .read l k) => some { s with cur := updAt s.cur t (some (i, k (s.mem l))) }
      | some (i, .write l x k) => some { s with mem := s.mem.set l x, cur := updAt s.cur t (some (i, k)) }
      | some (_, .done) => some { s with cur := updAt s.cur t none }
      | _ => none
    else none
  | .pass t =>
    if t < T ∧ s.phase t < reg.phases ∧ (∀ i, i < reg.count (s.phase t) → s.started (s.phase t) i = true) ∧
        (∀ t', t' < T → s.phase t ≤ s.phase t' ∧ (s.phase t' = s.phase t → (s.cur t').isNone = true)) then
      some { s with phase := updAt s.phase t (s.phase t + 1) }
    else none

/-- Executes a list of actions. -/
def acts (reg : Region A R) (T : Nat) : List Action → PState A R → Option (PState A R)
  | [], s => some s
  | a :: as, s => (act reg T s a).bind (acts reg T as)

theorem act_sound {T : Nat} {s s' : PState A R} {a : Action} (h : act reg T s a = some s') :
    PStep reg T (fun _ _ _ => True) s s' := by
  cases a with
  | take t i =>
    simp only [act] at h
    split at h
    · next hc =>
      injection h with h
      subst h
      exact .take s t i hc.1 hc.2.1 (by simpa using hc.2.2.1) hc.2.2.2.1 hc.2.2.2.2 trivial
    · cases h
  | go t =>
    simp only [act] at h
    split at h
    · next ht =>
      split at h
      · next hc => injection h with h; subst h; exact .read s t _ _ _ ht hc
      · next hc => injection h with h; subst h; exact .write s t _ _ _ _ ht hc
      · next hc => injection h with h; subst h; exact .finish s t _ ht hc
      · cases h
    · cases h
  | pass t =>
    simp only [act] at h
    split at h
    · next hc =>
      injection h with h
      subst h
      refine .barrier s t hc.1 hc.2.1 hc.2.2.1 fun t' ht' => ⟨(hc.2.2.2 t' ht').1, fun e => ?_⟩
      simpa using (hc.2.2.2 t' ht').2 e
    · cases h

theorem acts_sound {T : Nat} : ∀ {as : List Action} {s s' : PState A R}, acts reg T as s = some s' →
    PReach reg T (fun _ _ _ => True) m s → PReach reg T (fun _ _ _ => True) m s'
  | [], s, s', h, hr => by injection h with h; subst h; exact hr
  | a :: as, s, s', h, hr => by
    simp only [acts, Option.bind_eq_some_iff] at h
    obtain ⟨s1, h1, h2⟩ := h
    exact acts_sound h2 (.step hr (act_sound h1))

end Fidi
