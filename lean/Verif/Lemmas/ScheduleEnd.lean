import Verif.Lemmas.Schedule
import Mathlib.Algebra.BigOperators.Group.Finset.Basic
import Mathlib.Algebra.Order.BigOperators.Group.Finset

/-
Executions of regions are finite: a bound on the number of steps.
-/
namespace Fidi

variable {A R : Type} [DecidableEq A]

/-- The iteration makes at most `n` memory accesses. -/
inductive Prog.LenLe : Nat → Prog A R → Prop where
  | done (n : Nat) : Prog.LenLe n .done
  | fault (n : Nat) (e : UB) : Prog.LenLe n (.fault e)
  | read {n : Nat} {l : A} {k : R → Prog A R} (h : ∀ x, Prog.LenLe n (k x)) : Prog.LenLe (n + 1) (.read l k)
  | write {n : Nat} {l : A} {x : R} {k : Prog A R} (h : Prog.LenLe n k) : Prog.LenLe (n + 1) (.write l x k)

theorem sum_upd_le {T t d : Nat} (ht : t < T) {F G : Nat → Nat} (hne : ∀ t', t' ≠ t → G t' = F t') (h : G t + d ≤ F t) :
    ∑ t' ∈ Finset.range T, G t' + d ≤ ∑ t' ∈ Finset.range T, F t' := by
  have hm : t ∈ Finset.range T := Finset.mem_range.2 ht
  rw [← Finset.add_sum_erase _ _ hm, ← Finset.add_sum_erase (Finset.range T) F hm]
  have : ∑ x ∈ (Finset.range T).erase t, G x = ∑ x ∈ (Finset.range T).erase t, F x :=
    Finset.sum_congr rfl fun x hx => hne x (Finset.ne_of_mem_erase hx)
  omega

/-- Cost of the current iteration of a thread. -/
def curCost (c : Nat) : Option (Nat × Prog A R) → Nat
  | none => 0
  | some _ => c + 1

/-- Bound on the number of steps left. -/
def potential (reg : Region A R) (T B : Nat) (c : Nat → Nat) (s : PState A R) : Nat :=
  ∑ t ∈ Finset.range T, (reg.phases - s.phase t) +
  ∑ k ∈ Finset.range reg.phases, ∑ i ∈ Finset.range (reg.count k), (if s.started k i then 0 else B + 2) +
  ∑ t ∈ Finset.range T, curCost (c t) (s.cur t)

variable {reg : Region A R} {T : Nat} {may : Nat → Nat → Nat → Prop}

theorem potential_step {B : Nat} (hB : ∀ k i, k < reg.phases → i < reg.count k → (reg.prog k i).LenLe B)
    {s s' : PState A R} {c : Nat → Nat} (hc : ∀ t i p, t < T → s.cur t = some (i, p) → p.LenLe (c t))
    (h : PStep reg T may s s') :
    ∃ c', (∀ t i p, t < T → s'.cur t = some (i, p) → p.LenLe (c' t)) ∧
      potential reg T B c' s' + 1 ≤ potential reg T B c s := by
  -- one thread changes its current iteration
  have hcur : ∀ (t : Nat) (o : Option (Nat × Prog A R)) (x : Nat), t < T →
      (∀ i p, o = some (i, p) → p.LenLe x) → ∀ t' i p, t' < T → updAt s.cur t o t' = some (i, p) →
      p.LenLe (updAt c t x t') := by
    intro t o x ht ho t' i p ht' hp
    by_cases e : t' = t
    · subst e; simp only [updAt_self] at hp ⊢; exact ho i p hp
    · rw [updAt_ne _ _ e] at hp ⊢; exact hc t' i p ht' hp
  have hsum : ∀ (t : Nat) (o : Option (Nat × Prog A R)) (x d : Nat), t < T → curCost x o + d ≤ curCost (c t) (s.cur t) →
      ∑ t' ∈ Finset.range T, curCost (updAt c t x t') (updAt s.cur t o t') + d ≤
        ∑ t' ∈ Finset.range T, curCost (c t') (s.cur t') := by
    intro t o x d ht hd
    refine sum_upd_le ht ?_ ?_
    · intro t' e; simp only [updAt_ne _ _ e]
    · simpa only [updAt_self] using hd
  cases h with
  | take t i ht hk hcn hi hs hm =>
    refine ⟨updAt c t B, ?_, ?_⟩
    · apply hcur t _ B ht
      intro i' p e
      simp only [Option.some.injEq, Prod.mk.injEq] at e
      obtain ⟨rfl, rfl⟩ := e
      exact hB _ _ hk hi
    · unfold potential
      have h1 : ∑ t' ∈ Finset.range T, curCost (updAt c t B t')
            (updAt s.cur t (some (i, reg.prog (s.phase t) i)) t') ≤
          ∑ t' ∈ Finset.range T, curCost (c t') (s.cur t') + (B + 1) := by
        have hm' : t ∈ Finset.range T := Finset.mem_range.2 ht
        rw [← Finset.add_sum_erase _ _ hm', ← Finset.add_sum_erase (Finset.range T) _ hm']
        have : ∑ x ∈ (Finset.range T).erase t, curCost (updAt c t B x)
              (updAt s.cur t (some (i, reg.prog (s.phase t) i)) x) =
            ∑ x ∈ (Finset.range T).erase t, curCost (c x) (s.cur x) := by
          apply Finset.sum_congr rfl
          intro x hx
          rw [updAt_ne _ _ (Finset.ne_of_mem_erase hx), updAt_ne _ _ (Finset.ne_of_mem_erase hx)]
        rw [this]
        simp only [updAt_self, curCost]
        omega
      have h2 : ∑ k ∈ Finset.range reg.phases, ∑ j ∈ Finset.range (reg.count k),
            (if updAt s.started (s.phase t) (updAt (s.started (s.phase t)) i true) k j then 0 else B + 2) + (B + 2) ≤
          ∑ k ∈ Finset.range reg.phases, ∑ j ∈ Finset.range (reg.count k), (if s.started k j then 0 else B + 2) := by
        refine sum_upd_le hk ?_ ?_
        · intro k e; simp only [updAt_ne _ _ e]
        · simp only [updAt_self]
          refine sum_upd_le hi ?_ ?_
          · intro j e; rw [updAt_ne _ _ e]
          · simp [hs]
      simp only
      omega
  | read t i l k ht hcu =>
    have hl := hc t i _ ht hcu
    cases hct : c t with
    | zero => rw [hct] at hl; cases hl
    | succ n =>
      rw [hct] at hl
      cases hl with
      | read hl =>
        refine ⟨updAt c t n, hcur t _ n ht ?_, ?_⟩
        · intro i' p e
          simp only [Option.some.injEq, Prod.mk.injEq] at e
          obtain ⟨_, rfl⟩ := e
          exact hl _
        · have := hsum t (some (i, k (s.mem l))) n 1 ht (by rw [hcu, hct]; simp [curCost])
          unfold potential
          simp only
          omega
  | write t i l x k ht hcu =>
    have hl := hc t i _ ht hcu
    cases hct : c t with
    | zero => rw [hct] at hl; cases hl
    | succ n =>
      rw [hct] at hl
      cases hl with
      | write hl =>
        refine ⟨updAt c t n, hcur t _ n ht ?_, ?_⟩
        · intro i' p e
          simp only [Option.some.injEq, Prod.mk.injEq] at e
          obtain ⟨_, rfl⟩ := e
          exact hl
        · have := hsum t (some (i, k)) n 1 ht (by rw [hcu, hct]; simp [curCost])
          unfold potential
          simp only
          omega
  | finish t i ht hcu =>
    refine ⟨updAt c t 0, hcur t _ 0 ht (by simp), ?_⟩
    have := hsum t none 0 1 ht (by rw [hcu]; simp [curCost])
    unfold potential
    simp only
    omega
  | barrier t ht hk hs ha =>
    refine ⟨c, hc, ?_⟩
    have : ∑ t' ∈ Finset.range T, (reg.phases - updAt s.phase t (s.phase t + 1) t') + 1 ≤
        ∑ t' ∈ Finset.range T, (reg.phases - s.phase t') := by
      refine sum_upd_le ht ?_ ?_
      · intro t' e; rw [updAt_ne _ _ e]
      · rw [updAt_self]; omega
    unfold potential
    simp only
    omega

/-- Executions have bounded length. -/
theorem exec_bounded {B : Nat} (hB : ∀ k i, k < reg.phases → i < reg.count k → (reg.prog k i).LenLe B) (m : Mem A R)
    (σ : Nat → PState A R) (len : Nat) (h0 : σ 0 = .init m) (hstep : ∀ n, n < len → PStep reg T may (σ n) (σ (n + 1))) :
    len ≤ T * reg.phases + ∑ k ∈ Finset.range reg.phases, reg.count k * (B + 2) := by
  have key : ∀ n, n ≤ len → ∃ c, (∀ t i p, t < T → (σ n).cur t = some (i, p) → p.LenLe (c t)) ∧
      potential reg T B c (σ n) + n ≤ potential reg T B (fun _ => 0) (.init m) := by
    intro n
    induction n with
    | zero =>
      intro _
      refine ⟨fun _ => 0, ?_, by rw [h0]; exact Nat.le_refl _⟩
      intro t i p _ h
      rw [h0] at h
      simp [PState.init] at h
    | succ n ih =>
      intro hn
      obtain ⟨c, hc, hp⟩ := ih (by omega)
      obtain ⟨c', hc', hp'⟩ := potential_step hB hc (hstep n (by omega))
      exact ⟨c', hc', by omega⟩
  obtain ⟨c, _, h⟩ := key len (Nat.le_refl _)
  have : potential reg T B (fun _ => 0) (.init m) = T * reg.phases +
      ∑ k ∈ Finset.range reg.phases, reg.count k * (B + 2) := by
    simp [potential, PState.init, curCost]
  omega

/-- Executions that are never stuck before the end reach it. -/
theorem exists_final {B : Nat} (hB : ∀ k i, k < reg.phases → i < reg.count k → (reg.prog k i).LenLe B) (m : Mem A R)
    (hp : ∀ s, PReach reg T may m s → ¬ s.Final reg T → ∃ s', PStep reg T may s s') :
    ∃ s, PReach reg T may m s ∧ s.Final reg T := by
  by_contra hno
  have hno' : ∀ s, PReach reg T may m s → ∃ s', PStep reg T may s s' := fun s hs =>
    hp s hs fun hf => hno ⟨s, hs, hf⟩
  let next : {s // PReach reg T may m s} → {s // PReach reg T may m s} := fun s =>
    ⟨(hno' s.1 s.2).choose, .step s.2 (hno' s.1 s.2).choose_spec⟩
  let σ : Nat → {s // PReach reg T may m s} := fun n => Nat.rec ⟨.init m, .init⟩ (fun _ s => next s) n
  have h := exec_bounded (may := may) (T := T) hB m (fun n => (σ n).1)
    (T * reg.phases + ∑ k ∈ Finset.range reg.phases, reg.count k * (B + 2) + 1) rfl
    (fun n _ => (hno' (σ n).1 (σ n).2).choose_spec)
  omega

end Fidi
