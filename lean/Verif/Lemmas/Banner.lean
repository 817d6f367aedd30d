import Verif.Model.MainsOther
import Verif.Lemmas.MainsOther

/-
Executions of the region that writes the text about the threads, for every number of threads.
-/
namespace Fidi

variable {A S : Type} [DecidableEq A]

/-- What is left of an iteration, and the memory, after the next `n` accesses. -/
def Prog.after : Nat → Prog A S → Mem A S → Prog A S × Mem A S
  | 0, p, m => (p, m)
  | n + 1, .read l k, m => (k (m l)).after n m
  | n + 1, .write l x k, m => k.after n (m.set l x)
  | _ + 1, .done, m => (.done, m)
  | _ + 1, .fault e, m => (.fault e, m)

/-- The state in which thread `t` of `T` is in its own iteration `t` of the first loop, with `P t` left of it. -/
def ownState (T : Nat) (P : Nat → Prog A S) (m : Mem A S) : PState A S where
  mem := m
  phase := fun _ => 0
  cur := fun t => if t < T then some (t, P t) else none
  started := fun k i => k = 0 ∧ i < T

section
variable {reg : Region A S} {T : Nat} {may : Nat → Nat → Nat → Prop} {m0 : Mem A S}

theorem ownState_take (h1 : reg.phases = 1) (hc : reg.count 0 = T) (hm : ∀ t, t < T → may 0 t t) :
    PReach reg T may m0 (ownState T (reg.prog 0) m0) := by
  have key : ∀ j, j ≤ T → PReach reg T may m0 (ownState j (reg.prog 0) m0) := by
    intro j
    induction j with
    | zero =>
      intro _
      have e : ownState 0 (reg.prog 0) m0 = PState.init m0 := by simp [ownState, PState.init]
      rw [e]
      exact .init
    | succ j ih =>
      intro hj
      refine cast ?_ (PReach.step (ih (by omega)) (.take _ j j (by omega) (by simp [ownState, h1]) (by simp [ownState])
        (by simp [ownState, hc]; omega) (by simp [ownState]) (hm j (by omega))))
      congr 1
      simp only [ownState, PState.mk.injEq, true_and]
      constructor
      · funext t
        by_cases e : t = j
        · simp [updAt, e]
        · by_cases e2 : t < j
          · simp [updAt, e, e2, show t < j + 1 by omega]
          · simp [updAt, e, e2, show ¬ t < j + 1 by omega]
      · funext k i
        by_cases e : k = 0
        · by_cases e2 : i = j
          · simp [updAt, e, e2]
          · by_cases e3 : i < j
            · simp [updAt, e, e2, e3, show i < j + 1 by omega]
            · simp [updAt, e, e2, e3, show ¬ i < j + 1 by omega]
        · simp [updAt, e]
  exact key T le_rfl

theorem ownState_access {P : Nat → Prog A S} {m : Mem A S} {t : Nat} (ht : t < T)
    (h : PReach reg T may m0 (ownState T P m)) :
    PReach reg T may m0 (ownState T (updAt P t ((P t).after 1 m).1) ((P t).after 1 m).2) := by
  have hcur : (ownState T P m).cur t = some (t, P t) := by simp [ownState, ht]
  have hupd : ∀ p, updAt (ownState T P m).cur t (some (t, p)) = (ownState T (updAt P t p) m).cur := by
    intro p
    funext t'
    by_cases e : t' = t
    · subst e; simp [updAt, ownState, ht]
    · simp [updAt, ownState, e]
  have hself : ownState T (updAt P t (P t)) m = ownState T P m := by
    have : updAt P t (P t) = P := by
      funext t'
      by_cases e : t' = t
      · subst e; simp [updAt]
      · simp [updAt, e]
    rw [this]
  cases hp : P t with
  | done => rw [hp] at hself; exact hself ▸ h
  | fault e => rw [hp] at hself; exact hself ▸ h
  | read l k =>
    have := PReach.step h (.read _ t t l k ht (hp ▸ hcur))
    rw [hupd] at this
    exact this
  | write l x k =>
    have := PReach.step h (.write _ t t l x k ht (hp ▸ hcur))
    rw [hupd] at this
    exact this

theorem Prog.after_succ (n : Nat) (p : Prog A S) (m : Mem A S) :
    p.after (n + 1) m = (p.after 1 m).1.after n (p.after 1 m).2 := by
  cases p <;> simp [Prog.after]
  all_goals cases n <;> simp [Prog.after]

/-- Thread `t` executes its next `n` accesses. -/
theorem ownState_go {t : Nat} (ht : t < T) : ∀ (n : Nat) {P : Nat → Prog A S} {m : Mem A S},
    PReach reg T may m0 (ownState T P m) →
    PReach reg T may m0 (ownState T (updAt P t ((P t).after n m).1) ((P t).after n m).2)
  | 0, P, m, h => by
    have : updAt P t (P t) = P := by
      funext t'
      by_cases e : t' = t
      · subst e; simp [updAt]
      · simp [updAt, e]
    simpa [Prog.after, this] using h
  | n + 1, P, m, h => by
    have := ownState_go ht n (ownState_access ht h)
    rw [Prog.after_succ]
    have e : updAt P t ((P t).after 1 m).1 t = ((P t).after 1 m).1 := by simp [updAt]
    rw [e] at this
    have e2 : ∀ p q, updAt (updAt P t p) t q = updAt P t q := by
      intro p q; funext t'; by_cases e : t' = t <;> simp [updAt, e]
    rw [e2] at this
    exact this

/-- All threads have done their iteration: they end it and pass the barrier. -/
theorem ownState_final (h1 : reg.phases = 1) (hc : reg.count 0 = T) {P : Nat → Prog A S} {m : Mem A S}
    (hd : ∀ t, t < T → P t = .done) (h : PReach reg T may m0 (ownState T P m)) :
    ∃ s, PReach reg T may m0 s ∧ s.Final reg T ∧ s.mem = m := by
  have hfin : ∀ j, j ≤ T → PReach reg T may m0 { ownState T P m with
      cur := fun t => if j ≤ t ∧ t < T then some (t, P t) else none } := by
    intro j
    induction j with
    | zero => intro _; simpa [ownState] using h
    | succ j ih =>
      intro hj
      refine cast ?_ (PReach.step (ih (by omega)) (.finish _ j j (by omega) (by simp [show j < T by omega, hd j (by omega)])))
      congr 1
      simp only [PState.mk.injEq, true_and, and_true]
      funext t
      by_cases e : t = j
      · subst e; simp [updAt]
      · by_cases e2 : j ≤ t ∧ t < T
        · simp [updAt, e, e2, show j + 1 ≤ t by omega]
        · simp [updAt, e, e2, show ¬ (j + 1 ≤ t ∧ t < T) by omega]
  have hall := hfin T le_rfl
  have hnone : (fun t => if T ≤ t ∧ t < T then some (t, P t) else none) = fun _ : Nat => (none : Option (Nat × Prog A S)) := by
    funext t; simp
  rw [hnone] at hall
  have hpass : ∀ j, j ≤ T → PReach reg T may m0 { ownState T P m with
      cur := fun _ => none, phase := fun t => if t < j then 1 else 0 } := by
    intro j
    induction j with
    | zero => intro _; simpa [ownState] using hall
    | succ j ih =>
      intro hj
      refine cast ?_ (PReach.step (ih (by omega)) (.barrier _ j (by omega) (by simp [h1])
        (by intro i hi; simp [hc] at hi; simp [ownState, hi]) (by intro t' _; simp)))
      congr 1
      simp only [PState.mk.injEq, true_and, and_true]
      funext t
      by_cases e : t = j
      · subst e; simp [updAt]
      · by_cases e2 : t < j
        · simp [updAt, e, e2, show t < j + 1 by omega]
        · simp [updAt, e, e2, show ¬ t < j + 1 by omega]
  refine ⟨_, hpass T le_rfl, ?_, rfl⟩
  intro t ht
  simp [ht, h1]

end
end Fidi
