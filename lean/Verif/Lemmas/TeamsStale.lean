import Verif.Lemmas.Banner
import Verif.Lemmas.UpwindTeams

/-
Executions of upwindOMP5.cxx in which two teams copy the field before either of them updates it.
-/
set_option linter.unusedSectionVars false

namespace Fidi
open Fidi.Spec Upwind

section
variable {A S : Type} [DecidableEq A] {reg : Region A S} {T : Nat} {may : Nat → Nat → Nat → Prop} {m0 : Mem A S}

theorem updAt_id {α : Type} (f : Nat → α) (t : Nat) : updAt f t (f t) = f := by
  funext t'
  by_cases e : t' = t
  · subst e; simp [updAt]
  · simp [updAt, e]

theorem updAt_twice {α : Type} (f : Nat → α) (t : Nat) (x y : α) : updAt (updAt f t x) t y = updAt f t y := by
  funext t'
  by_cases e : t' = t <;> simp [updAt, e]

theorem updAt_same {α : Type} (f : Nat → α) (t : Nat) (x : α) : updAt f t x t = x := by simp [updAt]

theorem updAt_other {α : Type} (f : Nat → α) {t t' : Nat} (x : α) (h : t' ≠ t) : updAt f t x t' = f t' := by simp [updAt, h]

/-- A thread executes its next `n` accesses. -/
theorem reach_after {t i : Nat} (ht : t < T) : ∀ (n : Nat) {s : PState A S} {p : Prog A S}, PReach reg T may m0 s →
    s.cur t = some (i, p) →
    PReach reg T may m0 { s with mem := (p.after n s.mem).2, cur := updAt s.cur t (some (i, (p.after n s.mem).1)) }
  | 0, s, p, h, hc => by
    have e : updAt s.cur t (some (i, p)) = s.cur := by rw [← hc]; exact updAt_id _ _
    simpa [Prog.after, e] using h
  | n + 1, s, p, h, hc => by
    cases p with
    | done =>
      have e : updAt s.cur t (some (i, .done)) = s.cur := by rw [← hc]; exact updAt_id _ _
      simpa [Prog.after, e] using h
    | fault e =>
      have e : updAt s.cur t (some (i, .fault e)) = s.cur := by rw [← hc]; exact updAt_id _ _
      simpa [Prog.after, e] using h
    | read l k =>
      have := reach_after ht n (PReach.step h (.read s t i l k ht hc)) (updAt_same _ _ _)
      simpa only [Prog.after, updAt_twice] using this
    | write l x k =>
      have := reach_after ht n (PReach.step h (.write s t i l x k ht hc)) (updAt_same _ _ _)
      simpa only [Prog.after, updAt_twice] using this

theorem Safe.after_run {owner : A → Option Nat} {alloc : A → Prop} {i : Nat} {p : Prog A S} (h : Safe owner alloc i p) :
    ∀ (q : Prog A S) (m : Mem A S), ∃ n, (UpwindAcc.seqProg.andThen p q).after n m = (q, p.run m) := by
  induction h with
  | done => exact fun q m => ⟨0, rfl⟩
  | @read l k _ _ _ ih =>
    intro q m
    obtain ⟨n, hn⟩ := ih (m l) q m
    exact ⟨n + 1, hn⟩
  | @write l x k _ _ _ ih =>
    intro q m
    obtain ⟨n, hn⟩ := ih q (m.set l x)
    exact ⟨n + 1, hn⟩

theorem andThen_done (p : Prog A S) : UpwindAcc.seqProg.andThen p .done = p := by
  induction p with
  | done => rfl
  | fault => rfl
  | read l k ih => simp only [UpwindAcc.seqProg.andThen]; congr 1; funext x; exact ih x
  | write l x k ih => simp only [UpwindAcc.seqProg.andThen, ih]

theorem andThen_assoc (p q r : Prog A S) :
    UpwindAcc.seqProg.andThen (UpwindAcc.seqProg.andThen p q) r = UpwindAcc.seqProg.andThen p (UpwindAcc.seqProg.andThen q r) := by
  induction p with
  | done => rfl
  | fault => rfl
  | read l k ih => simp only [UpwindAcc.seqProg.andThen]; congr 1; funext x; exact ih x
  | write l x k ih => simp only [UpwindAcc.seqProg.andThen, ih]

theorem seqProg_append (l l' : List (Prog A S)) :
    UpwindAcc.seqProg (l ++ l') = UpwindAcc.seqProg.andThen (UpwindAcc.seqProg l) (UpwindAcc.seqProg l') := by
  induction l with
  | nil => rfl
  | cons p l ih => simp only [List.cons_append, UpwindAcc.seqProg, ih, andThen_assoc]

/-- A thread executes the first part of what is left of its iteration. -/
theorem reach_part {owner : A → Option Nat} {alloc : A → Prop} {j t i : Nat} (ht : t < T) {s : PState A S} {p q : Prog A S}
    (hp : Safe owner alloc j p) (h : PReach reg T may m0 s) (hc : s.cur t = some (i, UpwindAcc.seqProg.andThen p q)) :
    PReach reg T may m0 { s with mem := p.run s.mem, cur := updAt s.cur t (some (i, q)) } := by
  obtain ⟨n, hn⟩ := hp.after_run q s.mem
  have := reach_after ht n h hc
  rwa [hn] at this

/-- A thread executes the rest of its iteration. -/
theorem reach_rest {owner : A → Option Nat} {alloc : A → Prop} {j t i : Nat} (ht : t < T) {s : PState A S} {p : Prog A S}
    (hp : Safe owner alloc j p) (h : PReach reg T may m0 s) (hc : s.cur t = some (i, p)) :
    PReach reg T may m0 { s with mem := p.run s.mem, cur := updAt s.cur t none } := by
  have := reach_part ht hp h (q := .done) (by rw [andThen_done]; exact hc)
  have := PReach.step this (.finish _ t i ht (updAt_same _ _ _))
  simpa only [updAt_twice] using this

/-- No thread is in an iteration of the only loop, and all its iterations below `j` have been handed out. -/
def idle (j : Nat) (m : Mem A S) : PState A S where
  mem := m
  phase := fun _ => 0
  cur := fun _ => none
  started := fun k i => k = 0 ∧ i < j

theorem idle_final (h1 : reg.phases = 1) {m : Mem A S} (h : PReach reg T may m0 (idle (reg.count 0) m)) :
    ∃ s, PReach reg T may m0 s ∧ s.Final reg T ∧ s.mem = m := by
  have hpass : ∀ j, j ≤ T → PReach reg T may m0 { idle (reg.count 0) m with phase := fun t => if t < j then 1 else 0 } := by
    intro j
    induction j with
    | zero => intro _; simpa [idle] using h
    | succ j ih =>
      intro hj
      refine cast ?_ (PReach.step (ih (by omega)) (.barrier _ j (by omega) (by simp [h1])
        (by intro i hi; simp at hi; simp [idle, hi]) (by intro t' _; simp [idle])))
      congr 1
      simp only [PState.mk.injEq, true_and, and_true]
      funext t
      by_cases e : t = j
      · subst e; simp [updAt]
      · by_cases e2 : t < j
        · simp [updAt, e, e2, show t < j + 1 by omega]
        · simp [updAt, e, e2, show ¬ t < j + 1 by omega]
  refine ⟨_, hpass T le_rfl, ?_, rfl⟩
  intro t ht
  simp [ht, h1]

theorem started_succ (j : Nat) : updAt (fun k i => decide (k = 0 ∧ i < j)) 0 (updAt (fun i => decide ((0 : Nat) = 0 ∧ i < j)) j true) =
    fun k i => decide (k = 0 ∧ i < j + 1) := by
  funext k i
  by_cases e : k = 0
  · by_cases e2 : i = j
    · simp [updAt, e, e2]
    · by_cases e3 : i < j
      · simp [updAt, e, e2, e3, show i < j + 1 by omega]
      · simp [updAt, e, e2, e3, show ¬ i < j + 1 by omega]
  · simp [updAt, e]

/-- The first thread executes the next iteration. -/
theorem idle_next {owner : A → Option Nat} {alloc : A → Prop} {i j : Nat} {m : Mem A S} (hT : 0 < T) (h1 : reg.phases = 1)
    (hj : j < reg.count 0) (hm : may 0 j 0) (hp : Safe owner alloc i (reg.prog 0 j)) (h : PReach reg T may m0 (idle j m)) :
    PReach reg T may m0 (idle (j + 1) ((reg.prog 0 j).run m)) := by
  have a1 := PReach.step h (.take _ 0 j hT (by simp [idle, h1]) rfl (by simpa [idle] using hj) (by simp [idle]) hm)
  have a2 := reach_rest (i := j) hT hp a1 (by simp [updAt, idle])
  refine cast ?_ a2
  congr 1
  simp only [idle, PState.mk.injEq, true_and]
  constructor
  · funext t; by_cases e : t = 0 <;> simp [updAt, e]
  · simpa using started_succ j

/-- Two threads are in the first parts of their first iterations together, then the first and the second do the rest. -/
theorem idle_two {owner : A → Option Nat} {alloc : A → Prop} {i : Nat} {p q : Prog A S} (hT : 2 ≤ T) (h1 : reg.phases = 1)
    (hj : 2 ≤ reg.count 0) (hm : ∀ t, t < 2 → may 0 t t) (hp : Safe owner alloc i p) (hq : Safe owner alloc i q)
    (hreg : ∀ j, reg.prog 0 j = UpwindAcc.seqProg.andThen p q) :
    PReach reg T may m0 (idle 2 (q.run (q.run (p.run (p.run m0))))) := by
  have a0 : PReach reg T may m0 (idle 0 m0) := by
    have e : (idle 0 m0 : PState A S) = PState.init m0 := by simp [idle, PState.init]
    rw [e]; exact .init
  have a1 := PReach.step a0 (.take _ 0 0 (by omega) (by simp [idle, h1]) rfl (by simp [idle]; omega) (by simp [idle]) (hm 0 (by omega)))
  have a2 := PReach.step a1 (.take _ 1 1 (by omega) (by simp [idle, h1]) (by simp [idle, updAt]) (by simp [idle]; omega)
    (by simp [idle, updAt]) (hm 1 (by omega)))
  have a3 := reach_part (t := 0) (i := 0) (by omega) hp a2 (q := q) (by simp [updAt, idle, hreg])
  have a4 := reach_part (t := 1) (i := 1) (by omega) hp a3 (q := q) (by simp [updAt, idle, hreg])
  have a5 := reach_rest (t := 0) (i := 0) (by omega) hq a4 (by simp [updAt])
  have a6 := reach_rest (t := 1) (i := 1) (by omega) hq a5 (by simp [updAt])
  refine cast ?_ a6
  congr 1
  simp only [idle, PState.mk.injEq, true_and]
  constructor
  · funext t; by_cases e : t = 0 <;> by_cases e1 : t = 1 <;> simp [updAt, e, e1]
  · funext k j
    by_cases e : k = 0
    · by_cases e0 : j = 0
      · simp [updAt, e, e0]
      · by_cases e1 : j = 1
        · simp [updAt, e, e1]
        · simp [updAt, e, e0, e1, show ¬ j < 2 by omega]
    · simp [updAt, e]

end

namespace UpwindAcc
variable {R : Type} [Zero R] [One R] [Add R] [Sub R] [Mul R] [Div R] [IntCast R] [LT R] [DecidableLT R]
variable {v L : List R} {a b c : Nat} {f old : List R}

/-- Updating all cells of any field `w` with the old values `u`. -/
theorem region1_seq_any (h : Good3 a b c) (dt : R) {u : List Nat → R} (m : Mem UpLoc R)
    (hm : ∀ g, InGrid [a, b, c] g → m (.oldF, rankOf [a, b, c] g) = u g) {g : List Nat} (hgr : InGrid [a, b, c] g) :
    ((withF v L a b c f old).region1 dt).seq m (.f, rankOf [a, b, c] g) = (List.range 3).foldl
        (fun acc j => acc - accCoeff dt v L [a, b, c] j * (u (neighbour [a, b, c] j (upDir v j) g) - u g))
        (m (.f, rankOf [a, b, c] g)) := by
  have hlt := rankOf_lt hgr
  rw [prod3] at hlt
  have e : ((withF v L a b c f old).region1 dt).seq m = ((withF v L a b c f old).region1 dt).seqPhase 0 m := rfl
  rw [e, seqPhase_eq (region1_raceFree h dt) (Nat.zero_lt_one)]
  have e2 : ((withF v L a b c f old).region1 dt).count 0 = a * (b * c) :=
    ntot_eq (v := v) (L := L) (f := f) (old := old)
  simp only [phaseMem, owners, e2]
  rw [if_neg (by decide)]
  simp only [if_pos hlt]
  change ((withF v L a b c f old).cellProg dt (rankOf [a, b, c] g)).run m (.f, rankOf [a, b, c] g) = _
  rw [cellProg_eq h dt hlt, cellAt_rankOf hgr, axesProg_run h dt hgr 3 0 (by omega) m hm, List.range_eq_range']

/-- Updating the cells leaves the old values. -/
theorem region1_seq_old (h : Good3 a b c) (dt : R) (m : Mem UpLoc R) (i : Nat) :
    ((withF v L a b c f old).region1 dt).seq m (.oldF, i) = m (.oldF, i) := by
  have e : ((withF v L a b c f old).region1 dt).seq m = ((withF v L a b c f old).region1 dt).seqPhase 0 m := rfl
  rw [e, seqPhase_eq (region1_raceFree h dt) (Nat.zero_lt_one)]
  simp only [phaseMem, owners]
  rw [if_neg (by decide)]

end UpwindAcc
end Fidi
