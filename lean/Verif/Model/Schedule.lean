import Verif.Model.Machine

/-
Concurrent execution of work-sharing loops.

Not code of the repository: this is the execution model of OpenMP `parallel` regions (and of the compute regions of
OpenACC and of Fortran `do concurrent`) that the parallel models are written against. A region is a sequence of
work-sharing loops ("phases"), each closed by an implicit barrier. The iterations of a loop are handed out to the
threads in any order allowed by the schedule; the single memory accesses of the threads interleave arbitrarily
(sequentially consistent memory; the race-freedom proved for the programs makes this the general case).
-/
namespace Fidi

/-- One loop iteration as a sequence of accesses to shared memory; private computations are in the continuations.
`A` is the type of shared locations, `R` that of values; `fault` is undefined behaviour in a private computation. -/
inductive Prog (A R : Type) where
  | done
  | fault (e : UB)
  | read (l : A) (k : R → Prog A R)
  | write (l : A) (x : R) (k : Prog A R)

/-- Contents of the shared memory. -/
abbrev Mem (A R : Type) := A → R

/-- Memory after a store. -/
def Mem.set {A R : Type} [DecidableEq A] (m : Mem A R) (l : A) (x : R) : Mem A R := fun l' => if l' = l then x else m l'

/-- The iteration executed without interruption. -/
def Prog.run {A R : Type} [DecidableEq A] : Prog A R → Mem A R → Mem A R
  | .done, m => m
  | .fault _, m => m
  | .read l k, m => (k (m l)).run m
  | .write l x k, m => k.run (m.set l x)

/-- A sequence of work-sharing loops with a barrier after each: number of loops, number of iterations of each, and
the iterations themselves. -/
structure Region (A R : Type) where
  phases : Nat
  count : Nat → Nat
  prog : Nat → Nat → Prog A R

/-- State of an execution: memory; for each thread the loop it has reached and the iteration it is in (loop counter and
rest of the iteration), if any; and which iterations of each loop have been handed out. -/
structure PState (A R : Type) where
  mem : Mem A R
  phase : Nat → Nat
  cur : Nat → Option (Nat × Prog A R)
  started : Nat → Nat → Bool

/-- Replaces the entry of thread `t`. -/
def updAt {α : Type} (f : Nat → α) (t : Nat) (x : α) : Nat → α := fun t' => if t' = t then x else f t'

/-- One step of an execution with `T` threads. `may k i t` says that the schedule allows thread `t` to execute iteration
`i` of loop `k`: exactly one thread for static schedules, all of them for dynamic ones. -/
inductive PStep {A R : Type} [DecidableEq A] (reg : Region A R) (T : Nat) (may : Nat → Nat → Nat → Prop) :
    PState A R → PState A R → Prop where
  /-- a thread takes an iteration of its current loop -/
  | take (s : PState A R) (t i : Nat) (ht : t < T) (hk : s.phase t < reg.phases) (hc : s.cur t = none)
      (hi : i < reg.count (s.phase t)) (hs : s.started (s.phase t) i = false) (hm : may (s.phase t) i t) :
      PStep reg T may s { s with
        cur := updAt s.cur t (some (i, reg.prog (s.phase t) i))
        started := updAt s.started (s.phase t) (updAt (s.started (s.phase t)) i true) }
  /-- a thread loads from memory -/
  | read (s : PState A R) (t i : Nat) (l : A) (k : R → Prog A R) (ht : t < T) (hc : s.cur t = some (i, .read l k)) :
      PStep reg T may s { s with cur := updAt s.cur t (some (i, k (s.mem l))) }
  /-- a thread stores to memory -/
  | write (s : PState A R) (t i : Nat) (l : A) (x : R) (k : Prog A R) (ht : t < T)
      (hc : s.cur t = some (i, .write l x k)) :
      PStep reg T may s { s with mem := s.mem.set l x, cur := updAt s.cur t (some (i, k)) }
  /-- a thread completes an iteration -/
  | finish (s : PState A R) (t i : Nat) (ht : t < T) (hc : s.cur t = some (i, .done)) :
      PStep reg T may s { s with cur := updAt s.cur t none }
  /-- a thread passes the barrier: all iterations have been handed out and all threads have arrived -/
  | barrier (s : PState A R) (t : Nat) (ht : t < T) (hk : s.phase t < reg.phases)
      (hs : ∀ i, i < reg.count (s.phase t) → s.started (s.phase t) i = true)
      (ha : ∀ t', t' < T → s.phase t ≤ s.phase t' ∧ (s.phase t' = s.phase t → s.cur t' = none)) :
      PStep reg T may s { s with phase := updAt s.phase t (s.phase t + 1) }

/-- Start of the region. -/
def PState.init {A R : Type} (m : Mem A R) : PState A R :=
  { mem := m, phase := fun _ => 0, cur := fun _ => none, started := fun _ _ => false }

/-- States an execution can reach. -/
inductive PReach {A R : Type} [DecidableEq A] (reg : Region A R) (T : Nat) (may : Nat → Nat → Nat → Prop) (m : Mem A R) :
    PState A R → Prop where
  | init : PReach reg T may m (.init m)
  | step {s s' : PState A R} : PReach reg T may m s → PStep reg T may s s' → PReach reg T may m s'

/-- All threads have passed the last barrier. -/
def PState.Final {A R : Type} (reg : Region A R) (T : Nat) (s : PState A R) : Prop :=
  ∀ t, t < T → s.phase t = reg.phases

/-- Some thread is about to access a location outside the allocated ones, or has run into undefined behaviour. -/
def PState.Faulty {A R : Type} (alloc : A → Prop) (T : Nat) (s : PState A R) : Prop :=
  ∃ t, t < T ∧ ∃ i, (∃ e, s.cur t = some (i, .fault e)) ∨ (∃ l k, s.cur t = some (i, .read l k) ∧ ¬ alloc l) ∨
    (∃ l x k, s.cur t = some (i, .write l x k) ∧ ¬ alloc l)

/-- Every iteration may be executed by at least one of the threads. -/
def Covers {A R : Type} (reg : Region A R) (T : Nat) (may : Nat → Nat → Nat → Prop) : Prop :=
  ∀ k i, k < reg.phases → i < reg.count k → ∃ t, t < T ∧ may k i t

/-- The iterations of a loop one after the other. -/
def Region.seqPhase {A R : Type} [DecidableEq A] (reg : Region A R) (k : Nat) (m : Mem A R) : Mem A R :=
  (List.range (reg.count k)).foldl (fun m i => (reg.prog k i).run m) m

/-- The region executed by one thread in order. -/
def Region.seq {A R : Type} [DecidableEq A] (reg : Region A R) (m : Mem A R) : Mem A R :=
  (List.range reg.phases).foldl (fun m k => reg.seqPhase k m) m

end Fidi
