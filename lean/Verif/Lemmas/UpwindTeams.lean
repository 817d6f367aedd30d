import Verif.Lemmas.UpwindAcc
import Verif.Lemmas.ScheduleOne

/-
The region of upwindOMP5.cxx, and facts shared by the properties of the offloaded solvers.
-/
set_option linter.unusedSectionVars false

namespace Fidi
open Fidi.Spec Upwind

namespace UpwindAcc

section
variable {A R : Type} [DecidableEq A] {owner : A → Option Nat} {alloc : A → Prop} {i : Nat}

theorem run_andThen (p q : Prog A R) (m : Mem A R) (hp : Safe owner alloc i p) :
    (seqProg.andThen p q).run m = q.run (p.run m) := by
  induction hp generalizing m with
  | done => rfl
  | read _ _ _ ih => exact ih _ m
  | write _ _ _ ih => exact ih _

theorem safe_andThen {p q : Prog A R} (hp : Safe owner alloc i p) (hq : Safe owner alloc i q) :
    Safe owner alloc i (seqProg.andThen p q) := by
  induction hp with
  | done => exact hq
  | read ha ho _ ih => exact .read ha ho ih
  | write ha ho _ ih => exact .write ha ho ih

theorem run_seqProg : ∀ (l : List (Prog A R)) (m : Mem A R), (∀ p ∈ l, Safe owner alloc i p) →
    (seqProg l).run m = l.foldl (fun m p => p.run m) m
  | [], _, _ => rfl
  | p :: l, m, h => by
    rw [seqProg, run_andThen _ _ _ (h p (by simp)), run_seqProg l _ fun q hq => h q (by simp [hq])]
    rfl

theorem safe_seqProg : ∀ (l : List (Prog A R)), (∀ p ∈ l, Safe owner alloc i p) → Safe owner alloc i (seqProg l)
  | [], _ => .done
  | p :: l, h => safe_andThen (h p (by simp)) (safe_seqProg l fun q hq => h q (by simp [hq]))

/-- Safe with respect to some owners, hence with respect to a single owner of everything. -/
theorem Safe.toAll {p : Prog A R} (h : Safe owner alloc i p) (k : Nat) : Safe (fun _ => some k) alloc k p := by
  induction h with
  | done => exact .done
  | read ha _ _ ih => exact .read ha (Or.inr rfl) ih
  | write ha _ _ ih => exact .write ha rfl ih
end

variable {R : Type} [Zero R] [One R] [Add R] [Sub R] [Mul R] [Div R] [IntCast R] [LT R] [DecidableLT R]
variable {v L : List R} {a b c : Nat} {f old : List R}

/-- One iteration of the loop handed out to the teams. -/
def teamProg (s : UpwindAcc R) (dt : R) : Prog UpLoc R := seqProg ((List.range s.ntot.toNat).map Upwind.copyProg ++
  (List.range s.ntot.toNat).map (s.cellProg dt))

theorem team_parts (h : Good3 a b c) (dt : R) (k : Nat) : ∀ p ∈ (List.range (withF v L a b c f old).ntot.toNat).map
    Upwind.copyProg ++ (List.range (withF v L a b c f old).ntot.toNat).map ((withF v L a b c f old).cellProg dt),
    Safe (fun _ => some k) (gridAlloc (a * (b * c))) k p := by
  intro p hp
  rw [ntot_eq] at hp
  simp only [List.mem_append, List.mem_map, List.mem_range] at hp
  rcases hp with ⟨i, hi, rfl⟩ | ⟨i, hi, rfl⟩
  · exact .read hi (Or.inr rfl) fun x => .write hi rfl .done
  · exact Safe.toAll (cell_safe (k := 1) h dt (by decide) hi) k

theorem teamProg_safe (h : Good3 a b c) (dt : R) (k : Nat) :
    Safe (fun _ => some k) (gridAlloc (a * (b * c))) k (teamProg (withF v L a b c f old) dt) :=
  safe_seqProg _ (team_parts h dt k)

/-- One iteration executes one time step. -/
theorem teamProg_run (h : Good3 a b c) (dt : R) (m : Mem UpLoc R) :
    (teamProg (withF v L a b c f old) dt).run m = ((withF v L a b c f old).region2 1 dt).seq m := by
  unfold teamProg
  rw [run_seqProg _ _ (team_parts h dt 0), List.foldl_append, List.foldl_map, List.foldl_map]
  rfl

theorem teamProg_iter (h : Good3 a b c) (dt : R) {u : List Nat → R} (m : Mem UpLoc R)
    (hm : ∀ g, InGrid [a, b, c] g → m (.f, rankOf [a, b, c] g) = u g) (n : Nat) : ∀ g, InGrid [a, b, c] g →
      (teamProg (withF v L a b c f old) dt).run^[n] m (.f, rankOf [a, b, c] g) =
        (upwindStep [a, b, c] (upDir v) (accCoeff dt v L [a, b, c]))^[n] u g := by
  induction n with
  | zero => exact hm
  | succ n ih =>
    intro g hg
    rw [Function.iterate_succ_apply', Function.iterate_succ_apply', teamProg_run h dt]
    exact region2_memAt h 1 dt _ ih 1 (by decide) g hg

/-- The list read off the memory. -/
theorem stores_mem {m : Mem UpLoc R} {u : List Nat → R}
    (hm : ∀ g, InGrid [a, b, c] g → m (.f, rankOf [a, b, c] g) = u g) :
    Stores [a, b, c] ((List.range (a * (b * c))).map fun i => m (.f, i)) u := by
  refine ⟨by simp, fun g hg => ?_⟩
  have hlt := rankOf_lt hg
  rw [prod3] at hlt
  rw [List.getElem?_map, List.getElem?_range hlt, Option.map_some, hm g hg]

theorem alloc_of {f0 old0 : List R} {n : Nat} (h1 : f0.length = n) (h2 : old0.length = n) (l : UpLoc)
    (h : ¬ allocated f0 old0 l) : ¬ gridAlloc n l := by
  obtain ⟨_ | _, i⟩ := l
  · simpa [allocated, gridAlloc, h1] using h
  · simpa [allocated, gridAlloc, h2] using h

theorem not_faulty_of {A : Type} {al al' : A → Prop} (hal : ∀ l, ¬ al' l → ¬ al l) {T : Nat} {s : PState A R}
    (h : ¬ s.Faulty al T) : ¬ s.Faulty al' T := by
  rintro ⟨t, ht, i, h1⟩
  refine h ⟨t, ht, i, ?_⟩
  rcases h1 with h1 | ⟨l, p, h1, h2⟩ | ⟨l, x, p, h1, h2⟩
  · exact Or.inl h1
  · exact Or.inr (Or.inl ⟨l, p, h1, hal l h2⟩)
  · exact Or.inr (Or.inr ⟨l, x, p, h1, hal l h2⟩)

/-- A list storing a field, seen as memory. -/
theorem memory_f {f0 old0 : List R} {u : List Nat → R} (hf : Stores [a, b, c] f0 u) :
    ∀ g, InGrid [a, b, c] g → memory f0 old0 (.f, rankOf [a, b, c] g) = u g := by
  intro g hg
  have := hf.2 g hg
  simp only [memory, List.getD_eq_getElem?_getD, this, Option.getD_some]

theorem memory_old {f0 old0 : List R} {u : List Nat → R} (hf : Stores [a, b, c] old0 u) :
    ∀ g, InGrid [a, b, c] g → memory f0 old0 (.oldF, rankOf [a, b, c] g) = u g := by
  intro g hg
  have := hf.2 g hg
  simp only [memory, List.getD_eq_getElem?_getD, this, Option.getD_some]

/-- A sequence of calls of `advect` of upwindAcc.cxx. -/
theorem advect1s_stores (h : Good3 a b c) (dt : R) {T : Nat} (hT : 0 < T) {may : Nat → Nat → Nat → Prop} {n : Nat}
    {f0 f' : List R} (hs : (withF v L a b c f old).Advect1s T may dt n f0 f') {u : List Nat → R}
    (hf : Stores [a, b, c] f0 u) :
    Stores [a, b, c] f' ((upwindStep [a, b, c] (upDir v) (accCoeff dt v L [a, b, c]))^[n] u) := by
  induction hs with
  | zero f => exact hf
  | succ h1 h2 ih =>
    have ih := ih hf
    obtain ⟨s, hr, hfin, rfl⟩ := h2
    rw [ih.1, prod3, Function.iterate_succ_apply']
    refine stores_mem fun g hg => ?_
    rw [hr.final_mem (region1_raceFree h dt) hT hfin]
    exact region1_seq h dt _ (fun r g hg => by
      cases r
      · exact memory_f ih g hg
      · exact memory_old ih g hg) hg

end UpwindAcc
end Fidi
