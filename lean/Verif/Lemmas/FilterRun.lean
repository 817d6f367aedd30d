import Verif.Model.FilterRun
import Verif.Lemmas.FilterCalls

/-
Invariant of the concurrent execution of the ranks.
-/
namespace Fidi
namespace Run
open Spec
variable {R : Type} {c : Cfg R}

/-! Positions. -/

/-- Position within a unit. -/
def lev : Phase → Nat
  | .ready => 0
  | .prepared _ => 1
  | .fence1 _ => 2
  | .opened _ => 3
  | .issued _ _ => 4
  | .fence2 _ _ => 5
  | .fetched _ _ => 6

theorem lev_lt (p : Phase) : lev p < 7 := by cases p <;> simp [lev]

theorem lev_setTodo (p : Phase) (t : List Nat) : lev (p.setTodo t) = lev p := by cases p <;> rfl

/-- Position in the program. -/
def Proc.pos (p : Proc R) : Nat := 7 * p.done + lev p.phase

/-- The window used by a unit. -/
def opWin (c : Cfg R) : Op R → Option Nat
  | .loc _ => none
  | .entry kv => StdMap.find c.tab.wins (sideOf kv.1)

/-- Unit `d` uses window `win`. -/
def Uses (c : Cfg R) (prog : List (Op R)) (d win : Nat) : Prop := ∃ op, prog[d]? = some op ∧ opWin c op = some win

instance (c : Cfg R) (prog : List (Op R)) (d win : Nat) : Decidable (Uses c prog d win) :=
  match h : prog[d]? with
  | none => isFalse (by rintro ⟨op, h1, _⟩; rw [h] at h1; cases h1)
  | some op =>
    if h2 : opWin c op = some win then isTrue ⟨op, h, h2⟩
    else isFalse (by rintro ⟨op', h1, h3⟩; rw [h, Option.some_inj] at h1; subst h1; exact h2 h3)

/-- Fences entered on `win` in a unit that uses it. -/
def levEnt (l : Nat) : Nat := if 5 ≤ l then 2 else if 2 ≤ l then 1 else 0

/-- Fences entered on `win` before unit `d`. -/
def entBefore (c : Cfg R) (prog : List (Op R)) (win : Nat) : Nat → Nat
  | 0 => 0
  | d + 1 => entBefore c prog win d + if Uses c prog d win then 2 else 0

/-- Fences entered on `win` at position `l` of unit `d`. -/
def ent (c : Cfg R) (prog : List (Op R)) (win d l : Nat) : Nat :=
  entBefore c prog win d + if Uses c prog d win then levEnt l else 0

theorem levEnt_le (l : Nat) : levEnt l ≤ 2 := by unfold levEnt; split <;> [omega; (split <;> omega)]

theorem levEnt_mono {l l' : Nat} (h : l ≤ l') : levEnt l ≤ levEnt l' := by
  unfold levEnt
  repeat' split
  all_goals omega

theorem entBefore_mono (prog : List (Op R)) (win : Nat) {d d' : Nat} (h : d ≤ d') :
    entBefore c prog win d ≤ entBefore c prog win d' := by
  induction h with
  | refl => exact Nat.le_refl _
  | step _ ih => exact Nat.le_trans ih (by simp [entBefore])

theorem ent_le_before (prog : List (Op R)) (win : Nat) {d d' l : Nat} (h : d < d') :
    ent c prog win d l ≤ entBefore c prog win d' := by
  refine Nat.le_trans ?_ (entBefore_mono prog win h)
  unfold ent
  simp only [entBefore]
  have := levEnt_le l
  split <;> omega

theorem ent_mono (prog : List (Op R)) (win : Nat) {d d' l l' : Nat} (hl' : l' < 7) (hl : l < 7)
    (h : 7 * d + l ≤ 7 * d' + l') : ent c prog win d l ≤ ent c prog win d' l' := by
  by_cases hd : d < d'
  · refine Nat.le_trans (ent_le_before prog win hd) ?_
    unfold ent; omega
  · have : d = d' := by omega
    subst this
    unfold ent
    have := levEnt_mono (show l ≤ l' by omega)
    split <;> omega

/-- A rank that has entered as many fences on the window has reached this one. -/
theorem pos_of_ent {prog : List (Op R)} {win d d' l l' : Nat} (hu : Uses c prog d' win) (hl : l < 7)
    (hl' : l' = 2 ∨ l' = 5) (h : ent c prog win d' l' ≤ ent c prog win d l) : 7 * d' + l' ≤ 7 * d + l := by
  by_contra hc
  by_cases hd : d < d'
  · have := ent_le_before (c := c) prog win (l := l) hd
    have h2 : ent c prog win d' l' = entBefore c prog win d' + levEnt l' := by unfold ent; rw [if_pos hu]
    have h3 : 1 ≤ levEnt l' := by rcases hl' with rfl | rfl <;> decide
    omega
  · have : d = d' := by omega
    subst this
    unfold ent at h
    rw [if_pos hu, if_pos hu] at h
    have h4 : l < l' := by omega
    unfold levEnt at h
    rcases hl' with rfl | rfl
    · rw [if_neg (by omega), if_pos (by omega), if_neg (by omega), if_neg (by omega)] at h
      omega
    · rw [if_pos (by omega), if_neg (by omega)] at h
      split at h <;> omega

theorem ent_level {prog : List (Op R)} {win d l l' : Nat} (h : levEnt l = levEnt l') : ent c prog win d l = ent c prog win d l' := by
  unfold ent; rw [h]

/-- Entering a fence. -/
theorem bump_ent {prog : List (Op R)} {e : Nat → Nat} {win d l l' : Nat} (hu : Uses c prog d win)
    (he : ∀ w, e w = ent c prog w d l) (hl : levEnt l' = levEnt l + 1) (w : Nat) : bump e win w = ent c prog w d l' := by
  unfold bump
  rw [he]
  split
  · rename_i h; subst h
    unfold ent; rw [if_pos hu, if_pos hu, hl]; omega
  · rename_i h
    have : ¬ Uses c prog d w := by
      rintro ⟨op, h1, h2⟩
      obtain ⟨op', h3, h4⟩ := hu
      rw [h1, Option.some_inj] at h3
      subst h3
      rw [h2, Option.some_inj] at h4
      exact h h4
    unfold ent; rw [if_neg this, if_neg this]

theorem ent_next {prog : List (Op R)} {win d : Nat} : ent c prog win (d + 1) 0 = ent c prog win d 6 := by
  unfold ent
  simp only [entBefore, levEnt]
  split <;> simp

/-- A unit without window. -/
theorem ent_none {prog : List (Op R)} {op : Op R} {win d l l' : Nat} (h : prog[d]? = some op) (hn : opWin c op = none) :
    ent c prog win d l = ent c prog win d l' := by
  have : ¬ Uses c prog d win := by
    rintro ⟨op', h1, h2⟩
    rw [h, Option.some_inj] at h1
    subst h1
    rw [hn] at h2; cases h2
  unfold ent; rw [if_neg this, if_neg this]

end Run
end Fidi
