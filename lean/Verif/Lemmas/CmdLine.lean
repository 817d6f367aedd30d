import Verif.Lemmas.StdMap
import Verif.Model.CmdLine
import Verif.Spec.CmdLine
import Mathlib.Data.List.Lex
import Mathlib.Data.Char

/-
Lemmas about the command line parser.
-/
namespace Fidi
open Spec CmdLineArgParser

/-- The arguments that follow an occurrence of the key, in order. -/
def following (key : Str) : List Str → List Str
  | a :: b :: rest => if a = key then b :: following key (b :: rest) else following key (b :: rest)
  | _ => []

theorem scanValue_cons {T : Type} (conv : Str → M T) (key a : Str) (args : List Str) (cur : T) :
    scanValue conv key (a :: args) cur false = scanValue conv key args cur (key == a) := rfl

theorem scanValue_eq {T : Type} (conv : Str → M T) (key : Str) (args : List Str) (cur : T) :
    scanValue conv key args cur false = (following key args).foldlM (fun _ s => conv s) cur := by
  induction args generalizing cur with
  | nil => rfl
  | cons a args ih =>
    cases args with
    | nil => rfl
    | cons b rest =>
      by_cases h : a = key
      · subst h
        have : following a (a :: b :: rest) = b :: following a (b :: rest) := by simp [following]
        rw [this, List.foldlM_cons]
        rw [scanValue_cons]
        simp only [scanValue, beq_self_eq_true, if_true]
        congr 1
        funext x
        rw [← ih x, scanValue_cons]
      · have h1 : following key (a :: b :: rest) = following key (b :: rest) := by simp [following, h]
        have : (key == a) = false := by simp [Ne.symm h]
        rw [h1, ← ih cur, scanValue_cons, this]

theorem foldlM_last {T : Type} (conv : Str → M T) (l : List Str) (cur r : T)
    (h : l.foldlM (fun _ s => conv s) cur = .ok r) :
    (l = [] → r = cur) ∧ (∀ v, l.getLast? = some v → conv v = .ok r) := by
  induction l generalizing cur with
  | nil => simp at h; simp [h]
  | cons a l ih =>
    rw [List.foldlM_cons] at h
    obtain ⟨x, hx, h⟩ := (M.bind_ok_iff _ _ _).1 h
    refine ⟨by simp, ?_⟩
    intro v hv
    obtain ⟨h1, h2⟩ := ih x h
    cases l with
    | nil =>
      simp at hv; subst hv
      rw [hx, h1 rfl]
    | cons b l =>
      rw [List.getLast?_cons_cons] at hv
      exact h2 v hv

theorem foldlM_ok_iff {T : Type} (conv : Str → M T) (l : List Str) (cur : T) :
    (∃ r, l.foldlM (fun _ s => conv s) cur = .ok r) ↔ ∀ s ∈ l, ∃ r, conv s = .ok r := by
  induction l generalizing cur with
  | nil => simp
  | cons a l ih =>
    rw [List.foldlM_cons]
    cases e : conv a with
    | error x => simp [e]
    | ok x =>
      simp only [M.ok_bind, List.mem_cons, forall_eq_or_imp, e]
      rw [ih x]
      simp

theorem mem_following (key : Str) (args : List Str) (v : Str) :
    v ∈ following key args ↔ Follows args key v := by
  induction args with
  | nil => simp [following, Follows]
  | cons a args ih =>
    cases args with
    | nil => simp [following, Follows]
    | cons b rest =>
      have hsplit : Follows (a :: b :: rest) key v ↔ (a = key ∧ b = v) ∨ Follows (b :: rest) key v := by
        constructor
        · rintro ⟨i, h1, h2⟩
          cases i with
          | zero => left; exact ⟨by simpa using h1, by simpa using h2⟩
          | succ i => right; exact ⟨i, by simpa using h1, by simpa using h2⟩
        · rintro (⟨h1, h2⟩ | ⟨i, h1, h2⟩)
          · exact ⟨0, by simp [h1], by simp [h2]⟩
          · exact ⟨i + 1, by simpa using h1, by simpa using h2⟩
      rw [hsplit, ← ih]
      by_cases h : a = key
      · simp [following, h, eq_comm]
      · simp [following, h]

theorem following_nil_iff (key : Str) (args : List Str) : following key args = [] ↔ NeverFollowed args key := by
  rw [List.eq_nil_iff_forall_not_mem]
  constructor
  · intro h i h1
    cases h2 : args[i + 1]? with
    | none => rfl
    | some v => exact absurd ((mem_following key args v).2 ⟨i, h1, h2⟩) (h v)
  · intro h v hv
    obtain ⟨i, h1, h2⟩ := (mem_following key args v).1 hv
    rw [h i h1] at h2
    simp at h2

theorem lastFollowing_cons {a : Str} {args : List Str} {key v : Str} :
    LastFollowing (a :: args) key v ↔
      LastFollowing args key v ∨ (NeverFollowed args key ∧ a = key ∧ args[0]? = some v) := by
  constructor
  · rintro ⟨i, h1, h2, h3⟩
    cases i with
    | zero =>
      right
      refine ⟨?_, by simpa using h1, by simpa using h2⟩
      intro j hj
      have := h3 (j + 1) (by omega) (by simpa using hj)
      simpa using this
    | succ i =>
      left
      refine ⟨i, by simpa using h1, by simpa using h2, ?_⟩
      intro j hj h4
      have := h3 (j + 1) (by omega) (by simpa using h4)
      simpa using this
  · rintro (⟨i, h1, h2, h3⟩ | ⟨h1, h2, h3⟩)
    · refine ⟨i + 1, by simpa using h1, by simpa using h2, ?_⟩
      intro j hj h4
      obtain ⟨j, rfl⟩ : ∃ k, j = k + 1 := ⟨j - 1, by omega⟩
      have := h3 j (by omega) (by simpa using h4)
      simpa using this
    · refine ⟨0, by simp [h2], by simpa using h3, ?_⟩
      intro j hj h4
      obtain ⟨j, rfl⟩ : ∃ k, j = k + 1 := ⟨j - 1, by omega⟩
      have := h1 j (by simpa using h4)
      simpa using this

theorem getLast_following (key : Str) (args : List Str) (v : Str) :
    (following key args).getLast? = some v ↔ LastFollowing args key v := by
  induction args with
  | nil => simp [following, LastFollowing]
  | cons a args ih =>
    rw [lastFollowing_cons, ← ih, ← following_nil_iff]
    cases args with
    | nil => simp [following]
    | cons b rest =>
      by_cases h : a = key
      · have : following key (a :: b :: rest) = b :: following key (b :: rest) := by simp [following, h]
        rw [this]
        cases e : following key (b :: rest) with
        | nil => simp [h]
        | cons x xs => rw [List.getLast?_cons_cons]; simp
      · have : following key (a :: b :: rest) = following key (b :: rest) := by simp [following, h]
        rw [this]
        simp [h]

/-- What a value scan returns. -/
theorem scanValue_spec {T : Type} {conv : Str → M T} {key : Str} {args : List Str} {cur r : T}
    (h : scanValue conv key args cur false = .ok r) :
    (NeverFollowed args key → r = cur) ∧ (∀ v, LastFollowing args key v → conv v = .ok r) := by
  rw [scanValue_eq] at h
  obtain ⟨h1, h2⟩ := foldlM_last conv _ _ _ h
  exact ⟨fun hn => h1 ((following_nil_iff _ _).2 hn), fun v hv => h2 v ((getLast_following _ _ _).2 hv)⟩

theorem neverFollowed_or_lastFollowing (args : List Str) (key : Str) :
    NeverFollowed args key ∨ ∃ v, LastFollowing args key v := by
  cases e : (following key args).getLast? with
  | none =>
    left
    rw [← following_nil_iff]
    exact List.getLast?_eq_none_iff.1 e
  | some v => right; exact ⟨v, (getLast_following _ _ _).1 e⟩

theorem scanValue_ok_iff {T : Type} (conv : Str → M T) (key : Str) (args : List Str) (cur : T) :
    (∃ r, scanValue conv key args cur false = .ok r) ↔ ∀ v, Follows args key v → ∃ r, conv v = .ok r := by
  rw [scanValue_eq, foldlM_ok_iff]
  constructor
  · intro h v hv; exact h v ((mem_following _ _ _).2 hv)
  · intro h v hv; exact h v ((mem_following _ _ _).1 hv)

theorem following_insert (key x : Str) (pre post : List Str) (hx : x ≠ key) (hp : pre.getLast? ≠ some key) :
    following key (pre ++ x :: post) = following key (pre ++ post) := by
  induction pre with
  | nil =>
    cases post with
    | nil => rfl
    | cons b rest => simp [following, hx]
  | cons a pre ih =>
    cases pre with
    | nil =>
      have ha : a ≠ key := by simpa using hp
      cases post with
      | nil => simp [following, ha]
      | cons b rest => simp [following, ha, hx]
    | cons b pre =>
      rw [List.getLast?_cons_cons] at hp
      have := ih hp
      simp only [List.cons_append] at this ⊢
      simp only [following, this]

theorem scanFlag_eq (key : Str) (args : List Str) (cur : Bool) :
    scanFlag key args cur = (cur ^^ decide (args.count key % 2 = 1)) := by
  induction args generalizing cur with
  | nil => simp [scanFlag]
  | cons a args ih =>
    rw [scanFlag, ih, List.count_cons]
    by_cases h : a = key
    · subst h
      rw [beq_self_eq_true, if_pos rfl, if_pos rfl]
      rcases Nat.mod_two_eq_zero_or_one (args.count a) with e | e
      · have : (args.count a + 1) % 2 = 1 := by omega
        simp [e, this]
      · have : (args.count a + 1) % 2 = 0 := by omega
        simp [e, this]
    · have : (a == key) = false := by simp [h]
      rw [this]
      simp

theorem isOptionName_iff (a : Str) : isOptionName a = true ↔ LooksLikeOption a := by
  unfold isOptionName LooksLikeOption
  split
  · rename_i c c' r
    simp only [Bool.and_eq_true, beq_iff_eq, Bool.not_eq_true', isDigitC]
    constructor
    · rintro ⟨h1, h2⟩
      refine ⟨c', r, by rw [h1], ?_⟩
      intro h3
      rw [Bool.and_eq_false_iff] at h2
      simp [h3] at h2
    · rintro ⟨d, s, h1, h2⟩
      simp only [List.cons.injEq] at h1
      obtain ⟨rfl, rfl, rfl⟩ := h1
      refine ⟨rfl, ?_⟩
      rw [Bool.and_eq_false_iff]
      simp only [decide_eq_false_iff_not]
      by_cases h : '0' ≤ c'
      · right; exact fun h' => h2 ⟨h, h'⟩
      · left; exact h
  · rename_i h
    simp only [Bool.false_eq_true, false_iff, not_exists]
    rintro c r ⟨h1, _⟩
    exact h _ _ _ h1

theorem firstInvalid_none_iff {R : Type} (self : CmdLineArgParser R) (args : List Str) :
    firstInvalid self args = none ↔ ∀ a ∈ args, isOptionName a = true → isValidOptName self a = true := by
  induction args with
  | nil => simp [firstInvalid]
  | cons a args ih =>
    rw [firstInvalid]
    split
    · rename_i h
      simp only [Bool.and_eq_true, Bool.not_eq_true'] at h
      simp [h]
    · rename_i h
      rw [ih]
      simp only [Bool.and_eq_true, Bool.not_eq_true', not_and, Bool.not_eq_false] at h
      simp only [List.mem_cons, forall_eq_or_imp]
      exact ⟨fun h2 => ⟨h, h2⟩, fun h2 => h2.2⟩

theorem firstInvalid_some {R : Type} (self : CmdLineArgParser R) (args : List Str) (x : Str)
    (h : firstInvalid self args = some x) : x ∈ args ∧ isOptionName x = true ∧ isValidOptName self x = false := by
  induction args with
  | nil => simp [firstInvalid] at h
  | cons a args ih =>
    rw [firstInvalid] at h
    split at h
    · rename_i h'
      simp only [Bool.and_eq_true, Bool.not_eq_true'] at h'
      injection h with h; subst h
      exact ⟨by simp, h'⟩
    · have := ih h
      exact ⟨by simp [this.1], this.2⟩

/-! Histories. -/

section
variable {R : Type} [DoubleText R]

/-- One call on a parser object. -/
def cmdStep (self : CmdLineArgParser R) : CmdOp R → M (CmdLineArgParser R)
  | .setDouble n v h => pure (self.setDouble n v h)
  | .setInt n v h => pure (self.setInt n v h)
  | .setString n v h => pure (self.setString n v h)
  | .setBool n v h => pure (self.setBool n v h)
  | .setPurpose p => pure (self.setPurpose p)
  | .addFootnote n => pure (self.addFootnote n)
  | .parse argv => do let r ← self.parse argv; pure r.2.1

/-- A sequence of calls on a new parser object. -/
def cmdRun (hist : List (CmdOp R)) : M (CmdLineArgParser R) := hist.foldlM cmdStep CmdLineArgParser.new

/-- What all reachable parser objects satisfy. -/
structure CmdInv (hist : List (CmdOp R)) (c : CmdLineArgParser R) : Prop where
  sd : StdMap.Sorted c.doubleArg
  si : StdMap.Sorted c.intArg
  ss : StdMap.Sorted c.stringArg
  sb : StdMap.Sorted c.boolArg
  hd : ∀ n, StdMap.find c.doubleArgHelp n = lastHelp .double hist n
  hi : ∀ n, StdMap.find c.intArgHelp n = lastHelp .int hist n
  hs : ∀ n, StdMap.find c.stringArgHelp n = lastHelp .string hist n
  hb : ∀ n, StdMap.find c.boolArgHelp n = lastHelp .bool hist n
  kd : ∀ n, (StdMap.find c.doubleArg n).isSome = (lastHelp .double hist n).isSome
  ki : ∀ n, (StdMap.find c.intArg n).isSome = (lastHelp .int hist n).isSome
  ks : ∀ n, (StdMap.find c.stringArg n).isSome = (lastHelp .string hist n).isSome
  kb : ∀ n, (StdMap.find c.boolArg n).isSome = (lastHelp .bool hist n).isSome

omit [DoubleText R] in
theorem lastHelp_snoc (k : Kind) (hist : List (CmdOp R)) (op : CmdOp R) (name : Str) :
    lastHelp k (hist ++ [op]) name =
      match op.registers k with
      | some (n, h) => if n = name then some h else lastHelp k hist name
      | none => lastHelp k hist name := by
  unfold lastHelp fullHistory
  rw [← List.cons_append, List.foldl_append]
  rfl

omit [DoubleText R] in
theorem registered_iff (k : Kind) (hist : List (CmdOp R)) (name : Str) :
    Registered k hist name ↔ (lastHelp k hist name).isSome = true := by
  unfold Registered lastHelp
  generalize fullHistory hist = l
  have key : ∀ (l : List (CmdOp R)) (acc : Option Str),
      (l.foldl (fun acc op => match op.registers k with
        | some (n, h) => if n = name then some h else acc | none => acc) acc).isSome = true ↔
      acc.isSome = true ∨ ∃ op ∈ l, ∃ h, op.registers k = some (name, h) := by
    intro l
    induction l with
    | nil => intro acc; simp
    | cons op l ih =>
      intro acc
      rw [List.foldl_cons, ih]
      cases e : op.registers k with
      | none => simp [e]
      | some p =>
        obtain ⟨n, h⟩ := p
        by_cases hn : n = name
        · subst hn; simp [e]
        · simp [e, hn]
  exact ((key l none).trans (by simp)).symm

theorem parse_inv {self self' : CmdLineArgParser R} {argv : List Str} {b : Bool} {out : Str}
    (h : self.parse argv = .ok (b, self', out)) :
    ∃ exec args, argv = exec :: args ∧
      ((b = false ∧ self' = { self with execName := exec } ∧
          ∃ x, firstInvalid self args = some x ∧ out = x ++ " is not a valid option.\n".toList) ∨
       (b = true ∧ firstInvalid self args = none ∧ out = [] ∧
          scanMap (fun s => pure (DoubleText.atof s)) args self.doubleArg = .ok self'.doubleArg ∧
          scanMap atoi args self.intArg = .ok self'.intArg ∧
          scanMap pure args self.stringArg = .ok self'.stringArg ∧
          self'.boolArg = self.boolArg.map (fun kv => (kv.1, scanFlag kv.1 args kv.2)) ∧
          self'.doubleArgHelp = self.doubleArgHelp ∧ self'.intArgHelp = self.intArgHelp ∧
          self'.stringArgHelp = self.stringArgHelp ∧ self'.boolArgHelp = self.boolArgHelp ∧
          self'.execName = exec ∧ self'.purpose = self.purpose ∧ self'.footer = self.footer)) := by
  cases argv with
  | nil => simp [parse] at h
  | cons exec args =>
    refine ⟨exec, args, rfl, ?_⟩
    have hf : ∀ l, firstInvalid { self with execName := exec } l = firstInvalid self l := by
      intro l
      induction l with
      | nil => rfl
      | cons a l ih => simp only [firstInvalid, ih]; rfl
    unfold parse at h
    simp only [hf] at h
    cases e : firstInvalid self args with
    | some x =>
      rw [e] at h
      simp only [M.pure_eq, Except.ok.injEq, Prod.mk.injEq] at h
      left
      exact ⟨h.1.symm, h.2.1.symm, x, rfl, h.2.2.symm⟩
    | none =>
      rw [e] at h
      simp only at h
      obtain ⟨d, hd, h⟩ := (M.bind_ok_iff _ _ _).1 h
      obtain ⟨i, hi, h⟩ := (M.bind_ok_iff _ _ _).1 h
      obtain ⟨s, hs, h⟩ := (M.bind_ok_iff _ _ _).1 h
      simp only [M.pure_eq, Except.ok.injEq, Prod.mk.injEq] at h
      obtain ⟨rfl, rfl, rfl⟩ := h
      right
      exact ⟨rfl, rfl, rfl, hd, hi, hs, rfl, rfl, rfl, rfl, rfl, rfl, rfl, rfl⟩

theorem scanMap_find {T : Type} {conv : Str → M T} {args : List Str} {m m' : StdMap Str T}
    (h : scanMap conv args m = .ok m') (k : Str) :
    (StdMap.find m k = none → StdMap.find m' k = none) ∧
    (∀ v, StdMap.find m k = some v →
      ∃ w, scanValue conv k args v false = .ok w ∧ StdMap.find m' k = some w) :=
  StdMap.find_mapM (f := fun k v => scanValue conv k args v false) h k

theorem scanMap_isSome {T : Type} {conv : Str → M T} {args : List Str} {m m' : StdMap Str T}
    (h : scanMap conv args m = .ok m') (k : Str) : (StdMap.find m' k).isSome = (StdMap.find m k).isSome := by
  obtain ⟨h1, h2⟩ := scanMap_find h k
  cases e : StdMap.find m k with
  | none => rw [h1 e]
  | some v => obtain ⟨w, _, h3⟩ := h2 v e; rw [h3]; rfl

theorem scanMap_sorted {T : Type} {conv : Str → M T} {args : List Str} {m m' : StdMap Str T}
    (h : scanMap conv args m = .ok m') (hs : StdMap.Sorted m) : StdMap.Sorted m' := by
  unfold StdMap.Sorted at *
  rw [StdMap.keys_mapM (f := fun k v => scanValue conv k args v false) h]
  exact hs

omit [DoubleText R] in
theorem CmdInv.new : CmdInv ([] : List (CmdOp R)) CmdLineArgParser.new where
  sd := .nil
  si := .nil
  ss := .nil
  sb := StdMap.sorted_set (V := Bool) StdMap.sorted_nil _ _
  hd := fun n => rfl
  hi := fun n => rfl
  hs := fun n => rfl
  hb := fun n => by
    show StdMap.find (StdMap.set [] _ _) n = _
    rw [StdMap.find_set]
    simp only [lastHelp, fullHistory, List.foldl_cons, List.foldl_nil, CmdOp.registers, if_true]
    by_cases h : n = "-h".toList
    · rw [if_pos h, if_pos h.symm]
    · rw [if_neg h, if_neg (Ne.symm h)]; rfl
  kd := fun n => rfl
  ki := fun n => rfl
  ks := fun n => rfl
  kb := fun n => by
    show (StdMap.find (StdMap.set [] _ _) n).isSome = _
    rw [StdMap.find_set]
    simp only [lastHelp, fullHistory, List.foldl_cons, List.foldl_nil, CmdOp.registers, if_true]
    by_cases h : n = "-h".toList
    · rw [if_pos h, if_pos h.symm]; rfl
    · rw [if_neg h, if_neg (Ne.symm h)]; rfl

theorem set_help {V : Type} {m : StdMap Str V} {n n' : Str} {h : V} {x : Option V}
    (e : StdMap.find m n' = x) :
    StdMap.find (StdMap.set m n h) n' = if n = n' then some h else x := by
  rw [StdMap.find_set, e]
  by_cases hn : n = n'
  · rw [if_pos hn, if_pos hn.symm]
  · rw [if_neg hn, if_neg (Ne.symm hn)]

theorem set_isSome {V H : Type} {m : StdMap Str V} {n n' : Str} {v : V} {h : H} {x : Option H}
    (e : (StdMap.find m n').isSome = x.isSome) :
    (StdMap.find (StdMap.set m n v) n').isSome = (if n = n' then some h else x).isSome := by
  rw [StdMap.find_set]
  by_cases hn : n = n'
  · rw [if_pos hn, if_pos hn.symm]; rfl
  · rw [if_neg hn, if_neg (Ne.symm hn), e]

theorem CmdInv.step {hist : List (CmdOp R)} {self self' : CmdLineArgParser R} (inv : CmdInv hist self) (op : CmdOp R)
    (h : cmdStep self op = .ok self') : CmdInv (hist ++ [op]) self' := by
  cases op with
  | setDouble n v hp =>
    simp only [cmdStep, M.pure_eq, Except.ok.injEq] at h
    subst h
    exact { inv with
      sd := StdMap.sorted_set inv.sd _ _
      hd := fun m => by rw [lastHelp_snoc]; exact set_help (inv.hd m)
      hi := fun m => by rw [lastHelp_snoc]; exact inv.hi m
      hs := fun m => by rw [lastHelp_snoc]; exact inv.hs m
      hb := fun m => by rw [lastHelp_snoc]; exact inv.hb m
      kd := fun m => by rw [lastHelp_snoc]; exact set_isSome (inv.kd m)
      ki := fun m => by rw [lastHelp_snoc]; exact inv.ki m
      ks := fun m => by rw [lastHelp_snoc]; exact inv.ks m
      kb := fun m => by rw [lastHelp_snoc]; exact inv.kb m }
  | setInt n v hp =>
    simp only [cmdStep, M.pure_eq, Except.ok.injEq] at h
    subst h
    exact { inv with
      si := StdMap.sorted_set inv.si _ _
      hd := fun m => by rw [lastHelp_snoc]; exact inv.hd m
      hi := fun m => by rw [lastHelp_snoc]; exact set_help (inv.hi m)
      hs := fun m => by rw [lastHelp_snoc]; exact inv.hs m
      hb := fun m => by rw [lastHelp_snoc]; exact inv.hb m
      kd := fun m => by rw [lastHelp_snoc]; exact inv.kd m
      ki := fun m => by rw [lastHelp_snoc]; exact set_isSome (inv.ki m)
      ks := fun m => by rw [lastHelp_snoc]; exact inv.ks m
      kb := fun m => by rw [lastHelp_snoc]; exact inv.kb m }
  | setString n v hp =>
    simp only [cmdStep, M.pure_eq, Except.ok.injEq] at h
    subst h
    exact { inv with
      ss := StdMap.sorted_set inv.ss _ _
      hd := fun m => by rw [lastHelp_snoc]; exact inv.hd m
      hi := fun m => by rw [lastHelp_snoc]; exact inv.hi m
      hs := fun m => by rw [lastHelp_snoc]; exact set_help (inv.hs m)
      hb := fun m => by rw [lastHelp_snoc]; exact inv.hb m
      kd := fun m => by rw [lastHelp_snoc]; exact inv.kd m
      ki := fun m => by rw [lastHelp_snoc]; exact inv.ki m
      ks := fun m => by rw [lastHelp_snoc]; exact set_isSome (inv.ks m)
      kb := fun m => by rw [lastHelp_snoc]; exact inv.kb m }
  | setBool n v hp =>
    simp only [cmdStep, M.pure_eq, Except.ok.injEq] at h
    subst h
    exact { inv with
      sb := StdMap.sorted_set inv.sb _ _
      hd := fun m => by rw [lastHelp_snoc]; exact inv.hd m
      hi := fun m => by rw [lastHelp_snoc]; exact inv.hi m
      hs := fun m => by rw [lastHelp_snoc]; exact inv.hs m
      hb := fun m => by rw [lastHelp_snoc]; exact set_help (inv.hb m)
      kd := fun m => by rw [lastHelp_snoc]; exact inv.kd m
      ki := fun m => by rw [lastHelp_snoc]; exact inv.ki m
      ks := fun m => by rw [lastHelp_snoc]; exact inv.ks m
      kb := fun m => by rw [lastHelp_snoc]; exact set_isSome (inv.kb m) }
  | setPurpose p =>
    simp only [cmdStep, M.pure_eq, Except.ok.injEq] at h
    subst h
    exact { inv with
      hd := fun m => by rw [lastHelp_snoc]; exact inv.hd m
      hi := fun m => by rw [lastHelp_snoc]; exact inv.hi m
      hs := fun m => by rw [lastHelp_snoc]; exact inv.hs m
      hb := fun m => by rw [lastHelp_snoc]; exact inv.hb m
      kd := fun m => by rw [lastHelp_snoc]; exact inv.kd m
      ki := fun m => by rw [lastHelp_snoc]; exact inv.ki m
      ks := fun m => by rw [lastHelp_snoc]; exact inv.ks m
      kb := fun m => by rw [lastHelp_snoc]; exact inv.kb m }
  | addFootnote p =>
    simp only [cmdStep, M.pure_eq, Except.ok.injEq] at h
    subst h
    exact { inv with
      hd := fun m => by rw [lastHelp_snoc]; exact inv.hd m
      hi := fun m => by rw [lastHelp_snoc]; exact inv.hi m
      hs := fun m => by rw [lastHelp_snoc]; exact inv.hs m
      hb := fun m => by rw [lastHelp_snoc]; exact inv.hb m
      kd := fun m => by rw [lastHelp_snoc]; exact inv.kd m
      ki := fun m => by rw [lastHelp_snoc]; exact inv.ki m
      ks := fun m => by rw [lastHelp_snoc]; exact inv.ks m
      kb := fun m => by rw [lastHelp_snoc]; exact inv.kb m }
  | parse argv =>
    simp only [cmdStep] at h
    obtain ⟨⟨b, s, out⟩, hp, h⟩ := (M.bind_ok_iff _ _ _).1 h
    simp only [M.pure_eq, Except.ok.injEq] at h
    subst h
    obtain ⟨exec, args, _, ⟨_, h1, _⟩ | ⟨_, _, _, h1, h2, h3, h4, h5, h6, h7, h8, _⟩⟩ := parse_inv hp
    · subst h1
      exact { inv with
        hd := fun m => by rw [lastHelp_snoc]; exact inv.hd m
        hi := fun m => by rw [lastHelp_snoc]; exact inv.hi m
        hs := fun m => by rw [lastHelp_snoc]; exact inv.hs m
        hb := fun m => by rw [lastHelp_snoc]; exact inv.hb m
        kd := fun m => by rw [lastHelp_snoc]; exact inv.kd m
        ki := fun m => by rw [lastHelp_snoc]; exact inv.ki m
        ks := fun m => by rw [lastHelp_snoc]; exact inv.ks m
        kb := fun m => by rw [lastHelp_snoc]; exact inv.kb m }
    · exact
      { sd := scanMap_sorted h1 inv.sd
        si := scanMap_sorted h2 inv.si
        ss := scanMap_sorted h3 inv.ss
        sb := by
          show List.Pairwise _ (List.map Prod.fst s.boolArg)
          rw [h4, List.map_map]; exact inv.sb
        hd := fun m => by rw [lastHelp_snoc, h5]; exact inv.hd m
        hi := fun m => by rw [lastHelp_snoc, h6]; exact inv.hi m
        hs := fun m => by rw [lastHelp_snoc, h7]; exact inv.hs m
        hb := fun m => by rw [lastHelp_snoc, h8]; exact inv.hb m
        kd := fun m => by rw [lastHelp_snoc, scanMap_isSome h1]; exact inv.kd m
        ki := fun m => by rw [lastHelp_snoc, scanMap_isSome h2]; exact inv.ki m
        ks := fun m => by rw [lastHelp_snoc, scanMap_isSome h3]; exact inv.ks m
        kb := fun m => by
          rw [lastHelp_snoc, h4, StdMap.find_map (f := fun k v => scanFlag k args v), Option.isSome_map]; exact inv.kb m }

theorem CmdInv.of_run {hist : List (CmdOp R)} {self : CmdLineArgParser R} (h : cmdRun hist = .ok self) :
    CmdInv hist self := by
  have key : ∀ (l pre : List (CmdOp R)) (s : CmdLineArgParser R), CmdInv pre s → l.foldlM cmdStep s = .ok self →
      CmdInv (pre ++ l) self := by
    intro l
    induction l with
    | nil => intro pre s hs h; simp at h; subst h; simpa using hs
    | cons op l ih =>
      intro pre s hs h
      rw [List.foldlM_cons] at h
      obtain ⟨s1, h1, h⟩ := (M.bind_ok_iff _ _ _).1 h
      have := ih (pre ++ [op]) s1 (hs.step op h1) h
      simpa using this
  simpa using key hist [] _ CmdInv.new h

/-- The texts of a reachable parser object. -/
theorem texts_of_run {hist : List (CmdOp R)} {self : CmdLineArgParser R} (h : cmdRun hist = .ok self) :
    self.purpose = lastPurpose hist ∧ self.execName = lastExec hist ∧ self.footer = footnotes hist := by
  have key : ∀ (l pre : List (CmdOp R)) (s : CmdLineArgParser R),
      (s.purpose = lastPurpose pre ∧ s.execName = lastExec pre ∧ s.footer = footnotes pre) →
      l.foldlM cmdStep s = .ok self →
      (self.purpose = lastPurpose (pre ++ l) ∧ self.execName = lastExec (pre ++ l) ∧
        self.footer = footnotes (pre ++ l)) := by
    intro l
    induction l with
    | nil => intro pre s hs h; simp at h; subst h; simpa using hs
    | cons op l ih =>
      intro pre s hs h
      rw [List.foldlM_cons] at h
      obtain ⟨s1, h1, h⟩ := (M.bind_ok_iff _ _ _).1 h
      have := ih (pre ++ [op]) s1 (by
        obtain ⟨a1, a2, a3⟩ := hs
        unfold lastPurpose lastExec footnotes at *
        rw [List.filterMap_append, List.filterMap_append, List.reverse_append, List.flatMap_append]
        cases op with
        | parse argv =>
          simp only [cmdStep] at h1
          obtain ⟨⟨b, s2, out⟩, hp, h1⟩ := (M.bind_ok_iff _ _ _).1 h1
          obtain rfl := Except.ok.inj h1
          obtain ⟨e, args, rfl, ⟨_, h1, _⟩ | ⟨_, _, _, _, _, _, _, _, _, _, _, h1, h2, h3⟩⟩ := parse_inv hp
          · subst h1; simp [a1, a3]
          · simp [h1, h2, h3, a1, a3]
        | setPurpose p =>
          obtain rfl := Except.ok.inj h1
          simp [setPurpose, a2, a3]
        | addFootnote n =>
          obtain rfl := Except.ok.inj h1
          simp [addFootnote, a1, a2, a3]
        | setDouble n v t => obtain rfl := Except.ok.inj h1; simp [setDouble, a1, a2, a3]
        | setInt n v t => obtain rfl := Except.ok.inj h1; simp [setInt, a1, a2, a3]
        | setString n v t => obtain rfl := Except.ok.inj h1; simp [setString, a1, a2, a3]
        | setBool n v t => obtain rfl := Except.ok.inj h1; simp [setBool, a1, a2, a3]) h
      simpa using this
  simpa using key hist [] _ ⟨rfl, rfl, rfl⟩ h

omit [DoubleText R] in
theorem CmdInv.registered {hist : List (CmdOp R)} {self : CmdLineArgParser R} (inv : CmdInv hist self) (a : Str) :
    isValidOptName self a = true ↔ ∃ k, Registered k hist a := by
  unfold isValidOptName
  rw [inv.kd, inv.ki, inv.ks, inv.kb]
  simp only [Bool.or_eq_true, registered_iff]
  constructor
  · rintro (((h | h) | h) | h)
    · exact ⟨_, h⟩
    · exact ⟨_, h⟩
    · exact ⟨_, h⟩
    · exact ⟨_, h⟩
  · rintro ⟨k, h⟩
    cases k with
    | double => exact Or.inl (Or.inl (Or.inl h))
    | int => exact Or.inl (Or.inl (Or.inr h))
    | string => exact Or.inl (Or.inr h)
    | bool => exact Or.inr h

end

/-! Decimal integers. -/

theorem takeWhile_all {α : Type} (p : α → Bool) (l : List α) (h : ∀ c ∈ l, p c = true) : l.takeWhile p = l := by
  induction l with
  | nil => rfl
  | cons a l ih =>
    rw [List.takeWhile_cons, if_pos (h a (by simp)), ih fun c hc => h c (by simp [hc])]

theorem isDigitC_of_isDigit {c : Char} (h : c.isDigit = true) : isDigitC c = true := by
  unfold Char.isDigit at h
  unfold isDigitC
  simp only [Bool.and_eq_true, decide_eq_true_eq, Char.le_def] at h ⊢
  exact ⟨h.1, h.2⟩

theorem digits_not_special {c : Char} (h : isDigitC c = true) : isSpaceC c = false ∧ c ≠ '-' ∧ c ≠ '+' := by
  unfold isDigitC at h
  simp only [Bool.and_eq_true, decide_eq_true_eq] at h
  have h1 : '0' ≤ c := h.1
  refine ⟨?_, ?_, ?_⟩
  · unfold isSpaceC
    simp only [Bool.or_eq_false_iff, beq_eq_false_iff_ne]
    refine ⟨⟨⟨⟨⟨?_, ?_⟩, ?_⟩, ?_⟩, ?_⟩, ?_⟩ <;> (rintro rfl; exact absurd h1 (by decide))
  · rintro rfl; exact absurd h1 (by decide)
  · rintro rfl; exact absurd h1 (by decide)

theorem digits_value (l : List Char) (acc : Nat) :
    l.foldl (fun acc c => acc * 10 + (c.toNat - '0'.toNat)) acc = Nat.ofDigitChars 10 l acc := by
  rw [Nat.ofDigitChars_eq_foldl]
  congr 1
  funext a c
  rw [Nat.mul_comm]

theorem toDigits_ok (n : Nat) : ∀ c ∈ Nat.toDigits 10 n, isDigitC c = true := fun _ hc =>
  isDigitC_of_isDigit (Nat.isDigit_of_mem_toDigits (by decide) (by decide) hc)

/-- `atoi` reads back the decimal notation of every `int`. -/
theorem atoi_showInt (z : Int) (h1 : -2147483648 ≤ z) (h2 : z < 2147483648) : atoi (showInt z) = .ok z := by
  have hin : inInt z = true := by unfold inInt intLim; simp; omega
  have hd := toDigits_ok z.natAbs
  unfold showInt
  by_cases hz : z < 0
  · rw [if_pos hz]
    unfold atoi
    have e : List.dropWhile isSpaceC ('-' :: Nat.toDigits 10 z.natAbs) = '-' :: Nat.toDigits 10 z.natAbs := by
      rw [List.dropWhile_cons, if_neg (by decide)]
    simp only [e, splitSign, takeWhile_all _ _ hd, digits_value, Nat.ofDigitChars_ten_toDigits, if_true]
    have : -((z.natAbs : Nat) : Int) = z := by omega
    rw [this, if_pos hin]; rfl
  · rw [if_neg hz]
    have hne : Nat.toDigits 10 z.natAbs ≠ [] := Nat.toDigits_ne_nil
    obtain ⟨c, r, hcr⟩ := List.exists_cons_of_ne_nil hne
    have hc := digits_not_special (hd c (by rw [hcr]; simp))
    unfold atoi
    have e : List.dropWhile isSpaceC (Nat.toDigits 10 z.natAbs) = Nat.toDigits 10 z.natAbs := by
      rw [hcr, List.dropWhile_cons, if_neg (by simp [hc.1])]
    simp only [e]
    have e2 : splitSign (Nat.toDigits 10 z.natAbs) = (false, Nat.toDigits 10 z.natAbs) := by
      rw [hcr]
      unfold splitSign
      split
      · rename_i heq; injection heq with h _; exact absurd h hc.2.1
      · rename_i heq; injection heq with h _; exact absurd h hc.2.2
      · rfl
    simp only [e2, takeWhile_all _ _ hd, digits_value, Nat.ofDigitChars_ten_toDigits, Bool.false_eq_true, if_false]
    have : ((z.natAbs : Nat) : Int) = z := by omega
    rw [this, if_pos hin]; rfl

end Fidi
