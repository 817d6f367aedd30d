import Verif.Lemmas.CmdLine

/-
Properties C45-C52: the command line parser.
`R` stands for `double`; `DoubleText R` holds `atof` and the formatting of doubles, about which nothing is assumed.
`cmdRun hist = .ok self` says that `self` is a parser object on which the calls `hist` were made after construction.
-/
namespace Fidi
open Spec CmdLineArgParser

section
variable {R : Type} [DoubleText R]

/-! ### C45 -/

/-- C45: `parse` returns false exactly when some argument looks like an option and is not registered. -/
theorem C45_rejects_iff (hist : List (CmdOp R)) (self : CmdLineArgParser R) (hrun : cmdRun hist = .ok self)
    (exec : Str) (args : List Str) :
    (∃ self' out, self.parse (exec :: args) = .ok (false, self', out)) ↔
      ∃ a ∈ args, LooksLikeOption a ∧ ∀ k, ¬ Registered k hist a := by
  have inv := CmdInv.of_run hrun
  have hf : firstInvalid self args ≠ none ↔ ∃ a ∈ args, LooksLikeOption a ∧ ∀ k, ¬ Registered k hist a := by
    rw [ne_eq, firstInvalid_none_iff]
    simp only [isOptionName_iff, inv.registered]
    constructor
    · intro h
      by_contra hc
      exact h fun a ha hl => by
        by_contra h2
        exact hc ⟨a, ha, hl, fun k hk => h2 ⟨k, hk⟩⟩
    · rintro ⟨a, ha, hl, hk⟩ h
      obtain ⟨k, h2⟩ := h a ha hl
      exact hk k h2
  rw [← hf]
  have he : ∀ l, firstInvalid { self with execName := exec } l = firstInvalid self l := by
    intro l
    induction l with
    | nil => rfl
    | cons a l ih => simp only [firstInvalid, ih]; rfl
  constructor
  · rintro ⟨self', out, h⟩
    obtain ⟨e, a, h0, ⟨_, _, x, h1, _⟩ | ⟨h1, _⟩⟩ := parse_inv h
    · injection h0 with h0 h2; subst h2; rw [h1]; simp
    · simp at h1
  · intro h
    obtain ⟨x, hx⟩ := Option.ne_none_iff_exists'.1 h
    have h3 : ∃ r : Bool × CmdLineArgParser R × Str, self.parse (exec :: args) = .ok r ∧ r.1 = false := by
      unfold parse
      simp only [he, hx]
      exact ⟨_, rfl, rfl⟩
    obtain ⟨⟨b, s, o⟩, h4, h5⟩ := h3
    simp only at h5
    subst h5
    exact ⟨s, o, h4⟩

/-- C45: a rejected command line leaves all option values unchanged. -/
theorem C45_rejected_changes_nothing [Neg R] [HasMax R] (self self' : CmdLineArgParser R) (argv : List Str) (out : Str)
    (h : self.parse argv = .ok (false, self', out)) (name : Str) :
    self'.getDouble name = self.getDouble name ∧ self'.getInt name = self.getInt name ∧
      self'.getString name = self.getString name ∧ self'.getBool name = self.getBool name := by
  obtain ⟨e, a, _, ⟨_, h1, _⟩ | ⟨h1, _⟩⟩ := parse_inv h
  · subst h1; exact ⟨rfl, rfl, rfl, rfl⟩
  · simp at h1

/-! ### C46 -/

/-- C46, integer options. -/
theorem C46_last_value_int (hist : List (CmdOp R)) (self self' : CmdLineArgParser R) (hrun : cmdRun hist = .ok self)
    (exec : Str) (args : List Str) (out : Str) (h : self.parse (exec :: args) = .ok (true, self', out))
    (name : Str) (hreg : Registered .int hist name) :
    (NeverFollowed args name → self'.getInt name = self.getInt name) ∧
      (∀ v, LastFollowing args name v → atoi v = .ok (self'.getInt name)) := by
  have inv := CmdInv.of_run hrun
  obtain ⟨e, a, h0, ⟨h1, _⟩ | ⟨_, _, _, _, h1, _⟩⟩ := parse_inv h
  · simp at h1
  · injection h0 with h0 h2; subst h2
    rw [registered_iff, ← inv.ki] at hreg
    obtain ⟨v, hv⟩ := Option.isSome_iff_exists.1 hreg
    obtain ⟨w, hw, hf⟩ := (scanMap_find h1 name).2 v hv
    have := scanValue_spec hw
    unfold getInt
    rw [hf, hv]
    exact this

/-- C46, double options. -/
theorem C46_last_value_double [Neg R] [HasMax R] (hist : List (CmdOp R)) (self self' : CmdLineArgParser R)
    (hrun : cmdRun hist = .ok self)
    (exec : Str) (args : List Str) (out : Str) (h : self.parse (exec :: args) = .ok (true, self', out))
    (name : Str) (hreg : Registered .double hist name) :
    (NeverFollowed args name → self'.getDouble name = self.getDouble name) ∧
      (∀ v, LastFollowing args name v → self'.getDouble name = DoubleText.atof v) := by
  have inv := CmdInv.of_run hrun
  obtain ⟨e, a, h0, ⟨h1, _⟩ | ⟨_, _, _, h1, _⟩⟩ := parse_inv h
  · simp at h1
  · injection h0 with h0 h2; subst h2
    rw [registered_iff, ← inv.kd] at hreg
    obtain ⟨v, hv⟩ := Option.isSome_iff_exists.1 hreg
    obtain ⟨w, hw, hf⟩ := (scanMap_find h1 name).2 v hv
    have := scanValue_spec hw
    unfold getDouble
    rw [hf, hv]
    refine ⟨this.1, fun v hv => ?_⟩
    have := this.2 v hv
    injection this with this
    exact this.symm

/-- C46, string options. -/
theorem C46_last_value_string (hist : List (CmdOp R)) (self self' : CmdLineArgParser R)
    (hrun : cmdRun hist = .ok self)
    (exec : Str) (args : List Str) (out : Str) (h : self.parse (exec :: args) = .ok (true, self', out))
    (name : Str) (hreg : Registered .string hist name) :
    (NeverFollowed args name → self'.getString name = self.getString name) ∧
      (∀ v, LastFollowing args name v → self'.getString name = v) := by
  have inv := CmdInv.of_run hrun
  obtain ⟨e, a, h0, ⟨h1, _⟩ | ⟨_, _, _, _, _, h1, _⟩⟩ := parse_inv h
  · simp at h1
  · injection h0 with h0 h2; subst h2
    rw [registered_iff, ← inv.ks] at hreg
    obtain ⟨v, hv⟩ := Option.isSome_iff_exists.1 hreg
    obtain ⟨w, hw, hf⟩ := (scanMap_find h1 name).2 v hv
    have := scanValue_spec hw
    unfold getString
    rw [hf, hv]
    refine ⟨this.1, fun v hv => ?_⟩
    have := this.2 v hv
    injection this with this
    exact this.symm

/-- C46: the two cases are exhaustive. -/
theorem C46_cases (args : List Str) (name : Str) : NeverFollowed args name ∨ ∃ v, LastFollowing args name v :=
  neverFollowed_or_lastFollowing args name

/-- C46: when every option-like argument is registered, `parse` is well defined exactly when the arguments that follow
integer options are readable by `atoi`. -/
theorem C46_defined_iff (hist : List (CmdOp R)) (self : CmdLineArgParser R) (hrun : cmdRun hist = .ok self)
    (exec : Str) (args : List Str) (hvalid : ∀ a ∈ args, LooksLikeOption a → ∃ k, Registered k hist a) :
    (∃ self', self.parse (exec :: args) = .ok (true, self', [])) ↔
      ∀ name v, Registered .int hist name → Follows args name v → ∃ z, atoi v = .ok z := by
  have inv := CmdInv.of_run hrun
  have hf : firstInvalid self args = none := by
    rw [firstInvalid_none_iff]
    intro a ha hl
    exact (inv.registered a).2 (hvalid a ha ((isOptionName_iff a).1 hl))
  have he : ∀ l, firstInvalid { self with execName := exec } l = firstInvalid self l := by
    intro l
    induction l with
    | nil => rfl
    | cons a l ih => simp only [firstInvalid, ih]; rfl
  constructor
  · rintro ⟨self', h⟩ name v hreg hfol
    obtain ⟨e, a, h0, ⟨h1, _⟩ | ⟨_, _, _, _, h1, _⟩⟩ := parse_inv h
    · simp at h1
    · injection h0 with h0 h2; subst h2
      rw [registered_iff, ← inv.ki] at hreg
      obtain ⟨w, hw⟩ := Option.isSome_iff_exists.1 hreg
      obtain ⟨x, hx, _⟩ := (scanMap_find h1 name).2 w hw
      exact (scanValue_ok_iff atoi name args w).1 ⟨x, hx⟩ v hfol
  · intro h
    obtain ⟨d, hd⟩ := StdMap.mapM_ok_of (m := self.doubleArg)
      (f := fun k v => scanValue (fun s => pure (DoubleText.atof s)) k args v false) (by
        intro p _
        exact (scanValue_ok_iff _ _ _ _).2 fun v _ => ⟨_, rfl⟩)
    obtain ⟨s, hs⟩ := StdMap.mapM_ok_of (m := self.stringArg)
      (f := fun k v => scanValue pure k args v false) (by
        intro p _
        exact (scanValue_ok_iff _ _ _ _).2 fun v _ => ⟨_, rfl⟩)
    obtain ⟨i, hi⟩ := StdMap.mapM_ok_of (m := self.intArg)
      (f := fun k v => scanValue atoi k args v false) (by
        intro p hp
        refine (scanValue_ok_iff _ _ _ _).2 fun v hv => h p.1 v ?_ hv
        rw [registered_iff, ← inv.ki, (StdMap.mem_iff_find inv.si p.1 p.2).1 hp]
        rfl)
    have h3 : ∃ r : Bool × CmdLineArgParser R × Str, self.parse (exec :: args) = .ok r ∧ r.1 = true ∧ r.2.2 = [] := by
      unfold parse
      simp only [he, hf, scanMap]
      rw [hd]
      simp only [M.ok_bind]
      rw [hi]
      simp only [M.ok_bind]
      rw [hs]
      exact ⟨_, rfl, rfl, rfl⟩
    obtain ⟨⟨b, s, o⟩, h4, h5, h6⟩ := h3
    simp only at h5 h6
    subst h5 h6
    exact ⟨s, h4⟩

/-! ### C47 -/

/-- C47: a flag is flipped once per occurrence of its name. -/
theorem C47_flags_toggle (hist : List (CmdOp R)) (self self' : CmdLineArgParser R) (hrun : cmdRun hist = .ok self)
    (exec : Str) (args : List Str) (out : Str) (h : self.parse (exec :: args) = .ok (true, self', out))
    (name : Str) (hreg : Registered .bool hist name) :
    self'.getBool name = (self.getBool name ^^ decide (args.count name % 2 = 1)) := by
  have inv := CmdInv.of_run hrun
  obtain ⟨e, a, h0, ⟨h1, _⟩ | ⟨_, _, _, _, _, _, h1, _⟩⟩ := parse_inv h
  · simp at h1
  · injection h0 with h0 h2; subst h2
    rw [registered_iff, ← inv.kb] at hreg
    obtain ⟨v, hv⟩ := Option.isSome_iff_exists.1 hreg
    unfold getBool
    rw [h1, StdMap.find_map (f := fun k v => scanFlag k args v), hv]
    exact scanFlag_eq name args v

/-! ### C48 -/

omit [DoubleText R] in
/-- C48: registering an option makes its value readable with its type and changes no other value. -/
theorem C48_set_get [Neg R] [HasMax R] (self : CmdLineArgParser R) (name help n : Str) :
    (∀ v : R, (self.setDouble name v help).getDouble n = (if n = name then v else self.getDouble n) ∧
      (self.setDouble name v help).getInt n = self.getInt n ∧
      (self.setDouble name v help).getString n = self.getString n ∧
      (self.setDouble name v help).getBool n = self.getBool n) ∧
    (∀ v : Int, (self.setInt name v help).getInt n = (if n = name then v else self.getInt n) ∧
      (self.setInt name v help).getDouble n = self.getDouble n ∧
      (self.setInt name v help).getString n = self.getString n ∧
      (self.setInt name v help).getBool n = self.getBool n) ∧
    (∀ v : Str, (self.setString name v help).getString n = (if n = name then v else self.getString n) ∧
      (self.setString name v help).getDouble n = self.getDouble n ∧
      (self.setString name v help).getInt n = self.getInt n ∧
      (self.setString name v help).getBool n = self.getBool n) ∧
    (∀ v : Bool, (self.setBool name v help).getBool n = (if n = name then v else self.getBool n) ∧
      (self.setBool name v help).getDouble n = self.getDouble n ∧
      (self.setBool name v help).getInt n = self.getInt n ∧
      (self.setBool name v help).getString n = self.getString n) := by
  refine ⟨fun v => ⟨?_, rfl, rfl, rfl⟩, fun v => ⟨?_, rfl, rfl, rfl⟩, fun v => ⟨?_, rfl, rfl, rfl⟩,
    fun v => ⟨?_, rfl, rfl, rfl⟩⟩
  · simp only [getDouble, setDouble, StdMap.find_set]
    by_cases hn : n = name <;> simp [hn]
  · simp only [getInt, setInt, StdMap.find_set]
    by_cases hn : n = name <;> simp [hn]
  · simp only [getString, setString, StdMap.find_set]
    by_cases hn : n = name <;> simp [hn]
  · simp only [getBool, setBool, StdMap.find_set]
    by_cases hn : n = name <;> simp [hn]

/-- C48: names that were never registered with a type read as the sentinel of that type, whatever happened before. -/
theorem C48_unregistered [Neg R] [HasMax R] (hist : List (CmdOp R)) (self : CmdLineArgParser R)
    (hrun : cmdRun hist = .ok self) (name : Str) :
    (¬ Registered .double hist name → self.getDouble name = -HasMax.dblMax) ∧
    (¬ Registered .int hist name → self.getInt name = -(2 ^ 31 - 1)) ∧
    (¬ Registered .string hist name → self.getString name = []) ∧
    (¬ Registered .bool hist name → self.getBool name = false) := by
  have inv := CmdInv.of_run hrun
  have none_of : ∀ {V : Type} {x : Option V} {b : Bool}, x.isSome = b → ¬ b = true → x = none := by
    intro V x b h hb
    rw [← h, Option.not_isSome_iff_eq_none] at hb
    exact hb
  refine ⟨fun h => ?_, fun h => ?_, fun h => ?_, fun h => ?_⟩ <;> rw [registered_iff] at h
  · rw [getDouble, none_of (inv.kd name) h]
  · rw [getInt, none_of (inv.ki name) h]; rfl
  · rw [getString, none_of (inv.ks name) h]
  · rw [getBool, none_of (inv.kb name) h]

/-! ### C49 -/

theorem mapM_congr' {A B : Type} {f g : A → M B} {l : List A} (h : ∀ a ∈ l, f a = g a) : l.mapM f = l.mapM g := by
  induction l with
  | nil => rfl
  | cons a l ih =>
    rw [List.mapM_cons, List.mapM_cons, h a (by simp), ih fun b hb => h b (by simp [hb])]

/-- C49: inserting a positional argument (not option-like, not registered, and not right after a registered value
option) anywhere changes nothing in the outcome of `parse`. -/
theorem C49_positional_ignored (hist : List (CmdOp R)) (self : CmdLineArgParser R) (hrun : cmdRun hist = .ok self)
    (exec x : Str) (pre post : List Str) (hx : ¬ LooksLikeOption x) (hreg : ∀ k, ¬ Registered k hist x)
    (hpre : ∀ y, pre.getLast? = some y → ∀ k, Registered k hist y → k = .bool) :
    self.parse (exec :: (pre ++ x :: post)) = self.parse (exec :: (pre ++ post)) := by
  have inv := CmdInv.of_run hrun
  have hx' : isOptionName x = false := by
    rw [← Bool.not_eq_true, isOptionName_iff]; exact hx
  have hfi : ∀ s : CmdLineArgParser R, firstInvalid s (pre ++ x :: post) = firstInvalid s (pre ++ post) := by
    intro s
    induction pre with
    | nil => simp [firstInvalid, hx']
    | cons a pre ih =>
      simp only [List.cons_append, firstInvalid]
      rw [ih]
      intro y hy k hk
      cases pre with
      | nil => simp at hy
      | cons b pre => exact hpre y (by rw [List.getLast?_cons_cons]; exact hy) k hk
  have hmap : ∀ {T : Type} (conv : Str → M T) (m : StdMap Str T) (k : Kind), k ≠ .bool →
      (∀ p ∈ m, Registered k hist p.1) → scanMap conv (pre ++ x :: post) m = scanMap conv (pre ++ post) m := by
    intro T conv m k hk hm
    unfold scanMap
    apply mapM_congr'
    intro p hp
    have h1 := hm p hp
    rw [scanValue_eq, scanValue_eq, following_insert]
    · rintro rfl; exact hreg k h1
    · intro h2; exact hk (hpre _ h2 k h1)
  have hflag : self.boolArg.map (fun kv => (kv.1, scanFlag kv.1 (pre ++ x :: post) kv.2)) =
      self.boolArg.map (fun kv => (kv.1, scanFlag kv.1 (pre ++ post) kv.2)) := by
    apply List.map_congr_left
    intro p hp
    have h1 : Registered .bool hist p.1 := by
      rw [registered_iff, ← inv.kb, (StdMap.mem_iff_find inv.sb p.1 p.2).1 hp]; rfl
    rw [scanFlag_eq, scanFlag_eq]
    have : x ≠ p.1 := by rintro rfl; exact hreg _ h1
    have : (pre ++ x :: post).count p.1 = (pre ++ post).count p.1 := by
      simp [List.count_append, this]
    rw [this]
  have hd := hmap (fun s => (pure (DoubleText.atof s) : M R)) self.doubleArg .double (by decide) (by
    intro p hp
    rw [registered_iff, ← inv.kd, (StdMap.mem_iff_find inv.sd p.1 p.2).1 hp]; rfl)
  have hi := hmap atoi self.intArg .int (by decide) (by
    intro p hp
    rw [registered_iff, ← inv.ki, (StdMap.mem_iff_find inv.si p.1 p.2).1 hp]; rfl)
  have hs := hmap (fun s => (pure s : M Str)) self.stringArg .string (by decide) (by
    intro p hp
    rw [registered_iff, ← inv.ks, (StdMap.mem_iff_find inv.ss p.1 p.2).1 hp]; rfl)
  unfold parse
  simp only [hfi, hd, hi, hs, hflag]

/-! ### C50 -/

/-- C50 (part): the decimal notation of every `int` is accepted as the value of an integer option, with that value.
The general statement for doubles is in `C50_double_literals_partial`. -/
theorem C50_int_literals (hist : List (CmdOp R)) (self : CmdLineArgParser R) (hrun : cmdRun hist = .ok self)
    (exec name : Str) (hreg : Registered .int hist name) (z : Int) (h1 : -2 ^ 31 ≤ z) (h2 : z < 2 ^ 31) :
    ∃ self' out, self.parse [exec, name, showInt z] = .ok (true, self', out) ∧ self'.getInt name = z := by
  have hz : ¬ LooksLikeOption (showInt z) := by
    rintro ⟨c, r, h, hc⟩
    unfold showInt at h
    have hd := toDigits_ok z.natAbs
    split at h
    · injection h with _ h
      rw [h] at hd
      have := hd c (by simp)
      unfold isDigitC at this
      simp only [Bool.and_eq_true, decide_eq_true_eq] at this
      exact hc this
    · rw [h] at hd
      exact (digits_not_special (hd '-' (by simp))).2.1 rfl
  have hfol : ∀ n v, Follows [name, showInt z] n v → v = showInt z := by
    rintro n v ⟨i, _, h4⟩
    match i with
    | 0 => simpa [eq_comm] using h4
    | i + 1 => simp at h4
  obtain ⟨self', h⟩ := (C46_defined_iff hist self hrun exec [name, showInt z] (by
    intro a ha hl
    rcases List.mem_cons.1 ha with rfl | ha
    · exact ⟨_, hreg⟩
    · simp only [List.mem_singleton] at ha; subst ha; exact absurd hl hz)).2 (by
      intro n v _ hf
      rw [hfol n v hf]
      exact ⟨z, atoi_showInt z (by omega) (by omega)⟩)
  refine ⟨self', _, h, ?_⟩
  have := (C46_last_value_int hist self self' hrun exec _ _ h name hreg).2 (showInt z) (by
    refine ⟨0, rfl, rfl, ?_⟩
    intro j hj _
    have : 2 ≤ j + 1 := by omega
    simp [this])
  rw [atoi_showInt z (by omega) (by omega)] at this
  injection this with this
  exact this.symm

omit [DoubleText R] in
/-- A literal looks like an option exactly if it starts with `-.`. -/
theorem literal_option {s : Str} (hs : IsDecimalLiteral s) : LooksLikeOption s ↔ ∃ r, s = '-' :: '.' :: r := by
  constructor
  · rintro ⟨c, r, h, hc⟩
    obtain ⟨neg, ip, frac, ex, hip, hfr, hne, _, hse⟩ := hs
    rw [h] at hse
    cases neg with
    | false =>
      simp only [Bool.false_eq_true, if_false, List.nil_append] at hse
      cases ip with
      | nil =>
        cases frac with
        | none => simp at hne
        | some f => simp at hse
      | cons d ip =>
        simp only [List.cons_append] at hse
        injection hse with e _
        have := hip d (by simp)
        rw [← e] at this
        exact absurd this.1 (by decide)
    | true =>
      simp only [if_true, List.cons_append, List.nil_append] at hse
      injection hse with _ hse
      cases ip with
      | nil =>
        cases frac with
        | none => simp at hne
        | some f =>
          simp only [List.nil_append, List.cons_append] at hse
          injection hse with e _
          subst e
          exact ⟨r, h⟩
      | cons d ip =>
        simp only [List.cons_append] at hse
        injection hse with e _
        subst e
        exact absurd (hip c (by simp)) hc
  · rintro ⟨r, rfl⟩
    exact ⟨_, _, rfl, by decide⟩

/-- C50 (part): a decimal literal (any number of digits, optional sign, fraction and exponent) is accepted as the value of a
double option unless it starts with `-.`. Missing: literals starting with `-.` (see `C50_literals_fails`); the name must
not also be an integer option, which would read the literal too. -/
theorem C50_double_literals_partial [Neg R] [HasMax R] (hist : List (CmdOp R)) (self : CmdLineArgParser R)
    (hrun : cmdRun hist = .ok self) (exec name s : Str) (hreg : Registered .double hist name)
    (hnint : ¬ Registered .int hist name) (hs : IsDecimalLiteral s) (hdot : ∀ r, s ≠ '-' :: '.' :: r) :
    ∃ self' out, self.parse [exec, name, s] = .ok (true, self', out) ∧ self'.getDouble name = DoubleText.atof s := by
  have hz : ¬ LooksLikeOption s := by
    rw [literal_option hs]
    rintro ⟨r, h⟩
    exact hdot r h
  obtain ⟨self', h⟩ := (C46_defined_iff hist self hrun exec [name, s] (by
    intro a ha hl
    rcases List.mem_cons.1 ha with rfl | ha
    · exact ⟨_, hreg⟩
    · simp only [List.mem_singleton] at ha; subst ha; exact absurd hl hz)).2 (by
      rintro n v hr ⟨i, h3, h4⟩
      match i with
      | 0 => simp at h3; subst h3; exact absurd hr hnint
      | i + 1 => simp at h4)
  refine ⟨self', _, h, ?_⟩
  exact (C46_last_value_double hist self self' hrun exec _ _ h name hreg).2 s (by
    refine ⟨0, rfl, rfl, ?_⟩
    intro j hj _
    have : 2 ≤ j + 1 := by omega
    simp [this])

/-- C50: of the decimal literals, those starting with `-.` and only those are rejected after a double option (unless the
literal is itself registered as an option). -/
theorem C50_double_literals_iff [Neg R] [HasMax R] (hist : List (CmdOp R)) (self : CmdLineArgParser R)
    (hrun : cmdRun hist = .ok self) (exec name s : Str) (hreg : Registered .double hist name)
    (hnint : ¬ Registered .int hist name) (hs : IsDecimalLiteral s) (hopt : ∀ k, ¬ Registered k hist s) :
    ((∀ r, s ≠ '-' :: '.' :: r) →
      ∃ self' out, self.parse [exec, name, s] = .ok (true, self', out) ∧ self'.getDouble name = DoubleText.atof s) ∧
    ((∃ r, s = '-' :: '.' :: r) →
      ∃ self' out, self.parse [exec, name, s] = .ok (false, self', out) ∧ self'.getDouble name = self.getDouble name) := by
  refine ⟨C50_double_literals_partial hist self hrun exec name s hreg hnint hs, fun hr => ?_⟩
  obtain ⟨self', out, h⟩ := (C45_rejects_iff hist self hrun exec [name, s]).2
    ⟨s, by simp, (literal_option hs).2 hr, hopt⟩
  exact ⟨self', out, h, (C45_rejected_changes_nothing self self' _ out h name).1⟩

/-! ### C51 -/

omit [DoubleText R] in
theorem follows_of_last {args : List Str} {name v : Str} (h : LastFollowing args name v) : Follows args name v := by
  obtain ⟨i, a, b, _⟩ := h
  exact ⟨i, a, b⟩

theorem not_option_of_accepted {hist : List (CmdOp R)} {self self' : CmdLineArgParser R} (hrun : cmdRun hist = .ok self)
    {exec : Str} {args : List Str} {out : Str} (h : self.parse (exec :: args) = .ok (true, self', out)) {name v : Str}
    (hf : Follows args name v) (hv : ∀ k, ¬ Registered k hist v) : ¬ LooksLikeOption v := by
  intro hl
  have hnot : ¬ ∃ self' out, self.parse (exec :: args) = .ok (false, self', out) := by
    rintro ⟨s, o, hh⟩
    rw [h] at hh
    simp at hh
  rw [C45_rejects_iff hist self hrun exec args] at hnot
  obtain ⟨i, a, b⟩ := hf
  exact hnot ⟨v, List.mem_of_getElem? b, hl, hv⟩

/-- C51 (part), int options: if the option is never directly followed by a registered name, then its value after
`parse` is its previous value or is read from an argument that is not an option.
Missing: command lines where an option name directly follows a value option; there the claim is false
(`C51_not_swallowed_fails`). -/
theorem C51_not_swallowed_int_partial (hist : List (CmdOp R)) (self self' : CmdLineArgParser R)
    (hrun : cmdRun hist = .ok self) (exec : Str) (args : List Str) (out : Str)
    (h : self.parse (exec :: args) = .ok (true, self', out)) (name : Str) (hreg : Registered .int hist name)
    (hsep : ∀ v, Follows args name v → ∀ k, ¬ Registered k hist v) :
    self'.getInt name = self.getInt name ∨
      ∃ v, Follows args name v ∧ ¬ LooksLikeOption v ∧ (∀ k, ¬ Registered k hist v) ∧ atoi v = .ok (self'.getInt name) := by
  have h46 := C46_last_value_int hist self self' hrun exec args out h name hreg
  rcases C46_cases args name with hn | ⟨v, hv⟩
  · exact Or.inl (h46.1 hn)
  · have hf := follows_of_last hv
    exact Or.inr ⟨v, hf, not_option_of_accepted hrun h hf (hsep v hf), hsep v hf, h46.2 v hv⟩

/-- C51 (part), double options: if the option is never directly followed by a registered name, then its value after
`parse` is its previous value or is read from an argument that is not an option.
Missing: command lines where an option name directly follows a value option; there the claim is false
(`C51_not_swallowed_fails`). -/
theorem C51_not_swallowed_double_partial [Neg R] [HasMax R] (hist : List (CmdOp R)) (self self' : CmdLineArgParser R)
    (hrun : cmdRun hist = .ok self) (exec : Str) (args : List Str) (out : Str)
    (h : self.parse (exec :: args) = .ok (true, self', out)) (name : Str) (hreg : Registered .double hist name)
    (hsep : ∀ v, Follows args name v → ∀ k, ¬ Registered k hist v) :
    self'.getDouble name = self.getDouble name ∨
      ∃ v, Follows args name v ∧ ¬ LooksLikeOption v ∧ (∀ k, ¬ Registered k hist v) ∧ self'.getDouble name = DoubleText.atof v := by
  have h46 := C46_last_value_double hist self self' hrun exec args out h name hreg
  rcases C46_cases args name with hn | ⟨v, hv⟩
  · exact Or.inl (h46.1 hn)
  · have hf := follows_of_last hv
    exact Or.inr ⟨v, hf, not_option_of_accepted hrun h hf (hsep v hf), hsep v hf, h46.2 v hv⟩

/-- C51 (part), string options: if the option is never directly followed by a registered name, then its value after
`parse` is its previous value or is read from an argument that is not an option.
Missing: command lines where an option name directly follows a value option; there the claim is false
(`C51_not_swallowed_fails`). -/
theorem C51_not_swallowed_string_partial (hist : List (CmdOp R)) (self self' : CmdLineArgParser R)
    (hrun : cmdRun hist = .ok self) (exec : Str) (args : List Str) (out : Str)
    (h : self.parse (exec :: args) = .ok (true, self', out)) (name : Str) (hreg : Registered .string hist name)
    (hsep : ∀ v, Follows args name v → ∀ k, ¬ Registered k hist v) :
    self'.getString name = self.getString name ∨
      ∃ v, Follows args name v ∧ ¬ LooksLikeOption v ∧ (∀ k, ¬ Registered k hist v) ∧ self'.getString name = v := by
  have h46 := C46_last_value_string hist self self' hrun exec args out h name hreg
  rcases C46_cases args name with hn | ⟨v, hv⟩
  · exact Or.inl (h46.1 hn)
  · have hf := follows_of_last hv
    exact Or.inr ⟨v, hf, not_option_of_accepted hrun h hf (hsep v hf), hsep v hf, h46.2 v hv⟩

omit [DoubleText R] in
theorem atoi_option {v : Str} (h : LooksLikeOption v) : atoi v = .ok 0 := by
  obtain ⟨c, rest, rfl, hc⟩ := h
  have h1 : List.dropWhile isSpaceC ('-' :: c :: rest) = '-' :: c :: rest := by
    rw [List.dropWhile_cons_of_neg (by decide)]
  have h2 : isDigitC c = false := by
    unfold isDigitC
    rw [Bool.and_eq_false_iff]
    simp only [decide_eq_false_iff_not]
    by_cases h : '0' ≤ c
    · right; exact fun h' => hc ⟨h, h'⟩
    · left; exact h
  have h3 : List.takeWhile isDigitC (c :: rest) = [] := by
    rw [List.takeWhile_cons_of_neg (by rw [h2]; decide)]
  unfold atoi
  rw [h1]
  have h4 : splitSign ('-' :: c :: rest) = (true, c :: rest) := rfl
  simp only [h4, h3]
  rfl

/-- C51 is false of every command line: whenever what follows the last use of a value option looks like an option, an accepted
command line swallows it. An `int` option becomes 0, a string option becomes the name of the other option, and a double option what
`atof` makes of that name. -/
theorem C51_always_swallowed [Neg R] [HasMax R] (hist : List (CmdOp R)) (self self' : CmdLineArgParser R)
    (hrun : cmdRun hist = .ok self) (exec : Str) (args : List Str) (out : Str)
    (h : self.parse (exec :: args) = .ok (true, self', out)) (name v : Str) (hl : LastFollowing args name v)
    (ho : LooksLikeOption v) :
    (Registered .int hist name → self'.getInt name = 0) ∧ (Registered .string hist name → self'.getString name = v) ∧
      (Registered .double hist name → self'.getDouble name = DoubleText.atof v) := by
  refine ⟨fun hr => ?_, fun hr => ?_, fun hr => ?_⟩
  · have := (C46_last_value_int hist self self' hrun exec args out h name hr).2 v hl
    rw [atoi_option ho] at this
    exact (Except.ok.inj this).symm
  · exact (C46_last_value_string hist self self' hrun exec args out h name hr).2 v hl
  · exact (C46_last_value_double hist self self' hrun exec args out h name hr).2 v hl

/-! ### C52 -/

theorem helpLines_eq {T : Type} (shw : T → Str) (tag : Str) (m : StdMap Str T) (hm : StdMap Str Str)
    (h : ∀ p ∈ m, (StdMap.find hm p.1).isSome = true) :
    helpLines shw tag m hm = .ok ((m.map fun p =>
      '\t' :: p.1 ++ tag ++ (StdMap.find hm p.1).getD [] ++ " (".toList ++ shw p.2 ++ ")\n".toList).flatten) := by
  unfold helpLines
  suffices h' : ∀ f : Str × T → M Str, (∀ p ∈ m, f p = .ok ('\t' :: p.1 ++ tag ++ (StdMap.find hm p.1).getD [] ++
      " (".toList ++ shw p.2 ++ ")\n".toList)) → m.mapM f = .ok (m.map fun p =>
        '\t' :: p.1 ++ tag ++ (StdMap.find hm p.1).getD [] ++ " (".toList ++ shw p.2 ++ ")\n".toList) by
    rw [h' _ ?_]
    · rfl
    · intro p hp
      obtain ⟨hl, he⟩ := Option.isSome_iff_exists.1 (h p hp)
      simp only [he, Option.getD_some]
      rfl
  intro f hf
  clear h
  induction m with
  | nil => rfl
  | cons p m ih =>
    rw [List.mapM_cons, ih fun q hq => hf q (by simp [hq]), hf p (by simp)]
    rfl

/-- The options of one type as `help()` shows them: sorted by name without repetition, exactly the registered ones, with
the help text of the last registration and the current value. -/
structure Listing {T : Type} (k : Kind) (hist : List (CmdOp R)) (get : Str → T) (L : List (Str × Str × T)) : Prop where
  sorted : (L.map (·.1)).Pairwise (· < ·)
  complete : ∀ name, Registered k hist name ↔ ∃ e ∈ L, e.1 = name
  text : ∀ e ∈ L, lastHelp k hist e.1 = some e.2.1
  value : ∀ e ∈ L, get e.1 = e.2.2

omit [DoubleText R] in
theorem listing_of {T : Type} {k : Kind} {hist : List (CmdOp R)} {get : Str → T} {m : StdMap Str T}
    {hm : StdMap Str Str} (hs : StdMap.Sorted m) (hh : ∀ n, StdMap.find hm n = lastHelp k hist n)
    (hk : ∀ n, (StdMap.find m n).isSome = (lastHelp k hist n).isSome)
    (hg : ∀ n v, StdMap.find m n = some v → get n = v) :
    Listing k hist get (m.map fun p => (p.1, (StdMap.find hm p.1).getD [], p.2)) ∧
      ∀ p ∈ m, (StdMap.find hm p.1).isSome = true := by
  have hsome : ∀ p ∈ m, (StdMap.find hm p.1).isSome = true := by
    intro p hp
    rw [hh, ← hk, (StdMap.mem_iff_find hs p.1 p.2).1 hp]; rfl
  refine ⟨⟨?_, ?_, ?_, ?_⟩, hsome⟩
  · rw [List.map_map]; exact hs
  · intro name
    rw [registered_iff, ← hk]
    constructor
    · intro h
      obtain ⟨v, hv⟩ := Option.isSome_iff_exists.1 h
      exact ⟨_, List.mem_map.2 ⟨(name, v), (StdMap.mem_iff_find hs name v).2 hv, rfl⟩, rfl⟩
    · rintro ⟨e, he, rfl⟩
      obtain ⟨p, hp, rfl⟩ := List.mem_map.1 he
      rw [(StdMap.mem_iff_find hs p.1 p.2).1 hp]; rfl
  · intro e he
    obtain ⟨p, hp, rfl⟩ := List.mem_map.1 he
    obtain ⟨h, hx⟩ := Option.isSome_iff_exists.1 (hsome p hp)
    simp only [hx, Option.getD_some]
    rw [← hh, hx]
  · intro e he
    obtain ⟨p, hp, rfl⟩ := List.mem_map.1 he
    exact hg _ _ ((StdMap.mem_iff_find hs p.1 p.2).1 hp)

/-- C52: `help()` is defined for every history and prints, between a header with the purpose set last and the program name
given to the last `parse`, and the footnotes (the newest first), one line per registered option: first the doubles, then
the integers, the strings and the flags, each in key order, with the help text of the last registration and the current
value. -/
theorem C52_help [Neg R] [HasMax R] (hist : List (CmdOp R)) (self : CmdLineArgParser R) (hrun : cmdRun hist = .ok self) :
    ∃ (D : List (Str × Str × R)) (I : List (Str × Str × Int)) (S : List (Str × Str × Str)) (B : List (Str × Str × Bool)),
      Listing .double hist self.getDouble D ∧ Listing .int hist self.getInt I ∧
      Listing .string hist self.getString S ∧ Listing .bool hist self.getBool B ∧
      self.help = .ok (lastPurpose hist ++ "\n".toList ++ lastExec hist ++ " [options]\nUsage:\n".toList
        ++ D.flatMap (fun e => "\t".toList ++ e.1 ++ " <double#> ".toList ++ e.2.1 ++ " (".toList
              ++ DoubleText.showDouble e.2.2 ++ ")\n".toList)
        ++ I.flatMap (fun e => "\t".toList ++ e.1 ++ " <int#> ".toList ++ e.2.1 ++ " (".toList
              ++ showInt e.2.2 ++ ")\n".toList)
        ++ S.flatMap (fun e => "\t".toList ++ e.1 ++ " <string> ".toList ++ e.2.1 ++ " (".toList
              ++ e.2.2 ++ ")\n".toList)
        ++ B.flatMap (fun e => "\t".toList ++ e.1 ++ " ".toList ++ e.2.1 ++ " (".toList
              ++ (if e.2.2 then "1".toList else "0".toList) ++ ")\n".toList)
        ++ footnotes hist ++ "\n".toList) := by
  obtain ⟨t1, t2, t3⟩ := texts_of_run hrun
  rw [← t1, ← t2, ← t3]
  have inv := CmdInv.of_run hrun
  obtain ⟨hD, hD'⟩ := listing_of (get := self.getDouble) inv.sd inv.hd inv.kd (fun n v h => by rw [getDouble, h])
  obtain ⟨hI, hI'⟩ := listing_of (get := self.getInt) inv.si inv.hi inv.ki (fun n v h => by rw [getInt, h])
  obtain ⟨hS, hS'⟩ := listing_of (get := self.getString) inv.ss inv.hs inv.ks (fun n v h => by rw [getString, h])
  obtain ⟨hB, hB'⟩ := listing_of (get := self.getBool) inv.sb inv.hb inv.kb (fun n v h => by rw [getBool, h])
  refine ⟨_, _, _, _, hD, hI, hS, hB, ?_⟩
  unfold help
  rw [helpLines_eq _ _ _ _ hD', helpLines_eq _ _ _ _ hI', helpLines_eq _ _ _ _ hS', helpLines_eq _ _ _ _ hB']
  simp only [M.ok_bind, M.pure_eq, List.flatMap_map]
  congr 1
  simp only [List.flatMap, List.append_assoc]
  rfl

end

/-! Examples and counterexamples: doubles are represented by their text. -/

section
local instance : DoubleText Str := ⟨id, id⟩
local instance : HasMax Str := ⟨"max".toList⟩
local instance : Neg Str := ⟨fun s => '-' :: s⟩

/-- A history with one option of each type. -/
def exHist : List (CmdOp Str) :=
  [.setInt "-numCells".toList 128 "Number of cells".toList, .setDouble "-dt".toList "0.1".toList "Time step".toList,
   .setString "-o".toList "out.vtk".toList "Output".toList, .setBool "-vtk".toList false "Write VTK".toList]

def exParser : CmdLineArgParser Str :=
  (((CmdLineArgParser.new.setInt "-numCells".toList 128 "Number of cells".toList).setDouble "-dt".toList "0.1".toList
    "Time step".toList).setString "-o".toList "out.vtk".toList "Output".toList).setBool "-vtk".toList false
    "Write VTK".toList

theorem exRun : cmdRun exHist = .ok exParser := by rfl

theorem exRegInt : Registered .int exHist "-numCells".toList :=
  ⟨_, List.mem_cons_of_mem _ (List.mem_cons_self ..), _, rfl⟩
theorem exRegDouble : Registered .double exHist "-dt".toList :=
  ⟨_, List.mem_cons_of_mem _ (List.mem_cons_of_mem _ (List.mem_cons_self ..)), _, rfl⟩
theorem exRegBool : Registered .bool exHist "-vtk".toList :=
  ⟨_, List.mem_cons_of_mem _ (List.mem_cons_of_mem _ (List.mem_cons_of_mem _ (List.mem_cons_of_mem _
    (List.mem_cons_self ..)))), _, rfl⟩

/-- C45-C47, C49: a command line with repeated options, a repeated flag and a positional argument. -/
example : ∃ r, exParser.parse (["prog", "-numCells", "3", "-vtk", "pos", "-numCells", "-5", "-vtk", "-vtk"].map
    String.toList) = .ok r ∧ (r.1 = true ∧ r.2.1.getInt "-numCells".toList = -5 ∧ r.2.1.getBool "-vtk".toList = true) :=
  exists_ok (by decide +kernel)
/-- C45: an unknown option. -/
example : ∃ r, exParser.parse (["prog", "-numCells", "3", "-foo"].map String.toList) = .ok r ∧
    (r.1 = false ∧ r.2.1.getInt "-numCells".toList = 128) :=
  exists_ok (by decide +kernel)
/-- C46: an out-of-range integer is undefined. -/
example : exParser.parse (["prog", "-numCells", "9999999999"].map String.toList) = .error .badArgument := by
  decide +kernel
/-- C48: the values that were registered, and the sentinels. -/
example : exParser.getInt "-numCells".toList = 128 ∧ exParser.getInt "-n".toList = -(2 ^ 31 - 1) ∧
    exParser.getString "-o".toList = "out.vtk".toList := by decide +kernel
/-- C50: a negative integer and a negative decimal are accepted as values. -/
example : ∃ r, exParser.parse (["prog", "-numCells", "-2147483648", "-dt", "-0.5"].map String.toList) = .ok r ∧
    (r.1 = true ∧ r.2.1.getInt "-numCells".toList = -2 ^ 31 ∧ r.2.1.getDouble "-dt".toList = "-0.5".toList) :=
  exists_ok (by decide +kernel)
example : IsDecimalLiteral "-0.5e-3".toList :=
  ⟨true, ['0'], some ['5'], ['e', '-', '3'], by decide, by
    intro f hf c hc
    simp at hf; subst hf
    simp at hc; subst hc
    decide, Or.inl (by simp),
    Or.inr ⟨'e', ['-'], ['3'], Or.inl rfl, Or.inr (Or.inl rfl), by simp, by decide, rfl⟩, by decide⟩
/-- C52: the help text. -/
example : exParser.help = .ok ("\n [options]\nUsage:\n\t-dt <double#> Time step (0.1)\n".toList
    ++ "\t-numCells <int#> Number of cells (128)\n\t-o <string> Output (out.vtk)\n".toList
    ++ "\t-h Print help. (0)\n\t-vtk Write VTK (0)\n\nReport bugs to alexander@gokliya.net\n\n".toList) := by
  decide +kernel

/-- C50 is false: `-.5` following a double option is rejected as an unknown option. -/
theorem C50_literals_fails :
    ¬ ∀ (hist : List (CmdOp Str)) (self : CmdLineArgParser Str) (exec name s : Str), cmdRun hist = .ok self →
      Registered .double hist name → ¬ Registered .int hist name → IsDecimalLiteral s →
      ∃ self' out, self.parse [exec, name, s] = .ok (true, self', out) := by
  intro h
  obtain ⟨self', out, hp⟩ := h exHist exParser "prog".toList "-dt".toList "-.5".toList exRun exRegDouble
    (by
      rw [registered_iff]
      decide +kernel)
    ⟨true, [], some ['5'], [], by simp, by
      intro f hf c hc
      simp at hf; subst hf
      simp at hc; subst hc
      decide, Or.inr ⟨_, rfl, by simp⟩, Or.inl rfl, by decide⟩
  have : ∃ r, exParser.parse ["prog".toList, "-dt".toList, "-.5".toList] = .ok r ∧ r.1 = false :=
    exists_ok (by decide +kernel)
  obtain ⟨r, h1, h2⟩ := this
  rw [h1] at hp
  injection hp with hp
  rw [hp] at h2
  simp at h2

/-- C51 is false: in `-numCells -vtk` the option name `-vtk` is read as the number of cells (0). -/
theorem C51_not_swallowed_fails :
    ¬ ∀ (hist : List (CmdOp Str)) (self self' : CmdLineArgParser Str) (exec name flag out : Str),
      cmdRun hist = .ok self → Registered .int hist name → Registered .bool hist flag →
      self.parse [exec, name, flag] = .ok (true, self', out) → self'.getInt name = self.getInt name := by
  intro h
  have : ∃ r, exParser.parse ["prog".toList, "-numCells".toList, "-vtk".toList] = .ok r ∧
      (r.1 = true ∧ r.2.1.getInt "-numCells".toList = 0) := exists_ok (by decide +kernel)
  obtain ⟨⟨b, s, o⟩, h1, h2, h3⟩ := this
  simp only at h2 h3
  subst h2
  have := h exHist exParser s "prog".toList "-numCells".toList "-vtk".toList o exRun exRegInt exRegBool h1
  rw [h3] at this
  exact absurd this (by decide +kernel)

/-- C51: the hypotheses of the theorem above are met by `-numCells 4 -numCells -vtk`. -/
example : (exParser.parse ["prog".toList, "-numCells".toList, "4".toList, "-numCells".toList, "-vtk".toList]).map
      (fun r => (r.1, r.2.1.getInt "-numCells".toList)) = .ok (true, 0) ∧
    LastFollowing ["-numCells".toList, "4".toList, "-numCells".toList, "-vtk".toList] "-numCells".toList "-vtk".toList ∧
    LooksLikeOption "-vtk".toList := by
  refine ⟨by decide +kernel, ⟨2, by decide, by decide, ?_⟩, 'v', "tk".toList, by decide, by decide⟩
  intro j hj h
  match j, hj, h with
  | 3, _, h => exact absurd h (by decide)
  | j + 4, _, h => simp at h

end
end Fidi
