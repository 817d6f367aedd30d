import Verif.Lemmas.CmdLine
import Verif.Model.Mains
import Verif.Spec.Mains

/-
The command lines of the drivers.
-/
namespace Fidi
open Spec CmdLineArgParser
variable {R : Type} [DoubleText R]

/-- The number read by `atoi`. -/
def Reads (v : Str) (z : Int) : Prop := atoi v = .ok z

theorem toString_int (z : Int) : (toString z).toList = showInt z := by
  cases z with
  | ofNat n => simp [showInt, toString, Int.repr, Nat.repr]
  | negSucc n => simp [showInt, toString, Int.repr, Nat.repr]

/-! ### parse -/

omit [DoubleText R] in
theorem firstUnknown_of {self : CmdLineArgParser R} {names args : List Str}
    (hn : ∀ a, isValidOptName self a = true ↔ a ∈ names) {a : Str} (h : firstInvalid self args = some a) :
    FirstUnknown names args a := by
  induction args with
  | nil => simp [firstInvalid] at h
  | cons b args ih =>
    rw [firstInvalid] at h
    split at h
    · next hb =>
      injection h with h
      subst h
      rw [Bool.and_eq_true, isOptionName_iff, Bool.not_eq_true', ← Bool.not_eq_true, hn] at hb
      exact ⟨[], args, rfl, hb.1, hb.2, by simp⟩
    · next hb =>
      obtain ⟨pre, post, e, h1, h2, h3⟩ := ih h
      refine ⟨b :: pre, post, by rw [e]; rfl, h1, h2, ?_⟩
      rintro c hc hl
      rcases List.mem_cons.1 hc with rfl | hc
      · by_contra hcn
        exact hb (by rw [Bool.and_eq_true, isOptionName_iff, Bool.not_eq_true', ← Bool.not_eq_true, hn]; exact ⟨hl, hcn⟩)
      · exact h3 c hc hl

omit [DoubleText R] in
theorem firstInvalid_none {self : CmdLineArgParser R} {names args : List Str}
    (hn : ∀ a, isValidOptName self a = true ↔ a ∈ names) : firstInvalid self args = none ↔ AllKnown names args := by
  rw [firstInvalid_none_iff]
  exact ⟨fun h a ha hl => (hn a).1 (h a ha ((isOptionName_iff a).2 hl)),
    fun h a ha hl => (hn a).2 (h a ha ((isOptionName_iff a).1 hl))⟩

theorem FirstUnknown.not_known {names args : List Str} {a : Str} (h : FirstUnknown names args a) : ¬ AllKnown names args := by
  obtain ⟨pre, post, rfl, h1, h2, _⟩ := h
  exact fun hk => h2 (hk a (by simp) h1)

theorem scanValue_of {args : List Str} {name : Str} {d z : Int} (h : IntValue Reads args name d z) :
    scanValue atoi name args d false = .ok z := by
  obtain ⟨r, e⟩ := (scanValue_ok_iff atoi name args d).2 h.1
  obtain ⟨h1, h2⟩ := scanValue_spec e
  rw [e]
  rcases h.2 with ⟨hn, rfl⟩ | ⟨v, hv, hr⟩
  · rw [h1 hn]
  · have := h2 v hv
    unfold Reads at hr
    rw [hr] at this
    rw [Except.ok.inj this]

/-- `parse` rejects. -/
theorem parse_unknown {self : CmdLineArgParser R} {names : List Str} (hn : ∀ a, isValidOptName self a = true ↔ a ∈ names)
    (exec : Str) {args : List Str} (h : ¬ AllKnown names args) :
    ∃ a, FirstUnknown names args a ∧
      self.parse (exec :: args) = .ok (false, { self with execName := exec }, a ++ " is not a valid option.\n".toList) := by
  have hn' : ∀ a, isValidOptName { self with execName := exec } a = true ↔ a ∈ names := hn
  cases e : firstInvalid { self with execName := exec } args with
  | none => exact absurd ((firstInvalid_none hn').1 e) h
  | some a =>
    refine ⟨a, firstUnknown_of hn' e, ?_⟩
    unfold parse
    dsimp only
    rw [e]
    rfl

/-- `parse` accepts. -/
theorem parse_known {self : CmdLineArgParser R} {names : List Str} (hn : ∀ a, isValidOptName self a = true ↔ a ∈ names)
    (exec : Str) {args : List Str} (h : AllKnown names args) (hd : self.doubleArg = []) (hs : self.stringArg = [])
    {n1 n2 : Str} {d1 d2 z1 z2 : Int} (hi : self.intArg = [(n1, d1), (n2, d2)]) (h1 : IntValue Reads args n1 d1 z1)
    (h2 : IntValue Reads args n2 d2 z2) (hb : ∀ kv ∈ self.boolArg, kv.2 = false) :
    self.parse (exec :: args) = .ok (true, { self with
      execName := exec, intArg := [(n1, z1), (n2, z2)],
      boolArg := self.boolArg.map fun kv => (kv.1, flagValue args kv.1) }, []) := by
  have hn' : ∀ a, isValidOptName { self with execName := exec } a = true ↔ a ∈ names := hn
  have e := (firstInvalid_none hn').2 h
  unfold parse
  dsimp only
  rw [e]
  dsimp only
  rw [hd, hs, hi]
  have e1 : scanMap atoi args [(n1, d1), (n2, d2)] = .ok [(n1, z1), (n2, z2)] := by
    unfold scanMap
    rw [List.mapM_cons, List.mapM_cons, List.mapM_nil, scanValue_of h1]
    dsimp only
    rw [scanValue_of h2]
    rfl
  have e2 : (self.boolArg.map fun kv => (kv.1, scanFlag kv.1 args kv.2)) =
      self.boolArg.map fun kv => (kv.1, flagValue args kv.1) := by
    apply List.map_congr_left
    intro kv hkv
    rw [scanFlag_eq, hb kv hkv, Bool.false_xor]
    rfl
  rw [e1, e2]
  cases self
  simp only at hd hs
  subst hd hs
  rfl

/-! ### The options of the drivers -/

section
omit [DoubleText R]

/-- The options of the upwind drivers, with values. -/
def upwindParser (std : Bool) (exec : Str) (cells steps : Int) (h s v : Bool) : CmdLineArgParser R :=
  { (if std then withStd upwindOptions else upwindOptions : CmdLineArgParser R) with
    execName := exec, intArg := [("-numCells".toList, cells), ("-numSteps".toList, steps)],
    boolArg := [("-h".toList, h)] ++ (if std then [("-std".toList, s)] else []) ++ [("-vtk".toList, v)] }

theorem upwindParser_eq (std : Bool) :
    (if std then withStd upwindOptions else upwindOptions : CmdLineArgParser R) = upwindParser std [] 128 10 false false false := by
  cases std <;> rfl

theorem find_isSome_iff {V : Type} {m : StdMap Str V} (h : StdMap.Sorted m) (a : Str) :
    (StdMap.find m a).isSome = true ↔ a ∈ m.map Prod.fst := by
  rw [Option.isSome_iff_exists, List.mem_map]
  constructor
  · rintro ⟨v, hv⟩
    exact ⟨(a, v), (StdMap.mem_iff_find h a v).2 hv, rfl⟩
  · rintro ⟨⟨a', v⟩, hm, rfl⟩
    exact ⟨v, (StdMap.mem_iff_find h _ v).1 hm⟩

/-- The valid names of a parser without options of type double and string. -/
theorem isValidOptName_of {self : CmdLineArgParser R} (hd : self.doubleArg = []) (hs : self.stringArg = [])
    (h1 : StdMap.Sorted self.intArg) (h2 : StdMap.Sorted self.boolArg) (a : Str) :
    isValidOptName self a = true ↔ a ∈ self.intArg.map Prod.fst ++ self.boolArg.map Prod.fst := by
  unfold isValidOptName
  rw [hd, hs, List.mem_append, ← find_isSome_iff h1, ← find_isSome_iff h2]
  simp [StdMap.find]

theorem upwindParser_names (std : Bool) (exec : Str) (cells steps : Int) (h s v : Bool) (a : Str) :
    isValidOptName (upwindParser std exec cells steps h s v : CmdLineArgParser R) a = true ↔ a ∈ upwindNames std := by
  rw [isValidOptName_of (by cases std <;> rfl) (by cases std <;> rfl)
    (by cases std <;> (unfold StdMap.Sorted upwindParser; simp only [List.map]; decide +kernel))
    (by cases std <;> (unfold StdMap.Sorted upwindParser; simp; decide +kernel))]
  cases std
  · simp only [upwindParser, upwindNames, List.map, List.mem_cons, List.mem_append, List.not_mem_nil]; simp; tauto
  · simp only [upwindParser, upwindNames, List.map, List.mem_cons, List.mem_append, List.not_mem_nil]; simp; tauto

/-- The options of the laplacian driver, with values. -/
def laplacianParser (exec : Str) (cells dims : Int) (h v : Bool) : CmdLineArgParser R :=
  { (laplacianOptions : CmdLineArgParser R) with
    execName := exec, intArg := [("-numCells".toList, cells), ("-numDims".toList, dims)],
    boolArg := [("-h".toList, h), ("-vtk".toList, v)] }

theorem laplacianParser_eq : (laplacianOptions : CmdLineArgParser R) = laplacianParser [] 8000 2 false false := rfl

theorem laplacianParser_names (exec : Str) (cells dims : Int) (h v : Bool) (a : Str) :
    isValidOptName (laplacianParser exec cells dims h v : CmdLineArgParser R) a = true ↔ a ∈ laplacianNames := by
  rw [isValidOptName_of rfl rfl
    (by unfold StdMap.Sorted laplacianParser; simp only [List.map]; decide +kernel)
    (by unfold StdMap.Sorted laplacianParser; simp; decide +kernel)]
  simp only [laplacianParser, laplacianNames, List.map, List.mem_cons, List.mem_append, List.not_mem_nil]; simp; tauto

end

theorem helpLine_toList (name type text value : String) : (helpLine name type text value).toList =
    '\t' :: name.toList ++ type.toList ++ " ".toList ++ text.toList ++ " (".toList ++ value.toList ++ ")\n".toList := by
  unfold helpLine
  simp only [String.toList_append]
  rfl

theorem split_text : "Purpose: benchmark finite difference operations.\n".toList =
      "Purpose: benchmark finite difference operations.".toList ++ "\n".toList ∧
    " [options]\nUsage:\n".toList = " [options]\n".toList ++ "Usage:\n".toList ∧
    " <int#> ".toList = " <int#>".toList ++ " ".toList ∧ "".toList = [] ∧
    "\nReport bugs to alexander@gokliya.net\n\n".toList = "\nReport bugs to alexander@gokliya.net\n".toList ++ "\n".toList :=
  ⟨rfl, rfl, rfl, rfl, rfl⟩

theorem upwindParser_help (std : Bool) (exec : Str) (cells steps : Int) (h s v : Bool) :
    (upwindParser std exec cells steps h s v : CmdLineArgParser R).help =
      .ok (upwindHelp std exec cells steps h s v) := by
  have hb : ∀ b : Bool, (bit b).toList = showBool b := by decide
  cases std
  · rw [show (upwindParser false exec cells steps h s v : CmdLineArgParser R).help = .ok
      ("Purpose: benchmark finite difference operations.".toList ++ "\n".toList ++ exec ++ " [options]\n".toList ++
        "Usage:\n".toList ++ [] ++
        (('\t' :: "-numCells".toList ++ " <int#> ".toList ++ "Number of cells along each axis".toList ++ " (".toList ++
          showInt cells ++ ")\n".toList) ++ (('\t' :: "-numSteps".toList ++ " <int#> ".toList ++
          "Number of time steps".toList ++ " (".toList ++ showInt steps ++ ")\n".toList) ++ [])) ++ [] ++
        (('\t' :: "-h".toList ++ " ".toList ++ "Print help.".toList ++ " (".toList ++ showBool h ++ ")\n".toList) ++
          (('\t' :: "-vtk".toList ++ " ".toList ++ "Write output to VTK file".toList ++ " (".toList ++ showBool v ++
          ")\n".toList) ++ [])) ++ "\nReport bugs to alexander@gokliya.net\n".toList ++ "\n".toList) from rfl]
    congr 1
    unfold upwindHelp helpText
    simp only [List.flatMap_cons, List.flatMap_nil, List.cons_append, List.nil_append, List.append_nil, helpLine_toList,
      toString_int, hb, List.append_assoc, split_text.1, split_text.2.1, split_text.2.2.1, split_text.2.2.2.1,
      split_text.2.2.2.2, reduceIte, Bool.false_eq_true]
  · rw [show (upwindParser true exec cells steps h s v : CmdLineArgParser R).help = .ok
      ("Purpose: benchmark finite difference operations.".toList ++ "\n".toList ++ exec ++ " [options]\n".toList ++
        "Usage:\n".toList ++ [] ++
        (('\t' :: "-numCells".toList ++ " <int#> ".toList ++ "Number of cells along each axis".toList ++ " (".toList ++
          showInt cells ++ ")\n".toList) ++ (('\t' :: "-numSteps".toList ++ " <int#> ".toList ++
          "Number of time steps".toList ++ " (".toList ++ showInt steps ++ ")\n".toList) ++ [])) ++ [] ++
        (('\t' :: "-h".toList ++ " ".toList ++ "Print help.".toList ++ " (".toList ++ showBool h ++ ")\n".toList) ++
          (('\t' :: "-std".toList ++ " ".toList ++ "Print out spread of solution".toList ++ " (".toList ++ showBool s ++
          ")\n".toList) ++
          (('\t' :: "-vtk".toList ++ " ".toList ++ "Write output to VTK file".toList ++ " (".toList ++ showBool v ++
          ")\n".toList) ++ []))) ++ "\nReport bugs to alexander@gokliya.net\n".toList ++ "\n".toList) from rfl]
    congr 1
    unfold upwindHelp helpText
    simp only [List.flatMap_cons, List.flatMap_nil, List.cons_append, List.nil_append, List.append_nil, helpLine_toList,
      toString_int, hb, List.append_assoc, split_text.1, split_text.2.1, split_text.2.2.1, split_text.2.2.2.1,
      split_text.2.2.2.2, reduceIte, Bool.false_eq_true]

theorem laplacianParser_help (exec : Str) (cells dims : Int) (h v : Bool) :
    (laplacianParser exec cells dims h v : CmdLineArgParser R).help = .ok (laplacianHelp exec cells dims h v) := by
  have hb : ∀ b : Bool, (bit b).toList = showBool b := by decide
  rw [show (laplacianParser exec cells dims h v : CmdLineArgParser R).help = .ok
      ("Purpose: benchmark finite difference operations.".toList ++ "\n".toList ++ exec ++ " [options]\n".toList ++
        "Usage:\n".toList ++ [] ++
        (('\t' :: "-numCells".toList ++ " <int#> ".toList ++ "Number of cells along each axis".toList ++ " (".toList ++
          showInt cells ++ ")\n".toList) ++ (('\t' :: "-numDims".toList ++ " <int#> ".toList ++
          "Number of dimensions".toList ++ " (".toList ++ showInt dims ++ ")\n".toList) ++ [])) ++ [] ++
        (('\t' :: "-h".toList ++ " ".toList ++ "Print help.".toList ++ " (".toList ++ showBool h ++ ")\n".toList) ++
          (('\t' :: "-vtk".toList ++ " ".toList ++ "Write output to VTK file".toList ++ " (".toList ++ showBool v ++
          ")\n".toList) ++ [])) ++ "\nReport bugs to alexander@gokliya.net\n".toList ++ "\n".toList) from rfl]
  congr 1
  unfold laplacianHelp helpText
  simp only [List.flatMap_cons, List.flatMap_nil, List.cons_append, List.append_nil, helpLine_toList,
    toString_int, hb, List.append_assoc, List.nil_append, split_text.1, split_text.2.1, split_text.2.2.1,
    split_text.2.2.2.1, split_text.2.2.2.2]

/-! ### The command lines of the drivers -/

/-- A command line of an upwind driver with an unknown option. -/
theorem upwind_unknown (std : Bool) (exec : Str) {args : List Str} (h : ¬ AllKnown (upwindNames std) args) :
    ∃ a, FirstUnknown (upwindNames std) args a ∧
      (if std then withStd upwindOptions else upwindOptions : CmdLineArgParser R).parse (exec :: args) =
        .ok (false, upwindParser std exec 128 10 false false false, a ++ " is not a valid option.\n".toList) := by
  rw [upwindParser_eq]
  obtain ⟨a, ha, e⟩ := parse_unknown (upwindParser_names (R := R) std [] 128 10 false false false) exec h
  exact ⟨a, ha, by rw [e]; cases std <;> rfl⟩

/-- A valid command line of an upwind driver. -/
theorem upwind_known (std : Bool) (exec : Str) {args : List Str} (h : AllKnown (upwindNames std) args) {cells steps : Int}
    (h1 : IntValue Reads args "-numCells".toList 128 cells) (h2 : IntValue Reads args "-numSteps".toList 10 steps) :
    (if std then withStd upwindOptions else upwindOptions : CmdLineArgParser R).parse (exec :: args) =
        .ok (true, upwindParser std exec cells steps (flagValue args "-h".toList) (flagValue args "-std".toList)
          (flagValue args "-vtk".toList), []) := by
  rw [upwindParser_eq, parse_known (upwindParser_names (R := R) std [] 128 10 false false false) exec h
    (by cases std <;> rfl) (by cases std <;> rfl) rfl h1 h2 (by cases std <;> simp [upwindParser])]
  cases std <;> rfl

omit [DoubleText R] in
theorem upwindParser_get (std : Bool) (exec : Str) (cells steps : Int) (h s v : Bool) :
    (upwindParser std exec cells steps h s v : CmdLineArgParser R).getBool "-h".toList = h ∧
    (upwindParser std exec cells steps h s v : CmdLineArgParser R).getInt "-numCells".toList = cells ∧
    (upwindParser std exec cells steps h s v : CmdLineArgParser R).getInt "-numSteps".toList = steps ∧
    (upwindParser std exec cells steps h s v : CmdLineArgParser R).getBool "-vtk".toList = v ∧
    (upwindParser true exec cells steps h s v : CmdLineArgParser R).getBool "-std".toList = s := by
  cases std <;> exact ⟨rfl, rfl, rfl, rfl, rfl⟩

/-- A command line of the laplacian driver with an unknown option. -/
theorem laplacian_unknown (exec : Str) {args : List Str} (h : ¬ AllKnown laplacianNames args) :
    ∃ a, FirstUnknown laplacianNames args a ∧
      (laplacianOptions : CmdLineArgParser R).parse (exec :: args) =
        .ok (false, laplacianParser exec 8000 2 false false, a ++ " is not a valid option.\n".toList) :=
  parse_unknown (laplacianParser_names (R := R) [] 8000 2 false false) exec h

/-- A valid command line of the laplacian driver. -/
theorem laplacian_known (exec : Str) {args : List Str} (h : AllKnown laplacianNames args) {cells dims : Int}
    (h1 : IntValue Reads args "-numCells".toList 8000 cells) (h2 : IntValue Reads args "-numDims".toList 2 dims) :
    (laplacianOptions : CmdLineArgParser R).parse (exec :: args) =
        .ok (true, laplacianParser exec cells dims (flagValue args "-h".toList) (flagValue args "-vtk".toList), []) := by
  rw [laplacianParser_eq, parse_known (laplacianParser_names (R := R) [] 8000 2 false false) exec h rfl rfl rfl h1 h2
    (by simp [laplacianParser])]
  rfl

omit [DoubleText R] in
theorem laplacianParser_get (exec : Str) (cells dims : Int) (h v : Bool) :
    (laplacianParser exec cells dims h v : CmdLineArgParser R).getBool "-h".toList = h ∧
    (laplacianParser exec cells dims h v : CmdLineArgParser R).getInt "-numCells".toList = cells ∧
    (laplacianParser exec cells dims h v : CmdLineArgParser R).getInt "-numDims".toList = dims ∧
    (laplacianParser exec cells dims h v : CmdLineArgParser R).getBool "-vtk".toList = v :=
  ⟨rfl, rfl, rfl, rfl⟩

end Fidi
