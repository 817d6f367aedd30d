import Verif.Model.Stencil2d
import Verif.Spec.Stencil2d
import Verif.Lemmas.FilterPrint
import Verif.Lemmas.FilterProcs
import Verif.Lemmas.MainsMpi
import Mathlib.Tactic.Ring

/-
Lemmas for the driver `testStencil2d`.
-/
namespace Fidi
open Spec CmdLineArgParser
variable {R : Type}

/-! ### The command line -/

section
variable [DoubleText R]

/-- `parse` accepts: one option of type int. -/
theorem parse_known1 {self : CmdLineArgParser R} {names : List Str} (hn : ∀ a, isValidOptName self a = true ↔ a ∈ names)
    (exec : Str) {args : List Str} (h : AllKnown names args) (hd : self.doubleArg = []) (hs : self.stringArg = [])
    {n1 : Str} {d1 z1 : Int} (hi : self.intArg = [(n1, d1)]) (h1 : IntValue Reads args n1 d1 z1)
    (hb : ∀ kv ∈ self.boolArg, kv.2 = false) :
    self.parse (exec :: args) = .ok (true, { self with
      execName := exec, intArg := [(n1, z1)],
      boolArg := self.boolArg.map fun kv => (kv.1, flagValue args kv.1) }, []) := by
  have hn' : ∀ a, isValidOptName { self with execName := exec } a = true ↔ a ∈ names := hn
  have e := (firstInvalid_none hn').2 h
  unfold parse
  dsimp only
  rw [e]
  dsimp only
  rw [hd, hs, hi]
  have e1 : scanMap atoi args [(n1, d1)] = .ok [(n1, z1)] := by
    unfold scanMap
    rw [List.mapM_cons, List.mapM_nil, scanValue_of h1]
    rfl
  have e2 : (self.boolArg.map fun kv => (kv.1, scanFlag kv.1 args kv.2)) =
      self.boolArg.map fun kv => (kv.1, flagValue args kv.1) := by
    apply List.map_congr_left
    intro kv hkv
    rw [scanFlag_eq, hb kv hkv, Bool.false_xor]
    rfl
  rw [e1, e2]
  cases self
  simp only at hd hs
  subst hd hs
  rfl

namespace Stencil2d

omit [DoubleText R] in
/-- The options, with values. -/
def parser (exec : Str) (cells : Int) (h v : Bool) : CmdLineArgParser R :=
  { (options : CmdLineArgParser R) with
    execName := exec, intArg := [("-numCells".toList, cells)], boolArg := [("-h".toList, h), ("-vtk".toList, v)] }

omit [DoubleText R] in
theorem parser_eq : (options : CmdLineArgParser R) = parser [] 8 false false := rfl

omit [DoubleText R] in
theorem parser_names (exec : Str) (cells : Int) (h v : Bool) (a : Str) :
    isValidOptName (parser exec cells h v : CmdLineArgParser R) a = true ↔ a ∈ stencil2dNames := by
  rw [isValidOptName_of rfl rfl
    (by unfold StdMap.Sorted parser; simp only [List.map]; decide +kernel)
    (by unfold StdMap.Sorted parser; simp; decide +kernel)]
  simp only [parser, stencil2dNames, List.map, List.mem_cons, List.mem_append, List.not_mem_nil]; simp; tauto

omit [DoubleText R] in
theorem parser_get (exec : Str) (cells : Int) (h v : Bool) :
    (parser exec cells h v : CmdLineArgParser R).getBool "-h".toList = h ∧
    (parser exec cells h v : CmdLineArgParser R).getInt "-numCells".toList = cells ∧
    (parser exec cells h v : CmdLineArgParser R).getBool "-vtk".toList = v := ⟨rfl, rfl, rfl⟩

theorem parser_help (exec : Str) (cells : Int) (h v : Bool) :
    (parser exec cells h v : CmdLineArgParser R).help = .ok (stencil2dHelp exec cells h v) := by
  have hb : ∀ b : Bool, (bit b).toList = showBool b := by decide
  rw [show (parser exec cells h v : CmdLineArgParser R).help = .ok
      ("Purpose: benchmark finite difference operations.".toList ++ "\n".toList ++ exec ++ " [options]\n".toList ++
        "Usage:\n".toList ++ [] ++
        (('\t' :: "-numCells".toList ++ " <int#> ".toList ++ "Number of cells along each axis".toList ++ " (".toList ++
          showInt cells ++ ")\n".toList) ++ []) ++ [] ++
        (('\t' :: "-h".toList ++ " ".toList ++ "Print help.".toList ++ " (".toList ++ showBool h ++ ")\n".toList) ++
          (('\t' :: "-vtk".toList ++ " ".toList ++ "Write output to VTK file".toList ++ " (".toList ++ showBool v ++
          ")\n".toList) ++ [])) ++ "\nReport bugs to alexander@gokliya.net\n".toList ++ "\n".toList) from rfl]
  congr 1
  unfold stencil2dHelp helpText
  simp only [List.flatMap_cons, List.flatMap_nil, List.cons_append, List.append_nil, helpLine_toList,
    toString_int, hb, List.append_assoc, List.nil_append, split_text.1, split_text.2.1, split_text.2.2.1,
    split_text.2.2.2.1, split_text.2.2.2.2]

theorem unknown (exec : Str) {args : List Str} (h : ¬ AllKnown stencil2dNames args) :
    ∃ a, FirstUnknown stencil2dNames args a ∧ (options : CmdLineArgParser R).parse (exec :: args) =
      .ok (false, parser exec 8 false false, a ++ " is not a valid option.\n".toList) :=
  parse_unknown (parser_names (R := R) [] 8 false false) exec h

theorem known (exec : Str) {args : List Str} (h : AllKnown stencil2dNames args) {cells : Int}
    (h1 : IntValue Reads args "-numCells".toList 8 cells) : (options : CmdLineArgParser R).parse (exec :: args) =
      .ok (true, parser exec cells (flagValue args "-h".toList) (flagValue args "-vtk".toList), []) := by
  rw [parser_eq, parse_known1 (parser_names (R := R) [] 8 false false) exec h rfl rfl rfl h1 (by simp [parser])]
  rfl

end Stencil2d
end

/-! ### The field -/

namespace Stencil2d

theorem stencil_eq [Zero R] [One R] [Neg R] : (stencil : M (StdMap (List Int) R)) = .ok stencil2d := rfl

theorem stencil_axis [Zero R] [One R] [Neg R] : ∀ kv ∈ (stencil2d : List (List Int × R)), AxisOffset 2 kv.1 := by
  intro kv hkv
  simp only [stencil2d, List.mem_cons, List.not_mem_nil, or_false] at hkv
  rcases hkv with rfl | rfl | rfl
  · refine ⟨rfl, by simp, 1, fun i hi => ?_⟩
    match i with
    | 0 => rfl
    | 1 => exact absurd rfl hi
    | i + 2 => rfl
  · refine ⟨rfl, by simp, 0, fun i hi => ?_⟩
    match i with
    | 0 => rfl
    | 1 => rfl
    | i + 2 => rfl
  · refine ⟨rfl, by simp, 0, fun i hi => ?_⟩
    match i with
    | 0 => exact absurd rfl hi
    | 1 => rfl
    | i + 2 => rfl

theorem func_eq [Zero R] [One R] {a b : Nat} (ha : a < 2 ^ 31) (hb : b < 2 ^ 31) : (func [a, b] : R) = edgeField [a, b] := by
  have h : a * b < W := by
    have : a * b < 2 ^ 31 * 2 ^ 31 := Nat.mul_lt_mul'' ha hb
    unfold W
    omega
  have h2 : 1 * a < W := by unfold W; omega
  have e : [a, b].foldl szMul 1 = a * b := by
    show szMul (szMul 1 a) b = a * b
    unfold szMul
    rw [Nat.mod_eq_of_lt h2, Nat.one_mul, Nat.mod_eq_of_lt h]
  unfold func edgeField
  rw [e]
  by_cases h0 : a * b = 0
  · rw [if_pos h0, if_pos]
    rcases Nat.mul_eq_zero.1 h0 with rfl | rfl <;> simp
  · rw [if_neg h0, if_neg]
    intro hm
    simp only [List.mem_cons, List.not_mem_nil, or_false] at hm
    rcases hm with rfl | rfl <;> simp at h0

theorem shift64_cells {N a b : Nat} {s t : Int} (hN : 0 < N) :
    ∃ a' b', shift64 [N, N] [a, b] [s, t] = [a', b'] ∧ a' < N ∧ b' < N :=
  ⟨_, _, rfl, Nat.mod_lt _ hN, Nat.mod_lt _ hN⟩

theorem inGrid_two {N : Nat} {g : List Nat} (hg : InGrid [N, N] g) : ∃ a b, g = [a, b] ∧ a < N ∧ b < N := by
  match g, hg with
  | [a, b], hg => exact ⟨a, b, rfl, hg.1, hg.2.1⟩

theorem step_congr [Zero R] [One R] [Neg R] [Add R] [Mul R] {N : Nat} (hN : 0 < N) (h31 : N < 2 ^ 31) {g : List Nat}
    (hg : InGrid [N, N] g) :
    stencilStep64 [N, N] (stencil2d : List (List Int × R)) func g = stencilStep64 [N, N] stencil2d edgeField g := by
  obtain ⟨a, b, rfl, ha, hb⟩ := inGrid_two hg
  have key : ∀ s t : Int, (func (shift64 [N, N] [a, b] [s, t]) : R) = edgeField (shift64 [N, N] [a, b] [s, t]) := by
    intro s t
    obtain ⟨a', b', e, h1, h2⟩ := shift64_cells (a := a) (b := b) (s := s) (t := t) hN
    rw [e]
    exact func_eq (by omega) (by omega)
  simp only [stencilStep64, stencil2d, List.foldl_cons, List.foldl_nil, key]

end Stencil2d

/-! ### Printing on all ranks -/

theorem listing_congr {shw : R → List Char} {rk : Nat} {name : String} {lo hi : List Nat} (hl : lo.length = hi.length)
    {u u' : List Nat → R} (h : ∀ t, InBox lo hi t → u t = u' t) : listing shw rk name lo hi u = listing shw rk name lo hi u' := by
  unfold listing
  rw [List.flatMap_def, List.flatMap_def]
  congr 1
  apply List.map_congr_left
  intro t ht
  rw [h t ((mem_cellList hl t).1 ht)]

theorem Holds.setMit {c : Cfg R} {x : List Nat} {u : List Nat → R} {f : Filter R} (h : Holds c x u f) (k : Nat) :
    Holds c x u { f with mit := some (itAt (c.lo x) (c.hi x) k) } :=
  (kept_mit h.shape k f.outData h.shape.outLen).holds h

theorem world_print [DoubleText R] {c : Cfg R} (hg : c.Good) {w : World R} {u v : List Nat → R}
    (hw : Ranks c (fun x f => Holds c x u f ∧ f.outData = boxData (c.lo x) (c.hi x) v) w) :
    ∃ ps, w.mapM (fun f => f.printDataText false) = .ok ps ∧ ps.length = w.length ∧
      (∀ r p, ps[r]? = some p → ∃ f, w[r]? = some f ∧ p.1 = ("[" ++ toString r ++ "] outData: \n").toList ++
        listing DoubleText.showDouble r "outData" f.lo f.hi v) ∧
      Ranks c (fun x f => Holds c x u f ∧ f.outData = boxData (c.lo x) (c.hi x) v) (ps.map Prod.snd) := by
  obtain ⟨ps, e, hl, hP⟩ := mapM_ok w (fun f => f.printDataText false)
    (fun i p => (∃ f, w[i]? = some f ∧ p.1 = ("[" ++ toString i ++ "] outData: \n").toList ++
        listing DoubleText.showDouble i "outData" f.lo f.hi v) ∧
      ∀ x, InGrid c.d x → rankOf c.d x = i → Holds c x u p.2 ∧ p.2.outData = boxData (c.lo x) (c.hi x) v) (by
    intro i f hf
    have hi : i < c.nprocs := by
      rw [← hw.1]
      by_contra hc
      rw [List.getElem?_eq_none (by omega)] at hf
      cases hf
    obtain ⟨x, hx, rfl⟩ := hg.coords hi
    obtain ⟨hh, ho⟩ := hw.2 x f hx hf
    have := printDataText_eq hg hx hh.shape false v (by simpa using ho)
    refine ⟨_, this, ⟨f, hf, ?_⟩, ?_⟩
    · simp only [Bool.false_eq_true, if_false, String.toList_append, List.append_assoc]
      rfl
    · intro y hy hxy
      obtain rfl := rankOf_inj hy hx hxy
      exact ⟨hh.setMit _, ho⟩)
  refine ⟨ps, e, hl, fun r p hp => (hP r p hp).1, by rw [List.length_map, hl, hw.1], ?_⟩
  intro x f hx hf
  rw [List.getElem?_map, Option.map_eq_some_iff] at hf
  obtain ⟨p, hp, rfl⟩ := hf
  exact (hP _ p hp).2 x hx rfl

end Fidi
