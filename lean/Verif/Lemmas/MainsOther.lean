import Verif.Lemmas.ScheduleOne
import Verif.Model.MainsOther
import Verif.Spec.MainsOther
import Verif.Lemmas.MainsRun
import Verif.Lemmas.VtkOther
import Verif.Lemmas.UpwindFortran
import Verif.Lemmas.UpwindPython
import Verif.Lemmas.UpwindJulia

/-
Lemmas about the main programs of the Fortran, Python and Julia versions.
-/
set_option linter.unusedSectionVars false

namespace Fidi
open Spec Upwind

/-! ### The arguments of the Fortran programs -/

namespace Fortran

theorem charVar_of_le {w : Nat} {a : Str} (h : a.length ≤ w) : charVar w a = filled w a := by
  unfold charVar filled
  rw [List.take_of_length_le h]

theorem not_blank_of_mem {w : Nat} {a : Str} (h : ∃ c ∈ a.take w, c ≠ ' ') : isBlank (charVar w a) = false := by
  obtain ⟨c, hc, hb⟩ := h
  unfold isBlank charVar
  rw [List.all_append, Bool.and_eq_false_iff]
  left
  rw [List.all_eq_false]
  exact ⟨c, hc, by simpa using hb⟩

theorem not_blank_of_fits {w : Nat} {a : Str} (h : FitsIn w a) : isBlank (charVar w a) = false := by
  obtain ⟨h1, c, h2, h3⟩ := h
  refine not_blank_of_mem ⟨c, ?_, h3⟩
  rw [List.take_of_length_le h1]
  exact List.mem_of_getLast? h2

/-- Texts that do not end with a blank can be told apart after filling up. -/
theorem filled_inj {w : Nat} {a b : Str} (ha : FitsIn w a) (hb : FitsIn w b) (h : filled w a = filled w b) : a = b := by
  have key : ∀ a : Str, FitsIn w a → ((filled w a).reverse.dropWhile (· = ' ')).reverse = a := by
    intro a ⟨_, c, h2, h3⟩
    unfold filled
    have hne : a.reverse.dropWhile (· = ' ') = a.reverse := by
      have : a.reverse.head? = some c := by rw [List.head?_reverse]; exact h2
      cases hr : a.reverse with
      | nil => rfl
      | cons d l =>
        rw [hr] at this
        have hd : d = c := by simpa using this
        rw [List.dropWhile_cons_of_neg (by simpa [hd] using h3)]
    rw [List.reverse_append, List.reverse_replicate, List.dropWhile_append_of_pos (by simp), hne, List.reverse_reverse]
  rw [← key a ha, ← key b hb, h]

theorem inField_eq (w : Nat) (s : Str) : inField w s = inWidth w s := rfl

end Fortran

namespace FUpwind
open Fortran

variable {readInt : Str → Option Int}

theorem vtk_fits : FitsIn 32 "vtk".toList := ⟨by decide +kernel, 'k', by decide +kernel, by decide⟩

/-- From the fourth argument on (the third one after the name of the program) nothing changes but the count. -/
theorem parseLoop_late : ∀ (args : List Str) (s : Settings), (∀ a ∈ args, FitsIn 32 a) → 4 ≤ s.argc →
    parseLoop readInt args s = .ok { s with argc := s.argc + args.length }
  | [], _, _, _ => rfl
  | a :: args, s, h, hc => by
    unfold parseLoop
    rw [not_blank_of_fits (h a (by simp)), if_neg (by simp)]
    have e : parseBody readInt (charVar 32 a) s = .ok { s with argc := s.argc + 1 } := by
      unfold parseBody
      rw [if_neg (by omega), if_neg (by omega), if_neg (by rintro ⟨h, -⟩; omega)]
      rfl
    rw [e, M.ok_bind, parseLoop_late args _ (fun b hb => h b (by simp [hb])) (show 4 ≤ s.argc + 1 by omega)]
    simp only [List.length_cons]
    congr 2
    omega

theorem parse_eq {prog : Str} {args : List Str} {n k : Int} {vtk : Bool} (hprog : ∃ c ∈ prog.take 32, c ≠ ' ')
    (hargs : ∀ a ∈ args, FitsIn 32 a) (h : Asks (fun a z => readInt (filled 32 a) = some z) 100 args n k vtk) :
    parse readInt (prog :: args) = .ok { argc := args.length + 1, numCells := n, numTimeSteps := k, doVtk := vtk } := by
  obtain ⟨⟨a, h1, h1'⟩, h2, h3⟩ := h
  unfold parse parseLoop
  rw [not_blank_of_mem hprog, if_neg (by simp)]
  have e0 : parseBody readInt (charVar 32 prog) { argc := 0, numCells := -1, numTimeSteps := 100, doVtk := false } =
      .ok { argc := 1, numCells := -1, numTimeSteps := 100, doVtk := false } := by
    unfold parseBody
    rw [if_neg (by decide), if_neg (by decide), if_neg (by simp)]
    rfl
  rw [e0, M.ok_bind]
  match args, h1 with
  | b :: rest, h1 =>
  have hb : b = a := by simpa using h1
  subst hb
  have hfb := hargs b (by simp)
  unfold parseLoop
  rw [not_blank_of_fits hfb, if_neg (by simp)]
  have e1 : parseBody readInt (charVar 32 b) { argc := 1, numCells := -1, numTimeSteps := 100, doVtk := false } =
      .ok { argc := 2, numCells := n, numTimeSteps := 100, doVtk := false } := by
    unfold parseBody
    rw [charVar_of_le hfb.1, h1', if_pos rfl]
    rfl
  rw [e1, M.ok_bind]
  match rest with
  | [] =>
    have hk : k = 100 := by
      rcases h2 with ⟨-, h2⟩ | ⟨c, h2, -⟩
      · exact h2
      · simp at h2
    have hv : vtk = false := by
      rw [← Bool.not_eq_true, h3]
      simp
    rw [hk, hv]
    rfl
  | c :: rest =>
    have hk : readInt (filled 32 c) = some k := by
      rcases h2 with ⟨h2, -⟩ | ⟨d, h2, h2'⟩
      · simp at h2
      · have : c = d := by simpa using h2
        rw [this]
        exact h2'
    have hfc := hargs c (by simp)
    unfold parseLoop
    rw [not_blank_of_fits hfc, if_neg (by simp)]
    have e2 : parseBody readInt (charVar 32 c) { argc := 2, numCells := n, numTimeSteps := 100, doVtk := false } =
        .ok { argc := 3, numCells := n, numTimeSteps := k, doVtk := false } := by
      unfold parseBody
      rw [charVar_of_le hfc.1, hk, if_neg (show ¬ (2 : Nat) = 1 by decide), if_pos rfl]
      rfl
    rw [e2, M.ok_bind]
    match rest with
    | [] =>
      have hv : vtk = false := by
        rw [← Bool.not_eq_true, h3]
        simp
      rw [hv]
      rfl
    | d :: rest =>
      have hfd := hargs d (by simp)
      unfold parseLoop
      rw [not_blank_of_fits hfd, if_neg (by simp)]
      have e3 : parseBody readInt (charVar 32 d) { argc := 3, numCells := n, numTimeSteps := k, doVtk := false } =
          .ok { argc := 4, numCells := n, numTimeSteps := k, doVtk := vtk } := by
        unfold parseBody
        rw [if_neg (show ¬ (3 : Nat) = 1 by decide), if_neg (show ¬ (3 : Nat) = 2 by decide)]
        have hi : (3 = 3 ∧ charVar 32 d = charVar 32 "vtk".toList) ↔ vtk = true := by
          rw [h3, charVar_of_le hfd.1, charVar_of_le vtk_fits.1]
          constructor
          · rintro ⟨-, h⟩
            rw [filled_inj hfd vtk_fits h]
            rfl
          · intro h
            have : d = "vtk".toList := by simpa using h
            rw [this]
            exact ⟨rfl, rfl⟩
        by_cases hv : vtk = true
        · rw [if_pos (hi.2 hv), hv]
          rfl
        · rw [if_neg (fun h => hv (hi.1 h)), Bool.eq_false_iff.2 hv]
          rfl
      rw [e3, M.ok_bind, parseLoop_late rest _ (fun x hx => hargs x (by simp [hx])) (by simp)]
      simp only [List.length_cons]
      congr 2
      omega

section
variable {R : Type} [Zero R] [One R] [Add R] [Sub R] [Mul R] [Div R] [NatCast R] [IntCast R] [LT R] [DecidableLT R]
  [DoubleText R]

theorem mainDt_eq (hcast : ∀ n : Nat, ((n : Int) : R) = (n : R)) (courant big : R) (n : Nat) :
    mainDt courant big (List.replicate 3 1) (List.replicate 3 1) (List.replicate 3 (n : Int)) =
      .ok (programStep big courant (1 / (n : R))) := by
  unfold programStep
  rw [← hcast n]
  rfl

theorem not_advanceFaults {N : List Nat} {v L f : List R} (hg : GoodGrid N) (hd : N.length + 1 < 2 ^ 31)
    (hv : v.length = N.length) (dt : R) {u : List Nat → R} (hf : Stores N f u) (k : Nat) :
    ¬ AdvanceFaults dt k (built v L N f) := by
  rintro ⟨j, mid, T, may, s, -, hadv, hT, hfault, h⟩
  have e := advances_eq hg hd hv dt hf hadv
  subst e
  have hlen := (Stores.listOf (R := R) hg.pos ((schemeStep N (upDir v) (changeDivLast dt v L N))^[j] u)).1
  rcases h with h | ⟨junk, h⟩
  · exact not_faulty hlen (h.not_faulty (region_raceFree hg hd hv dt) hT) hfault
  · exact not_faulty hlen (h.not_faulty (regionGpu_raceFree hg hd hv dt) hT) hfault

end
end FUpwind

/-- The schedule `may` allows the actions. -/
def Allowed (may : Nat → Nat → Nat → Prop) (as : List Action) : Prop := ∀ t i, Action.take t i ∈ as → ∀ k, may k i t

theorem act_step {A S : Type} [DecidableEq A] {reg : Region A S} {may : Nat → Nat → Nat → Prop} {T : Nat} {s s' : PState A S}
    {a : Action} (ha : Allowed may [a]) (h : act reg T s a = some s') : PStep reg T may s s' := by
  cases a with
  | take t i =>
    simp only [act] at h
    split at h
    · next hc =>
      injection h with h
      subst h
      exact .take s t i hc.1 hc.2.1 (by simpa using hc.2.2.1) hc.2.2.2.1 hc.2.2.2.2 (ha t i (by simp) _)
    · cases h
  | go t =>
    simp only [act] at h
    split at h
    · next ht =>
      split at h
      · next hc => injection h with h; subst h; exact .read s t _ _ _ ht hc
      · next hc => injection h with h; subst h; exact .write s t _ _ _ _ ht hc
      · next hc => injection h with h; subst h; exact .finish s t _ ht hc
      · cases h
    · cases h
  | pass t =>
    simp only [act] at h
    split at h
    · next hc =>
      injection h with h
      subst h
      refine .barrier s t hc.1 hc.2.1 hc.2.2.1 fun t' ht' => ⟨(hc.2.2.2 t' ht').1, fun e => ?_⟩
      simpa using (hc.2.2.2 t' ht').2 e
    · cases h

theorem acts_reach {A S : Type} [DecidableEq A] {reg : Region A S} {may : Nat → Nat → Nat → Prop} {T : Nat} {m : Mem A S} :
    ∀ {as : List Action} {s s' : PState A S}, Allowed may as → acts reg T as s = some s' →
      PReach reg T may m s → PReach reg T may m s'
  | [], s, s', _, h, hr => by injection h with h; subst h; exact hr
  | a :: as, s, s', ha, h, hr => by
    simp only [acts, Option.bind_eq_some_iff] at h
    obtain ⟨s1, h1, h2⟩ := h
    exact acts_reach (fun t i hm k => ha t i (List.mem_cons_of_mem _ hm) k) h2
      (.step hr (act_step (fun t i hm k => ha t i (by simp at hm; simp [hm]) k) h1))

theorem PyUpwind.toInt_of {readInt : Str → Option Int} {a : Str} {z : Int} (h : readInt a = some z) :
    PyUpwind.toInt readInt a = .ok z := by
  unfold PyUpwind.toInt
  rw [h]
  rfl

theorem PyUpwind.optInt_some {readInt : Str → Option Int} {args : List Str} {i : Nat} {a : Str} {z : Int} (d : Int)
    (ha : args[i]? = some a) (h : readInt a = some z) : PyUpwind.optInt readInt args i d = .ok z := by
  obtain ⟨hi, rfl⟩ := List.getElem?_eq_some_iff.1 ha
  unfold PyUpwind.optInt
  rw [if_pos hi, rd_of_lt hi, M.ok_bind, PyUpwind.toInt_of h]

theorem PyUpwind.optInt_none {readInt : Str → Option Int} {args : List Str} {i : Nat} (d : Int)
    (ha : args[i]? = none) : PyUpwind.optInt readInt args i d = .ok d := by
  unfold PyUpwind.optInt
  rw [if_neg (by have := List.getElem?_eq_none_iff.1 ha; omega)]
  rfl

theorem PyUpwind.optVtk_eq {args : List Str} {i : Nat} {vtk : Bool} (h : vtk = true ↔ args[i]? = some "vtk".toList) :
    PyUpwind.optVtk args i = .ok vtk := by
  unfold PyUpwind.optVtk
  by_cases hi : args.length > i
  · rw [if_pos hi, rd_of_lt hi, M.ok_bind, M.pure_eq]
    congr 1
    rw [Bool.eq_iff_iff, h, List.getElem?_eq_getElem hi]
    simp
  · rw [if_neg hi, M.pure_eq]
    congr 1
    symm
    rw [← Bool.not_eq_true, h, List.getElem?_eq_none (by omega)]
    simp

theorem listText_eq (n : Nat) : PyUpwind.listText [(n : Int), n, n] =
    ("[" ++ toString n ++ ", " ++ toString n ++ ", " ++ toString n ++ "]").toList := by
  unfold PyUpwind.listText
  simp only [List.map_cons, List.map_nil, Fortran.showInt_nat, showSz_toString, String.toList_append, List.append_assoc]
  simp only [List.intercalate, List.intersperse, List.flatten_cons, List.flatten_nil, List.append_nil, List.append_assoc]

section
variable {R : Type} [Zero R] [One R] [Add R] [Sub R] [Mul R] [Div R] [NatCast R] [IntCast R] [LT R] [DecidableLT R]

theorem PyUpwind.mainDt_eq (hcast : ∀ n : Nat, ((n : Int) : R) = (n : R)) (courant inf : R) (n : Nat) :
    PyUpwind.mainDt courant inf (List.replicate 3 1) (List.replicate 3 1) (List.replicate 3 (n : Int)) =
      .ok (programStep inf courant (1 / (n : R))) := by
  unfold programStep
  rw [← hcast n]
  rfl

theorem JlUpwind.mainDt_eq (hcast : ∀ n : Nat, ((n : Int) : R) = (n : R)) (courant inf : R) (n : Nat) :
    JlUpwind.mainDt courant inf (List.replicate 3 1) (List.replicate 3 1) [(n : Int), n, n] =
      .ok (programStep inf courant (1 / (n : R))) := by
  unfold programStep
  rw [← hcast n]
  rfl

end

section
variable {K : Type} [Field K]
open Finset

/-- The sum does not depend on the order in which the cells are stored. -/
theorem sum_listC {N : List Nat} (hp : ∀ n ∈ N, 0 < n) (u : List Nat → K) : (JlUpwind.listC N u).sum = total N u := by
  have h1 : (JlUpwind.listC N u).sum = ∑ i ∈ range N.prod, u (JlUpwind.cellC N i) := by
    unfold JlUpwind.listC
    generalize N.prod = n
    induction n with
    | zero => simp
    | succ n ih => rw [List.range_succ, List.map_append, List.sum_append, ih, sum_range_succ]; simp
  rw [h1]
  unfold total
  have hC := fun i => JlUpwind.cellC_inGrid hp i
  have hA := fun i => cellAt_inGrid hp i
  refine sum_nbij' (fun i => rankOf N (JlUpwind.cellC N i)) (fun i => JlUpwind.flatC N (cellAt N i)) ?_ ?_ ?_ ?_ ?_
  · intro i _; exact mem_range.2 (rankOf_lt (hC i))
  · intro i _; exact mem_range.2 (JlUpwind.flatC_lt (hA i))
  · intro i hi
    rw [cellAt_rankOf (hC i), JlUpwind.flatC_cellC hp (mem_range.1 hi)]
  · intro i hi
    rw [JlUpwind.cellC_flatC (hA i), rankOf_cellAt hp (mem_range.1 hi)]
  · intro i _
    rw [cellAt_rankOf (hC i)]

end
end Fidi
