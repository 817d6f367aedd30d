import Verif.Lemmas.Mains
import Verif.Lemmas.DriversRun
import Verif.Lemmas.UpwindAcc
import Verif.Props.Vtk
import Verif.Props.UpwindAcc

/-
Lemmas about what the upwind drivers write.
-/
set_option linter.unusedSectionVars false

namespace Fidi
open Spec

section
variable {R : Type} [Zero R] [One R] [Add R] [Sub R] [Mul R] [Div R] [NatCast R] [IntCast R] [LT R] [DecidableLT R]

/-- The file written for an object that stores the field `u`. -/
theorem saveVTK_rect [DoubleText R] {N : List Nat} (h1 : 1 ≤ N.length) (h3 : N.length ≤ 3) (hpos : ∀ n ∈ N, 0 < n)
    (haxis : ∀ n ∈ N, n < 2 ^ 30) {s : Upwind R} (hn : s.ndims = N.length) (hN : s.numCells = N) (ht : s.ntot = N.prod)
    {width : Nat → R} (hd : s.deltas = (List.range N.length).map width) {u : List Nat → R} (hst : Stores N s.f u)
    (hw : ∀ x : R, IsWord (DoubleText.showDouble x)) :
    ∃ text, s.saveVTK = .ok text ∧ RectFile DoubleText.showDouble N width u text := by
  have hW : ∀ n ∈ N, n + 1 < W := fun n hn => by have := haxis n hn; unfold W; omega
  obtain ⟨text, e, hr⟩ := readRect_saveVTK (s := s) h1 hn (by rw [hd]; simp) hN hW (by rw [ht, hst.1]) hw
  rw [if_pos (by
    rw [ht, cellsOf_nodesOf hpos, cellsOf_nodesOf hpos, cellsOf_nodesOf hpos, prod_reversed h1 h3])] at hr
  have hdel : ∀ j, coordTexts N s.deltas j =
      if j < N.length then (List.range (N.getD j 0 + 1)).map fun i : Nat => DoubleText.showDouble (0 + width j * (i : R))
        else ["0.0".toList] := by
    intro j
    unfold coordTexts
    by_cases hj : j < N.length
    · rw [if_pos hj, if_pos hj, hd, List.getD_eq_getElem _ _ (by simpa using hj), List.getElem_map, List.getElem_range]
    · rw [if_neg hj, if_neg hj]
  refine ⟨text, e, _, hr, ?_, rfl, ?_, fun g hg => ?_⟩
  · simp only [List.map_cons, List.map_nil, ← hdel]
  · show ((List.take s.ntot s.f).map _).length = _
    rw [ht, List.length_map, List.length_take, hst.1, Nat.min_self]
  · unfold RectGrid.value
    dsimp only
    rw [length_coordTexts, length_coordTexts, cellsOf_nodesOf hpos, cellsOf_nodesOf hpos, rankOf_reversed h1 h3 hg]
    rw [ht, List.take_of_length_le (by rw [hst.1]), List.getElem?_map, hst.2 g hg]
    rfl

/-- The spread, operation by operation. -/
theorem std_spread [Upwind.HasSqrt R] {s : Upwind R} (ht : s.ntot = s.f.length) (hl : s.f.length < 2 ^ 31) :
    s.std = .ok (spread Upwind.HasSqrt.sqrt s.f) := by
  unfold Upwind.std spread
  rw [ht]
  obtain ⟨r, e, hr⟩ := forUp_inv (Nat.zero_le s.f.length)
    (fun i (r : R) => r = (s.f.take i).foldl (fun r x => r + (x - s.f.foldl (· + ·) 0 / (s.f.length : R)) *
      (x - s.f.foldl (· + ·) 0 / (s.f.length : R))) 0)
    (fun i res => do
      let d := (← rd s.f i) - s.checksum / (s.f.length : R)
      let res := res + d * d
      let _ ← mkInt ((i : Int) + 1)
      pure res) 0 (by simp)
    (by
      rintro i r _ hi rfl
      refine ⟨_, ?_, rfl⟩
      rw [rd_of_lt hi, M.ok_bind, mkInt_ok (by rw [intLim_eq]; omega) (by rw [intLim_eq]; omega), M.ok_bind, M.pure_eq]
      congr 1
      rw [List.take_add_one, List.getElem?_eq_getElem hi, List.foldl_append]
      rfl)
  rw [List.take_length] at hr
  dsimp only at e ⊢
  rw [e, M.ok_bind, hr]
  rfl

/-- The text about the sizes. -/
theorem sizesText_eq {t : Str} {n : Nat} (h : t = (toString n).toList) (steps : Int) :
    sizesText [t, t, t] steps = ("number of cells:  " ++ toString n ++ " " ++ toString n ++ " " ++ toString n ++
      "\nnumber of time steps: " ++ toString steps ++ "\n").toList := by
  have e1 : "number of cells:  ".toList = "number of cells: ".toList ++ [' '] := by decide +kernel
  have e2 : "\nnumber of time steps: ".toList = "\n".toList ++ "number of time steps: ".toList := by decide +kernel
  have e3 : " ".toList = [' '] := by decide +kernel
  unfold sizesText
  subst h
  simp only [String.toList_append, e1, e2, e3, toString_int, List.flatMap_cons, List.flatMap_nil, List.append_nil,
    List.append_assoc, List.cons_append, List.nil_append]

theorem ompText_eq (omp : Option (Int × Int)) : Upwind.ompText omp = threadsText omp := by
  cases omp with
  | none => rfl
  | some p =>
    have e : "Running with OpenMP enabled\nnumber of threads: ".toList =
      "Running with OpenMP enabled\n".toList ++ "number of threads: ".toList := by decide +kernel
    unfold Upwind.ompText threadsText
    simp only [String.toList_append, e, toString_int, List.append_assoc]

theorem checksumText : ("\ncheck sum: ").toList = "\n".toList ++ "check sum: ".toList := by decide +kernel

theorem showSz_toString (n : Nat) : showSz n = (toString n).toList := by
  have := toString_int (n : Int)
  rw [show toString ((n : Nat) : Int) = toString n from rfl] at this
  rw [this]
  rfl

theorem grid_of {n : Nat} (hn : 0 < n) (hn2 : n ≤ 1290) :
    (∀ m ∈ [n, n, n], 0 < m) ∧ [n, n, n].prod < 2 ^ 31 ∧ (∀ m ∈ [n, n, n], m < 2 ^ 30) ∧ n * (n * n) < 2 ^ 31 := by
  have h : n * (n * n) ≤ 1290 * (1290 * 1290) := Nat.mul_le_mul hn2 (Nat.mul_le_mul hn2 hn2)
  have h' : n * (n * n) < 2 ^ 31 := by omega
  refine ⟨by simpa using hn, by simpa using h', ?_, h'⟩
  simp only [List.mem_cons, List.not_mem_nil, or_false, or_self, forall_eq]
  omega

/-! ### Complete executions of the offloaded solvers -/

namespace UpwindAcc

theorem _root_.Fidi.Prog.LenLe.mono {A : Type} {m n : Nat} (h : m ≤ n) {p : Prog A R} (hp : p.LenLe m) : p.LenLe n := by
  induction hp generalizing n with
  | done => exact .done n
  | fault _ e => exact .fault n e
  | read _ ih =>
    obtain ⟨n, rfl⟩ : ∃ k, n = k + 1 := ⟨n - 1, by omega⟩
    exact .read fun x => ih x (by omega)
  | write _ ih =>
    obtain ⟨n, rfl⟩ : ∃ k, n = k + 1 := ⟨n - 1, by omega⟩
    exact .write (ih (by omega))

theorem andThen_len {A : Type} {m n : Nat} {p q : Prog A R} (hp : p.LenLe m) (hq : q.LenLe n) :
    (seqProg.andThen p q).LenLe (m + n) := by
  induction hp with
  | done k => exact hq.mono (by omega)
  | fault k e => exact .fault _ e
  | @read k l f _ ih =>
    rw [show k + 1 + n = k + n + 1 by omega]
    exact .read ih
  | @write k l x f _ ih =>
    rw [show k + 1 + n = k + n + 1 by omega]
    exact .write ih

theorem seqProg_len {A : Type} {B : Nat} : ∀ {ps : List (Prog A R)}, (∀ p ∈ ps, p.LenLe B) →
    (seqProg ps).LenLe (ps.length * B)
  | [], _ => .done _
  | p :: ps, h => by
    have := andThen_len (h p (by simp)) (seqProg_len (ps := ps) fun q hq => h q (by simp [hq]))
    rw [List.length_cons, Nat.succ_mul, Nat.add_comm]
    exact this

theorem copy_len (i : Nat) : (Upwind.copyProg i : Prog UpLoc R).LenLe 12 :=
  .read fun _ => .write (.done _)

variable {v L : List R} {a b c : Nat}

/-- The executions of the three programs come to an end, and all of them end with the field after the upwind steps; for
upwindOMP5.cxx with at most one time step or one team. -/
theorem runs_spec (l : Loop) (h : Good3 a b c) (hv : v.length = 3) (hL : L.length = 3) (k : Int) (dt : R) {T : Nat}
    (hT : 0 < T) (hone : l = .omp5 → k ≤ 1 ∨ T = 1) {may : Nat → Nat → Nat → Prop} (hmay : ∀ k i, ∃ t, t < T ∧ may k i t) :
    (∃ f', l.Runs T may (built v L a b c) k dt f') ∧
    ∀ f', l.Runs T may (built v L a b c) k dt f' → Stores [a, b, c] f'
      ((upwindStep [a, b, c] (upDir v) fun j => dt * (v.getD j 0 * (upDir v j : R) /
        (L.getD j 0 / (([a, b, c].getD j 0 : Int) : R))))^[k.toNat] cornerField) := by
  obtain ⟨ha, hb, hc, hcells, haxis⟩ := h
  have hnew := new_eq3 v L a b c ha hb hc hcells hv hL
  obtain ⟨s0, e0, hold, hst⟩ := C37_constructor a b c ha hb hc hcells v L hv hL
  rw [hnew] at e0
  injection e0 with e0
  subst e0
  have hlen : (built v L a b c).f.length = a * (b * c) := by simp [built]
  have hnt : (built v L a b c).ntot.toNat = a * (b * c) := by
    show ((a : Int) * (b * c)).toNat = _
    rw [← Int.natCast_mul, ← Int.natCast_mul, Int.toNat_natCast]
  cases l with
  | acc =>
    refine ⟨?_, fun f' hf => C37_acc_result a b c ha hb hc hcells haxis v L hv hL _ hnew _ _ hst dt T hT may _ f' hf⟩
    show ∃ f', (built v L a b c).Advect1s T may dt k.toNat (built v L a b c).f f'
    have : ∀ n, ∃ f', f'.length = a * (b * c) ∧ (built v L a b c).Advect1s T may dt n (built v L a b c).f f' := by
      intro n
      induction n with
      | zero => exact ⟨_, hlen, .zero _⟩
      | succ n ih =>
        obtain ⟨f1, h1, ih⟩ := ih
        obtain ⟨s, hs, hfin⟩ := exists_final (reg := (built v L a b c).region1 dt) (T := T) (may := may) (B := 12)
          (fun k i _ hi => by
            rw [show ((built v L a b c).region1 dt).count k = a * (b * c) from hnt] at hi
            exact cell_len (f := (built v L a b c).f) (old := (built v L a b c).fOld) ⟨ha, hb, hc, hcells, haxis⟩ dt hi)
          (memory f1 f1)
          (fun s hs => (C37_acc_executions a b c ha hb hc hcells haxis v L hv hL _ hnew f1 h1 dt T hT may
            (fun k i _ _ => hmay k i) s hs).2)
        exact ⟨_, by simpa using h1, .succ ih ⟨s, hs, hfin, rfl⟩⟩
    obtain ⟨f', _, h⟩ := this k.toNat
    exact ⟨f', h⟩
  | acc2 =>
    have hex := fun s hs => C37_acc2_executions a b c ha hb hc hcells haxis v L hv hL _ hnew _ _ _ hst hold k dt T hT may
      (fun k i _ _ => hmay k i) s hs
    constructor
    · obtain ⟨s, hs, hfin⟩ := exists_final (reg := (built v L a b c).region2 k dt) (T := T) (may := may) (B := 12)
          (fun k' i _ hi => by
            rw [show ((built v L a b c).region2 k dt).count k' = a * (b * c) from hnt] at hi
            show (if k' % 2 = 0 then Upwind.copyProg i else (built v L a b c).cellProg dt i).LenLe 12
            split
            · exact copy_len i
            · exact cell_len (f := (built v L a b c).f) (old := (built v L a b c).fOld) ⟨ha, hb, hc, hcells, haxis⟩ dt hi)
          (memory (built v L a b c).f (built v L a b c).fOld) (fun s hs => (hex s hs).2.1)
      exact ⟨_, s, hs, hfin, rfl⟩
    · rintro f' ⟨s, hs, hfin, rfl⟩
      rw [hlen]
      exact (hex s hs).2.2 hfin
  | omp5 =>
    have hex := fun s hs => C38_one_step_or_one_team_partial a b c ha hb hc hcells haxis v L hv hL _ hnew _ _ _ hst hlen k dt
      T hT (hone rfl) may (fun k i _ _ => hmay k i) s hs
    constructor
    · obtain ⟨s, hs, hfin⟩ := exists_final (reg := (built v L a b c).regionTeams k dt) (T := T) (may := may)
          (fun _ _ _ _ => seqProg_len (B := 12) fun p hp => by
            rw [hnt, List.mem_append, List.mem_map, List.mem_map] at hp
            rcases hp with ⟨i, _, rfl⟩ | ⟨i, hi, rfl⟩
            · exact copy_len i
            · exact cell_len (f := (built v L a b c).f) (old := (built v L a b c).fOld) ⟨ha, hb, hc, hcells, haxis⟩ dt
                (List.mem_range.1 hi))
          (memory (built v L a b c).f (built v L a b c).f) (fun s hs => (hex s hs).2.1)
      exact ⟨_, s, hs, hfin, rfl⟩
    · rintro f' ⟨s, hs, hfin, rfl⟩
      rw [hlen]
      exact (hex s hs).2.2 hfin

end UpwindAcc

end
end Fidi
