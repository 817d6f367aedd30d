import Verif.Props.Drivers
import Verif.Props.Vtk
import Verif.Lemmas.MainsRun
import Verif.Spec.Mains

/-
Lemmas for the whole of `main` of the drivers with MPI.
-/
set_option linter.unusedSectionVars false

namespace Fidi
open Spec

section
variable {R : Type} {c : Cfg R} {x : List Nat} {f f' : Filter R}

/-- The assembly leaves the output data alone. -/
theorem assemble_out [Zero R] {recv field : List R} (he : f.assemble recv = .ok (field, f')) : f'.outData = f.outData := by
  unfold Filter.assemble at he
  obtain ⟨n, _, he⟩ := (M.bind_ok_iff _ _ _).1 he
  obtain ⟨git, _, he⟩ := (M.bind_ok_iff _ _ _).1 he
  obtain ⟨⟨f2, gi, fl⟩, e, he⟩ := (M.bind_ok_iff _ _ _).1 he
  have := Except.ok.inj he
  rw [Prod.mk.injEq] at this
  rw [← this.2]
  refine forUp_ok_inv (fun (p : Filter R × List Nat × List R) => p.1.outData = f.outData) _ _ _ e rfl ?_
  rintro i ⟨f1, gi1, fl1⟩ s1 hk hb
  unfold Filter.rankBody at hb
  dsimp only at hb
  obtain ⟨⟨b, cd⟩, e1, hb⟩ := (M.bind_ok_iff _ _ _).1 hb
  obtain ⟨_, _, hb⟩ := (M.bind_ok_iff _ _ _).1 hb
  obtain ⟨⟨_, _, _⟩, _, hb⟩ := (M.bind_ok_iff _ _ _).1 hb
  obtain rfl := Except.ok.inj hb
  exact hk

/-- `saveVTK` writes the output data of all ranks, and keeps the data. -/
theorem world_saveFile [Zero R] [One R] [Add R] [Sub R] [Mul R] [Div R] [NatCast R] [DoubleText R] (h : c.Good)
    (hp : c.dims.prod ≤ 2 ^ 31) (h1 : c.xmins.length = c.dims.length)
    (h2 : c.xmaxs.length = c.dims.length) {w : World R} {u v : List Nat → R}
    (hw : Ranks c (fun x f => Holds c x u f ∧ f.outData = boxData (c.lo x) (c.hi x) v) w)
    (hword : ∀ x : R, IsWord (DoubleText.showDouble x)) :
    ∃ t w', w.saveFile = .ok (t, w') ∧
      (c.dims.length ≤ 3 → ∃ text, t = some text ∧ StructFile DoubleText.showDouble c.dims c.xmins c.xmaxs v text) ∧
      (3 < c.dims.length → t = none) ∧
      Ranks c (fun x f => Holds c x u f ∧ f.outData = boxData (c.lo x) (c.hi x) v) w' := by
  obtain ⟨field, w', e, hF⟩ := saveField_eq h ⟨hw.1, fun x f hx hf => (hw.2 x f hx hf).1.shape⟩
    (fun x f hx hf => (hw.2 x f hx hf).2) hp
  have hkept : Ranks c (fun x f => Holds c x u f ∧ f.outData = boxData (c.lo x) (c.hi x) v) w' ∧
      ∃ root others, w' = root :: others ∧ root.globalDims = c.dims ∧ root.xmins = c.xmins ∧ root.xmaxs = c.xmaxs := by
    cases w with
    | nil => exact absurd e (by intro h; cases h)
    | cons root others =>
      unfold World.saveField at e
      dsimp only at e
      obtain ⟨recv, _, e⟩ := (M.bind_ok_iff _ _ _).1 e
      obtain ⟨⟨fl, root'⟩, e2, e⟩ := (M.bind_ok_iff _ _ _).1 e
      have e3 := Except.ok.inj e
      rw [Prod.mk.injEq] at e3
      obtain ⟨-, rfl⟩ := e3
      have hz := zero_inGrid h.good.d_pos
      have hroot := hw.2 _ root hz (by rw [rankOf_zero]; rfl)
      have hk := assemble_kept hroot.1.shape e2
      refine ⟨⟨hw.1, fun x f hx hf => ?_⟩, root', others, rfl, hk.shape.gdims, hk.shape.xmins, hk.shape.xmaxs⟩
      by_cases hx0 : rankOf c.d x = 0
      · obtain rfl := rankOf_inj hz hx (by rw [rankOf_zero, hx0])
        rw [hx0] at hf
        obtain rfl : root' = f := by simpa using hf
        exact ⟨hk.holds hroot.1, by rw [assemble_out e2]; exact hroot.2⟩
      · obtain ⟨r, hr⟩ := Nat.exists_eq_succ_of_ne_zero hx0
        refine hw.2 x f hx ?_
        rw [hr] at hf ⊢
        exact hf
  obtain ⟨hkept, root, others, rfl, g1, g2, g3⟩ := hkept
  have hpos : ∀ n ∈ c.dims, 0 < n := h.good.pos
  have hfile : ∃ t, writeVTK c.dims c.xmins c.xmaxs field "outData".toList = .ok t ∧
      (c.dims.length ≤ 3 → ∃ text, t = some text ∧ StructFile DoubleText.showDouble c.dims c.xmins c.xmaxs v text) ∧
      (3 < c.dims.length → t = none) := by
    by_cases h3 : c.dims.length ≤ 3
    · obtain ⟨text, grid, e2, hread, hn, hpt, -, hname, hl, hg⟩ := C44_file c.dims h3 hpos (by omega) c.xmins c.xmaxs field
        h1 h2 (by rw [hF.1]) "outData".toList ⟨by decide +kernel, by decide +kernel⟩ hword
      refine ⟨_, e2, fun _ => ⟨text, rfl, grid, hread, hn, hpt, hname, hl, fun g hg' => ?_⟩, fun h => absurd h3 (by omega)⟩
      rw [hg g hg', hF.2 g hg' trivial]; rfl
    · exact ⟨none, C44_more_axes _ (by omega) _ _ _ _, fun h => absurd h h3, fun _ => rfl⟩
  obtain ⟨t, e2, h5, h6⟩ := hfile
  refine ⟨t, root :: others, ?_, h5, h6, hkept⟩
  unfold World.saveFile
  rw [e, M.ok_bind]
  dsimp only
  rw [g1, g2, g3, e2]
  rfl

/-- Iterations, with the output data. -/
theorem world_iterate_out [Zero R] [Add R] [Mul R] (h : c.Fine) (n : Nat) {w : World R} {u : List Nat → R}
    (hw : Ranks c (fun x f => Holds c x u f) w) :
    ∃ w', w.iterate (n + 1) = .ok w' ∧ Ranks c (fun x f => Holds c x (stencilIter c.dims c.st u (n + 1)) f ∧
      f.outData = boxData (c.lo x) (c.hi x) (stencilIter c.dims c.st u (n + 1))) w' := by
  have split : ∀ (n : Nat) (w : World R), w.iterate (n + 1) = (do
      let w1 ← w.iterate n
      let w2 ← w1.applyFilter
      w2.copyOutToIn) := by
    intro n
    induction n with
    | zero =>
      intro w
      show (w.applyFilter >>= fun w => w.copyOutToIn >>= fun w => pure w) = _
      simp only [bind_pure]
      rfl
    | succ n ih =>
      intro w
      show (w.applyFilter >>= fun w => w.copyOutToIn >>= fun w => World.iterate w (n + 1)) = _
      conv_lhs => simp only [ih]
      show _ = ((w.applyFilter >>= fun w => w.copyOutToIn >>= fun w => World.iterate w n) >>= _)
      simp only [bind_assoc]
  obtain ⟨w1, e1, h1⟩ := world_iterate h n hw
  obtain ⟨w2, e2, h2⟩ := world_apply h h1
  obtain ⟨w3, e3, h3⟩ := world_copy h.toGood h2
  exact ⟨w3, by rw [split, e1, M.ok_bind, e2, M.ok_bind, e3], h3⟩

/-- Only the values in the grid matter. -/
theorem structFile_congr [Zero R] [One R] [Add R] [Sub R] [Mul R] [Div R] [NatCast R] {shw : R → List Char} {dims : List Nat}
    {xmins xmaxs : List R} {u u' : List Nat → R} {text : List Char} (h : StructFile shw dims xmins xmaxs u text)
    (hu : ∀ g, InGrid dims g → u g = u' g) : StructFile shw dims xmins xmaxs u' text := by
  obtain ⟨grid, h1, h2, h3, h4, h5, h6⟩ := h
  exact ⟨grid, h1, h2, h3, h4, h5, fun g hg => by rw [h6 g hg, hu g hg]⟩

end

section
variable {K : Type} [Field K] {c : Cfg K}

/-- The check sums of a field, and what they leave. -/
theorem world_sums (hg : c.Good) (hp1 : 1 ≤ c.nprocs) (hpos : ∀ n ∈ c.dims, 0 < n) {w : World K} {u v : List Nat → K}
    (hw : Ranks c (fun x f => Holds c x u f ∧ f.outData = boxData (c.lo x) (c.hi x) v) w) (input : Bool) :
    (∃ rs w', w.CheckSum input rs w') ∧ ∀ rs w', w.CheckSum input rs w' →
      rs[0]? = some (total c.dims (if input then u else v)) ∧
      Ranks c (fun x f => Holds c x u f ∧ f.outData = boxData (c.lo x) (c.hi x) v) w' := by
  have hsh : Ranks c (fun x f => Shape c x c.tab f) w := ⟨hw.1, fun x f hx hf => (hw.2 x f hx hf).1.shape⟩
  obtain ⟨c1, c2⟩ := check_sum_of hg hp1 hsh input
  refine ⟨c1, fun rs w' hc => ?_⟩
  obtain ⟨_, _, c5⟩ := c2 rs w' hc
  obtain ⟨a1, a2⟩ := all_cells hg hsh
  constructor
  · rw [c5 (if input then u else v) _ ?_ a1 a2, sum_cells hpos a1 a2]
    cases input
    · exact output_of hg hw (fun x f h => ⟨h.1.shape, h.2⟩)
    · exact input_of hg hw (fun x f h => ⟨h.1.shape, h.1.data⟩)
  · obtain ⟨w2, e2, h2⟩ := localSum_call hg (Q := fun o x => o = boxData (c.lo x) (c.hi x) v) hw input
    rw [checkSum_world hc] at e2
    obtain rfl := Except.ok.inj e2
    exact h2

end

section
variable {K : Type} [Field K] [LinearOrder K] [HasMax K] [DoubleText K] {c : Cfg K}

/-- The lines of the time steps from `i` on. -/
def stepLines (s : List Char) (i n : Nat) : List Char :=
  (List.range' i n).flatMap fun i =>
    ("iter " ++ toString i ++ " check sum  in/out = ").toList ++ s ++ " / ".toList ++ s ++ "\n".toList

/-- The time loop of `upwindMpi`, if the stencil conserves the sum. -/
theorem steps_spec (hf : c.Fine) (hp1 : 1 ≤ c.nprocs) (hpos : ∀ n ∈ c.dims, 0 < n) {init : List Nat → K} {s : K}
    (hsum : ∀ k, total c.dims (stencilIter c.dims c.st init k) = s) : ∀ (n i m : Nat) (w : World K) (v : List Nat → K),
    Ranks c (fun x f => Holds c x (stencilIter c.dims c.st init m) f ∧ f.outData = boxData (c.lo x) (c.hi x) v) w →
    (∃ y, UpwindMpi.Steps i n w y) ∧
    ∀ y, UpwindMpi.Steps i n w y → ∃ w', y = .ok (stepLines (DoubleText.showDouble s) i n, w') ∧
      Ranks c (fun x f => Holds c x (stencilIter c.dims c.st init (m + n)) f ∧
        f.outData = boxData (c.lo x) (c.hi x) (if n = 0 then v else stencilIter c.dims c.st init (m + n))) w' := by
  have hg := hf.toGood
  intro n
  induction n with
  | zero =>
    intro i m w v hw
    refine ⟨⟨_, .done i w⟩, fun y hy => ?_⟩
    cases hy
    exact ⟨w, rfl, hw⟩
  | succ n ih =>
    intro i m w v hw
    obtain ⟨w1, e1, h1⟩ := world_apply hf ⟨hw.1, fun x f hx hf => (hw.2 x f hx hf).1⟩
    change Ranks c (fun x f => Holds c x (stencilIter c.dims c.st init m) f ∧
      f.outData = boxData (c.lo x) (c.hi x) (stencilIter c.dims c.st init (m + 1))) w1 at h1
    obtain ⟨⟨s1, w2, c1⟩, hin⟩ := world_sums hg hp1 hpos h1 true
    have hcopy : ∀ w3, Ranks c (fun x f => Holds c x (stencilIter c.dims c.st init m) f ∧
        f.outData = boxData (c.lo x) (c.hi x) (stencilIter c.dims c.st init (m + 1))) w3 →
        ∃ w4, w3.copyOutToIn = .ok w4 ∧ Ranks c (fun x f => Holds c x (stencilIter c.dims c.st init (m + 1)) f ∧
          f.outData = boxData (c.lo x) (c.hi x) (stencilIter c.dims c.st init (m + 1))) w4 :=
      fun w3 h3 => world_copy hg h3
    constructor
    · obtain ⟨a1, h2⟩ := hin s1 w2 c1
      obtain ⟨⟨s2, w3, c2⟩, hout⟩ := world_sums hg hp1 hpos h2 false
      obtain ⟨a2, h3⟩ := hout s2 w3 c2
      obtain ⟨w4, e4, h4⟩ := hcopy w3 h3
      obtain ⟨⟨y, hy⟩, _⟩ := ih (i + 1) (m + 1) w4 _ h4
      exact ⟨_, .step i n w w1 w2 w3 w4 s1 s2 _ _ y e1 c1 c2 a1 a2 e4 hy⟩
    · intro y hy
      cases hy with
      | fault _ _ _ e he => rw [e1] at he; exact absurd he (by intro h; cases h)
      | step _ _ _ w1' w2 w3 w4 s1 s2 a b y he c1 c2 a1 a2 e4 hy =>
        rw [e1] at he
        obtain rfl := Except.ok.inj he
        obtain ⟨a1', h2⟩ := hin s1 w2 c1
        obtain ⟨_, hout⟩ := world_sums hg hp1 hpos h2 false
        obtain ⟨a2', h3⟩ := hout s2 w3 c2
        rw [if_pos rfl, hsum, a1, Option.some_inj] at a1'
        rw [if_neg (by decide), hsum, a2, Option.some_inj] at a2'
        subst a1' a2'
        obtain ⟨w4', e4', h4⟩ := hcopy w3 h3
        rw [e4] at e4'
        obtain rfl := Except.ok.inj e4'
        obtain ⟨w5, rfl, h5⟩ := (ih (i + 1) (m + 1) w4 _ h4).2 y hy
        refine ⟨w5, ?_, ?_⟩
        · show Except.ok (_, _) = Except.ok (_, _)
          unfold stepLines
          rw [List.range'_succ, List.flatMap_cons, showSz_toString, String.toList_append, String.toList_append]
        · have hm : m + 1 + n = m + (n + 1) := by omega
          rw [hm] at h5
          refine ⟨h5.1, fun x f hx hf => ⟨(h5.2 x f hx hf).1, ?_⟩⟩
          rw [(h5.2 x f hx hf).2, if_neg (Nat.succ_ne_zero n)]
          by_cases hn : n = 0
          · subst hn; rw [if_pos rfl]
          · rw [if_neg hn]

end
end Fidi
