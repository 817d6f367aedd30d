import Verif.Lemmas.Drivers
import Verif.Lemmas.UpwindExact
import Verif.Model.UpwindMain

/-
Lemmas about the executions of the drivers `laplacian` and `upwindMpi`.
-/
namespace Fidi
open Spec

section
variable {R : Type} {c : Cfg R} {x : List Nat} {f f' : Filter R}

/-- The check sum changes the iterator only. -/
theorem localSum_same [Zero R] [Add R] {input : Bool} {r : R} (he : f.localSum input = .ok (r, f')) :
    f'.inData = f.inData ∧ f'.outData = f.outData ∧ f'.bufs = f.bufs := by
  unfold Filter.localSum at he
  obtain ⟨mit, _, he⟩ := (M.bind_ok_iff _ _ _).1 he
  obtain ⟨⟨mit', out⟩, _, he⟩ := (M.bind_ok_iff _ _ _).1 he
  have := Except.ok.inj he
  rw [Prod.mk.injEq] at this
  rw [← this.2]
  exact ⟨rfl, rfl, rfl⟩

theorem localSum_holds [Zero R] [Add R] {u : List Nat → R} (hs : Holds c x u f) {input : Bool} {r : R}
    (he : f.localSum input = .ok (r, f')) : Holds c x u f' ∧ f'.outData = f.outData := by
  have hk := localSum_kept hs.shape he
  obtain ⟨h1, h2, h3⟩ := localSum_same he
  refine ⟨⟨hk.shape, by rw [h1]; exact hs.data, ?_⟩, h2⟩
  intro s w m hw hm
  rw [h3]
  exact hs.mirror s w m hw hm

/-- `setInData` on every rank. -/
theorem world_setInData [One R] [Zero R] [Add R] [Sub R] [Mul R] [Div R] [NatCast R] (h : c.Good)
    (h1 : c.xmins.length = c.dims.length) (h2 : c.xmaxs.length = c.dims.length) {w : World R}
    {Q : List Nat → Filter R → Prop} (hw : Ranks c (fun x f => Shape c x c.tab f ∧ Q x f) w) (func : List R → R) :
    ∃ w', w.setInData func = .ok w' ∧ Ranks c (fun x f => Holds c x (fun g => func ((List.range c.dims.length).map fun i =>
      c.xmins.getD i 0 + (((g.getD i 0 : Nat) : R) + 1 / ((2 : Nat) : R)) *
        ((c.xmaxs.getD i 0 - c.xmins.getD i 0) / ((c.dims.getD i 0 : Nat) : R)))) f) w' :=
  ranks_mapM h hw _ fun x f hx hf => by
    obtain ⟨f', e, h3, _⟩ := setWith_ok h hx hf.1 (fun inds => do pure (func (← f.getPosition inds)))
      (fun g => func ((List.range c.dims.length).map fun i =>
        c.xmins.getD i 0 + (((g.getD i 0 : Nat) : R) + 1 / ((2 : Nat) : R)) *
          ((c.xmaxs.getD i 0 - c.xmins.getD i 0) / ((c.dims.getD i 0 : Nat) : R)))) (by
      intro g hg
      have hl := (sub_inGrid h.good.valid.1 hx hg).length_eq
      unfold Filter.getPosition
      rw [hf.1.ndims, hf.1.gdims, hf.1.xmins, hf.1.xmaxs]
      rw [forUp_fill c.dims.length _ (by simp) (fun i => c.xmins.getD i 0 +
        (((g.getD i 0 : Nat) : R) + 1 / ((2 : Nat) : R)) *
          ((c.xmaxs.getD i 0 - c.xmins.getD i 0) / ((c.dims.getD i 0 : Nat) : R)))]
      · rfl
      · intro i v hi hv _
        rw [rd_of_lt (by omega), M.ok_bind, rd_of_lt (by omega), M.ok_bind, rd_of_lt (by omega), M.ok_bind,
          rd_of_lt (by omega), M.ok_bind, M.ok_bind, wr_of_lt (by omega)]
        rw [getD_of_lt (by omega : i < c.xmins.length), getD_of_lt (by omega : i < c.xmaxs.length),
          getD_of_lt (by omega : i < c.dims.length), getD_of_lt (by omega : i < g.length)])
    exact ⟨f', e, h3⟩

theorem ifDecompValid_of {P : List Nat → Filter R → Prop} (h : c.Good) {w : World R} (hw : Ranks c P w)
    (hP : ∀ x f, P x f → f.validDecomp = true) (body : World R → M (World R)) : ifDecompValid w body = body w := by
  unfold ifDecompValid
  rw [if_pos]
  rw [List.all_eq_true]
  intro f hf
  obtain ⟨x, _, _, hp⟩ := hw.mem h hf
  exact hP x f hp

end

/-! ### upwindMpi -/

/-- Bodies of the loops over the axes that find the time step. -/
def clip {R : Type} [LT R] [DecidableLT R] (v m : R) : R := if v < m then v else m

section
variable {R : Type} [Zero R] [One R] [Add R] [Sub R] [Mul R] [Div R] [NatCast R] [IntCast R] [LT R] [DecidableLT R]

/-- The time step of both drivers. -/
def driverDt [HasMax R] (courant : R) (n : Nat) : R :=
  clip (courant * (1 / (n : R)) / 1) (clip (courant * (1 / (n : R)) / 1) (clip (courant * (1 / (n : R)) / 1) HasMax.dblMax))

/-- The weight of the upwind neighbours. -/
def driverWeight [HasMax R] (courant : R) (n : Nat) : R := ((1 : Int) : R) * driverDt courant n * 1 / (1 / (n : R))

omit [Add R] in
/-- The stencil of `upwindMpi`. -/
theorem upwindMpi_stencil [HasMax R] (h01 : (0 : R) < 1) (courant : R) (n : Nat) :
    UpwindMpi.stencil courant n 3 (List.replicate 3 1) (List.replicate 3 1) = .ok
      [([-1, 0, 0], driverWeight courant n), ([0, -1, 0], driverWeight courant n), ([0, 0, -1], driverWeight courant n),
        ([0, 0, 0], 1 - driverWeight courant n - driverWeight courant n - driverWeight courant n)] := by
  have hs : (if (0 : R) < 1 then (1 : Int) else -1) = 1 := if_pos h01
  have e1 : forUp 0 3 (List.replicate 3 (0 : R), List.replicate 3 (0 : Int), (HasMax.dblMax : R))
      (UpwindMpi.setupBody courant n (List.replicate 3 1) (List.replicate 3 1)) =
      .ok ([1 / (n : R), 1 / (n : R), 1 / (n : R)], [1, 1, 1], driverDt courant n) := by
    have h1 : forUp 0 3 (List.replicate 3 (0 : R), List.replicate 3 (0 : Int), (HasMax.dblMax : R))
      (UpwindMpi.setupBody courant n (List.replicate 3 1) (List.replicate 3 1)) =
      .ok ([1 / (n : R), 1 / (n : R), 1 / (n : R)], [if (0 : R) < 1 then (1 : Int) else -1,
        if (0 : R) < 1 then (1 : Int) else -1, if (0 : R) < 1 then (1 : Int) else -1], driverDt courant n) := rfl
    rw [h1, hs]
  have hw : ∀ i < 3, UpwindMpi.weight (List.replicate 3 1) [1 / (n : R), 1 / (n : R), 1 / (n : R)] [1, 1, 1]
      (driverDt courant n) i = .ok (driverWeight courant n) := by
    intro i hi
    match i, hi with
    | 0, _ => rfl
    | 1, _ => rfl
    | 2, _ => rfl
  unfold UpwindMpi.stencil
  rw [List.length_replicate]
  dsimp only
  rw [e1, M.ok_bind]
  dsimp only
  rw [forUp_of_lt (by decide), hw 0 (by decide), M.ok_bind, M.pure_eq, M.ok_bind, forUp_of_lt (by decide), hw 1 (by decide),
    M.ok_bind, M.pure_eq, M.ok_bind, forUp_of_lt (by decide), hw 2 (by decide), M.ok_bind, M.pure_eq, M.ok_bind,
    forUp_of_ge (by decide), M.ok_bind]
  rfl

omit [Zero R] [Add R] [Sub R] [IntCast R] in
theorem mainDt_driver [HasMax R] (courant : R) (n : Nat) :
    Upwind.mainDt courant (List.replicate 3 1) (List.replicate 3 1) (List.replicate 3 n) = .ok (driverDt courant n) := rfl

end

section
variable {K : Type} [Field K]

theorem mpi_step {dims g : List Nat} (hd : dims.length = 3) (hg : InGrid dims g) (w : K) (u : List Nat → K) :
    stencilStep dims [([-1, 0, 0], w), ([0, -1, 0], w), ([0, 0, -1], w), ([0, 0, 0], 1 - w - w - w)] u g =
      upwindStep dims (fun _ => -1) (fun _ => -w) u g := by
  have h0 : shiftMod dims g [-1, 0, 0] = neighbour dims 0 (-1) g := by
    have := shiftMod_axisOff hg 0 (-1); rw [hd] at this; exact this
  have h1 : shiftMod dims g [0, -1, 0] = neighbour dims 1 (-1) g := by
    have := shiftMod_axisOff hg 1 (-1); rw [hd] at this; exact this
  have h2 : shiftMod dims g [0, 0, -1] = neighbour dims 2 (-1) g := by
    have := shiftMod_axisOff hg 2 (-1); rw [hd] at this; exact this
  have h3 : shiftMod dims g [0, 0, 0] = g := by
    have := shiftMod_zeroOff hg; rw [hd] at this; exact this
  rw [stencilStep_sum, upwindStep_eq, hd]
  simp only [List.map_cons, List.map_nil, List.sum_cons, List.sum_nil, h0, h1, h2, h3, Finset.sum_range_succ,
    Finset.sum_range_zero]
  ring

theorem stencilIter_congr {dims : List Nat} {st : List (List Int × K)} {F : (List Nat → K) → List Nat → K}
    (hl : ∀ kv ∈ st, kv.1.length = dims.length)
    (h : ∀ u g, InGrid dims g → stencilStep dims st u g = F u g) (u : List Nat → K) (k : Nat) :
    ∀ g, InGrid dims g → stencilIter dims st u k g = F^[k] u g := by
  have hc : ∀ u u' : List Nat → K, (∀ g, InGrid dims g → u g = u' g) → ∀ g, InGrid dims g → F u g = F u' g := by
    intro u u' hu g hg
    rw [← h u g hg, ← h u' g hg, stencilStep_sum, stencilStep_sum]
    congr 1
    apply List.map_congr_left
    intro p hp
    rw [hu _ (shiftMod_inGrid hg (hl p hp))]
  induction k with
  | zero => intro g _; rfl
  | succ k ih =>
    intro g hg
    rw [Function.iterate_succ_apply']
    show stencilStep dims st (stencilIter dims st u k) g = _
    rw [h _ g hg]
    exact hc _ _ ih g hg

end

/-- The initial condition of `upwindMpi`. -/
theorem initialCondition_eq {R : Type} [Zero R] [One R] {g : List Nat} (h : g.sum < 2 ^ 31) :
    UpwindMpi.initialCondition (R := R) g = cornerField g := by
  have key : ∀ (l : List Nat) (a : Nat), a + l.sum < 2 ^ 31 →
      l.foldl (fun acc x => intOfSz (szAdd (szOfInt acc) x)) (a : Int) = ((a + l.sum : Nat) : Int) := by
    intro l
    induction l with
    | nil => intro a _; simp
    | cons y l ih =>
      intro a ha
      rw [List.sum_cons] at ha
      rw [List.foldl_cons, List.sum_cons]
      have e : intOfSz (szAdd (szOfInt (a : Int)) y) = ((a + y : Nat) : Int) := by
        have h1 : szOfInt (a : Int) = a := szOfInt_ofNat (by unfold W; omega)
        rw [h1]
        unfold szAdd
        rw [Nat.mod_eq_of_lt (by unfold W; omega), intOfSz_small (by omega)]
      rw [e, ih (a + y) (by omega), Nat.add_assoc]
  unfold UpwindMpi.initialCondition cornerField
  have h1 := key g 0 (by omega)
  rw [Nat.zero_add] at h1
  rw [show ((0 : Nat) : Int) = 0 from rfl] at h1
  rw [h1]
  have h2 : (((g.sum : Nat) : Int) = 0) ↔ ∀ x ∈ g, x = 0 := by
    rw [Int.natCast_eq_zero]
    exact List.sum_eq_zero_iff
  by_cases hz : ∀ x ∈ g, x = 0
  · rw [if_pos (h2.2 hz), if_pos hz]
  · rw [if_neg (fun e => hz (h2.1 e)), if_neg hz]

end Fidi
