import Verif.Lemmas.FilterApply
import Verif.Props.CubeDecomp

/-
All ranks together.
-/
namespace Fidi
open Spec
variable {R : Type} {c : Cfg R}

theorem mapM_ok {α β : Type} (l : List α) (g : α → M β) (P : Nat → β → Prop)
    (h : ∀ i a, l[i]? = some a → ∃ b, g a = .ok b ∧ P i b) :
    ∃ l', l.mapM g = .ok l' ∧ l'.length = l.length ∧ ∀ i b, l'[i]? = some b → P i b := by
  induction l generalizing P with
  | nil => exact ⟨[], rfl, rfl, by simp⟩
  | cons a l ih =>
    obtain ⟨b, e, hb⟩ := h 0 a rfl
    obtain ⟨l', e', hl, hP⟩ := ih (fun i b => P (i + 1) b) (fun i a' ha => h (i + 1) a' (by simpa using ha))
    refine ⟨b :: l', ?_, by simp [hl], ?_⟩
    · rw [List.mapM_cons, e, M.ok_bind, e', M.ok_bind]; rfl
    · intro i b' hi
      cases i with
      | zero => simp at hi; subst hi; exact hb
      | succ i => exact hP i b' (by simpa using hi)

/-- Every rank satisfies `P`. -/
def Ranks (c : Cfg R) (P : List Nat → Filter R → Prop) (w : World R) : Prop :=
  w.length = c.nprocs ∧ ∀ x f, InGrid c.d x → w[rankOf c.d x]? = some f → P x f

theorem Cfg.Good.coords (h : c.Good) {r : Nat} (hr : r < c.nprocs) : ∃ x, InGrid c.d x ∧ rankOf c.d x = r :=
  exists_coords h.good.d_pos (by rw [h.good.valid.2]; exact hr)

theorem Cfg.Good.rank_lt (h : c.Good) {x : List Nat} (hx : InGrid c.d x) : rankOf c.d x < c.nprocs := by
  have := rankOf_lt hx
  rwa [h.good.valid.2] at this

theorem ranks_mapM (h : c.Good) {P Q : List Nat → Filter R → Prop} {w : World R} (hw : Ranks c P w)
    (g : Filter R → M (Filter R)) (hg : ∀ x f, InGrid c.d x → P x f → ∃ f', g f = .ok f' ∧ Q x f') :
    ∃ w', w.mapM g = .ok w' ∧ Ranks c Q w' := by
  obtain ⟨w', e, hl, hP⟩ := mapM_ok w g (fun r f' => ∀ x, InGrid c.d x → rankOf c.d x = r → Q x f') (by
    intro r f hf
    have hr : r < c.nprocs := by
      rw [← hw.1]
      by_contra hc
      rw [List.getElem?_eq_none (by omega)] at hf; simp at hf
    obtain ⟨x, hx, rfl⟩ := h.coords hr
    obtain ⟨f', e, hq⟩ := hg x f hx (hw.2 x f hx hf)
    refine ⟨f', e, ?_⟩
    intro y hy hxy
    rw [rankOf_inj hy hx hxy]; exact hq)
  exact ⟨w', e, by rw [hl, hw.1], fun x f hx hf => hP _ f hf x hx rfl⟩

theorem Ranks.exists {h : c.Good} {P : List Nat → Filter R → Prop} {w : World R} (hw : Ranks c P w) {x : List Nat}
    (hx : InGrid c.d x) : ∃ f, w[rankOf c.d x]? = some f ∧ P x f := by
  have hlt : rankOf c.d x < w.length := by rw [hw.1]; exact h.rank_lt hx
  exact ⟨_, List.getElem?_eq_getElem hlt, hw.2 x _ hx (List.getElem?_eq_getElem hlt)⟩

theorem Ranks.mem (h : c.Good) {P : List Nat → Filter R → Prop} {w : World R} (hw : Ranks c P w) {f : Filter R}
    (hf : f ∈ w) : ∃ x, InGrid c.d x ∧ w[rankOf c.d x]? = some f ∧ P x f := by
  obtain ⟨r, hr, rfl⟩ := List.mem_iff_getElem.1 hf
  obtain ⟨x, hx, rfl⟩ := h.coords (by rw [← hw.1]; exact hr)
  exact ⟨x, hx, List.getElem?_eq_getElem hr, hw.2 x _ hx (List.getElem?_eq_getElem hr)⟩

/-! Construction. -/

theorem world_new [Zero R] [Div R] [NatCast R] [LT R] [DecidableLT R] [HasMax R] (h : c.Good)
    (hb : CubeDecomp.build R CubeDecomp.empty c.nprocs c.dims = .ok (true, movedDecomp c.nprocs c.dims c.d 0)) :
    ∃ w, World.new c.nprocs c.dims c.xmins c.xmaxs c.st = .ok w ∧ Ranks c (fun x f => Shape c x c.tab f ∧
      f.inData = List.replicate c.L.prod 0 ∧ f.outData = List.replicate c.L.prod 0) w := by
  unfold World.new
  obtain ⟨w, e, hl, hP⟩ := mapM_ok (List.range c.nprocs)
    (fun (r : Nat) => Filter.new (r : Int) c.nprocs c.dims c.xmins c.xmaxs c.st)
    (fun r f => ∀ x, InGrid c.d x → rankOf c.d x = r → Shape c x c.tab f ∧
      f.inData = List.replicate c.L.prod 0 ∧ f.outData = List.replicate c.L.prod 0) (by
    intro i r hr
    have hi : i < c.nprocs := by
      by_contra hc
      rw [List.getElem?_eq_none (by simpa using hc)] at hr; simp at hr
    rw [List.getElem?_range hi, Option.some_inj] at hr
    subst hr
    obtain ⟨x, hx, rfl⟩ := h.coords hi
    obtain ⟨f, e, hs⟩ := new_shape h hx hb
    exact ⟨f, e, fun y hy hxy => by rw [rankOf_inj hy hx hxy]; exact hs⟩)
  exact ⟨w, e, by simpa using hl, fun x f hx hf => hP _ f hf x hx rfl⟩

/-- The decomposition found, for sizes in range. -/
theorem build_found [Div R] [NatCast R] [LT R] [DecidableLT R] [HasMax R] {nprocs : Nat} {dims : List Nat}
    (hp1 : 1 ≤ nprocs) (hp2 : nprocs < 2 ^ 31) (hne : dims ≠ []) (hpos : ∀ n ∈ dims, 0 < n)
    (hax : dims.length < 32) (hsize : dims.prod ≤ 2 ^ 32) (hex : ∃ d, ValidDecomp nprocs dims d) :
    ∃ d, GoodDecomp nprocs dims d ∧
      CubeDecomp.build R CubeDecomp.empty nprocs dims = .ok (true, movedDecomp nprocs dims d 0) := by
  obtain ⟨b, cd, e, hb, _⟩ := C08_found_iff_exists_partial (R := R) CubeDecomp.empty nprocs dims hp1 hp2 hne hpos hax hsize
  obtain rfl := hb.2 hex
  have hv := C07_found_is_valid_partial CubeDecomp.empty cd nprocs dims hp1 hp2 hne hpos hax hsize e
  have hlt : ∀ n ∈ dims, n < 2 ^ 64 := by
    intro n hn
    have : n ≤ dims.prod := Nat.le_of_dvd (prod_pos_of hpos) (List.dvd_prod hn)
    omega
  obtain ⟨g, hc⟩ := good_of_build hp2 hpos hlt (by omega) e hv
  exact ⟨cd.getDecomp, g, by rw [e, ← hc]⟩

/-! `MPI_Get`. -/

theorem get_serves (h : c.Good) {w : World R} {u : List Nat → R} (hw : Ranks c (fun x f => Holds c x u f) w) :
    Serves c u w.get := by
  intro y hy s wi m hwi hm
  obtain ⟨f, hf, hh⟩ := Ranks.exists (h := h) hw hy
  obtain ⟨hlt, _, m', hm', hfit⟩ := h.tab_ok.link _ _ hwi
  rw [hm, Option.some_inj] at hm'
  subst hm'
  have hb := hh.mirror s wi m hwi hm
  unfold World.get
  rw [if_neg (by omega), Int.toNat_natCast, hf]
  dsimp only
  have e1 : f.winBuf[wi]? = some (2 * wi) := by rw [hh.shape.winBuf]; simp [hlt]
  rw [e1]
  dsimp only
  rw [rd_of_some hb, M.ok_bind, Int.toNat_natCast, if_neg (by rw [List.length_map, length_boxData]; unfold winVol; omega)]
  rw [List.take_of_length_le (by rw [List.length_map, length_boxData]; unfold winVol; omega)]
  rfl

/-! Iterations. -/

variable [Zero R] [Add R] [Mul R]

theorem world_apply (h : c.Fine) {w : World R} {u : List Nat → R} (hw : Ranks c (fun x f => Holds c x u f) w) :
    ∃ w', w.applyFilter = .ok w' ∧ Ranks c (fun x f => Holds c x u f ∧
      f.outData = boxData (c.lo x) (c.hi x) (stencilStep c.dims c.st u)) w' :=
  ranks_mapM h.toGood hw _ fun _ _ hx hf => applyFilter_ok h hx (get_serves h.toGood hw) hf

omit [Zero R] [Add R] [Mul R] in
theorem world_copy (h : c.Good) {w : World R} {u v : List Nat → R}
    (hw : Ranks c (fun x f => Holds c x u f ∧ f.outData = boxData (c.lo x) (c.hi x) v) w) :
    ∃ w', w.copyOutToIn = .ok w' ∧ Ranks c (fun x f => Holds c x v f ∧ f.outData = boxData (c.lo x) (c.hi x) v) w' :=
  ranks_mapM h hw _ fun x f hx hf => by
    obtain ⟨f', e, h1, h2⟩ := copyOutToIn_ok h hx hf.1.shape v hf.2
    exact ⟨f', e, h1, by rw [h2]; exact hf.2⟩

omit [Zero R] [Add R] [Mul R] in
theorem world_set (h : c.Good) {w : World R} {Q : List Nat → Filter R → Prop}
    (hw : Ranks c (fun x f => Shape c x c.tab f ∧ Q x f) w) (u : List Nat → R) :
    ∃ w', w.setInDataByIndices u = .ok w' ∧ Ranks c (fun x f => Holds c x u f) w' :=
  ranks_mapM h hw _ fun x f hx hf => by
    obtain ⟨f', e, h1, _⟩ := setInDataByIndices_ok h hx hf.1 u
    exact ⟨f', e, h1⟩

omit [Add R] [Mul R] in
/-- The data of new filters are those of the field 0. -/
theorem boxData_zero (h : c.Good) {x : List Nat} (hx : InGrid c.d x) :
    boxData (c.lo x) (c.hi x) (fun _ => (0 : R)) = List.replicate c.L.prod 0 := by
  rw [List.eq_replicate_iff]
  refine ⟨by rw [length_boxData, h.vol hx], ?_⟩
  intro b hb
  unfold boxData at hb
  obtain ⟨_, _, rfl⟩ := List.mem_map.1 hb
  rfl

omit [Zero R] [Add R] [Mul R] in
/-- `setInDataByIndices` leaves the output data alone. -/
theorem world_set_out (h : c.Good) {w : World R} {v : List Nat → R}
    (hw : Ranks c (fun x f => Shape c x c.tab f ∧ f.outData = boxData (c.lo x) (c.hi x) v) w) (u : List Nat → R) :
    ∃ w', w.setInDataByIndices u = .ok w' ∧
      Ranks c (fun x f => Holds c x u f ∧ f.outData = boxData (c.lo x) (c.hi x) v) w' :=
  ranks_mapM h hw _ fun x f hx hf => by
    obtain ⟨f', e, h1, h2⟩ := setInDataByIndices_ok h hx hf.1 u
    exact ⟨f', e, h1, by rw [h2]; exact hf.2⟩

theorem world_iterate (h : c.Fine) (n : Nat) {w : World R} {u : List Nat → R}
    (hw : Ranks c (fun x f => Holds c x u f) w) :
    ∃ w', w.iterate n = .ok w' ∧ Ranks c (fun x f => Holds c x (stencilIter c.dims c.st u n) f) w' := by
  have comm : ∀ (n : Nat) (u : List Nat → R), stencilIter c.dims c.st (stencilStep c.dims c.st u) n =
      stencilIter c.dims c.st u (n + 1) := by
    intro n
    induction n with
    | zero => intro u; rfl
    | succ n ih => intro u; show stencilStep _ _ _ = stencilStep _ _ _; rw [ih]
  induction n generalizing w u with
  | zero => exact ⟨w, rfl, hw⟩
  | succ n ih =>
    obtain ⟨w1, e1, h1⟩ := world_apply h hw
    obtain ⟨w2, e2, h2⟩ := world_copy h.toGood h1
    obtain ⟨w3, e3, h3⟩ := ih (u := stencilStep c.dims c.st u) ⟨h2.1, fun x f hx hf => (h2.2 x f hx hf).1⟩
    refine ⟨w3, ?_, ?_⟩
    · unfold World.iterate
      rw [e1, M.ok_bind, e2, M.ok_bind, e3]
    · rw [comm] at h3; exact h3

/-! The cells of the grid and the ranks. -/

omit [Zero R] [Add R] [Mul R] in
theorem owner (h : c.Good) {P : List Nat → Filter R → Prop} {w : World R} (hw : Ranks c P w)
    (hlo : ∀ x f, P x f → f.lo = c.lo x ∧ f.hi = c.hi x) {g : List Nat} (hg : InGrid c.dims g) :
    ∃! r : Nat, ∃ f : Filter R, w[r]? = some f ∧ InBox f.lo f.hi g := by
  have hL := h.lpos
  have hq := quot_inGrid h.good.valid.1 hg
  have hlen : (List.zipWith (· / ·) g c.L).length = c.L.length := by
    rw [h.lenL, ← h.good.length_eq]; exact hq.length_eq
  obtain ⟨f, hf, hp⟩ := Ranks.exists (h := h) hw hq
  refine ⟨_, ⟨f, hf, ?_⟩, ?_⟩
  · rw [(hlo _ f hp).1, (hlo _ f hp).2]
    exact (inBox_sub_iff hL hlen).2 ⟨by rw [h.lenL]; exact hg.length_eq, rfl⟩
  · rintro r ⟨f', hf', hb⟩
    have hr : r < c.nprocs := by
      rw [← hw.1]
      by_contra hc
      rw [List.getElem?_eq_none (by omega)] at hf'; simp at hf'
    obtain ⟨y, hy, rfl⟩ := h.coords hr
    have := hlo y f' (hw.2 y f' hy hf')
    rw [this.1, this.2] at hb
    have := ((inBox_sub_iff hL (by rw [h.lenL]; exact h.len_x hy)).1 hb).2
    rw [← this]
    rfl

end Fidi
