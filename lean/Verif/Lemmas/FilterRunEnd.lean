import Verif.Lemmas.FilterRunStep

/-
No concurrent execution is stuck, and every one ends.
-/
namespace Fidi
namespace Run
open Spec
variable {R : Type} {c : Cfg R} [Zero R] [Add R] [Mul R] {prog : List (Op R)} {W : Nat → World R} {s : List (Proc R)}

omit [Zero R] in
/-- The window of a rank has the size it has in the lock-step execution. -/
theorem target_buf (hL : Lock c prog W) (hi : Inv c prog W s) {d : Nat} (hd : d ≤ prog.length) {q : Nat} {fq : Filter R}
    (hq : (W d)[q]? = some fq) {side : List Int} {win : Nat} (hw : StdMap.find c.tab.wins side = some win) {src : Nat}
    {b : Buf R} (hb : fq.winBuf[win]? = some src) (hb2 : fq.bufs[src]? = some b) :
    ∃ p b', s[q]? = some p ∧ p.f.winBuf[win]? = some (2 * win) ∧ p.f.bufs[2 * win]? = some b' ∧ b'.length = b.length := by
  obtain ⟨x, hx, rfl, hs⟩ := hL.shapeAt hd hq
  obtain ⟨hlt, _, m, hm, _⟩ := hL.good.tab_ok.link _ _ hw
  obtain ⟨rfl, _⟩ := winBuf_src hs hb
  have hlen : rankOf c.d x < s.length := by rw [hi.len]; exact hL.good.rank_lt hx
  obtain ⟨p, hp⟩ : ∃ p, s[rankOf c.d x]? = some p := ⟨_, List.getElem?_eq_getElem hlen⟩
  obtain ⟨y, fp, hy, hxy, h1, hsp, _, hk⟩ := hi.at hL hp
  have hk' : Shape c x c.tab p.f := by
    have := hL.shape p.done (hi.done _ p hp)
    have h2 := this.2 x fp hx h1
    obtain ⟨fd, h3, h4⟩ := hi.loc _ p hp
    rw [h1, Option.some_inj] at h3
    subst h3
    exact (local_kept hL.good h2 h4).shape
  obtain ⟨b', e1, e2⟩ := (hk'.buflen side win m hw hm).1
  obtain ⟨b2, e3, e4⟩ := (hs.buflen side win m hw hm).1
  rw [hb2, Option.some_inj] at e3
  subst e3
  exact ⟨p, b', hp, winBuf_of hk' hlt, e1, by rw [e2, e4]⟩

/-- An element of a pending call can be moved as soon as the target has entered the fence. -/
theorem can_move (hL : Lock c prog W) (hi : Inv c prog W s) (strong : Bool) {r : Nat} {p : Proc R} (hr : s[r]? = some p)
    {k : Ctx} {g : Fetch} (hp : p.phase.pending = some (k, g)) (hn : g.todo ≠ [])
    (he : ∀ q, s[g.target]? = some q → g.epoch ≤ q.entered k.win) : ∃ p', RankStep strong prog s r p p' := by
  obtain ⟨x, fd, hx, hxr, hfd, hs, hl, hk⟩ := hi.at hL hr
  obtain ⟨⟨kv, ho, f1, n, data, b0, b, h1, h2, h3, h4, h5, h6, h7, h8, h9, h10, h11, h12⟩, _, _⟩ := local_pending hl hp
  obtain ⟨_, _, q', src', b', a1, a2, a3, a4, a5⟩ := get_inv h3
  have hw := h1.2
  rw [(prepare_kept hs h1.1).shape.wins] at hw
  obtain ⟨q, bq, hq, e1, e2, e3⟩ := target_buf hL hi (hi.done r p hr) a1 hw a2 a3
  obtain ⟨i, hin⟩ := List.exists_mem_of_ne_nil _ hn
  have hlt := h10 i hin
  have hib : i < bq.length := by
    rw [a5, List.length_take] at hlt
    omega
  have hdl : g.dst < f1.bufs.length := (List.getElem?_eq_some_iff.1 h5).1
  refine ⟨_, .move (q := q) (i := i) (src := 2 * k.win) (b := bq) (bd := b) (x := bq[i]) hp hin (by rw [h4]; exact hq)
    (he q (by rw [h4]; exact hq)) e1 e2 (List.getElem?_eq_getElem hib) ?_⟩
  rw [h7]
  exact List.getElem?_set_self hdl

omit [Zero R] [Add R] [Mul R] in
/-- A rank that has done all units is ready. -/
theorem finished_of_done (hi : Inv c prog W s) {r : Nat} {p : Proc R} (hr : s[r]? = some p)
    (hd : p.done = prog.length) : Finished prog p := by
  refine ⟨hd, ?_⟩
  obtain ⟨fd, _, hl⟩ := hi.loc r p hr
  rw [hd, List.getElem?_eq_none (Nat.le_refl _)] at hl
  generalize hph : p.phase = ph at hl
  generalize p.f = f at hl
  cases hl <;> first | rfl | contradiction

/-- A rank that is not within a fence has something to do: no operation is undefined. -/
theorem can_step (hL : Lock c prog W) (hi : Inv c prog W s) (strong : Bool) {r : Nat} {p : Proc R} (hr : s[r]? = some p)
    (hf : ¬ Finished prog p) (h1 : ∀ k, p.phase ≠ .fence1 k) (h2 : ∀ k g, p.phase ≠ .fence2 k g) :
    ∃ p', RankStep strong prog s r p p' := by
  have hdone : p.done < prog.length := by
    have := hi.done r p hr
    by_contra hc
    exact hf (finished_of_done hi hr (by omega))
  obtain ⟨op, ho⟩ : ∃ op, prog[p.done]? = some op := ⟨_, List.getElem?_eq_getElem hdone⟩
  obtain ⟨x, fd, hx, hxr, hfd, hs, hl, hk⟩ := hi.at hL hr
  obtain ⟨f', e1, _⟩ := hL.at ho hfd
  have hl0 := hl
  rw [ho] at hl
  generalize hph : p.phase = ph at hl
  generalize hpf : p.f = f at hl
  cases hl with
  | ready =>
    cases op with
    | loc g => exact ⟨_, .loc hph ho (by rw [hpf]; exact e1)⟩
    | entry kv =>
      have e1' := e1
      unfold opStep Filter.applyEntry at e1
      dsimp only at e1
      obtain ⟨⟨⟨side, nb, wit⟩, f1⟩, e2, e3⟩ := (M.bind_ok_iff _ _ _).1 e1
      cases hw : StdMap.find f1.windows side with
      | none => exact ⟨_, .prepareNone hph ho (by rw [hpf]; exact e2) hw⟩
      | some win => exact ⟨_, .prepare (c := ⟨side, nb, wit, win⟩) hph ho (by rw [hpf]; exact e2) hw⟩
  | prepared _ _ => exact ⟨_, .enter1 hph⟩
  | fence1 _ _ => exact absurd hph (h1 _)
  | opened ho' hpr =>
    rename_i kv k
    rw [Option.some_inj] at ho'
    subst ho'
    obtain ⟨dst, f2, e2, _⟩ := entry_inv hpr e1
    obtain ⟨n, win, data, b0, e3, e4, e5, e6, e7⟩ := fetch_inv e2
    have k1 := prepare_kept hs hpr.1
    obtain ⟨_, hwin⟩ := args_dst hL.good k1.shape e3
    rw [hpr.2, Option.some_inj] at hwin
    subst hwin
    obtain ⟨a0, a0', q', src', b', a1, a2, a3, a4, a5⟩ := get_inv e4
    have hw := hpr.2
    rw [k1.shape.wins] at hw
    obtain ⟨q, bq, hq, i1, i2, i3⟩ := target_buf hL hi (hi.done r p hr) a1 hw a2 a3
    have hlen : data.length = n.toNat := by rw [a5, List.length_take]; omega
    exact ⟨_, .get hph (by rw [hpf]; exact e3) a0 a0' hq i1 i2 (by omega) (by rw [hpf]; exact e5) (by omega)⟩
  | issued _ _ => exact ⟨_, .enter2 hph⟩
  | fence2 _ _ => exact absurd hph (h2 _ _)
  | fetched ho' hpr hfe =>
    rename_i kv k dst f1
    rw [Option.some_inj] at ho'
    subst ho'
    obtain ⟨dst', f2, e2, e3⟩ := entry_inv hpr e1
    rw [hfe] at e2
    cases e2
    exact ⟨_, .update hph ho (by rw [hpf]; exact e3)⟩
  | plain ho' hpr hno =>
    rename_i kv side nb wit
    rw [Option.some_inj] at ho'
    subst ho'
    unfold opStep Filter.applyEntry at e1
    dsimp only at e1
    rw [hpr, M.ok_bind] at e1
    dsimp only at e1
    rw [hno] at e1
    exact ⟨_, .update hph ho (by rw [hpf]; exact e1)⟩

omit [Zero R] [Add R] [Mul R] in
/-- A rank behind all others. -/
theorem exists_min : ∀ (l : List (Proc R)), l ≠ [] → ∃ p ∈ l, ∀ q ∈ l, p.pos ≤ q.pos
  | [], h => absurd rfl h
  | [p], _ => ⟨p, by simp, by simp⟩
  | p :: p2 :: l, _ => by
    obtain ⟨m, hm, hle⟩ := exists_min (p2 :: l) (by simp)
    by_cases h : p.pos ≤ m.pos
    · refine ⟨p, by simp, ?_⟩
      intro q hq
      rcases List.mem_cons.1 hq with rfl | hq
      · exact Nat.le_refl _
      · exact Nat.le_trans h (hle q hq)
    · refine ⟨m, List.mem_cons_of_mem _ hm, ?_⟩
      intro q hq
      rcases List.mem_cons.1 hq with rfl | hq
      · omega
      · exact hle q hq

/-- No state is stuck before all ranks have finished. -/
theorem progress (hL : Lock c prog W) (hi : Inv c prog W s) (strong : Bool) (hn : ∃ p ∈ s, ¬ Finished prog p) :
    ∃ s', Step strong prog s s' := by
  obtain ⟨p0, hp0, hnf⟩ := hn
  obtain ⟨p, hp, hmin⟩ := exists_min s (List.ne_nil_of_mem hp0)
  obtain ⟨r, hr⟩ := List.getElem?_of_mem hp
  obtain ⟨r0, hr0⟩ := List.getElem?_of_mem hp0
  have hf : ¬ Finished prog p := by
    intro h
    have h1 := hmin p0 hp0
    have h2 := hi.done r0 p0 hr0
    have h3 := h.1
    unfold Proc.pos at h1
    rw [h.2] at h1
    have h4 := lev_lt p0.phase
    rw [show lev .ready = 0 from rfl] at h1
    exact hnf (finished_of_done hi hr0 (by omega))
  have entered : ∀ q ∈ s, ∀ win, p.entered win ≤ q.entered win := by
    intro q hq win
    obtain ⟨rq, hrq⟩ := List.getElem?_of_mem hq
    rw [hi.ent r p hr, hi.ent rq q hrq]
    exact ent_mono prog win (lev_lt _) (lev_lt _) (hmin q hq)
  have of : (∃ p', RankStep strong prog s r p p') → ∃ s', Step strong prog s s' :=
    fun ⟨p', h⟩ => ⟨_, r, p, p', hr, h, rfl⟩
  by_cases h1 : ∃ k, p.phase = .fence1 k
  · obtain ⟨k, hk⟩ := h1
    exact of ⟨_, .leave1 hk fun _ q hq => entered q hq _⟩
  by_cases h2 : ∃ k g, p.phase = .fence2 k g
  · obtain ⟨k, g, hk⟩ := h2
    have hpend : p.phase.pending = some (k, g) := by rw [hk]; rfl
    have hep := hi.epoch r p hr k g hpend
    by_cases ht : g.todo = []
    · by_cases hg : ∀ q ∈ s, ∀ c' g', q.phase.pending = some (c', g') → c'.win = k.win → g'.target = r →
          g'.epoch + 1 = p.entered k.win → g'.todo = []
      · exact of ⟨_, .leave2 hk ht (fun q hq => entered q hq _) hg⟩
      · push Not at hg
        obtain ⟨q, hq, k', g', a1, a2, a3, a4, a5⟩ := hg
        obtain ⟨rq, hrq⟩ := List.getElem?_of_mem hq
        obtain ⟨p', hp'⟩ := can_move hL hi strong hrq a1 a5 (by
          intro q2 hq2
          rw [a3, hr, Option.some_inj] at hq2
          subst hq2
          rw [a2]; omega)
        exact ⟨_, rq, q, p', hrq, hp', rfl⟩
    · refine of (can_move hL hi strong hr hpend ht ?_)
      intro q hq
      refine Nat.le_trans ?_ (entered q (List.mem_of_getElem? hq) k.win)
      rw [hep, hi.ent r p hr, hk]
      exact ent_mono prog k.win (lev_lt _) (by omega) (by simp [lev])
  · push Not at h1 h2
    exact of (can_step hL hi strong hr hf h1 h2)

/-! Termination. -/

/-- Elements that a rank has not moved. -/
def Proc.left (p : Proc R) : Nat :=
  match p.phase.pending with
  | some (_, g) => g.todo.length
  | none => 0

/-- Each step brings the rank forward, or moves an element. -/
theorem step_measure {strong : Bool} {r : Nat} {p p' : Proc R} (h : RankStep strong prog s r p p') :
    p.pos < p'.pos ∨ p'.pos = p.pos ∧ p'.left < p.left := by
  cases h with
  | loc hp ho he => left; unfold Proc.pos; dsimp only; omega
  | prepare hp _ _ _ => left; rw [pos_lev hp]; unfold Proc.pos; simp [lev]
  | prepareNone hp _ _ _ => left; rw [pos_lev hp]; unfold Proc.pos; simp [lev]
  | enter1 hp => left; rw [pos_lev hp]; unfold Proc.pos; simp [lev]
  | leave1 hp _ => left; rw [pos_lev hp]; unfold Proc.pos; simp [lev]
  | get hp => left; rw [pos_lev hp]; unfold Proc.pos; simp [lev]
  | enter2 hp => left; rw [pos_lev hp]; unfold Proc.pos; simp [lev]
  | leave2 hp => left; rw [pos_lev hp]; unfold Proc.pos; simp [lev]
  | update hp _ _ => left; rw [pos_lev hp]; unfold Proc.pos; simp [lev]; omega
  | move hp hi hq he hw hb hx hd =>
    rename_i q k g i src b bd v
    right
    have hlen : (g.todo.erase i).length < g.todo.length := by
      rw [List.length_erase_of_mem hi]
      have := List.length_pos_of_mem hi
      omega
    refine ⟨by unfold Proc.pos; dsimp only; rw [lev_setTodo], ?_⟩
    unfold Proc.left
    dsimp only
    cases hph : p.phase <;> rw [hph] at hp <;> cases hp <;> exact hlen

omit [Zero R] [Add R] [Mul R] in
theorem sum_set (φ : Proc R → Nat) : ∀ (l : List (Proc R)) (r : Nat) (p p' : Proc R), l[r]? = some p →
    ((l.set r p').map φ).sum + φ p = (l.map φ).sum + φ p'
  | [], r, p, p', h => by simp at h
  | a :: l, 0, p, p', h => by
    simp at h; subst h
    simp; omega
  | a :: l, r + 1, p, p', h => by
    have := sum_set φ l r p p' (by simpa using h)
    rw [List.set_cons_succ, List.map_cons, List.map_cons, List.sum_cons, List.sum_cons]
    omega

/-- Steps from states that meet the invariant come to an end. -/
theorem acc_of_inv (hL : Lock c prog W) (strong : Bool) (hi : Inv c prog W s) :
    Acc (fun s' s => Step strong prog s s') s := by
  have key : ∀ (m n : Nat) (s : List (Proc R)), Inv c prog W s →
      (s.map fun p => 7 * prog.length - p.pos).sum = m → (s.map Proc.left).sum = n →
      Acc (fun s' s => Step strong prog s s') s := by
    intro m
    induction m using Nat.strong_induction_on with
    | _ m ihm =>
      intro n
      induction n using Nat.strong_induction_on with
      | _ n ihn =>
        intro s hi hm hn
        refine Acc.intro s ?_
        intro s' hst
        have hi' := inv_step hL hi hst
        obtain ⟨r, p, p', hr, h, rfl⟩ := hst
        have hlt : r < s.length := (List.getElem?_eq_some_iff.1 hr).1
        have hd' := hi'.done r p' (List.getElem?_set_self hlt)
        have hfin : p'.pos ≤ 7 * prog.length := by
          by_cases hc : p'.done = prog.length
          · have := (finished_of_done hi' (List.getElem?_set_self hlt) hc).2
            rw [pos_lev this, hc]
            simp [lev]
          · have := lev_lt p'.phase
            unfold Proc.pos
            omega
        have s1 := sum_set (fun p => 7 * prog.length - p.pos) s r p p' hr
        have s2 := sum_set Proc.left s r p p' hr
        rcases step_measure h with h1 | ⟨h1, h2⟩
        · exact ihm _ (by omega) _ _ hi' rfl rfl
        · exact ihn _ (by omega) _ hi' (by rw [h1] at s1; omega) rfl
  exact key _ _ s hi rfl rfl

end Run
end Fidi
