import Verif.Lemmas.FilterRunInv

/-
Every step keeps the invariant of the concurrent execution.
-/
namespace Fidi
namespace Run
open Spec
variable {R : Type} {c : Cfg R} {x : List Nat} [Zero R] [Add R] [Mul R] {prog : List (Op R)} {W : Nat → World R}
  {s : List (Proc R)}

/-- What a rank waited for when it left the second fence. -/
def Waited (s : List (Proc R)) (r : Nat) (p : Proc R) : Prop :=
  ∃ k g, p.phase = .fence2 k g ∧ (∀ q ∈ s, p.entered k.win ≤ q.entered k.win) ∧
    ∀ q ∈ s, ∀ c' g', q.phase.pending = some (c', g') → c'.win = k.win → g'.target = r →
      g'.epoch + 1 = p.entered k.win → g'.todo = []

/-- The effect of one step on the rank that makes it. -/
structure After (c : Cfg R) (prog : List (Op R)) (W : Nat → World R) (s : List (Proc R)) (r : Nat) (p p' : Proc R) : Prop where
  done : p'.done ≤ prog.length
  ent : ∀ win, p'.entered win = ent c prog win p'.done (lev p'.phase)
  loc : ∃ fd, (W p'.done)[r]? = some fd ∧ Local (W p'.done) fd prog[p'.done]? p'.phase p'.f
  mono : p.pos ≤ p'.pos
  cross : ∀ d win, Uses c prog d win → p.pos < 7 * d + 6 → 7 * d + 6 ≤ p'.pos → d = p.done ∧ Waited s r p
  epoch : ∀ k g, p'.phase.pending = some (k, g) → g.epoch = Run.ent c prog k.win p'.done 2
  pend : ∀ k g, p'.phase.pending = some (k, g) → p'.done = p.done ∧
    ((∃ g0, p.phase.pending = some (k, g0) ∧ g0.target = g.target ∧ (g0.todo = [] → g.todo = [])) ∨
      lev p.phase = 3 ∧ Uses c prog p.done k.win)

omit [Zero R] [Add R] [Mul R] in
theorem pos_lev {p : Proc R} {ph : Phase} (h : p.phase = ph) : p.pos = 7 * p.done + lev ph := by
  unfold Proc.pos; rw [h]

omit [Zero R] [Add R] [Mul R] in
/-- Moving one element. -/
theorem transit_move {wd : World R} {fd f : Filter R} {kv : List Int × R} {k : Ctx} {g : Fetch}
    (ht : Transit wd fd kv k g f) {i : Nat} {v : Option R} {bd : Buf R} (hi : i ∈ g.todo) (hd : f.bufs[g.dst]? = some bd)
    (hv : ∀ n data, wd.get k.neighborRk k.win n = .ok data → data[i]? = some v ∨ data.length ≤ i) :
    Transit wd fd kv k { g with todo := g.todo.erase i } { f with bufs := f.bufs.set g.dst (bd.set i v) } := by
  obtain ⟨f1, n, data, b0, b, h1, h2, h3, h4, h5, h6, rfl, h8, h9, h10, h11, h12⟩ := ht
  have hlt : g.dst < f1.bufs.length := (List.getElem?_eq_some_iff.1 h5).1
  have hbd : bd = b := by
    dsimp only at hd
    rw [List.getElem?_set_self hlt] at hd
    exact (Option.some.inj hd).symm
  subst hbd
  have hil := h10 i hi
  have hv' : data[i]? = some v := by
    rcases hv n data h3 with h | h
    · exact h
    · omega
  refine ⟨f1, n, data, b0, bd.set i v, h1, h2, h3, h4, h5, h6, ?_, ?_, h9.erase i, ?_, ?_, ?_⟩
  · dsimp only
    rw [List.set_set]
  · rw [List.length_set, h8]
  · intro j hj
    exact h10 j (List.mem_of_mem_erase hj)
  · intro j hj hn
    by_cases hij : i = j
    · subst hij
      rw [List.getElem?_set_self (by omega), hv']
    · rw [List.getElem?_set_ne hij]
      refine h11 j hj fun hm => hn ?_
      exact (List.mem_erase_of_ne (Ne.symm hij)).2 hm
  · intro j hj
    rw [List.getElem?_set_ne (by omega)]
    exact h12 j hj

omit [Zero R] [Add R] [Mul R] in
/-- When everything has been moved the fetch is that of the lock-step execution. -/
theorem transit_done {wd : World R} {fd f : Filter R} {kv : List Int × R} {k : Ctx} {g : Fetch}
    (ht : Transit wd fd kv k g f) (hn : g.todo = []) :
    ∃ f1, Prep fd kv k f1 ∧ f1.fetch wd.get k.neighborRk k.side = .ok (g.dst, f) := by
  obtain ⟨f1, n, data, b0, b, h1, h2, h3, h4, h5, h6, rfl, h8, h9, h10, h11, h12⟩ := ht
  refine ⟨f1, h1, ?_⟩
  have hb : b = data ++ b0.drop data.length := by
    apply List.ext_getElem?
    intro i
    by_cases hi : i < data.length
    · rw [List.getElem?_append_left hi, h11 i hi (by rw [hn]; simp)]
    · rw [List.getElem?_append_right (by omega), List.getElem?_drop, h12 i (by omega)]
      congr 1; omega
  have hlt : g.dst < f1.bufs.length := (List.getElem?_eq_some_iff.1 h5).1
  unfold Filter.fetch
  rw [h2, M.ok_bind]
  dsimp only
  rw [h3, M.ok_bind]
  unfold Filter.storeGot
  rw [rd_of_some h5, M.ok_bind, if_neg (by omega), wr_of_lt hlt, hb]
  rfl

theorem after_step (hL : Lock c prog W) (hi : Inv c prog W s) {strong : Bool} {r : Nat} {p p' : Proc R}
    (hr : s[r]? = some p) (hst : RankStep strong prog s r p p') : After c prog W s r p p' := by
  obtain ⟨x, fd, hx, hxr, hfd, hs, hl, hk⟩ := hi.at hL hr
  have hent := hi.ent r p hr
  have hdone := hi.done r p hr
  have simple : ∀ {ph : Phase}, lev p.phase + 1 = lev ph → lev ph < 6 → ∀ d win, Uses c prog d win →
      p.pos < 7 * d + 6 → 7 * d + 6 ≤ 7 * p.done + lev ph → d = p.done ∧ Waited s r p := by
    intro ph h1 h2 d win _ h3 h4
    unfold Proc.pos at h3
    omega
  cases hst with
  | loc hp ho he =>
    rw [hp] at hl
    cases hl
    obtain ⟨f', e1, e2⟩ := hL.at ho hfd
    have : f' = _ := Except.ok.inj (e1.symm.trans he)
    subst this
    have hlt := (List.getElem?_eq_some_iff.1 ho).1
    refine ⟨hlt, ?_, ⟨f', e2, ?_⟩, ?_, ?_, ?_, ?_⟩
    · intro win
      dsimp only
      rw [hp, hent, hp]
      show _ = Run.ent c prog win (p.done + 1) 0
      rw [ent_next]
      exact ent_none ho rfl
    · dsimp only; rw [hp]; exact .ready
    · unfold Proc.pos; dsimp only; omega
    · intro d win hu h1 h2
      unfold Proc.pos at h1 h2
      dsimp only at h2
      rw [hp] at h1 h2
      simp only [lev] at h1 h2
      have : d = p.done := by omega
      subst this
      obtain ⟨op, h3, h4⟩ := hu
      rw [ho, Option.some_inj] at h3
      subst h3
      cases h4
    · intro k g h; dsimp only at h; rw [hp] at h; cases h
    · intro k g h; dsimp only at h; rw [hp] at h; cases h
  | prepare hp ho he hw =>
    rename_i kv k f'
    rw [hp] at hl
    cases hl
    refine ⟨hdone, ?_, ⟨_, hfd, .prepared ho ⟨he, hw⟩⟩, ?_, ?_, ?_, ?_⟩
    · intro win; dsimp only; rw [hent, hp]; exact ent_level rfl
    · rw [pos_lev hp]; unfold Proc.pos; simp [lev]
    · exact simple (ph := .prepared k) (by rw [hp]; rfl) (by simp [lev])
    · intro k g h; cases h
    · intro k g h; cases h
  | prepareNone hp ho he hw =>
    rename_i kv side nb wit f'
    rw [hp] at hl
    cases hl
    have hkv := hL.sub kv (List.mem_of_getElem? ho)
    have k1 := prepare_kept hs he
    have hside := prepare_side (by rw [hs.ndims]; exact (hL.good.st kv hkv).1) (hL.good.st kv hkv).2.1 he
    have hno : opWin c (.entry kv) = none := by
      show StdMap.find c.tab.wins (sideOf kv.1) = none
      rw [← hside, ← k1.shape.wins]
      exact hw
    refine ⟨hdone, ?_, ⟨_, hfd, .plain ho he hw⟩, ?_, ?_, ?_, ?_⟩
    · intro win; dsimp only; rw [hent, hp]; exact ent_none ho hno
    · rw [pos_lev hp]; unfold Proc.pos; simp [lev]
    · intro d win hu h1 h2
      unfold Proc.pos at h1 h2
      dsimp only at h2
      rw [hp] at h1
      simp only [lev] at h1 h2
      have : d = p.done := by omega
      subst this
      obtain ⟨op, h3, h4⟩ := hu
      rw [ho, Option.some_inj] at h3
      subst h3
      rw [hno] at h4
      cases h4
    · intro k g h; cases h
    · intro k g h; cases h
  | enter1 hp =>
    rename_i k
    rw [hp] at hl
    generalize hf : p.f = f at hl
    cases hl
    rename_i kv ho hpr
    have hu := uses_of_prep hL ho hs hpr
    refine ⟨hdone, ?_, ⟨_, hfd, ?_⟩, ?_, ?_, ?_, ?_⟩
    · exact bump_ent hu (l := 1) (fun w => by rw [hent, hp]; rfl) rfl
    · dsimp only; exact .fence1 ho hpr
    · rw [pos_lev hp]; unfold Proc.pos; simp [lev]
    · exact simple (ph := .fence1 k) (by rw [hp]; rfl) (by simp [lev])
    · intro k g h; cases h
    · intro k g h; cases h
  | leave1 hp hstrong =>
    rename_i k
    rw [hp] at hl
    generalize hf : p.f = f at hl
    cases hl
    rename_i kv ho hpr
    refine ⟨hdone, ?_, ⟨_, hfd, ?_⟩, ?_, ?_, ?_, ?_⟩
    · intro win; dsimp only; rw [hent, hp]; exact ent_level rfl
    · dsimp only; exact .opened ho hpr
    · rw [pos_lev hp]; unfold Proc.pos; simp [lev]
    · exact simple (ph := .opened k) (by rw [hp]; rfl) (by simp [lev])
    · intro k g h; cases h
    · intro k g h; cases h
  | get hp ha hn hn2 hq hw hb hlb hd hld =>
    rename_i q k n dst src b bd
    rw [hp] at hl
    generalize hf : p.f = f at hl
    cases hl
    rename_i kv ho hpr
    have hu := uses_of_prep hL ho hs hpr
    obtain ⟨f', e1, _⟩ := hL.at ho hfd
    obtain ⟨dst', f2, e2, _⟩ := entry_inv hpr e1
    obtain ⟨n', win', data, b0, e3, e4, e5, e6, e7⟩ := fetch_inv e2
    rw [hf, e3] at ha
    have ha' := Except.ok.inj ha
    simp only [Prod.mk.injEq] at ha'
    obtain ⟨rfl, rfl, rfl⟩ := ha'
    obtain ⟨_, _, _, _, b', _, _, _, h5, h6⟩ := get_inv e4
    have hlen : data.length = n'.toNat := by rw [h6, List.length_take]; omega
    refine ⟨hdone, ?_, ⟨_, hfd, ?_⟩, ?_, ?_, ?_, ?_⟩
    · intro win; dsimp only; rw [hent, hp]; exact ent_level rfl
    · dsimp only
      refine .issued ho ⟨f, n', data, b0, b0, hpr, e3, e4, rfl, e5, e6, ?_, rfl, List.nodup_range, ?_, ?_, fun _ _ => rfl⟩
      · dsimp only
        obtain ⟨hlt, rfl⟩ := List.getElem?_eq_some_iff.1 e5
        rw [List.set_getElem_self hlt]
      · intro i hi; rw [List.mem_range] at hi; omega
      · intro i hi hn; rw [List.mem_range] at hn; omega
    · rw [pos_lev hp]; unfold Proc.pos; simp [lev]
    · exact simple (ph := .issued k ⟨k.neighborRk.toNat, dst', p.entered k.win, List.range n'.toNat⟩) (by rw [hp]; rfl)
        (by simp [lev])
    · intro k g h
      cases h
      dsimp only
      rw [hent, hp]
      exact ent_level rfl
    · intro k g h
      cases h
      exact ⟨rfl, .inr ⟨by rw [hp]; rfl, hu⟩⟩
  | move hp hin hq he hw hb hx' hd =>
    rename_i q k g i src b bd v
    obtain ⟨⟨kv, ho, ht⟩, hlev, hph⟩ := local_pending hl hp
    have hne : g.todo ≠ [] := List.ne_nil_of_mem hin
    have htgt : g.target = k.neighborRk.toNat := by
      obtain ⟨_, _, _, _, _, _, _, _, h, _⟩ := ht
      exact h
    have ht' := transit_move ht hin hd (v := v) (by
      intro n data hg
      obtain ⟨_, h1, h2⟩ := moved_value hL hi hr hp hne hq he hw hb hg htgt
      by_cases hil : i < data.length
      · left
        rw [h2] at hil ⊢
        rw [List.length_take] at hil
        rw [List.getElem?_take_of_lt (by omega), hx']
      · right; omega)
    refine ⟨hdone, ?_, ⟨_, hfd, ?_⟩, ?_, ?_, ?_, ?_⟩
    · intro win; dsimp only; rw [hent, lev_setTodo]
    · dsimp only
      rcases hph with h | h
      · rw [h]; exact .issued ho ht'
      · rw [h]; exact .fence2 ho ht'
    · unfold Proc.pos; dsimp only; rw [lev_setTodo]
    · intro d win _ h1 h2
      unfold Proc.pos at h1 h2
      dsimp only at h2
      rw [lev_setTodo] at h2
      omega
    · intro k' g' h
      dsimp only at h ⊢
      have : k' = k ∧ g'.epoch = g.epoch := by
        rcases hph with e | e <;> rw [e] at h <;> cases h <;> exact ⟨rfl, rfl⟩
      rw [this.1, this.2]
      exact hi.epoch r p hr k g hp
    · intro k' g' h
      dsimp only at h ⊢
      refine ⟨rfl, .inl ⟨g, ?_, ?_, fun h => absurd h hne⟩⟩
      · rw [hp]; rcases hph with e | e <;> rw [e] at h <;> cases h <;> rfl
      · rcases hph with e | e <;> rw [e] at h <;> cases h <;> rfl
  | enter2 hp =>
    rename_i k g
    rw [hp] at hl
    generalize hf : p.f = f at hl
    cases hl
    rename_i kv ho ht
    have hpend : p.phase.pending = some (k, g) := by rw [hp]; rfl
    have hu := hi.pending_uses hL hr hpend
    refine ⟨hdone, ?_, ⟨_, hfd, ?_⟩, ?_, ?_, ?_, ?_⟩
    · exact bump_ent hu (l := 4) (fun w => by rw [hent, hp]; rfl) rfl
    · dsimp only; exact .fence2 ho ht
    · rw [pos_lev hp]; unfold Proc.pos; simp [lev]
    · exact simple (ph := .fence2 k g) (by rw [hp]; rfl) (by simp [lev])
    · intro k' g' h
      cases h
      exact hi.epoch r p hr k g hpend
    · intro k' g' h
      cases h
      exact ⟨rfl, .inl ⟨g, hpend, rfl, id⟩⟩
  | leave2 hp ht0 hall hg =>
    rename_i k g
    rw [hp] at hl
    generalize hf : p.f = f at hl
    cases hl
    rename_i kv ho ht
    obtain ⟨f1, hpr, hfe⟩ := transit_done ht ht0
    refine ⟨hdone, ?_, ⟨_, hfd, ?_⟩, ?_, ?_, ?_, ?_⟩
    · intro win; dsimp only; rw [hent, hp]; exact ent_level rfl
    · dsimp only; exact .fetched ho hpr hfe
    · rw [pos_lev hp]; unfold Proc.pos; simp [lev]
    · intro d win _ h1 h2
      unfold Proc.pos at h1 h2
      dsimp only at h2
      rw [hp] at h1
      simp only [lev] at h1 h2
      exact ⟨by omega, k, g, hp, hall, hg⟩
    · intro k g h; cases h
    · intro k g h; cases h
  | update hp ho he =>
    rename_i kv wit dst f'
    have hlt := (List.getElem?_eq_some_iff.1 ho).1
    obtain ⟨f2, e1, e2⟩ := hL.at ho hfd
    have hf2 : f2 = f' := by
      rw [hp] at hl
      generalize hf : p.f = f at hl he
      cases hl with
      | fetched ho' hpr hfe =>
        rw [ho, Option.some_inj] at ho'
        cases ho'
        obtain ⟨dst', f3, e3, e4⟩ := entry_inv hpr e1
        rw [hfe] at e3
        cases e3
        rw [he] at e4
        exact (Except.ok.inj e4).symm
      | plain ho' hpr hno =>
        rw [ho, Option.some_inj] at ho'
        cases ho'
        unfold opStep Filter.applyEntry at e1
        dsimp only at e1
        rw [hpr, M.ok_bind] at e1
        dsimp only at e1
        rw [hno] at e1
        dsimp only at e1
        rw [he] at e1
        exact (Except.ok.inj e1).symm
    subst hf2
    refine ⟨hlt, ?_, ⟨_, e2, .ready⟩, ?_, ?_, ?_, ?_⟩
    · intro win; dsimp only; rw [hent, hp]; exact ent_next.symm
    · rw [pos_lev hp]; unfold Proc.pos; simp [lev]; omega
    · intro d win _ h1 h2
      unfold Proc.pos at h1 h2
      dsimp only at h2
      rw [hp] at h1
      simp only [lev] at h1 h2
      omega
    · intro k g h; cases h
    · intro k g h; cases h

omit [Zero R] in
/-- Replacing one rank keeps the invariant. -/
theorem inv_set (hL : Lock c prog W) (hi : Inv c prog W s) {r0 : Nat} {p p' : Proc R} (hr0 : s[r0]? = some p)
    (ha : After c prog W s r0 p p') : Inv c prog W (s.set r0 p') := by
  have hlt : r0 < s.length := (List.getElem?_eq_some_iff.1 hr0).1
  have cases' : ∀ {r : Nat} {pr : Proc R}, (s.set r0 p')[r]? = some pr → (r = r0 ∧ pr = p') ∨ (r ≠ r0 ∧ s[r]? = some pr) := by
    intro r pr h
    by_cases hr : r = r0
    · subst hr
      rw [List.getElem?_set_self hlt, Option.some_inj] at h
      exact .inl ⟨rfl, h.symm⟩
    · rw [List.getElem?_set_ne (Ne.symm hr)] at h
      exact .inr ⟨hr, h⟩
  have waited : Waited s r0 p → ∀ {r : Nat} {pr : Proc R}, s[r]? = some pr → 7 * p.done + 5 ≤ pr.pos := by
    rintro ⟨k, g, hp, hall, _⟩ r pr hr
    have hu := hi.pending_uses hL hr0 (k := k) (g := g) (by rw [hp]; rfl)
    have := hall pr (List.mem_of_getElem? hr)
    rw [hi.ent r0 p hr0, hi.ent r pr hr, hp] at this
    exact pos_of_ent hu (lev_lt _) (.inr rfl) this
  have synced : ∀ {q r : Nat} {pq pr : Proc R}, (s.set r0 p')[q]? = some pq → (s.set r0 p')[r]? = some pr →
      ∀ d win, Uses c prog d win → 7 * d + 6 ≤ pq.pos → 7 * d + 5 ≤ pr.pos := by
    intro q r pq pr hq hr d win hu hd
    have ho : ∀ {r' : Nat} {pr' : Proc R}, s[r']? = some pr' → 7 * d + 5 ≤ pr'.pos := by
      intro r' pr' hr'
      rcases cases' hq with ⟨rfl, rfl⟩ | ⟨_, hq⟩
      · by_cases hc : 7 * d + 6 ≤ p.pos
        · exact hi.sync _ r' p pr' hr0 hr' d win hu hc
        · obtain ⟨rfl, hw⟩ := ha.cross d win hu (by omega) hd
          exact waited hw hr'
      · exact hi.sync q r' pq pr' hq hr' d win hu hd
    rcases cases' hr with ⟨rfl, rfl⟩ | ⟨_, hr⟩
    · exact Nat.le_trans (ho hr0) ha.mono
    · exact ho hr
  refine ⟨by rw [List.length_set]; exact hi.len, ?_, ?_, ?_, ?_, ?_, ?_⟩
  · intro r pr hr
    rcases cases' hr with ⟨rfl, rfl⟩ | ⟨_, hr⟩
    · exact ha.done
    · exact hi.done r pr hr
  · intro r pr hr
    rcases cases' hr with ⟨rfl, rfl⟩ | ⟨_, hr⟩
    · exact ha.ent
    · exact hi.ent r pr hr
  · intro r pr hr
    rcases cases' hr with ⟨rfl, rfl⟩ | ⟨_, hr⟩
    · exact ha.loc
    · exact hi.loc r pr hr
  · intro r pr hr
    rcases cases' hr with ⟨rfl, rfl⟩ | ⟨_, hr⟩
    · exact ha.epoch
    · exact hi.epoch r pr hr
  · intro q r pq pr hq hr
    exact synced hq hr
  · intro q r pq pr hq hr k g hp ht hd
    rcases cases' hr with ⟨rfl, rfl⟩ | ⟨hne, hr'⟩
    · obtain ⟨hdn, hor⟩ := ha.pend k g hp
      rcases cases' hq with ⟨rfl, rfl⟩ | ⟨_, hq'⟩
      · exfalso
        have : lev pq.phase < 6 := by
          cases h : pq.phase <;> rw [h] at hp <;> first | (cases hp; done) | simp [lev]
        unfold Proc.pos at hd
        omega
      · rcases hor with ⟨g0, h1, h2, h3⟩ | ⟨h1, h2⟩
        · exact h3 (hi.pend q _ pq p hq' hr0 k g0 h1 (by rw [h2, ht]) (by rw [← hdn]; exact hd))
        · exfalso
          have := hi.sync q _ pq p hq' hr0 p.done k.win h2 (by rw [← hdn]; exact hd)
          unfold Proc.pos at this
          omega
    · rcases cases' hq with ⟨rfl, rfl⟩ | ⟨_, hq'⟩
      · by_cases hc : 7 * pr.done + 6 ≤ p.pos
        · exact hi.pend _ r p pr hr0 hr' k g hp ht hc
        · have hu := hi.pending_uses hL hr' hp
          obtain ⟨hdn, k', g', hph, _, hg⟩ := ha.cross pr.done k.win hu (by omega) hd
          have hu' := hi.pending_uses hL hr0 (k := k') (g := g') (by rw [hph]; rfl)
          rw [← hdn] at hu'
          have hww := uses_unique hu hu'
          refine hg pr (List.mem_of_getElem? hr') k g hp hww ht ?_
          rw [hi.epoch r pr hr' k g hp, hi.ent _ p hr0, hph, hdn, ← hww]
          unfold Run.ent
          rw [← hdn, if_pos hu, if_pos hu]
          rfl
      · exact hi.pend q r pq pr hq' hr' k g hp ht hd

theorem inv_step (hL : Lock c prog W) (hi : Inv c prog W s) {strong : Bool} {s' : List (Proc R)}
    (hst : Step strong prog s s') : Inv c prog W s' := by
  obtain ⟨r, p, p', hr, h, rfl⟩ := hst
  exact inv_set hL hi hr (after_step hL hi hr h)

omit [Zero R] in
theorem inv_start (hL : Lock c prog W) : Inv c prog W (start (W 0)) := by
  have hw := hL.shape 0 (Nat.zero_le _)
  have get : ∀ {r : Nat} {p : Proc R}, (start (W 0))[r]? = some p → ∃ f, (W 0)[r]? = some f ∧
      p = { f := f, done := 0, phase := .ready, entered := fun _ => 0 } := by
    intro r p h
    unfold start at h
    rw [List.getElem?_map] at h
    cases hf : (W 0)[r]? with
    | none => rw [hf] at h; cases h
    | some f => rw [hf] at h; exact ⟨f, rfl, (Option.some.inj h).symm⟩
  refine ⟨by unfold start; rw [List.length_map]; exact hw.1, ?_, ?_, ?_, ?_, ?_, ?_⟩
  · intro r p h; obtain ⟨f, _, rfl⟩ := get h; exact Nat.zero_le _
  · intro r p h win
    obtain ⟨f, _, rfl⟩ := get h
    unfold ent
    simp [entBefore, lev, levEnt]
  · intro r p h; obtain ⟨f, hf, rfl⟩ := get h; exact ⟨f, hf, .ready⟩
  · intro r p h k g hp; obtain ⟨f, _, rfl⟩ := get h; cases hp
  · intro q r pq pr hq hr d win _ hd
    obtain ⟨f, _, rfl⟩ := get hq
    unfold Proc.pos at hd
    simp [lev] at hd
  · intro q r pq pr hq hr k g hp; obtain ⟨f, _, rfl⟩ := get hr; cases hp

theorem inv_reachable (hL : Lock c prog W) {strong : Bool} (h : Reachable strong prog (W 0) s) : Inv c prog W s := by
  induction h with
  | start => exact inv_start hL
  | step _ hst ih => exact inv_step hL ih hst

end Run
end Fidi
