import Verif.Lemmas.FilterRun

/-
Invariant of the concurrent execution of the ranks: the state of every rank is that of the lock-step execution.
-/
namespace Fidi
namespace Run
open Spec
variable {R : Type} {c : Cfg R} {x : List Nat}

/-- `Filter.prepare` computed the local variables of a branch that has a window. -/
def Prep (fd : Filter R) (kv : List Int × R) (k : Ctx) (f1 : Filter R) : Prop :=
  fd.prepare kv.1 = .ok ((k.side, k.neighborRk, k.wit), f1) ∧ StdMap.find f1.windows k.side = some k.win

/-- Some elements have been moved. -/
def Transit (wd : World R) (fd : Filter R) (kv : List Int × R) (k : Ctx) (g : Fetch) (f : Filter R) : Prop :=
  ∃ f1 n data b0 b, Prep fd kv k f1 ∧ f1.fetchArgs k.side = .ok (n, k.win, g.dst) ∧
    wd.get k.neighborRk k.win n = .ok data ∧ g.target = k.neighborRk.toNat ∧ f1.bufs[g.dst]? = some b0 ∧
    data.length ≤ b0.length ∧ f = { f1 with bufs := f1.bufs.set g.dst b } ∧ b.length = b0.length ∧
    g.todo.Nodup ∧ (∀ i ∈ g.todo, i < data.length) ∧ (∀ i, i < data.length → i ∉ g.todo → b[i]? = data[i]?) ∧
    (∀ i, data.length ≤ i → b[i]? = b0[i]?)

/-- The state of a rank in unit `op` that began with filter `fd`, when the filters of all ranks were `wd`. -/
inductive Local (wd : World R) (fd : Filter R) (op : Option (Op R)) : Phase → Filter R → Prop where
  | ready : Local wd fd op .ready fd
  | prepared {kv : List Int × R} {k : Ctx} {f1 : Filter R} : op = some (.entry kv) → Prep fd kv k f1 →
      Local wd fd op (.prepared k) f1
  | fence1 {kv : List Int × R} {k : Ctx} {f1 : Filter R} : op = some (.entry kv) → Prep fd kv k f1 →
      Local wd fd op (.fence1 k) f1
  | opened {kv : List Int × R} {k : Ctx} {f1 : Filter R} : op = some (.entry kv) → Prep fd kv k f1 →
      Local wd fd op (.opened k) f1
  | issued {kv : List Int × R} {k : Ctx} {g : Fetch} {f : Filter R} : op = some (.entry kv) → Transit wd fd kv k g f →
      Local wd fd op (.issued k g) f
  | fence2 {kv : List Int × R} {k : Ctx} {g : Fetch} {f : Filter R} : op = some (.entry kv) → Transit wd fd kv k g f →
      Local wd fd op (.fence2 k g) f
  | fetched {kv : List Int × R} {k : Ctx} {dst : Nat} {f1 f : Filter R} : op = some (.entry kv) → Prep fd kv k f1 →
      f1.fetch wd.get k.neighborRk k.side = .ok (dst, f) → Local wd fd op (.fetched k.wit (some dst)) f
  | plain {kv : List Int × R} {side : List Int} {nb : Int} {wit : MultiArrayIter} {f1 : Filter R} :
      op = some (.entry kv) → fd.prepare kv.1 = .ok ((side, nb, wit), f1) → StdMap.find f1.windows side = none →
      Local wd fd op (.fetched wit none) f1

theorem prepare_side {fd f1 : Filter R} {off side : List Int} {nb : Int} {wit : MultiArrayIter}
    (hl : off.length = fd.ndims) (hi : IntOffset off) (h : fd.prepare off = .ok ((side, nb, wit), f1)) :
    side = sideOf off := by
  unfold Filter.prepare at h
  rw [getSideFromOffset_eq fd off hl hi, M.ok_bind] at h
  obtain ⟨⟨nr, cd⟩, _, h⟩ := (M.bind_ok_iff _ _ _).1 h
  obtain ⟨⟨it, f2⟩, _, h⟩ := (M.bind_ok_iff _ _ _).1 h
  have := Except.ok.inj h
  rw [Prod.mk.injEq, Prod.mk.injEq] at this
  exact this.1.1.symm

theorem args_dst (h : c.Good) {f : Filter R} (hs : Shape c x c.tab f) {side : List Int} {n : Int} {win dst : Nat}
    (he : f.fetchArgs side = .ok (n, win, dst)) : dst = 2 * win + 1 ∧ StdMap.find f.windows side = some win := by
  unfold Filter.fetchArgs at he
  split at he
  · rename_i wit wn src dst' h1 h2 h3
    have h2' := h2
    rw [hs.wins] at h2
    rw [hs.wdata] at h3
    have e4 := (h.tab_ok.link _ _ h2).2.1
    rw [e4, Option.some_inj, Prod.mk.injEq] at h3
    have e5 := Except.ok.inj he
    simp only [Prod.mk.injEq] at e5
    refine ⟨by omega, ?_⟩
    rw [h2', e5.2.1]
  · cases he

/-- Within a unit the source windows are those at its beginning. -/
theorem local_kept (h : c.Good) {wd : World R} {fd f : Filter R} {op : Option (Op R)} {ph : Phase}
    (hs : Shape c x c.tab fd) (hl : Local wd fd op ph f) : Kept c x fd f := by
  have tr : ∀ {kv : List Int × R} {k : Ctx} {g : Fetch} {f : Filter R}, Transit wd fd kv k g f → Kept c x fd f := by
    rintro kv k g f ⟨f1, n, data, b0, b, hp, ha, _, _, hb0, _, rfl, hb, _⟩
    have k1 := prepare_kept hs hp.1
    obtain ⟨hd, _⟩ := args_dst h k1.shape ha
    refine k1.trans ⟨?_, rfl, ?_⟩
    · rw [hd] at hb0 ⊢
      exact k1.shape.setBuf (2 * k.win + 1) b0 b hb0 hb
    · intro w
      rw [hd]
      exact List.getElem?_set_ne (by omega)
  cases hl with
  | ready => exact Kept.refl hs
  | prepared _ hp => exact prepare_kept hs hp.1
  | fence1 _ hp => exact prepare_kept hs hp.1
  | opened _ hp => exact prepare_kept hs hp.1
  | issued _ ht => exact tr ht
  | fence2 _ ht => exact tr ht
  | fetched _ hp hf =>
    have k1 := prepare_kept hs hp.1
    exact k1.trans (fetch_kept h k1.shape hf)
  | plain _ hp _ => exact prepare_kept hs hp

section
variable [Zero R] [Add R] [Mul R]

/-- One unit on one rank, given what `MPI_Get` returns. -/
def opStep (get : Filter.Getter R) (op : Op R) (f : Filter R) : M (Filter R) :=
  match op with
  | .loc g => g f
  | .entry kv => f.applyEntry get kv

/-- The lock-step execution of the program: `W d` are the filters after `d` units. -/
structure Lock (c : Cfg R) (prog : List (Op R)) (W : Nat → World R) : Prop where
  good : c.Good
  sub : ∀ kv, Op.entry kv ∈ prog → kv ∈ c.st
  shape : ∀ d, d ≤ prog.length → Ranks c (fun x f => Shape c x c.tab f) (W d)
  next : ∀ d op, prog[d]? = some op → (W d).mapM (opStep (W d).get op) = .ok (W (d + 1))

variable {prog : List (Op R)} {W : Nat → World R}

omit [Zero R] in
theorem Lock.at (h : Lock c prog W) {d r : Nat} {op : Op R} (ho : prog[d]? = some op) {fd : Filter R}
    (hf : (W d)[r]? = some fd) : ∃ f', opStep (W d).get op fd = .ok f' ∧ (W (d + 1))[r]? = some f' :=
  (mapM_ok_get _ _ _ (h.next d op ho)).2 r fd hf

omit [Zero R] in
theorem Lock.shapeAt (h : Lock c prog W) {d r : Nat} (hd : d ≤ prog.length) {fd : Filter R} (hf : (W d)[r]? = some fd) :
    ∃ x, InGrid c.d x ∧ rankOf c.d x = r ∧ Shape c x c.tab fd := by
  have hw := h.shape d hd
  have hr : r < c.nprocs := by
    rw [← hw.1]
    exact (List.getElem?_eq_some_iff.1 hf).1
  obtain ⟨x, hx, rfl⟩ := h.good.coords hr
  exact ⟨x, hx, rfl, hw.2 x fd hx hf⟩

/-- The invariant. -/
structure Inv (c : Cfg R) (prog : List (Op R)) (W : Nat → World R) (s : List (Proc R)) : Prop where
  len : s.length = c.nprocs
  done : ∀ (r : Nat) (p : Proc R), s[r]? = some p → p.done ≤ prog.length
  ent : ∀ (r : Nat) (p : Proc R), s[r]? = some p → ∀ win, p.entered win = ent c prog win p.done (lev p.phase)
  loc : ∀ (r : Nat) (p : Proc R), s[r]? = some p →
    ∃ fd, (W p.done)[r]? = some fd ∧ Local (W p.done) fd prog[p.done]? p.phase p.f
  epoch : ∀ (r : Nat) (p : Proc R), s[r]? = some p → ∀ k g, p.phase.pending = some (k, g) →
    g.epoch = Run.ent c prog k.win p.done 2
  sync : ∀ (q r : Nat) (pq pr : Proc R), s[q]? = some pq → s[r]? = some pr → ∀ d win, Uses c prog d win →
    7 * d + 6 ≤ pq.pos → 7 * d + 5 ≤ pr.pos
  pend : ∀ (q r : Nat) (pq pr : Proc R), s[q]? = some pq → s[r]? = some pr → ∀ k g, pr.phase.pending = some (k, g) →
    g.target = q → 7 * pr.done + 6 ≤ pq.pos → g.todo = []

omit [Add R] [Mul R] [Zero R] in
theorem prep_uses (hL : c.Good) {d : Nat} {kv : List Int × R} (ho : prog[d]? = some (.entry kv)) (hkv : kv ∈ c.st)
    {fd f1 : Filter R} {k : Ctx} (hs : Shape c x c.tab fd) (hp : Prep fd kv k f1) :
    k.side = sideOf kv.1 ∧ Uses c prog d k.win := by
  have k1 := prepare_kept hs hp.1
  have hside := prepare_side (by rw [hs.ndims]; exact (hL.st kv hkv).1) (hL.st kv hkv).2.1 hp.1
  refine ⟨hside, _, ho, ?_⟩
  have := hp.2
  rw [k1.shape.wins, hside] at this
  exact this

omit [Add R] [Mul R] [Zero R] in
/-- The window of a rank in flight, if it can be used by a call of unit `d`. -/
theorem pending_done {s : List (Proc R)} (hi : Inv c prog W s) {q r : Nat} {pq pr : Proc R} (hq : s[q]? = some pq) (hr : s[r]? = some pr)
    {k : Ctx} {g : Fetch} (hp : pr.phase.pending = some (k, g)) (ht : g.target = q) (hn : g.todo ≠ [])
    (hu : Uses c prog pr.done k.win) (he : g.epoch ≤ pq.entered k.win) : pq.done = pr.done := by
  rw [hi.epoch r pr hr k g hp, hi.ent q pq hq] at he
  have h1 := pos_of_ent hu (lev_lt _) (.inl rfl) he
  have h2 : ¬ 7 * pr.done + 6 ≤ pq.pos := fun h => hn (hi.pend q r pq pr hq hr k g hp ht h)
  have h3 := lev_lt pq.phase
  unfold Proc.pos at h2
  omega

omit [Zero R] in
/-- What a branch with a window does in the lock-step execution. -/
theorem entry_inv {wd : World R} {fd f1 f' : Filter R} {kv : List Int × R} {k : Ctx} (hp : Prep fd kv k f1)
    (he : opStep wd.get (.entry kv) fd = .ok f') :
    ∃ dst f2, f1.fetch wd.get k.neighborRk k.side = .ok (dst, f2) ∧ f2.update kv.1 kv.2 k.wit (some dst) = .ok f' := by
  unfold opStep Filter.applyEntry at he
  dsimp only at he
  rw [hp.1, M.ok_bind] at he
  dsimp only at he
  rw [hp.2] at he
  dsimp only at he
  obtain ⟨⟨dst, f2⟩, e1, e2⟩ := (M.bind_ok_iff _ _ _).1 he
  exact ⟨dst, f2, e1, e2⟩

omit [Zero R] [Add R] [Mul R] in
/-- What a fetch does in the lock-step execution. -/
theorem fetch_inv {wd : World R} {f1 f2 : Filter R} {nb : Int} {side : List Int} {dst : Nat}
    (he : f1.fetch wd.get nb side = .ok (dst, f2)) :
    ∃ n win data b0, f1.fetchArgs side = .ok (n, win, dst) ∧ wd.get nb win n = .ok data ∧ f1.bufs[dst]? = some b0 ∧
      data.length ≤ b0.length ∧ f2 = { f1 with bufs := f1.bufs.set dst (data ++ b0.drop data.length) } := by
  unfold Filter.fetch at he
  obtain ⟨⟨n, win, dst'⟩, e1, he⟩ := (M.bind_ok_iff _ _ _).1 he
  dsimp only at he
  obtain ⟨data, e2, he⟩ := (M.bind_ok_iff _ _ _).1 he
  obtain ⟨f3, e3, he⟩ := (M.bind_ok_iff _ _ _).1 he
  have := Except.ok.inj he
  rw [Prod.mk.injEq] at this
  obtain ⟨rfl, rfl⟩ := this
  unfold Filter.storeGot at e3
  obtain ⟨b0, e4, e3⟩ := (M.bind_ok_iff _ _ _).1 e3
  by_cases hl : b0.length < data.length
  · rw [if_pos hl] at e3; cases e3
  · rw [if_neg hl] at e3
    obtain ⟨bs, e5, e3⟩ := (M.bind_ok_iff _ _ _).1 e3
    obtain ⟨_, rfl⟩ := wr_ok e5
    exact ⟨n, win, data, b0, e1, e2, rd_ok e4, by omega, (Except.ok.inj e3).symm⟩

omit [Zero R] [Add R] [Mul R] in
/-- What `MPI_Get` returns in the lock-step execution. -/
theorem get_inv {wd : World R} {nb n : Int} {win : Nat} {data : Buf R} (he : wd.get nb win n = .ok data) :
    0 ≤ nb ∧ 0 ≤ n ∧ ∃ q src b, wd[nb.toNat]? = some q ∧ q.winBuf[win]? = some src ∧ q.bufs[src]? = some b ∧
      n.toNat ≤ b.length ∧ data = b.take n.toNat := by
  unfold World.get at he
  by_cases h0 : nb < 0 ∨ n < 0
  · rw [if_pos h0] at he; cases he
  rw [if_neg h0] at he
  refine ⟨by omega, by omega, ?_⟩
  split at he
  · cases he
  rename_i q hq
  split at he
  · cases he
  rename_i src hsrc
  obtain ⟨b, e1, he⟩ := (M.bind_ok_iff _ _ _).1 he
  by_cases hl : b.length < n.toNat
  · rw [if_pos hl] at he; cases he
  · rw [if_neg hl] at he
    exact ⟨q, src, b, hq, hsrc, rd_ok e1, by omega, (Except.ok.inj he).symm⟩

omit [Zero R] [Add R] [Mul R] in
theorem winBuf_src {f : Filter R} (hs : Shape c x c.tab f) {win src : Nat} (h : f.winBuf[win]? = some src) :
    src = 2 * win ∧ win < c.tab.n := by
  rw [hs.winBuf, List.getElem?_map] at h
  by_cases hw : win < c.tab.n
  · rw [List.getElem?_range hw] at h
    exact ⟨(Option.some.inj h).symm, hw⟩
  · rw [List.getElem?_eq_none (by simpa using hw)] at h; cases h

omit [Zero R] [Add R] [Mul R] in
theorem winBuf_of {f : Filter R} (hs : Shape c x c.tab f) {win : Nat} (h : win < c.tab.n) :
    f.winBuf[win]? = some (2 * win) := by
  rw [hs.winBuf, List.getElem?_map, List.getElem?_range h]
  rfl

omit [Zero R] in
/-- The state of a rank, with the filter at the beginning of its unit. -/
theorem Inv.at (hL : Lock c prog W) {s : List (Proc R)} (hi : Inv c prog W s) {r : Nat} {p : Proc R} (hr : s[r]? = some p) :
    ∃ x fd, InGrid c.d x ∧ rankOf c.d x = r ∧ (W p.done)[r]? = some fd ∧ Shape c x c.tab fd ∧
      Local (W p.done) fd prog[p.done]? p.phase p.f ∧ Kept c x fd p.f := by
  obtain ⟨fd, h1, h2⟩ := hi.loc r p hr
  obtain ⟨x, hx, hxr, hs⟩ := hL.shapeAt (hi.done r p hr) h1
  exact ⟨x, fd, hx, hxr, h1, hs, h2, local_kept hL.good hs h2⟩

omit [Zero R] [Add R] [Mul R] in
theorem local_pending {wd : World R} {fd f : Filter R} {op : Option (Op R)} {ph : Phase} {k : Ctx} {g : Fetch}
    (hl : Local wd fd op ph f) (hp : ph.pending = some (k, g)) :
    (∃ kv, op = some (.entry kv) ∧ Transit wd fd kv k g f) ∧ (lev ph = 4 ∨ lev ph = 5) ∧
      (ph = .issued k g ∨ ph = .fence2 k g) := by
  cases hl <;> try (cases hp; done)
  · rename_i ho ht
    cases hp
    exact ⟨⟨_, ho, ht⟩, .inl rfl, .inl rfl⟩
  · rename_i ho ht
    cases hp
    exact ⟨⟨_, ho, ht⟩, .inr rfl, .inr rfl⟩

omit [Zero R] in
/-- A unit in which a rank is within a call uses the window of the call. -/
theorem uses_of_prep (hL : Lock c prog W) {d : Nat} {kv : List Int × R} (ho : prog[d]? = some (.entry kv))
    {fd f1 : Filter R} {k : Ctx} (hs : Shape c x c.tab fd) (hp : Prep fd kv k f1) : Uses c prog d k.win :=
  (prep_uses hL.good ho (hL.sub kv (List.mem_of_getElem? ho)) hs hp).2

omit [Zero R] in
/-- The window that a pending call uses. -/
theorem Inv.pending_uses (hL : Lock c prog W) {s : List (Proc R)} (hi : Inv c prog W s) {r : Nat} {p : Proc R}
    (hr : s[r]? = some p) {k : Ctx} {g : Fetch} (hp : p.phase.pending = some (k, g)) : Uses c prog p.done k.win := by
  obtain ⟨x, fd, _, _, _, hs, hl, _⟩ := hi.at hL hr
  obtain ⟨⟨kv, ho, f1, _, _, _, _, hpr, _⟩, _⟩ := local_pending hl hp
  exact uses_of_prep hL ho hs hpr

omit [Zero R] [Add R] [Mul R] in
theorem uses_unique {d win win' : Nat} (h : Uses c prog d win) (h' : Uses c prog d win') : win = win' := by
  obtain ⟨op, h1, h2⟩ := h
  obtain ⟨op', h3, h4⟩ := h'
  rw [h1, Option.some_inj] at h3
  subst h3
  rw [h2, Option.some_inj] at h4
  exact h4

omit [Zero R] in
/-- The element that a pending call moves is the one of the lock-step execution. -/
theorem moved_value (hL : Lock c prog W) {s : List (Proc R)} (hi : Inv c prog W s) {r : Nat} {p q : Proc R}
    (hr : s[r]? = some p) {k : Ctx} {g : Fetch} (hp : p.phase.pending = some (k, g)) (hn : g.todo ≠ [])
    (hq : s[g.target]? = some q) (he : g.epoch ≤ q.entered k.win) {src : Nat} {b : Buf R}
    (hw : q.f.winBuf[k.win]? = some src) (hb : q.f.bufs[src]? = some b) {n : Int} {data : Buf R}
    (hg : (W p.done).get k.neighborRk k.win n = .ok data) (ht : g.target = k.neighborRk.toNat) :
    q.done = p.done ∧ n.toNat ≤ b.length ∧ data = b.take n.toNat := by
  have hd := pending_done hi hq hr hp rfl hn (hi.pending_uses hL hr hp) he
  refine ⟨hd, ?_⟩
  obtain ⟨x, fq, _, _, h1, hs, _, hk⟩ := hi.at hL hq
  obtain ⟨_, _, q', src', b', h2, h3, h4, h5, h6⟩ := get_inv hg
  rw [hd, ht, h2, Option.some_inj] at h1
  subst h1
  obtain ⟨rfl, _⟩ := winBuf_src hs h3
  obtain ⟨rfl, _⟩ := winBuf_src hk.shape hw
  rw [hk.src, h4, Option.some_inj] at hb
  subst hb
  exact ⟨h5, h6⟩

end
end Run
end Fidi
