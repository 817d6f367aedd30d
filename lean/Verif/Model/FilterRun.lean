import Verif.Model.FilterCalls

/-
The ranks of a filter run as concurrent processes, with the one-sided communication of `Filter::fetch`
(Filter.cpp:114-129) under the rules of `MPI_Win_fence`. Memory is sequentially consistent.
-/
namespace Fidi
namespace Run
variable {R : Type}

/-- One unit of the program of a rank: code that uses only the memory of the rank, or one branch of the stencil. -/
inductive Op (R : Type) where
  | loc (g : Filter R → M (Filter R))
  | entry (kv : List Int × R)

/-- The program of every rank: `setInDataByIndices(u)`, then `n` times `applyFilter()` (Filter.cpp:191-263) and
`copyOutToIn()`, as in laplacian.cxx:83-90. -/
def program [Zero R] (st : List (List Int × R)) (u : List Nat → R) (n : Nat) : List (Op R) :=
  .loc (fun f => f.setInDataByIndices u) ::
    (List.replicate n (.loc Filter.zeroOut :: st.map .entry ++ [.loc Filter.copyOutToIn])).flatten

/-- The local variables of one branch, Filter.cpp:207-221. -/
structure Ctx where
  side : List Int
  neighborRk : Int
  wit : MultiArrayIter
  win : Nat

/-- A call of `MPI_Get` that is not complete: the elements in `todo` have not been moved. `epoch` is the number of
fences the origin had entered when it made the call. -/
structure Fetch where
  target : Nat
  dst : Nat
  epoch : Nat
  todo : List Nat

/-- Where a rank is within a unit. -/
inductive Phase where
  /-- at the beginning -/
  | ready
  /-- Filter.cpp:207-221 done, about to call `fetch` -/
  | prepared (c : Ctx)
  /-- within the first fence, Filter.cpp:122 -/
  | fence1 (c : Ctx)
  /-- about to call `MPI_Get`, Filter.cpp:124 -/
  | opened (c : Ctx)
  /-- about to call the second fence, Filter.cpp:126 -/
  | issued (c : Ctx) (g : Fetch)
  /-- within the second fence -/
  | fence2 (c : Ctx) (g : Fetch)
  /-- about to run the loop over the cells, Filter.cpp:224; `dst` is `dstData` -/
  | fetched (wit : MultiArrayIter) (dst : Option Nat)

/-- The incomplete call, if any. -/
def Phase.pending : Phase → Option (Ctx × Fetch)
  | issued c g => some (c, g)
  | fence2 c g => some (c, g)
  | _ => none

/-- Change what remains to be moved. -/
def Phase.setTodo (todo : List Nat) : Phase → Phase
  | issued c g => issued c { g with todo := todo }
  | fence2 c g => fence2 c { g with todo := todo }
  | p => p

/-- A rank: its filter, the number of units done, where it is in the current one, and how many fences it has entered on
each window. -/
structure Proc (R : Type) where
  f : Filter R
  done : Nat
  phase : Phase
  entered : Nat → Nat

/-- Number of fences entered after entering one more on `win`. -/
def bump (e : Nat → Nat) (win : Nat) : Nat → Nat := fun w => if w = win then e w + 1 else e w

/-- What rank `r` can do when the ranks are in state `s`. A rank whose next operation is undefined or erroneous can do
nothing. The first fence (`MPI_MODE_NOPRECEDE`) need not wait for the other ranks; `strong` tells whether it does. -/
inductive RankStep [Zero R] [Add R] [Mul R] (strong : Bool) (prog : List (Op R)) (s : List (Proc R)) (r : Nat) :
    Proc R → Proc R → Prop where
  /-- local code -/
  | loc {p : Proc R} {g : Filter R → M (Filter R)} {f' : Filter R} (hp : p.phase = .ready)
      (ho : prog[p.done]? = some (.loc g)) (he : g p.f = .ok f') :
      RankStep strong prog s r p { p with f := f', done := p.done + 1 }
  /-- side, neighbour and window iterator; there is a window -/
  | prepare {p : Proc R} {kv : List Int × R} {c : Ctx} {f' : Filter R} (hp : p.phase = .ready)
      (ho : prog[p.done]? = some (.entry kv)) (he : p.f.prepare kv.1 = .ok ((c.side, c.neighborRk, c.wit), f'))
      (hw : StdMap.find f'.windows c.side = some c.win) :
      RankStep strong prog s r p { p with f := f', phase := .prepared c }
  /-- side, neighbour and window iterator; there is no window -/
  | prepareNone {p : Proc R} {kv : List Int × R} {side : List Int} {nb : Int} {wit : MultiArrayIter} {f' : Filter R}
      (hp : p.phase = .ready) (ho : prog[p.done]? = some (.entry kv))
      (he : p.f.prepare kv.1 = .ok ((side, nb, wit), f')) (hw : StdMap.find f'.windows side = none) :
      RankStep strong prog s r p { p with f := f', phase := .fetched wit none }
  /-- enter the first fence -/
  | enter1 {p : Proc R} {c : Ctx} (hp : p.phase = .prepared c) :
      RankStep strong prog s r p { p with phase := .fence1 c, entered := bump p.entered c.win }
  /-- leave the first fence -/
  | leave1 {p : Proc R} {c : Ctx} (hp : p.phase = .fence1 c)
      (hs : strong = true → ∀ q ∈ s, p.entered c.win ≤ q.entered c.win) :
      RankStep strong prog s r p { p with phase := .opened c }
  /-- `MPI_Get`: the target must exist, its window and the destination must be large enough -/
  | get {p q : Proc R} {c : Ctx} {n : Int} {dst src : Nat} {b bd : Buf R} (hp : p.phase = .opened c)
      (ha : p.f.fetchArgs c.side = .ok (n, c.win, dst)) (hn : 0 ≤ c.neighborRk) (hn2 : 0 ≤ n)
      (hq : s[c.neighborRk.toNat]? = some q) (hw : q.f.winBuf[c.win]? = some src) (hb : q.f.bufs[src]? = some b)
      (hl : n.toNat ≤ b.length) (hd : p.f.bufs[dst]? = some bd) (hl2 : n.toNat ≤ bd.length) :
      RankStep strong prog s r p
        { p with phase := .issued c ⟨c.neighborRk.toNat, dst, p.entered c.win, List.range n.toNat⟩ }
  /-- one element is moved, in any order, as soon as the target has entered the matching first fence -/
  | move {p q : Proc R} {c : Ctx} {g : Fetch} {i src : Nat} {b bd : Buf R} {x : Option R}
      (hp : p.phase.pending = some (c, g)) (hi : i ∈ g.todo) (hq : s[g.target]? = some q)
      (he : g.epoch ≤ q.entered c.win) (hw : q.f.winBuf[c.win]? = some src) (hb : q.f.bufs[src]? = some b)
      (hx : b[i]? = some x) (hd : p.f.bufs[g.dst]? = some bd) :
      RankStep strong prog s r p
        { p with f := { p.f with bufs := p.f.bufs.set g.dst (bd.set i x) }, phase := p.phase.setTodo (g.todo.erase i) }
  /-- enter the second fence -/
  | enter2 {p : Proc R} {c : Ctx} {g : Fetch} (hp : p.phase = .issued c g) :
      RankStep strong prog s r p { p with phase := .fence2 c g, entered := bump p.entered c.win }
  /-- leave the second fence: all ranks have entered it, and the calls of this epoch of which this rank is the origin or
  the target are complete -/
  | leave2 {p : Proc R} {c : Ctx} {g : Fetch} (hp : p.phase = .fence2 c g) (ht : g.todo = [])
      (hs : ∀ q ∈ s, p.entered c.win ≤ q.entered c.win)
      (hg : ∀ q ∈ s, ∀ c' g', q.phase.pending = some (c', g') → c'.win = c.win → g'.target = r →
        g'.epoch + 1 = p.entered c.win → g'.todo = []) :
      RankStep strong prog s r p { p with phase := .fetched c.wit (some g.dst) }
  /-- the loop over the cells -/
  | update {p : Proc R} {kv : List Int × R} {wit : MultiArrayIter} {dst : Option Nat} {f' : Filter R}
      (hp : p.phase = .fetched wit dst) (ho : prog[p.done]? = some (.entry kv))
      (he : p.f.update kv.1 kv.2 wit dst = .ok f') :
      RankStep strong prog s r p { p with f := f', done := p.done + 1, phase := .ready }

/-- One step of one rank. -/
def Step [Zero R] [Add R] [Mul R] (strong : Bool) (prog : List (Op R)) (s s' : List (Proc R)) : Prop :=
  ∃ r p p', s[r]? = some p ∧ RankStep strong prog s r p p' ∧ s' = s.set r p'

/-- The ranks before they start. -/
def start (w : World R) : List (Proc R) := w.map fun f => { f := f, done := 0, phase := .ready, entered := fun _ => 0 }

/-- The states that some interleaving leads to. -/
inductive Reachable [Zero R] [Add R] [Mul R] (strong : Bool) (prog : List (Op R)) (w : World R) : List (Proc R) → Prop where
  | start : Reachable strong prog w (start w)
  | step {s s' : List (Proc R)} : Reachable strong prog w s → Step strong prog s s' → Reachable strong prog w s'

/-- The rank has done everything. -/
def Finished (prog : List (Op R)) (p : Proc R) : Prop := p.done = prog.length ∧ p.phase = .ready

end Run
end Fidi
