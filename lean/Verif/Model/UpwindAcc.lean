import Verif.Model.UpwindPar

/-
Models of `upwind/cxx/upwindAcc.cxx`, `upwindAcc2.cxx` and `upwindOMP5.cxx` (offloaded versions of the solver) and of the
fragments they include (`compute_index_set.h`, `compute_flat_index_offset_{x,y,z}.h`). All index arithmetic is in `int`.
The transfers between host and device memory (`copy`, `copyin`, `map`) are modelled as the identity: the arrays are copied
in before and copied out after the region.
-/
namespace Fidi

/-- Data members, upwindAcc.cxx:104-114, upwindAcc2.cxx:123-134 (which adds `fOld`), upwindOMP5.cxx:123-133. -/
structure UpwindAcc (R : Type) where
  ndims : Nat
  f : List R
  fOld : List R
  v : List R
  lengths : List R
  deltas : List R
  coeff : List R
  upDirection : List Int
  dimProd : List Int
  numCells : List Int
  ntot : Int
  deriving DecidableEq, Repr

namespace UpwindAcc
variable {R : Type} [Zero R] [One R] [Add R] [Sub R] [Mul R] [Div R] [IntCast R] [LT R] [DecidableLT R]

/-- Quotient of `int`. -/
def intDiv (a b : Int) : M Int := if b = 0 then throw .divByZero else mkInt (a.tdiv b)
/-- Remainder of `int` (undefined if the quotient overflows). -/
def intMod (a b : Int) : M Int := do
  let _ ← intDiv a b
  pure (a.tmod b)

/-- Body of the first loop of the constructors, upwindAcc.cxx:27-32, upwindAcc2.cxx:28-33, upwindOMP5.cxx:28-33. -/
def newBody (velocity lengths : List R) (numCells : List Int) (j : Nat) :
    List R × List Int × Int → M (List R × List Int × Int)
  | (deltas, up, ntot) => do
    let up ← wr up j (-1)
    let up ← if (← rd velocity j) < 0 then wr up j 1 else pure up
    let n ← rd numCells j
    let deltas ← wr deltas j ((← rd lengths j) / (n : R))
    pure (deltas, up, ← mkInt (ntot * n))

/-- Constructors, upwindAcc.cxx:17-47, upwindAcc2.cxx:18-50, upwindOMP5.cxx:18-48. `fOld` (only in upwindAcc2.cxx) is
resized on line 44 of that file. -/
def new (ndims : Nat) (velocity lengths : List R) (numCells : List Int) : M (UpwindAcc R) := do
  let (deltas, up, ntot) ← forUp 0 ndims (List.replicate ndims (0 : R), List.replicate ndims (0 : Int), 1)
    (newBody velocity lengths numCells)
  let dp ← wr (List.replicate ndims (0 : Int)) (szSub ndims 1) 1
  let dp ← forDown (ndims - 1) dp fun i dp => do
    wr dp i (← mkInt ((← rd dp (i + 1)) * (← rd numCells (i + 1))))
  let f ← wr (List.replicate (szOfInt ntot) (0 : R)) 0 1
  let coeff ← forUp 0 ndims (List.replicate ndims (0 : R)) fun j coeff => do
    wr coeff j ((← rd velocity j) * ((← rd up j : Int) : R) / (← rd deltas j))
  pure { ndims, f, fOld := List.replicate (szOfInt ntot) 0, v := velocity, lengths, deltas, coeff, upDirection := up,
         dimProd := dp, numCells, ntot }

/-- `compute_index_set.h`: the array `inds` of `NDIMS` entries, of which the first three at most are set. -/
def indexSet (self : UpwindAcc R) (i : Nat) : M (List Int) :=
  forUp 0 3 (List.replicate self.ndims 0) fun k inds =>
    if k < self.ndims then do
      wr inds k (← intMod (← intDiv i (← rd self.dimProd k)) (← rd self.numCells k))
    else pure inds

/-- Summand of axis `a` in `compute_flat_index_offset_{x,y,z}.h` (`k` = 0, 1, 2 for x, y, z). -/
def flatTerm (self : UpwindAcc R) (inds : List Int) (k a : Nat) : M Int := do
  let x ← rd inds a
  if a = k then do
    let n ← rd self.numCells a
    let s ← mkInt (x + (← rd self.upDirection a))
    let y ← intMod (← mkInt (s + n)) n
    mkInt ((← rd self.dimProd a) * y)
  else do
    mkInt ((← rd self.dimProd a) * x)

/-- `upI` as computed by `compute_flat_index_offset_{x,y,z}.h`, lines 3-5. -/
def upIndex (self : UpwindAcc R) (inds : List Int) (k : Nat) : M Int := do
  let a ← self.flatTerm inds k 0
  let b ← self.flatTerm inds k 1
  let u ← mkInt (a + b)
  mkInt (u + (← self.flatTerm inds k 2))

/-- Coefficient and upwind index used for axis `k`, upwindAcc.cxx:78-87, upwindAcc2.cxx:84-91, upwindOMP5.cxx:85-92.
If there is no axis `k` the index is not set and `coeffPtr[k]` does not exist. -/
def axisData (self : UpwindAcc R) (inds : List Int) (k : Nat) : M (R × Int) := do
  if k < self.ndims then do
    let u ← self.upIndex inds k
    pure (← rd self.coeff k, u)
  else throw .outOfBounds

/-- `fPtr[i] -= deltaTime * coeffPtr[k] * (fOldPtr[upI] - fOldPtr[i])` for `k = j`, ..., 2, `n` axes being left. -/
def axesProg (self : UpwindAcc R) (deltaTime : R) (i : Nat) (inds : List Int) : (n j : Nat) → Prog UpLoc R
  | 0, _ => .done
  | n + 1, j =>
    match self.axisData inds j with
    | .error e => .fault e
    | .ok (c, upI) =>
      if upI < 0 then .fault .outOfBounds
      else
        .read (.oldF, upI.toNat) fun a => .read (.oldF, i) fun b => .read (.f, i) fun x =>
          .write (.f, i) (x - deltaTime * c * (a - b)) (axesProg self deltaTime i inds n (j + 1))

/-- Body of the loop over the cells, upwindAcc.cxx:71-89, upwindAcc2.cxx:76-93, upwindOMP5.cxx:77-94. -/
def cellProg (self : UpwindAcc R) (deltaTime : R) (i : Nat) : Prog UpLoc R :=
  match self.indexSet i with
  | .error e => .fault e
  | .ok inds => self.axesProg deltaTime i inds 3 0

/-- upwindAcc.cxx:65-89: the loop executed by one call `advect(deltaTime)`. -/
def region1 (self : UpwindAcc R) (deltaTime : R) : Region UpLoc R where
  phases := 1
  count := fun _ => self.ntot.toNat
  prog := fun _ i => self.cellProg deltaTime i

/-- upwindAcc2.cxx:68-95: two parallel loops for each time step; the host waits for each of them. -/
def region2 (self : UpwindAcc R) (numTimeSteps : Int) (deltaTime : R) : Region UpLoc R where
  phases := 2 * numTimeSteps.toNat
  count := fun _ => self.ntot.toNat
  prog := fun k i => if k % 2 = 0 then Upwind.copyProg i else self.cellProg deltaTime i

/-- Arrays seen as shared memory: `f` and the array of old values. -/
def memory (f old : List R) : Mem UpLoc R
  | (.f, i) => f.getD i 0
  | (.oldF, i) => old.getD i 0

/-- Allocated locations. -/
def allocated (f old : List R) : UpLoc → Prop
  | (.f, i) => i < f.length
  | (.oldF, i) => i < old.length

/-- One call `advect(deltaTime)` of upwindAcc.cxx (lines 49-90) on `T` threads under the schedule `may`, from field `f` to
field `f'`: the old values are a copy of the field. -/
def Advect1 (self : UpwindAcc R) (T : Nat) (may : Nat → Nat → Nat → Prop) (deltaTime : R) (f f' : List R) : Prop :=
  ∃ s, PReach (self.region1 deltaTime) T may (memory f f) s ∧ s.Final (self.region1 deltaTime) T ∧
    f' = (List.range f.length).map fun i => s.mem (.f, i)

/-- The loop of upwindAcc.cxx:165-167: `n` calls. -/
inductive Advect1s (self : UpwindAcc R) (T : Nat) (may : Nat → Nat → Nat → Prop) (deltaTime : R) :
    Nat → List R → List R → Prop where
  | zero (f : List R) : Advect1s self T may deltaTime 0 f f
  | succ {n : Nat} {f f' f'' : List R} : Advect1s self T may deltaTime n f f' → self.Advect1 T may deltaTime f' f'' →
      Advect1s self T may deltaTime (n + 1) f f''

/-- A sequence of iterations as one. -/
def seqProg {A R : Type} : List (Prog A R) → Prog A R
  | [] => .done
  | p :: ps => andThen p (seqProg ps)
where
  /-- One after the other. -/
  andThen {A R : Type} : Prog A R → Prog A R → Prog A R
    | .done, q => q
    | .fault e, _ => .fault e
    | .read l k, q => .read l fun x => andThen (k x) q
    | .write l x k, q => .write l x (andThen k q)

/-- upwindOMP5.cxx:68-96. The directive `target teams distribute` is on the loop over the time steps, so the time steps
are iterations of a work-sharing loop handed out to the teams, without any order between them. Inside a team the
two `parallel for` loops are executed here in order by one thread, one of the executions allowed. -/
def regionTeams (self : UpwindAcc R) (numTimeSteps : Int) (deltaTime : R) : Region UpLoc R where
  phases := 1
  count := fun _ => numTimeSteps.toNat
  prog := fun _ _ => seqProg ((List.range self.ntot.toNat).map Upwind.copyProg ++
    (List.range self.ntot.toNat).map (self.cellProg deltaTime))

/-- upwindOMP5.cxx:68-96 executed by one team of several threads (also several teams, if there is one time step at most): the
team does the time steps in order, and in each of them the two `parallel for` loops, with a barrier after each. -/
def regionTeam (self : UpwindAcc R) (numTimeSteps : Int) (deltaTime : R) : Region UpLoc R where
  phases := 2 * numTimeSteps.toNat
  count := fun _ => self.ntot.toNat
  prog := fun k i => if k % 2 = 0 then Upwind.copyProg i else self.cellProg deltaTime i

end UpwindAcc
end Fidi
