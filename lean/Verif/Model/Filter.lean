import Verif.Model.CubeDecomp
import Verif.Model.StdMap

/-
Model of `cxx/Filter.h` and `cxx/Filter.cpp`.
`double` is an arbitrary type `R` with the operations used; no law is assumed about them.

Each MPI process holds one `Filter`. The model of a method that does not communicate is a function of that object; the
model of `applyFilter` takes as an argument the function that performs `MPI_Get`. The messages on the terminal are not
modelled. Memory is unlimited.
-/
namespace Fidi

/-- Calls to the MPI library that acquire or release a resource, in program order. Buffers and windows are numbered
in order of creation. -/
inductive MpiEvent where
  | allocMem (buf : Nat)
  | winCreate (win buf : Nat)
  | freeMem (buf : Nat)
  | winFree (win : Nat)
  deriving DecidableEq, Repr

/-- Memory obtained from `MPI_Alloc_mem`: `none` is an indeterminate value. -/
abbrev Buf (R : Type) := List (Option R)

/-- Read `p[i]` through a pointer to a buffer. -/
def rdBuf {R : Type} (b : Buf R) (i : Nat) : M R := do
  match ← rd b i with
  | some x => pure x
  | none => throw .uninitialized

/-- `std::abs(int)`. -/
def intAbs (x : Int) : M Int := if inInt x.natAbs then pure x.natAbs else throw .badArgument

/-- Data members, Filter.h:176-224, and the MPI memory of the process. -/
structure Filter (R : Type) where
  ndims : Nat
  globalDims : List Nat
  xmins : List R
  xmaxs : List R
  rk : Int
  sz : Int
  validDecomp : Bool
  dcmp : CubeDecomp
  lo : List Nat
  hi : List Nat
  /-- `none`: default-constructed -/
  mit : Option MultiArrayIter
  inData : List R
  outData : List R
  stencil : StdMap (List Int) R
  winNumGhosts : StdMap (List Int) Nat
  /-- side ↦ window handle -/
  windows : StdMap (List Int) Nat
  /-- side ↦ source and destination buffers -/
  winData : StdMap (List Int) (Nat × Nat)
  winIter : StdMap (List Int) MultiArrayIter
  /-- the buffers allocated by this process -/
  bufs : List (Buf R)
  /-- the buffer exposed by each window of this process -/
  winBuf : List Nat
  /-- resource calls made by this process -/
  trace : List MpiEvent
  deriving DecidableEq, Repr

namespace Filter
variable {R : Type}

/-- The iterator over the sub-domain; its scalars are indeterminate before `build`. -/
def getMit (self : Filter R) : M MultiArrayIter :=
  match self.mit with
  | some mit => pure mit
  | none => throw .uninitialized

/-- `getSideFromOffset(offset)`, Filter.cpp:89-101. -/
def getSideFromOffset (self : Filter R) (offset : List Int) : M (List Int) :=
  forUp 0 self.ndims (List.replicate self.ndims 0) fun i side => do
    let side ← wr side i 0
    let o ← rd offset i
    if o ≠ 0 then do
      let neg ← mkInt (-o)
      wr side i (Int.tdiv neg (← intAbs o))
    else pure side

/-- `getNumberOfGhostsFromOffset(offset)`, Filter.cpp:275-283. -/
def getNumberOfGhostsFromOffset (offset : List Int) : M Nat :=
  forUp 0 offset.length 0 fun i numGhosts => do
    let absOffset := szOfInt (← intAbs (← rd offset i))
    pure (if absOffset > numGhosts then absOffset else numGhosts)

/-- `getNumberOfNonZeroElements(v)`, Filter.cpp:545-554. -/
def getNumberOfNonZeroElements (v : List Int) : M Nat :=
  forUp 0 v.length 0 fun i res => do
    pure (if (← rd v i) ≠ 0 then szAdd res 1 else res)

/-- Body of the loop of `getWindowIter`, Filter.cpp:300-315. The product `n` computed there is never used and is left
out. -/
def windowBody (side : List Int) (numGhosts : Nat) (i : Nat) : List Nat × List Nat → M (List Nat × List Nat)
  | (sLo, sHi) => do
    let s ← rd side i
    if s ≠ 0 then
      if s < 0 then do
        pure (sLo, ← wr sHi i (szAdd (← rd sLo i) numGhosts))
      else do
        pure (← wr sLo i (szSub (← rd sHi i) numGhosts), sHi)
    else pure (sLo, sHi)

/-- `getWindowIter(rk, side)`, Filter.cpp:285-318. The queries move the iterator of the decomposition. -/
def getWindowIter (self : Filter R) (rk : Int) (side : List Int) : M (MultiArrayIter × Filter R) := do
  let (sLo, dcmp) ← self.dcmp.getBegIndices rk
  let (sHi, dcmp) ← dcmp.getEndIndices rk
  let numGhosts := (StdMap.find self.winNumGhosts side).getD 0
  let (sLo, sHi) ← forUp 0 self.ndims (sLo, sHi) (windowBody side numGhosts)
  let it ← MultiArrayIter.new sLo sHi false
  pure (it, { self with dcmp := dcmp })

/-- `newWindow(side)`, Filter.cpp:320-340. A negative number of elements makes the size given to `MPI_Alloc_mem`
invalid. -/
def newWindow (self : Filter R) (side : List Int) : M (Filter R) := do
  let (sit, self) ← self.getWindowIter self.rk side
  let n := intOfSz sit.getNumberOfTerms
  if n < 0 then throw .mpiError
  let src := self.bufs.length
  let dst := src + 1
  let win := self.winBuf.length
  pure { self with
    bufs := self.bufs ++ [List.replicate n.toNat none, List.replicate n.toNat none]
    winBuf := self.winBuf ++ [src]
    trace := self.trace ++ [.allocMem src, .allocMem dst, .winCreate win src]
    winData := StdMap.insert self.winData side (src, dst)
    windows := StdMap.insert self.windows side win
    winIter := StdMap.insert self.winIter side sit }

/-- Body of the loop of the constructor over the stencil, Filter.cpp:61-77. -/
def addWindow (self : Filter R) (kv : List Int × R) : M (Filter R) := do
  let offset := kv.1
  if (← getNumberOfNonZeroElements offset) = 0 then pure self
  else do
    let side ← self.getSideFromOffset offset
    let numGhosts ← getNumberOfGhostsFromOffset offset
    let self := { self with winNumGhosts := StdMap.insert self.winNumGhosts side numGhosts }
    self.newWindow side

variable [Zero R]

/-- The object after Filter.cpp:16-24: `rk` and `sz` are the rank and the number of processes. -/
def initial (rk sz : Int) (globalDims : List Nat) (xmins xmaxs : List R) : Filter R :=
  { ndims := globalDims.length, globalDims, xmins, xmaxs, rk, sz, validDecomp := false, dcmp := CubeDecomp.empty,
    lo := [], hi := [], mit := none, inData := [], outData := [], stencil := [], winNumGhosts := [], windows := [],
    winData := [], winIter := [], bufs := [], winBuf := [], trace := [] }

/-- Constructor, Filter.cpp:11-78. -/
def new [Div R] [NatCast R] [LT R] [DecidableLT R] [HasMax R]
    (rk sz : Int) (globalDims : List Nat) (xmins xmaxs : List R) (stencil : StdMap (List Int) R) : M (Filter R) := do
  let self := initial rk sz globalDims xmins xmaxs
  -- lines 27-34
  let (valid, dcmp) ← self.dcmp.build R sz globalDims
  let self := { self with validDecomp := valid, dcmp := dcmp }
  if valid then do
    -- lines 36-37
    let (lo, dcmp) ← self.dcmp.getBegIndices rk
    let (hi, dcmp) ← dcmp.getEndIndices rk
    -- lines 50-55
    let mit ← MultiArrayIter.build self.mit lo hi false
    let n := mit.getNumberOfTerms
    let self := { self with
      dcmp := dcmp, lo := lo, hi := hi, mit := some mit
      inData := resize self.inData n 0
      outData := resize self.outData n 0
      -- line 58
      stencil := stencil }
    -- lines 61-77
    stencil.foldlM addWindow self
  else pure self

/-- `deleteWindow(side)`, Filter.cpp:342-356. -/
def deleteWindow (self : Filter R) (side : List Int) : Filter R :=
  let self := match StdMap.find self.winData side with
    | some (src, dst) => { self with trace := self.trace ++ [.freeMem src, .freeMem dst] }
    | none => self
  match StdMap.find self.windows side with
  | some win => { self with trace := self.trace ++ [.winFree win] }
  | none => self

/-- Destructor, Filter.cpp:80-87; the result is the object just before its memory is released. -/
def destroy (self : Filter R) : Filter R := self.windows.foldl (fun self kv => self.deleteWindow kv.1) self

/-- `getPosition(globalInds)`, Filter.cpp:103-112. The literal `0.5` is written `1 / 2` (exact in binary). -/
def getPosition [One R] [Add R] [Sub R] [Mul R] [Div R] [NatCast R] (self : Filter R) (globalInds : List Nat) :
    M (List R) :=
  forUp 0 self.ndims (List.replicate self.ndims 0) fun i pos => do
    let delta := ((← rd self.xmaxs i) - (← rd self.xmins i)) / ((← rd self.globalDims i : Nat) : R)
    wr pos i ((← rd self.xmins i) + (((← rd globalInds i : Nat) : R) + 1 / ((2 : Nat) : R)) * delta)

/-- Body of the loops Filter.cpp:152-157, 181-186 and 456-461: one element of a source window. -/
def fillBody (mit : MultiArrayIter) (data : List R) (i : Nat) : MultiArrayIter × Buf R → M (MultiArrayIter × Buf R)
  | (wit, srcData) => do
    let inds ← wit.getIndices
    let bi ← mit.computeBigIndexSz inds
    let srcData ← wr srcData i (some (← rd data bi))
    pure (wit.next, srcData)

/-- Filter.cpp:147-157, 176-186 and 451-461: the source window of one side. -/
def fillWindow (data : List R) (self : Filter R) (side : List Int) : M (Filter R) :=
  match StdMap.find self.winData side, StdMap.find self.winIter side with
  | some (src, _), some wit => do
    let mit ← self.getMit
    let (wit, buf) ← forUp 0 wit.getNumberOfTerms (wit.begin', ← rd self.bufs src) (fillBody mit data)
    pure { self with winIter := StdMap.set self.winIter side wit, bufs := ← wr self.bufs src buf }
  | _, _ => throw .nullDeref

/-- The loops over the windows, Filter.cpp:144-158, 173-187 and 448-462. -/
def fillWindows (self : Filter R) (data : List R) : M (Filter R) :=
  self.winData.foldlM (fun self kv => self.fillWindow data kv.1) self

/-- Body of Filter.cpp:136-141 and 166-170; `val` computes the value from the indices. -/
def setBody (val : List Nat → M R) (i : Nat) : MultiArrayIter × List R → M (MultiArrayIter × List R)
  | (mit, inData) => do
    let inds ← mit.getIndices
    let inData ← wr inData i (← val inds)
    pure (mit.next, inData)

/-- The two loops shared by `setInData` and `setInDataByIndices`. -/
def setWith (self : Filter R) (val : List Nat → M R) : M (Filter R) := do
  let mit ← self.getMit
  let (mit, inData) ← forUp 0 mit.getNumberOfTerms (mit.begin', self.inData) (setBody val)
  fillWindows { self with mit := some mit, inData := inData } inData

/-- `setInData(f)`, Filter.cpp:131-159. The callback is a function of the position (no side effect). -/
def setInData [One R] [Add R] [Sub R] [Mul R] [Div R] [NatCast R] (self : Filter R) (f : List R → R) : M (Filter R) :=
  self.setWith fun inds => do pure (f (← self.getPosition inds))

/-- `setInDataByIndices(f)`, Filter.cpp:161-188. The callback is a function of the indices (no side effect). -/
def setInDataByIndices (self : Filter R) (f : List Nat → R) : M (Filter R) :=
  self.setWith fun inds => pure (f inds)

/-- `copyOutToIn()`, Filter.cpp:440-463. -/
def copyOutToIn (self : Filter R) : M (Filter R) := do
  let mit ← self.getMit
  let inData ← forUp 0 mit.getNumberOfTerms self.inData fun i inData => do
    wr inData i (← rd self.outData i)
  fillWindows { self with inData := inData } self.outData

/-- Filter.cpp:194-199. -/
def zeroOut (self : Filter R) : M (Filter R) := do
  let mit ← self.getMit
  let (mit, outData) ← forUp 0 mit.getNumberOfTerms (mit.begin', self.outData) fun i (mit, outData) => do
    pure (mit.next, ← wr outData i 0)
  pure { self with mit := some mit, outData := outData }

/-- Filter.cpp:206-215: side, neighbour and window iterator of one branch of the stencil. -/
def prepare (self : Filter R) (offset : List Int) : M ((List Int × Int × MultiArrayIter) × Filter R) := do
  let side ← self.getSideFromOffset offset
  let (neighborRk, dcmp) ← self.dcmp.getNeighborRank self.rk offset
  let (wit, self) ← { self with dcmp := dcmp }.getWindowIter neighborRk side
  pure ((side, neighborRk, wit), self)

/-- Filter.cpp:117-120: number of elements, window handle and destination buffer. -/
def fetchArgs (self : Filter R) (side : List Int) : M (Int × Nat × Nat) :=
  match StdMap.find self.winIter side, StdMap.find self.windows side, StdMap.find self.winData side with
  | some wit, some win, some (_, dst) => pure (intOfSz wit.getNumberOfTerms, win, dst)
  | _, _, _ => throw .nullDeref

/-- The effect of `MPI_Get` at the origin: the data land at the start of the destination buffer. -/
def storeGot (self : Filter R) (dst : Nat) (data : Buf R) : M (Filter R) := do
  let b ← rd self.bufs dst
  if b.length < data.length then throw .outOfBounds
  pure { self with bufs := ← wr self.bufs dst (data ++ b.drop data.length) }

/-- What `MPI_Get` returns: `get rank win n`. -/
abbrev Getter (R : Type) := Int → Nat → Int → M (Buf R)

/-- `fetch(otherRank, side)`, Filter.cpp:114-129; the result is the destination buffer. -/
def fetch (get : Getter R) (self : Filter R) (otherRank : Int) (side : List Int) : M (Nat × Filter R) := do
  let (n, win, dst) ← self.fetchArgs side
  let data ← get otherRank win n
  pure (dst, ← self.storeGot dst data)

/-- Body of the loop over the axes, Filter.cpp:237-245. The remainder is computed in `size_t` and narrowed to `int`. -/
def offsetBody (self : Filter R) (offset : List Int) (inds : List Nat) (j : Nat) : List Int × Bool → M (List Int × Bool)
  | (indOffset, inside) => do
    let x ← mkInt (intOfSz (← rd inds j) + (← rd offset j))
    let y := intOfSz (← szMod (szOfInt x) (← rd self.globalDims j))
    let indOffset ← wr indOffset j y
    let inside := inside && decide (intOfSz (← rd self.lo j) ≤ y)
    let inside := inside && decide (y < intOfSz (← rd self.hi j))
    pure (indOffset, inside)

variable [Add R] [Mul R]

/-- Body of the loop over the cells, Filter.cpp:226-261, on the position of `mit` and `outData`. -/
def updateBody (self : Filter R) (offset : List Int) (val : R) (wit : MultiArrayIter) (dst : Option Nat) (i : Nat) :
    MultiArrayIter × List R → M (MultiArrayIter × List R)
  | (mit, outData) => do
    let inds ← mit.getIndices
    let (indOffset, inside) ← forUp 0 self.ndims (List.replicate self.ndims 0, true) (self.offsetBody offset inds)
    let outData ←
      if inside then do
        let bi2 ← mit.computeBigIndexInt indOffset
        let x ← rd self.inData (szOfInt bi2)
        wr outData i ((← rd outData i) + val * x)
      else match dst with
        | some d => do
          let bi2 := szOfInt (← wit.computeBigIndexInt indOffset)
          let x ← rdBuf (← rd self.bufs d) bi2
          wr outData i ((← rd outData i) + val * x)
        | none => pure outData
    pure (mit.next, outData)

/-- Filter.cpp:225-261. -/
def update (self : Filter R) (offset : List Int) (val : R) (wit : MultiArrayIter) (dst : Option Nat) :
    M (Filter R) := do
  let mit ← self.getMit
  let (mit, outData) ← forUp 0 mit.getNumberOfTerms (mit.begin', self.outData)
    (self.updateBody offset val wit dst)
  pure { self with mit := some mit, outData := outData }

/-- One branch of the stencil, Filter.cpp:205-261. -/
def applyEntry (get : Getter R) (self : Filter R) (kv : List Int × R) : M (Filter R) := do
  let ((side, neighborRk, wit), self) ← self.prepare kv.1
  match StdMap.find self.windows side with
  | some _ => do
    let (dst, self) ← self.fetch get neighborRk side
    self.update kv.1 kv.2 wit (some dst)
  | none => self.update kv.1 kv.2 wit none

/-- `applyFilter()`, Filter.cpp:191-263. -/
def applyFilter (get : Getter R) (self : Filter R) : M (Filter R) := do
  let self ← self.zeroOut
  self.stencil.foldlM (applyEntry get) self

/-- The local part of `computeCheckSum(inOrOut)`, Filter.cpp:469-482; `input` tells whether the string is "input". -/
def localSum (self : Filter R) (input : Bool) : M (R × Filter R) := do
  let mit ← self.getMit
  let (mit, sum) ← forUp 0 mit.getNumberOfTerms (mit.begin', (0 : R)) fun i (mit, sum) => do
    let x ← if input then rd self.inData i else rd self.outData i
    pure (mit.next, sum + x)
  pure (sum, { self with mit := some mit })

/-- The lines written by `printInData`/`printOutData`, Filter.cpp:404-438, as (indices, value) pairs; `input` selects
the data. -/
def printData (self : Filter R) (input : Bool) : M (List (List Nat × R) × Filter R) := do
  let mit ← self.getMit
  let (mit, lines) ← forUp 0 mit.getNumberOfTerms (mit.begin', []) fun i (mit, lines) => do
    let inds ← mit.getIndices
    let x ← if input then rd self.inData i else rd self.outData i
    pure (mit.next, lines ++ [(inds, x)])
  pure (lines, { self with mit := some mit })

/-- The lines written by `printSrcDataWindow`/`printDstDataWindow`, Filter.cpp:358-402; `src` selects the buffer. -/
def printWindow (self : Filter R) (side : List Int) (src : Bool) : M (List (List Nat × R) × Filter R) :=
  match StdMap.find self.winData side, StdMap.find self.winIter side with
  | some (s, d), some wit => do
    let data ← rd self.bufs (if src then s else d)
    let (wit, lines) ← forUp 0 wit.getNumberOfTerms (wit.begin', []) fun i (wit, lines) => do
      let inds ← wit.getIndices
      let x ← rdBuf data i
      pure (wit.next, lines ++ [(inds, x)])
    pure (lines, { self with winIter := StdMap.set self.winIter side wit })
  | _, _ => throw .nullDeref

end Filter

/-- All processes: the filter of rank `r` is element `r`. -/
abbrev World (R : Type) := List (Filter R)

namespace World
variable {R : Type} [Zero R] [Add R] [Mul R]

/-- `MPI_Get(_, n, MPI_DOUBLE, rank, 0, n, MPI_DOUBLE, win)`, Filter.cpp:124, within a fence epoch: erroneous for a
negative count, a rank outside the communicator or more elements than the window of the target has. -/
def get (w : World R) : Filter.Getter R := fun rank win n => do
  if rank < 0 ∨ n < 0 then throw .mpiError
  match w[rank.toNat]? with
  | none => throw .mpiError
  | some f =>
    match f.winBuf[win]? with
    | none => throw .mpiError
    | some b =>
      let buf ← rd f.bufs b
      if buf.length < n.toNat then throw .mpiError
      pure (buf.take n.toNat)

/-- The constructor on every rank. -/
def new [Div R] [NatCast R] [LT R] [DecidableLT R] [HasMax R] (sz : Nat)
    (globalDims : List Nat) (xmins xmaxs : List R) (stencil : StdMap (List Int) R) : M (World R) :=
  (List.range sz).mapM fun (r : Nat) => Filter.new r sz globalDims xmins xmaxs stencil

/-- `applyFilter` on every rank. The source windows do not change during the call, so every fetch reads the windows as
they are at the start; `Model/FilterRun.lean` justifies this for every interleaving of the ranks. -/
def applyFilter (w : World R) : M (World R) := w.mapM (Filter.applyFilter w.get)

/-- `copyOutToIn` on every rank. -/
def copyOutToIn (w : World R) : M (World R) := w.mapM Filter.copyOutToIn

/-- `setInDataByIndices(u)` on every rank. -/
def setInDataByIndices (w : World R) (u : List Nat → R) : M (World R) := w.mapM fun f => f.setInDataByIndices u

/-- `setInData(u)` on every rank. -/
def setInData [One R] [Sub R] [Div R] [NatCast R] (w : World R) (u : List R → R) : M (World R) :=
  w.mapM fun f => f.setInData u

/-- `n` rounds of `applyFilter` and `copyOutToIn`, as in laplacian.cxx:87-90 and upwindMpi.cxx:114-125. -/
def iterate (w : World R) : Nat → M (World R)
  | 0 => pure w
  | n + 1 => do
    let w ← w.applyFilter
    let w ← w.copyOutToIn
    iterate w n

end World
end Fidi
