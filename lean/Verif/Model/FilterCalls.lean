import Verif.Model.Filter

/-
Collective operations of `cxx/Filter.cpp` other than `applyFilter`, and histories of calls.
-/
namespace Fidi
variable {R : Type}

/-! ### `MPI_Reduce` -/

/-- A value obtained by adding the elements of a list in order, with any bracketing. -/
inductive SumTree [Add R] : List R → R → Prop where
  | leaf (x : R) : SumTree [x] x
  | node {xs ys : List R} {x y : R} : SumTree xs x → SumTree ys y → SumTree (xs ++ ys) (x + y)

/-- The result of `MPI_Reduce` with `MPI_SUM`: the contributions may be added in any order and with any bracketing. -/
def MpiSum [Add R] (xs : List R) (r : R) : Prop := ∃ ys, ys.Perm xs ∧ SumTree ys r

namespace World

/-- `computeCheckSum(inOrOut)` on every rank, Filter.cpp:465-487: `rs` are the values returned, `w'` the filters
afterwards. `globalSum` is initialised to 0 and set by `MPI_Reduce` on rank 0 only. -/
def CheckSum [Zero R] [Add R] (w : World R) (input : Bool) (rs : List R) (w' : World R) : Prop :=
  ∃ ps total, w.mapM (fun f => f.localSum input) = .ok ps ∧ w' = ps.map Prod.snd ∧ MpiSum (ps.map Prod.fst) total ∧
    rs = (List.range w.length).map fun r => if r = 0 then total else 0

end World

/-! ### `saveVTK` -/

namespace Filter

/-- Filter.cpp:492-495: the number of cells of the grid. -/
def totalCells (self : Filter R) : M Nat :=
  forUp 0 self.ndims 1 fun i ntot => do pure (szMul ntot (← rd self.globalDims i))

/-- Arguments of `MPI_Gather` on the sending side, Filter.cpp:497 and 505: the address of the first element of
`outData` (undefined if there is none) and a count. The result is the data sent. -/
def gatherSend (self : Filter R) : M (List R) := do
  let nLocal := intOfSz self.outData.length
  if self.outData = [] then throw .outOfBounds
  if nLocal < 0 then throw .mpiError
  pure (self.outData.take nLocal.toNat)

/-- Size of `recvBuffer`, Filter.cpp:499-502. -/
def recvSize (self : Filter R) : M Nat := do
  let ntot ← self.totalCells
  pure (if self.rk = 0 then ntot else 0)

/-- The receiving side of `MPI_Gather`, Filter.cpp:506: `&recvBuffer.front()`, undefined for an empty vector. -/
def gatherRecv (self : Filter R) : M Unit := do
  if (← self.recvSize) = 0 then throw .outOfBounds
  pure ()

/-- Filter.cpp:526-528. -/
def globalIndsBody (begInds localInds : List Nat) (i : Nat) (globalInds : List Nat) : M (List Nat) := do
  wr globalInds i (szAdd (← rd begInds i) (← rd localInds i))

/-- Body of the loop over the cells of one chunk, Filter.cpp:524-532. -/
def chunkBody (self : Filter R) (recv : List R) (nLocal : Int) (globalIt : MultiArrayIter) (r : Nat)
    (begInds : List Nat) (iLocal : Nat) : MultiArrayIter × List Nat × List R → M (MultiArrayIter × List Nat × List R)
  | (mit, globalInds, field) => do
    let localInds ← mit.getIndices
    let globalInds ← forUp 0 self.ndims globalInds (globalIndsBody begInds localInds)
    let big ← globalIt.computeBigIndexSz globalInds
    let p ← mkInt ((r : Int) * nLocal)
    let field ← wr field big (← rd recv (szAdd (szOfInt p) iLocal))
    pure (mit.next, globalInds, field)

/-- Body of the loop over the ranks, Filter.cpp:517-533. -/
def rankBody (recv : List R) (nLocal : Int) (globalIt : MultiArrayIter) (r : Nat) :
    Filter R × List Nat × List R → M (Filter R × List Nat × List R)
  | (self, globalInds, field) => do
    let (begInds, dcmp) ← self.dcmp.getBegIndices r
    let self := { self with dcmp := dcmp }
    let mit ← self.getMit
    let (mit, globalInds, field) ← forUp 0 mit.getNumberOfTerms (mit.begin', globalInds, field)
      (self.chunkBody recv nLocal globalIt r begInds)
    pure ({ self with mit := some mit }, globalInds, field)

/-- What rank 0 does with the gathered data, Filter.cpp:509-533: the result is the field passed to `writeVTK`. -/
def assemble [Zero R] (self : Filter R) (recv : List R) : M (List R × Filter R) := do
  let nLocal := intOfSz self.outData.length
  let ntot ← self.totalCells
  let globalIt ← MultiArrayIter.new (List.replicate self.ndims 0) self.globalDims false
  let (self, _, field) ← forUp 0 self.sz.toNat (self, List.replicate self.ndims 0, List.replicate ntot 0)
    (rankBody recv nLocal globalIt)
  pure (field, self)

end Filter

namespace World

/-- What `MPI_Gather` puts in the receive buffer of rank 0, Filter.cpp:505-507: the pieces in the order of the ranks. All
must have the length rank 0 expects and fit in the buffer. -/
def gathered [Zero R] (w : World R) (root : Filter R) : M (List R) := do
  let pieces ← w.mapM Filter.gatherSend
  let nLocal := intOfSz root.outData.length
  if pieces.any (fun p => (p.length : Int) ≠ nLocal) then throw .mpiError
  let n ← root.recvSize
  let data := pieces.flatten
  if n < data.length then throw .mpiError
  pure (data ++ List.replicate (n - data.length) 0)

/-- `saveVTK` on every rank up to the call of `writeVTK`, Filter.cpp:489-533, if the address computed from the empty
receive buffer on the other ranks (`gatherRecv`) is harmless. The result is the field passed to `writeVTK`. -/
def saveField [Zero R] (w : World R) : M (List R × World R) := do
  match w with
  | [] => throw .mpiError
  | root :: others => do
    let recv ← gathered w root
    let (field, root) ← root.assemble recv
    pure (field, root :: others)

/-- `saveVTK` on every rank up to the call of `writeVTK`, Filter.cpp:489-533. -/
def saveVTK [Zero R] (w : World R) : M (List R × World R) := do
  let _ ← w.mapM Filter.gatherRecv
  w.saveField

end World

/-! ### Histories of calls -/

/-- A call made by one rank alone. -/
inductive LocalCall (R : Type) where
  | setInData (f : List R → R)
  | setInDataByIndices (f : List Nat → R)
  | copyOutToIn
  | printData (input : Bool)
  | printWindow (side : List Int) (src : Bool)

/-- The effect of a local call. -/
def LocalCall.run [Zero R] [One R] [Add R] [Sub R] [Mul R] [Div R] [NatCast R] (f : Filter R) :
    LocalCall R → M (Filter R)
  | .setInData g => f.setInData g
  | .setInDataByIndices g => f.setInDataByIndices g
  | .copyOutToIn => f.copyOutToIn
  | .printData input => do pure (← f.printData input).2
  | .printWindow side src => do pure (← f.printWindow side src).2

/-- The calls that set the input data. -/
def LocalCall.Sets : LocalCall R → Prop
  | .setInData _ => True
  | .setInDataByIndices _ => True
  | .copyOutToIn => True
  | _ => False

/-- A call: of one rank, or of all ranks together. -/
inductive Call (R : Type) where
  | on (rank : Nat) (c : LocalCall R)
  | applyFilter
  | checkSum (input : Bool)
  | saveVTK

/-- The effect of a call on all filters. -/
def Call.run [Zero R] [One R] [Add R] [Sub R] [Mul R] [Div R] [NatCast R] (w : World R) : Call R → M (World R)
  | .on r c => do
    let f ← rd w r
    let f ← c.run f
    wr w r f
  | .applyFilter => w.applyFilter
  | .checkSum input => w.mapM fun f => do pure (← f.localSum input).2
  | .saveVTK => do pure (← w.saveField).2

/-- The effect of a sequence of calls. -/
def runCalls [Zero R] [One R] [Add R] [Sub R] [Mul R] [Div R] [NatCast R] (w : World R) (cs : List (Call R)) :
    M (World R) := cs.foldlM Call.run w

end Fidi
