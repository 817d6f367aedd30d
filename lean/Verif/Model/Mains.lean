import Verif.Model.UpwindMain
import Verif.Model.UpwindAcc
import Verif.Model.Vtk
import Verif.Model.Drivers

/-
The whole of `main` of the drivers: command line, output and exit status. The text written to the terminal is modelled
character by character; doubles are formatted by `DoubleText.showDouble`. `courant` is the literal 0.1 of the sources.
-/
namespace Fidi
variable {R : Type}

/-- What a program leaves behind: the text written to `std::cout` and `std::cerr`, the files (name and content, in the
order of their writing), and the exit status. -/
structure Exit where
  out : Str
  err : Str
  files : List (Str × Str)
  status : Int
  deriving DecidableEq, Repr

/-- The options of all drivers of the upwind solver, upwind.cxx:143-147, upwindAcc.cxx:120-124, upwindAcc2.cxx:140-144,
upwindOMP5.cxx:139-143, upwindMpi.cxx:39-43. -/
def upwindOptions : CmdLineArgParser R :=
  (((CmdLineArgParser.new.setPurpose "Purpose: benchmark finite difference operations.".toList).setInt
    "-numCells".toList 128 "Number of cells along each axis".toList).setInt
    "-numSteps".toList 10 "Number of time steps".toList).setBool
    "-vtk".toList false "Write output to VTK file".toList

/-- The option `-std`, upwind.cxx:148, upwindAcc2.cxx:145, upwindOMP5.cxx:144. -/
def withStd (args : CmdLineArgParser R) : CmdLineArgParser R :=
  args.setBool "-std".toList false "Print out spread of solution".toList

/-- The options of laplacian.cxx:39-43. -/
def laplacianOptions : CmdLineArgParser R :=
  (((CmdLineArgParser.new.setPurpose "Purpose: benchmark finite difference operations.".toList).setInt
    "-numCells".toList 8000 "Number of cells along each axis".toList).setInt
    "-numDims".toList 2 "Number of dimensions".toList).setBool
    "-vtk".toList false "Write output to VTK file".toList

/-- `std::cout << "number of cells: "` and the loop after it, upwind.cxx:175-180, with the numbers already formatted;
upwindAcc.cxx:144-149, upwindAcc2.cxx:166-171, upwindOMP5.cxx:165-170 have the same text. -/
def sizesText (cells : List Str) (numSteps : Int) : Str :=
  "number of cells: ".toList ++ cells.flatMap (fun t => ' ' :: t) ++ "\n".toList
    ++ "number of time steps: ".toList ++ showInt numSteps ++ "\n".toList

/-! ### upwind.cxx and upwindOMPTasks.cxx (the two files are the same) -/

namespace Upwind
variable [Zero R] [One R] [Add R] [Sub R] [Mul R] [Div R] [NatCast R] [IntCast R] [LT R] [DecidableLT R] [HasMax R]
  [HasSqrt R] [DoubleText R]

/-- upwind.cxx:159-171, with OpenMP: the number of threads and the maximum; nothing is written without OpenMP. -/
def ompText : Option (Int × Int) → Str
  | none => []
  | some (n, m) => "Running with OpenMP enabled\n".toList ++ "number of threads: ".toList ++ showInt n
      ++ " max number of threads: ".toList ++ showInt m ++ "\n".toList

/-- upwind.cxx:155-205, once the command line is accepted. -/
def mainBody (courant : R) (omp : Option (Int × Int)) (numCells numSteps : Int) (doVtk doStd : Bool) : M Exit := do
  let out := ompText omp
  let cells := List.replicate 3 (szOfInt numCells)
  let out := out ++ sizesText (cells.map showSz) numSteps
  let velocity : List R := List.replicate cells.length 1
  let lengths : List R := List.replicate cells.length 1
  let dt ← mainDt courant velocity lengths cells
  let up ← new 3 velocity lengths cells
  let files ← if doVtk then do pure [("up0.vtk".toList, ← up.saveVTK)] else pure []
  let up ← up.advect numSteps dt
  let out := out ++ "check sum: ".toList ++ DoubleText.showDouble up.checksum ++ "\n".toList
  let out ← if doStd then do
      pure (out ++ "std      : ".toList ++ DoubleText.showDouble (← up.std) ++ "\n".toList)
    else pure out
  let files ← if doVtk then do pure (files ++ [("up1.vtk".toList, ← up.saveVTK)]) else pure files
  pure { out, err := [], files, status := 0 }

/-- `main`, upwind.cxx:139-217. -/
def main (courant : R) (omp : Option (Int × Int)) (argv : List Str) : M Exit := do
  let (success, args, msg) ← (withStd (upwindOptions (R := R))).parse argv
  let help := args.getBool "-h".toList
  if success && !help then do
    let e ← mainBody courant omp (args.getInt "-numCells".toList) (args.getInt "-numSteps".toList)
      (args.getBool "-vtk".toList) (args.getBool "-std".toList)
    pure { e with out := msg ++ e.out }
  else do
    let err := if !success then "ERROR when parsing command line arguments\n".toList else []
    let text ← args.help
    pure { out := msg ++ text, err, files := [], status := 0 }

end Upwind

/-! ### upwindAcc.cxx, upwindAcc2.cxx, upwindOMP5.cxx -/

namespace UpwindAcc
variable [Zero R] [One R] [Add R] [Sub R] [Mul R] [Div R] [NatCast R] [IntCast R] [LT R] [DecidableLT R] [HasMax R]
  [Upwind.HasSqrt R] [DoubleText R]

/-- upwindAcc.cxx:126-140, upwindAcc2.cxx:147-162, upwindOMP5.cxx:146-161: the program ends, or goes on with the values of
the options -numCells, -numSteps, -vtk and -std. `options` are those registered before. -/
def mainStart (options : CmdLineArgParser R) (argv : List Str) : M (Exit ⊕ (Int × Int × Bool × Bool)) := do
  let (success, args, msg) ← options.parse argv
  let help := args.getBool "-h".toList
  if !success then do
    let text ← args.help
    pure (.inl { out := msg ++ text, err := "ERROR: wrong command line arguments\n".toList, files := [], status := 1 })
  else if help then do
    let text ← args.help
    pure (.inl { out := msg ++ text, err := [], files := [], status := 0 })
  else
    pure (.inr (args.getInt "-numCells".toList, args.getInt "-numSteps".toList, args.getBool "-vtk".toList,
      args.getBool "-std".toList))

/-- Computation of the time step, upwindAcc.cxx:155-161, upwindAcc2.cxx:177-183, upwindOMP5.cxx:176-182; the number of cells
is an `int`. -/
def mainDt (courant : R) (velocity lengths : List R) (numCells : List Int) : M R :=
  forUp 0 velocity.length HasMax.dblMax fun j dt => do
    let dx := (← rd lengths j) / ((← rd numCells j : Int) : R)
    let val := courant * dx / (← rd velocity j)
    pure (if val < dt then val else dt)

/-- upwindAcc.cxx:142-163, upwindAcc2.cxx:164-185, upwindOMP5.cxx:163-184: the text written, the time step and the object. -/
def mainSetup (courant : R) (numCells numSteps : Int) : M (Str × R × UpwindAcc R) := do
  let cells := List.replicate 3 numCells
  let out := sizesText (cells.map showInt) numSteps
  let velocity : List R := List.replicate cells.length 1
  let lengths : List R := List.replicate cells.length 1
  let dt ← mainDt courant velocity lengths cells
  let up ← new 3 velocity lengths cells
  pure (out, dt, up)

/-- The methods `checksum()`, `std()` and `saveVTK()` (saveVTK.h) are the same text as in upwind.cxx. Here `numCells[j] + 1`
and `ntot` are `int`; on a grid whose cells an `int` can count they have the values they have there. -/
def view (self : UpwindAcc R) (f : List R) : Upwind R :=
  { ndims := self.ndims, f, oldF := self.fOld, v := self.v, lengths := self.lengths, deltas := self.deltas,
    upDirection := self.upDirection, dimProd := self.dimProd.map szOfInt, numCells := self.numCells.map szOfInt,
    ntot := szOfInt self.ntot }

/-- upwindAcc2.cxx:188-194, upwindOMP5.cxx:188-194 and, with `doStd` false, upwindAcc.cxx:168-171. `main` has no return
statement: the status is 0. -/
def mainFinish (out : Str) (up : Upwind R) (doVtk doStd : Bool) : M Exit := do
  let out := out ++ "check sum: ".toList ++ DoubleText.showDouble up.checksum ++ "\n".toList
  let out ← if doStd then do
      pure (out ++ "std      : ".toList ++ DoubleText.showDouble (← up.std) ++ "\n".toList)
    else pure out
  let files ← if doVtk then do pure [("up.vtk".toList, ← up.saveVTK)] else pure []
  pure { out, err := [], files, status := 0 }

/-- The field left by the time loop of one of the three programs on `T` threads under the schedule `may`. -/
inductive Loop where
  /-- upwindAcc.cxx:165-167 -/
  | acc
  /-- upwindAcc2.cxx:186 -/
  | acc2
  /-- upwindOMP5.cxx:186 -/
  | omp5
  deriving DecidableEq

/-- The program has the option -std. -/
def Loop.hasStd : Loop → Bool
  | .acc => false
  | _ => true

/-- The options of the program. -/
def Loop.options (l : Loop) : CmdLineArgParser R := if l.hasStd then withStd upwindOptions else upwindOptions

/-- A complete execution of the time loop of the program takes the field `up.f` to `f'`. -/
def Loop.Runs (l : Loop) (T : Nat) (may : Nat → Nat → Nat → Prop) (up : UpwindAcc R) (numSteps : Int) (dt : R)
    (f' : List R) : Prop :=
  match l with
  | .acc => up.Advect1s T may dt numSteps.toNat up.f f'
  | .acc2 => ∃ s, PReach (up.region2 numSteps dt) T may (memory up.f up.fOld) s ∧ s.Final (up.region2 numSteps dt) T ∧
      f' = (List.range up.f.length).map fun i => s.mem (.f, i)
  | .omp5 => ∃ s, PReach (up.regionTeams numSteps dt) T may (memory up.f up.f) s ∧ s.Final (up.regionTeams numSteps dt) T ∧
      f' = (List.range up.f.length).map fun i => s.mem (.f, i)

/-- `main`, upwindAcc.cxx:117-172, upwindAcc2.cxx:137-195, upwindOMP5.cxx:136-195: `x` is the outcome of a complete
execution. -/
def Main (l : Loop) (courant : R) (T : Nat) (may : Nat → Nat → Nat → Prop) (argv : List Str) (x : M Exit) : Prop :=
  match mainStart (R := R) l.options argv with
  | .error e => x = .error e
  | .ok (.inl e) => x = .ok e
  | .ok (.inr (numCells, numSteps, doVtk, doStd)) =>
    match mainSetup courant numCells numSteps with
    | .error e => x = .error e
    | .ok (out, dt, up) => ∃ f', l.Runs T may up numSteps dt f' ∧ x = mainFinish out (up.view f') doVtk (l.hasStd && doStd)

end UpwindAcc

/-! ### laplacian.cxx and upwindMpi.cxx -/

/-- What the ranks leave behind, in order of rank. The files are those of rank 0. -/
structure MpiExit where
  ranks : List Exit
  deriving DecidableEq, Repr

/-- The branch taken when the command line is rejected or help is asked for, laplacian.cxx:118-124 and upwindMpi.cxx:157-163,
and the end of `main`: every rank writes the help text, rank 0 the error. -/
def mpiUsage [DoubleText R] (sz : Nat) (success : Bool) (args : CmdLineArgParser R) (msg : Str) : M MpiExit := do
  let text ← args.help
  pure ⟨(List.range sz).map fun rk =>
    { out := msg ++ text, err := if !success && rk == 0 then "ERROR when parsing command line arguments\n".toList else [],
      files := [], status := 0 }⟩

/-- Ranks that write nothing except rank 0. -/
def fromRoot (sz : Nat) (root : Exit) : MpiExit :=
  ⟨(List.range sz).map fun rk => if rk = 0 then root else { out := [], err := [], files := [], status := 0 }⟩

/-- The branch `if (fltr.isDecompValid())` with the message for the other case, laplacian.cxx:77-80 and 114,
upwindMpi.cxx:103-106 and 153. `body` says which outcomes of rank 0 are possible. -/
def IfDecompValid (sz : Nat) (w : World R) (body : World R → M Exit → Prop) (x : M MpiExit) : Prop :=
  if w.all fun f => f.validDecomp then ∃ e, body w e ∧ x = e.map (fromRoot sz)
  else if w.all fun f => !f.validDecomp then
    x = .ok (fromRoot sz { out := [], err := "Decomposition is invalid\n".toList, files := [], status := 0 })
  else x = .error .mpiError

/-- The file written by rank 0 if asked for: laplacian.cxx:99-105, upwindMpi.cxx:136-142. -/
def mpiVtk [Zero R] [One R] [Add R] [Sub R] [Mul R] [Div R] [NatCast R] [DoubleText R] (name : Str) (doVtk : Bool)
    (w : World R) : M (Str × List (Str × Str) × World R) := do
  if doVtk then do
    let (text, w) ← w.saveFile
    pure ("Data will be written to file ".toList ++ name ++ "\n".toList,
      (match text with | some t => [(name, t)] | none => []), w)
  else pure ([], [], w)

namespace Laplacian
variable [Zero R] [One R] [Add R] [Sub R] [Mul R] [Div R] [Neg R] [NatCast R] [LT R] [DecidableLT R] [HasMax R] [HasSin R]
  [DoubleText R]

/-- laplacian.cxx:82-112 on the filters of all ranks: the possible outcomes of rank 0. `times` is the text of the timings of
line 110-111; both check sums are formed by `MPI_Reduce` in an order of its own. -/
def Body (times : Str) (doVtk : Bool) (w : World R) (x : M Exit) : Prop :=
  match (do
    let w ← w.setInData func
    let w ← w.iterate 10
    mpiVtk "laplacian.vtk".toList doVtk w : M (Str × List (Str × Str) × World R)) with
  | .error e => x = .error e
  | .ok (out, files, w) => ∃ inSums w1 outSums w2, w.CheckSum true inSums w1 ∧ w1.CheckSum false outSums w2 ∧
      x = do
        let inSum ← rd inSums 0
        let outSum ← rd outSums 0
        pure { out := out ++ "Laplace times min/max/avg: ".toList ++ times ++ " [seconds]\n".toList
                  ++ "Check sums: input = ".toList ++ DoubleText.showDouble inSum ++ " output = ".toList
                  ++ DoubleText.showDouble outSum ++ "\n".toList,
               err := [], files, status := 0 }

/-- `main`, laplacian.cxx:31-128, on `sz` ranks: the possible outcomes. -/
def Main (times : Str) (sz : Nat) (argv : List Str) (x : M MpiExit) : Prop :=
  match (laplacianOptions (R := R)).parse argv with
  | .error e => x = .error e
  | .ok (success, args, msg) =>
    if success && !args.getBool "-h".toList then
      match start (R := R) sz (args.getInt "-numCells".toList) (args.getInt "-numDims".toList) with
      | .error e => x = .error e
      | .ok w => IfDecompValid sz w (Body times (args.getBool "-vtk".toList)) x
    else x = mpiUsage sz success args msg

end Laplacian

namespace UpwindMpi
variable [Zero R] [One R] [Add R] [Sub R] [Mul R] [Div R] [NatCast R] [IntCast R] [LT R] [DecidableLT R] [HasMax R]
  [DoubleText R]

/-- The time loop, upwindMpi.cxx:115-126, from step `i` on with `n` steps left: the filters before, the text written by
rank 0, and the filters after, or an error. -/
inductive Steps : Nat → Nat → World R → M (Str × World R) → Prop where
  | done (i : Nat) (w : World R) : Steps i 0 w (.ok ([], w))
  | fault (i n : Nat) (w : World R) (e : UB) : w.applyFilter = .error e → Steps i (n + 1) w (.error e)
  | step (i n : Nat) (w w1 w2 w3 w4 : World R) (inSums outSums : List R) (a b : R) (x : M (Str × World R)) :
      w.applyFilter = .ok w1 → w1.CheckSum true inSums w2 → w2.CheckSum false outSums w3 → inSums[0]? = some a →
      outSums[0]? = some b → w3.copyOutToIn = .ok w4 → Steps (i + 1) n w4 x →
      Steps i (n + 1) w (x.map fun p => ("iter ".toList ++ showSz i ++ " check sum  in/out = ".toList
        ++ DoubleText.showDouble a ++ " / ".toList ++ DoubleText.showDouble b ++ "\n".toList ++ p.1, p.2))

/-- upwindMpi.cxx:111-152 on the filters of all ranks: the possible outcomes of rank 0. -/
def Body (times : Str) (numSteps : Nat) (doVtk : Bool) (w : World R) (x : M Exit) : Prop :=
  match w.setInDataByIndices initialCondition with
  | .error e => x = .error e
  | .ok w => ∃ y, Steps 0 numSteps w y ∧
    match y with
    | .error e => x = .error e
    | .ok (out, w) =>
      match mpiVtk "upMpi.vtk".toList doVtk w with
      | .error e => x = .error e
      | .ok (note, files, w) => ∃ sums w1, w.CheckSum false sums w1 ∧ x = do
          let outSum ← rd sums 0
          pure { out := out ++ note ++ " times min/max/avg: ".toList ++ times ++ " [seconds]\n".toList
                    ++ "Check sum: ".toList ++ DoubleText.showDouble outSum ++ "\n".toList,
                 err := [], files, status := 0 }

/-- `main`, upwindMpi.cxx:30-167, on `sz` ranks: the possible outcomes. -/
def Main (courant : R) (times : Str) (sz : Nat) (argv : List Str) (x : M MpiExit) : Prop :=
  match (upwindOptions (R := R)).parse argv with
  | .error e => x = .error e
  | .ok (success, args, msg) =>
    if success && !args.getBool "-h".toList then
      match start (R := R) courant sz (args.getInt "-numCells".toList) with
      | .error e => x = .error e
      | .ok w => IfDecompValid sz w (Body times (szOfInt (args.getInt "-numSteps".toList)) (args.getBool "-vtk".toList)) x
    else x = mpiUsage sz success args msg

end UpwindMpi
end Fidi
