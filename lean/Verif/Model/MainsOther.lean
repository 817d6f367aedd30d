import Verif.Model.VtkOther
import Verif.Model.Mains

/-
The main programs of the Fortran, Python and Julia versions of the upwind solver: command line, output and exit status.

`readInt` stands for the conversion of an argument to an integer by the language: list-directed `read` in Fortran, `int` in
Python, `parse(Int, .)` in Julia; no value means that it fails. `sum` is the sum of all elements of an array: the three
languages do not say in which order the elements are added. `courant` is the literal 0.1 of the sources.
-/
namespace Fidi
variable {R : Type}

/-! ### Fortran -/

namespace Fortran

/-- A character variable of length `w` after the assignment of a text: cut off, or filled up with blanks. -/
def charVar (w : Nat) (s : Str) : Str := s.take w ++ List.replicate (w - s.length) ' '

/-- `len_trim(s) == 0`. -/
def isBlank (s : Str) : Bool := s.all (· = ' ')

/-- Edit descriptor `f15.9`. -/
def fmtF [DoubleText R] (x : R) : Str := inField 15 (DoubleText.showDouble x)

end Fortran

namespace FUpwind
open Fortran

/-- The variables set by the command line, upwind.F90:305-310. All elements of `numCells` have the same value. -/
structure Settings where
  argc : Nat
  numCells : Int
  numTimeSteps : Int
  doVtk : Bool
  deriving DecidableEq, Repr

/-- A number that has been read, upwind.F90:314 and 257-265: `n` is undefined if `read` fails; the status `ier` is not
looked at. -/
def useRead (n : Option Int) : M Int :=
  match n with
  | none => throw .uninitialized
  | some n => pure n

/-- Body of the loop over the arguments for an argument that is not blank, upwind.F90:314-322; `argv` is the variable. -/
def parseBody (readInt : Str → Option Int) (argv : Str) (s : Settings) : M Settings := do
  let n := readInt argv
  let s ← if s.argc = 1 then do pure { s with numCells := ← useRead n }
    else if s.argc = 2 then do pure { s with numTimeSteps := ← useRead n }
    else if s.argc = 3 ∧ argv = charVar 32 "vtk".toList then pure { s with doVtk := true }
    else pure s
  pure { s with argc := s.argc + 1 }

/-- The loop over the arguments, upwind.F90:311-323: it ends at the first blank argument, and
`get_command_argument` gives blanks after the last one. -/
def parseLoop (readInt : Str → Option Int) : List Str → Settings → M Settings
  | [], s => pure s
  | arg :: args, s =>
    if isBlank (charVar 32 arg) then pure s
    else do parseLoop readInt args (← parseBody readInt (charVar 32 arg) s)

/-- upwind.F90:305-323, from argument 0, the name of the program, on. -/
def parse (readInt : Str → Option Int) (argv : List Str) : M Settings :=
  parseLoop readInt argv { argc := 0, numCells := -1, numTimeSteps := 100, doVtk := false }

variable [Zero R] [One R] [Add R] [Sub R] [Mul R] [Div R] [IntCast R] [LT R] [DecidableLT R] [DoubleText R]

/-- Some execution of `k` calls of `upwind_advect` runs into undefined behaviour. -/
def AdvanceFaults (deltaTime : R) (k : Nat) (self : FUpwind R) : Prop :=
  ∃ j mid T may s, j < k ∧ Advances deltaTime j self mid ∧ 0 < T ∧ s.Faulty mid.allocated T ∧
    (PReach (mid.region deltaTime) T may mid.memory s ∨
      ∃ junk, PReach (mid.regionGpu deltaTime) T may (mid.memoryGpu junk) s)

/-- upwind.F90:329-334: the sizes. `rest` is what the list-directed `write` of line 333 adds to the record (blanks). -/
def sizesText (rest : Str) (numCells : List Int) (numTimeSteps : Int) : Str :=
  "number of cells: ".toList ++ numCells.flatMap (fun n => fmtI 10 n ++ " ".toList) ++ rest ++ "\n".toList
    ++ "number of time steps: ".toList ++ fmtI 10 numTimeSteps ++ "\n".toList

/-- upwind.F90:361-366: the check sum and the file. `out` is the text already written. -/
def finish (sum : List R → R) (out : Str) (up : FUpwind R) (doVtk : Bool) : M Exit := do
  let out := out ++ "check sum: ".toList ++ fmtF (sum up.f) ++ "\n".toList
  let files ← if doVtk then do pure [("up.vtk".toList, ← up.saveVTK)] else pure []
  pure { out, err := [], files, status := 0 }

/-- upwind.F90:325-371 (upwindF03.F90:332-377, upwindF08.F90:316-361, upwindF08Gpu.F90:406-451): the outcomes of the executions.
`threads` is the text about the threads written before, `big` is `huge(1.0_r8)`. `stop` with a text writes it and ends
the program with status 0. -/
def Body (courant big : R) (sum : List R → R) (threads rest : Str) (s : Settings) (x : M Exit) : Prop :=
  if s.argc < 2 then
    x = .ok { out := threads, err := "must specify number of cells in each direction.\n".toList, files := [], status := 0 }
  else
    let numCells := List.replicate 3 s.numCells
    let velocity : List R := List.replicate 3 1
    let lengths : List R := List.replicate 3 1
    match (do pure (← mainDt courant big velocity lengths numCells, ← new velocity lengths numCells) : M (R × FUpwind R)) with
    | .error e => x = .error e
    | .ok (dt, up) =>
      (AdvanceFaults dt s.numTimeSteps.toNat up ∧ x = .error .outOfBounds) ∨
      (endsPast s.numTimeSteps.toNat ∧ x = .error .signedOverflow) ∨
      ∃ up', Advances dt s.numTimeSteps.toNat up up' ∧
        x = finish sum (threads ++ sizesText rest numCells s.numTimeSteps) up' s.doVtk

/-- The main program of the Fortran versions, upwind.F90:267-371, after the text about the threads: `x` is the outcome of
an execution. -/
def Main (readInt : Str → Option Int) (courant big : R) (sum : List R → R) (threads rest : Str) (argv : List Str)
    (x : M Exit) : Prop :=
  match parse readInt argv with
  | .error e => x = .error e
  | .ok s => Body courant big sum threads rest s x

/-! The text about the threads -/

/-- The variables shared by the threads of the first region, and for each thread the text it has written: how many times
`Running with OpenMP enabled` and which number of threads. -/
inductive BannerLoc where
  | numThreads
  | maxNumThreads
  | threadId
  | enabled (t : Nat)
  | line (t : Nat)
  deriving DecidableEq, Repr

/-- Lines 299-302 of upwind.F90 on thread `t`. -/
def bannerLine (t : Nat) : Prog BannerLoc Int :=
  .read .threadId fun id =>
    if id = 0 then .read .numThreads fun n => .read .maxNumThreads fun _ => .write (.line t) n .done else .done

/-- The region upwind.F90:287-303 (upwindF03.F90:294-310) on thread `t` of `T`, compiled with OpenMP: no variable is private. -/
def bannerProg (T t : Nat) : Prog BannerLoc Int :=
  .write .numThreads 1 <| .write .maxNumThreads 1 <| .write .threadId 0 <|
  .write .numThreads T <| .write .maxNumThreads T <| .write .threadId t <|
  .read .threadId fun id => if id = 0 then .write (.enabled t) 1 (bannerLine t) else bannerLine t

/-- The region as one loop with an iteration for each thread. -/
def banner (T : Nat) : Region BannerLoc Int where
  phases := 1
  count := fun _ => T
  prog := fun _ t => bannerProg T t

end FUpwind

/-! ### Python -/

namespace PyUpwind
variable [Zero R] [One R] [Add R] [Sub R] [Mul R] [Div R] [IntCast R] [LT R] [DecidableLT R] [DoubleText R]

/-- `int(s)`: an exception if it fails. -/
def toInt (readInt : Str → Option Int) (s : Str) : M Int :=
  match readInt s with
  | none => throw .badArgument
  | some n => pure n

/-- `print` of a list of integers. -/
def listText (l : List Int) : Str := "[".toList ++ (", ".toList).intercalate (l.map showInt) ++ "]".toList

/-- The number in argument `i` if there is one, upwind.py:103-105 and upwind.jl:149-152. -/
def optInt (readInt : Str → Option Int) (args : List Str) (i : Nat) (default : Int) : M Int :=
  if args.length > i then do toInt readInt (← rd args i) else pure default

/-- Whether argument `i` is there and is `vtk`, upwind.py:109-111 and upwind.jl:183. -/
def optVtk (args : List Str) (i : Nat) : M Bool :=
  if args.length > i then do pure ((← rd args i) == "vtk".toList) else pure false

/-- `main()`, upwind.py:89-125; `inf` is `float('inf')`, `argv` has the name of the script in front. -/
def main (readInt : Str → Option Int) (courant inf : R) (sum : List R → R) (argv : List Str) : M Exit := do
  if argv.length ≤ 1 then
    pure { out := "must specify number of cells in each direction.\n".toList, err := [], files := [], status := 1 }
  else do
    let n ← toInt readInt (← rd argv 1)
    let numCells := List.replicate 3 n
    let out := "number of cells:  ".toList ++ listText numCells ++ "\n".toList
    let numTimeSteps ← optInt readInt argv 2 100
    let out := out ++ "number of time steps:  ".toList ++ showInt numTimeSteps ++ "\n".toList
    let doVtk ← optVtk argv 3
    let velocity : List R := List.replicate 3 1
    let lengths : List R := List.replicate 3 1
    let dt ← mainDt courant inf velocity lengths numCells
    let up ← new velocity lengths numCells
    let up ← up.steps numTimeSteps dt
    let out := out ++ "check sum:  ".toList ++ DoubleText.showDouble (sum up.f) ++ "\n".toList
    let files ← if doVtk then do pure [("up.vtk".toList, ← up.saveVTK)] else pure []
    pure { out, err := [], files, status := 0 }

end PyUpwind

/-! ### Julia -/

namespace JlUpwind
open PyUpwind (toInt listText optInt optVtk)
variable [Zero R] [One R] [Add R] [Sub R] [Mul R] [Div R] [IntCast R] [LT R] [DecidableLT R] [DoubleText R]

/-- upwind.jl:154-156, upwind3.jl:142-144: the sizes. -/
def sizesText (numCells : List Int) (numTimeSteps : Int) : Str :=
  "number of cells: ".toList ++ listText numCells ++ "\n".toList ++ "number of time steps: ".toList ++ showInt numTimeSteps
    ++ "\n".toList

/-- `save2VTK(this, fname)`, upwind.jl:123-134, upwind3.jl:124-135. `linspace` is a function in no version of Julia from 1.0 on; in
every version the last statement refers to a module `saveVTK`, and saveVTK.jl does not define one. An exception in all cases. -/
def save2VTK (_this : JlUpwind R) : M Str := throw .badArgument

/-- The check sum and the file, upwind.jl:181-185, upwind3.jl:168-172. -/
def finish (sum : List R → R) (out : Str) (up : JlUpwind R) (doVtk : Bool) : M Exit := do
  let out := out ++ "check sum: ".toList ++ DoubleText.showDouble (sum up.f) ++ "\n".toList
  let files ← if doVtk then do pure [("upwind.vtk".toList, ← up.save2VTK)] else pure []
  pure { out, err := [], files, status := 0 }

/-- The main program upwind.jl:138-185; `args` are the arguments without the name of the script, which is `script`. -/
def main (readInt : Str → Option Int) (courant inf : R) (sum : List R → R) (script : Str)
    (args : List Str) : M Exit := do
  if args.length < 1 then
    pure { out := "Must specify number of cells in each direction.\n".toList ++ "Usage: ".toList ++ script
              ++ " numCells [numTimeSteps]\n".toList, err := [], files := [], status := 1 }
  else do
    let ncells ← toInt readInt (← rd args 0)
    let numTimeSteps ← optInt readInt args 1 100
    let numCells := [ncells, ncells, ncells]
    let velocity : List R := List.replicate 3 1
    let lengths : List R := List.replicate 3 1
    let dt ← mainDt courant inf velocity lengths numCells
    let up ← new 3 velocity lengths numCells
    let up ← up.steps numTimeSteps dt
    let doVtk ← optVtk args 2
    finish sum (sizesText numCells numTimeSteps) up doVtk

/-- The main program upwind3.jl:137-195. -/
def main3 (readInt : Str → Option Int) (courant inf : R) (sum : List R → R)
    (args : List Str) : M Exit := do
  -- lines 179-193
  let ncells ← optInt readInt args 0 128
  let numTimeSteps ← optInt readInt args 1 2
  let savevtk ← optVtk args 2
  -- lines 137-174
  let numCells := [ncells, ncells, ncells]
  let velocity : List R := List.replicate 3 1
  let lengths : List R := List.replicate 3 1
  let dt ← mainDt courant inf velocity lengths numCells
  let up ← run3 3 velocity lengths numCells numTimeSteps dt
  finish sum (sizesText numCells numTimeSteps) up savevtk

end JlUpwind
end Fidi
