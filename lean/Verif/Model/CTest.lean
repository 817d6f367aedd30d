import Verif.Model.Mains
import Verif.Model.Stencil2d

/-
The tests registered with CTest in the build files: their command lines, and when CTest counts a test as passed. Of the regular
expressions of CMake the part used there is modelled: characters, sets of characters in brackets, and the star after a set.
-/
namespace Fidi.CTest

/-! ### Regular expressions -/

/-- A piece of an expression: one character of a set, or any number of them. -/
inductive Item where
  | one (set : List Char)
  | many (set : List Char)
  deriving DecidableEq, Repr

/-- A quoted argument of a CMake command: the only escape used is that of the backslash. -/
def unescape : Str → Str
  | '\\' :: '\\' :: s => '\\' :: unescape s
  | c :: s => c :: unescape s
  | [] => []

/-- The characters with a meaning of their own outside of brackets. -/
def special : List Char := ['^', '$', '.', '*', '+', '?', '(', ')', '|', '\\', ']']

/-- Compilation of an expression. In brackets every character stands for itself, the backslash and the bar included; what is
not used in the build files (ranges, complements, alternatives, groups) is refused. `set` is the set being read. -/
def compile : Option (List Char) → Str → Option (List Item)
  | none, [] => some []
  | none, '[' :: s => compile (some []) s
  | none, c :: s => if c ∈ special then none else (compile none s).map (.one [c] :: ·)
  | some _, [] => none
  | some set, ']' :: '*' :: s => (compile none s).map (.many set :: ·)
  | some set, ']' :: s => (compile none s).map (.one set :: ·)
  | some set, c :: s => if c ∈ ['^', '-', '['] then none else compile (some (set ++ [c])) s

/-- The expression matches at the start of the text. The star takes as many characters as there are, then fewer. -/
def matchHere : List Item → Str → Bool
  | [], _ => true
  | .one set :: r, c :: s => set.contains c && matchHere r s
  | .one _ :: _, [] => false
  | .many set :: r, s => (List.range ((s.takeWhile set.contains).length + 1)).reverse.any fun k => matchHere r (s.drop k)

/-- The expression matches somewhere in the text. -/
def find (r : List Item) : Str → Bool
  | [] => matchHere r []
  | c :: s => matchHere r (c :: s) || find r s

/-- The expression as written in the build file matches somewhere in the text. -/
def found (source text : Str) : Bool :=
  match compile none (unescape source) with
  | some r => find r text
  | none => false

/-! ### Tests -/

/-- The properties of a test that are used: PASS_REGULAR_EXPRESSION and FAIL_REGULAR_EXPRESSION. -/
structure Test where
  pass : Option Str := none
  fail : Option Str := none

/-- The verdict of CTest on a program that has ended by itself, from all it has written and its status: the expression of
PASS_REGULAR_EXPRESSION must be found, that of FAIL_REGULAR_EXPRESSION must not; the status counts only if there is no
PASS_REGULAR_EXPRESSION. -/
def Test.passes (t : Test) (text : Str) (status : Int) : Bool :=
  let forceFail := (match t.pass with | some r => !found r text | none => false) ||
    (match t.fail with | some r => found r text | none => false)
  !forceFail && (status == 0 || t.pass.isSome)

/-- upwindCxx1, upwindCxx2, upwindCxx4, upwindCxx8, upwindCxx, upwindAccCxx, upwindAcc2Cxx, upwind/cxx/CMakeLists.txt:54-107;
upwindFortran1, upwindFortran2, upwindFortran4, upwindFortran8, upwindF03, upwindF08, upwindF08Gpu,
upwind/fortran/CMakeLists.txt:18-64. -/
def upwindTest : Test := { pass := some "[Cc]heck sum:[ ]*[1|0\\\\.999]".toList }

/-- upwindJulia, upwindJulia3, upwind/julia/CMakeLists.txt:2-13; upwindPython, upwindPythonMpiN,
upwind/python/CMakeLists.txt:5-28. -/
def scriptTest : Test := { pass := some "[Cc]heck sum:[ ]*[1\\\\.0|0\\\\.999]".toList }

/-- laplacian2D, laplacian3D, laplacian/cxx/CMakeLists.txt:17-25. -/
def laplacianTest : Test := { pass := some "[Cc]heck sums:[ ]*".toList }

/-- testStencil2d, laplacian/cxx/CMakeLists.txt:11-13: no expression. -/
def stencilTest : Test := {}

/-- matmult, matmult/fortran/CMakeLists.txt:11-16. -/
def matmultTest : Test := { fail := some "ERROR".toList }

/-- The arguments of the tests of the upwind programs, upwind/cxx/CMakeLists.txt:55-56 and so on: the values of the variables
NUM_CELLS and NUM_TIME_STEPS. -/
def upwindArgs (numCells numTimeSteps : Str) : List Str := [numCells, numTimeSteps]

/-- The arguments of laplacian2D and laplacian3D, laplacian/cxx/CMakeLists.txt:18 and 20. -/
def laplacianArgs (numDims numCells : Str) : List Str := ["-numDims".toList, numDims, "-numCells".toList, numCells]

/-- The arguments of testStencil2d, laplacian/cxx/CMakeLists.txt:13. -/
def stencilArgs (numCells : Str) : List Str := ["-numCells".toList, numCells]

/-- CTest reads all streams of all processes as one text; how their characters are interleaved is not determined. -/
inductive Merge : List Str → Str → Prop where
  | done (streams : List Str) : (∀ s ∈ streams, s = []) → Merge streams []
  | next (streams : List Str) (i : Nat) (c : Char) (s text : Str) : streams[i]? = some (c :: s) →
      Merge (streams.set i s) text → Merge streams (c :: text)

/-- A possible verdict on a program of one process. -/
def Verdict (t : Test) (e : Exit) (b : Bool) : Prop := ∃ text, Merge [e.out, e.err] text ∧ t.passes text e.status = b

/-- A possible verdict on a program started by `mpiexec`, whose status is 0 exactly if that of all processes is. -/
def MpiVerdict (t : Test) (e : MpiExit) (b : Bool) : Prop :=
  ∃ text status, Merge (e.ranks.flatMap fun r => [r.out, r.err]) text ∧ (status = 0 ↔ ∀ r ∈ e.ranks, r.status = 0) ∧
    t.passes text status = b

end Fidi.CTest
