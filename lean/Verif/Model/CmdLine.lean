import Verif.Model.Machine
import Verif.Model.StdMap
import Verif.Model.CubeDecomp

/-
Model of `cxx/CmdLineArgParser.h` and `cxx/CmdLineArgParser.cpp`.
`double` is an arbitrary type `R`; `atof` and the formatting of doubles are parameters.
-/
namespace Fidi

/-- `std::string` / C string: the list of its characters. -/
abbrev Str := List Char

/-- Library functions on doubles that the parser calls. -/
class DoubleText (R : Type) where
  /-- `atof` -/
  atof : Str → R
  /-- `std::cout << double` -/
  showDouble : R → Str

/-- `isdigit` in the C locale (glibc: false on all characters outside '0'..'9'). -/
def isDigitC (c : Char) : Bool := '0' ≤ c && c ≤ '9'

/-- `isspace` in the C locale. -/
def isSpaceC (c : Char) : Bool := c == ' ' || c == '\t' || c == '\n' || c == '\x0b' || c == '\x0c' || c == '\r'

/-- The optional sign read by `atoi`. -/
def splitSign : Str → Bool × Str
  | '-' :: r => (true, r)
  | '+' :: r => (false, r)
  | s => (false, s)

/-- `atoi`: leading white space, an optional sign, then the longest run of digits. Undefined if the value does not
fit in an `int` (C11 7.22.1). -/
def atoi (s : Str) : M Int :=
  let s := s.dropWhile isSpaceC
  let (neg, s) := splitSign s
  let n := (s.takeWhile isDigitC).foldl (fun acc c => acc * 10 + (c.toNat - '0'.toNat)) 0
  let v : Int := if neg then -(n : Int) else (n : Int)
  if inInt v then pure v else throw .badArgument

/-- `std::cout << int`. -/
def showInt (z : Int) : Str :=
  if z < 0 then '-' :: Nat.toDigits 10 z.natAbs else Nat.toDigits 10 z.natAbs

/-- `std::cout << bool`. -/
def showBool (b : Bool) : Str := if b then ['1'] else ['0']

/-- Data members, CmdLineArgParser.h:237-256. -/
structure CmdLineArgParser (R : Type) where
  doubleArg : StdMap Str R := []
  intArg : StdMap Str Int := []
  stringArg : StdMap Str Str := []
  boolArg : StdMap Str Bool := []
  doubleArgHelp : StdMap Str Str := []
  intArgHelp : StdMap Str Str := []
  stringArgHelp : StdMap Str Str := []
  boolArgHelp : StdMap Str Str := []
  execName : Str := []
  purpose : Str := []
  footer : Str := []
  deriving DecidableEq

namespace CmdLineArgParser
variable {R : Type}

/-- `set(name, double, help)`, CmdLineArgParser.h:42-47. -/
def setDouble (self : CmdLineArgParser R) (name : Str) (v : R) (help : Str) : CmdLineArgParser R :=
  { self with doubleArg := StdMap.set self.doubleArg name v, doubleArgHelp := StdMap.set self.doubleArgHelp name help }

/-- `set(name, int, help)`, CmdLineArgParser.h:48-53. -/
def setInt (self : CmdLineArgParser R) (name : Str) (v : Int) (help : Str) : CmdLineArgParser R :=
  { self with intArg := StdMap.set self.intArg name v, intArgHelp := StdMap.set self.intArgHelp name help }

/-- `set(name, string, help)`, CmdLineArgParser.h:54-59. -/
def setString (self : CmdLineArgParser R) (name : Str) (v : Str) (help : Str) : CmdLineArgParser R :=
  { self with stringArg := StdMap.set self.stringArg name v, stringArgHelp := StdMap.set self.stringArgHelp name help }

/-- `set(name, bool, help)`, CmdLineArgParser.h:60-65. -/
def setBool (self : CmdLineArgParser R) (name : Str) (v : Bool) (help : Str) : CmdLineArgParser R :=
  { self with boolArg := StdMap.set self.boolArg name v, boolArgHelp := StdMap.set self.boolArgHelp name help }

/-- Constructor, CmdLineArgParser.h:29-33. -/
def new : CmdLineArgParser R :=
  { setBool {} "-h".toList false "Print help.".toList with footer := "\nReport bugs to alexander@gokliya.net\n".toList }

/-- CmdLineArgParser.h:83-84. `arg[0]` of an empty string is the null character. -/
def isOptionName (arg : Str) : Bool :=
  match arg with
  | c :: c' :: _ => c == '-' && !isDigitC c'
  | _ => false

/-- CmdLineArgParser.h:86-90. -/
def isValidOptName (self : CmdLineArgParser R) (arg : Str) : Bool :=
  (StdMap.find self.doubleArg arg).isSome || (StdMap.find self.intArg arg).isSome
    || (StdMap.find self.stringArg arg).isSome || (StdMap.find self.boolArg arg).isSome

/-- The checking loop, CmdLineArgParser.h:80-96: the first argument that is not a valid option, if any. -/
def firstInvalid (self : CmdLineArgParser R) : List Str → Option Str
  | [] => none
  | arg :: args => if isOptionName arg && !isValidOptName self arg then some arg else firstInvalid self args

/-- The inner loop over the arguments for one value option, CmdLineArgParser.h:103-115, 122-134 and 141-153:
`cur` is `i->second`, `isArgVal` says that the previous argument was the key. -/
def scanValue {T : Type} (conv : Str → M T) (optKey : Str) : List Str → T → Bool → M T
  | [], cur, _ => pure cur
  | arg :: args, cur, isArgVal => do
    let cur ← if isArgVal then conv arg else pure cur
    scanValue conv optKey args cur (optKey == arg)

/-- The loop over one map of value options, CmdLineArgParser.h:98-116, 117-135 and 136-154. -/
def scanMap {T : Type} (conv : Str → M T) (args : List Str) (m : StdMap Str T) : M (StdMap Str T) :=
  m.mapM fun kv => do pure (kv.1, ← scanValue conv kv.1 args kv.2 false)

/-- The loop over the arguments for one flag, CmdLineArgParser.h:159-165. -/
def scanFlag (optKey : Str) : List Str → Bool → Bool
  | [], cur => cur
  | arg :: args, cur => scanFlag optKey args (if arg == optKey then !cur else cur)

/-- `parse(argc, argv)`, CmdLineArgParser.h:73-169; `argv` has `argc` entries. Returns the value of the call, the
object after it and the text written to `std::cout`. With `argc = 0`, `argv[0]` is the null pointer. -/
def parse [DoubleText R] (self : CmdLineArgParser R) (argv : List Str) : M (Bool × CmdLineArgParser R × Str) :=
  match argv with
  | [] => throw .nullDeref
  | exec :: args => do
    let self := { self with execName := exec }
    match firstInvalid self args with
    | some arg => pure (false, self, arg ++ " is not a valid option.\n".toList)
    | none => do
      let doubleArg ← scanMap (fun s => pure (DoubleText.atof s)) args self.doubleArg
      let intArg ← scanMap atoi args self.intArg
      let stringArg ← scanMap pure args self.stringArg
      let boolArg := self.boolArg.map fun kv => (kv.1, scanFlag kv.1 args kv.2)
      pure (true, { self with doubleArg := doubleArg, intArg := intArg, stringArg := stringArg, boolArg := boolArg }, [])

/-- `setPurpose`, CmdLineArgParser.h:175-177. -/
def setPurpose (self : CmdLineArgParser R) (p : Str) : CmdLineArgParser R := { self with purpose := p }

/-- `addFootnote`, CmdLineArgParser.h:221-223. -/
def addFootnote (self : CmdLineArgParser R) (note : Str) : CmdLineArgParser R :=
  { self with footer := note ++ "\n".toList ++ self.footer }

/-- The lines of one map in `help()`, CmdLineArgParser.h:186-213; `tag` is the type shown after the name.
Dereferencing `end()` if the help text is missing. -/
def helpLines {T : Type} (shw : T → Str) (tag : Str) (m : StdMap Str T) (h : StdMap Str Str) : M Str := do
  let ls ← m.mapM fun kv =>
    match StdMap.find h kv.1 with
    | none => throw .nullDeref
    | some hlp => pure ('\t' :: kv.1 ++ tag ++ hlp ++ " (".toList ++ shw kv.2 ++ ")\n".toList)
  pure ls.flatten

/-- `help()`, CmdLineArgParser.h:182-215: the text written to `std::cout`. -/
def help [DoubleText R] (self : CmdLineArgParser R) : M Str := do
  let d ← helpLines DoubleText.showDouble " <double#> ".toList self.doubleArg self.doubleArgHelp
  let i ← helpLines showInt " <int#> ".toList self.intArg self.intArgHelp
  let s ← helpLines id " <string> ".toList self.stringArg self.stringArgHelp
  let b ← helpLines showBool " ".toList self.boolArg self.boolArgHelp
  pure (self.purpose ++ "\n".toList ++ self.execName ++ " [options]\n".toList ++ "Usage:\n".toList ++ d ++ i ++ s ++ b
    ++ self.footer ++ "\n".toList)

/-- `get<double>`, CmdLineArgParser.cpp:18-26. -/
def getDouble [Neg R] [HasMax R] (self : CmdLineArgParser R) (name : Str) : R :=
  match StdMap.find self.doubleArg name with
  | some v => v
  | none => -HasMax.dblMax

/-- `get<int>`, CmdLineArgParser.cpp:28-36. -/
def getInt (self : CmdLineArgParser R) (name : Str) : Int :=
  match StdMap.find self.intArg name with
  | some v => v
  | none => -2147483647

/-- `get<std::string>`, CmdLineArgParser.cpp:38-47. -/
def getString (self : CmdLineArgParser R) (name : Str) : Str :=
  match StdMap.find self.stringArg name with
  | some v => v
  | none => []

/-- `get<bool>`, CmdLineArgParser.cpp:50-59. -/
def getBool (self : CmdLineArgParser R) (name : Str) : Bool :=
  match StdMap.find self.boolArg name with
  | some v => v
  | none => false

end CmdLineArgParser
end Fidi
