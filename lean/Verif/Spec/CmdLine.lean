/-
Specification vocabulary for command lines. Independent of the model.
-/
namespace Fidi.Spec

/-- The argument looks like an option: a dash, then a character that is not a digit. -/
def LooksLikeOption (a : List Char) : Prop := ∃ c rest, a = '-' :: c :: rest ∧ ¬('0' ≤ c ∧ c ≤ '9')

/-- `v` is the argument following the last occurrence of `name` that has a following argument. -/
def LastFollowing (args : List (List Char)) (name v : List Char) : Prop :=
  ∃ i, args[i]? = some name ∧ args[i + 1]? = some v ∧ ∀ j, i < j → args[j]? = some name → args[j + 1]? = none

/-- No occurrence of `name` has a following argument. -/
def NeverFollowed (args : List (List Char)) (name : List Char) : Prop :=
  ∀ i, args[i]? = some name → args[i + 1]? = none

/-- `v` follows an occurrence of `name`. -/
def Follows (args : List (List Char)) (name v : List Char) : Prop :=
  ∃ i : Nat, args[i]? = some name ∧ args[i + 1]? = some v

/-- Types of options. -/
inductive Kind where
  | double | int | string | bool
  deriving DecidableEq

/-- Calls made on a parser object. -/
inductive CmdOp (R : Type) where
  | setDouble (name : List Char) (v : R) (help : List Char)
  | setInt (name : List Char) (v : Int) (help : List Char)
  | setString (name : List Char) (v : List Char) (help : List Char)
  | setBool (name : List Char) (v : Bool) (help : List Char)
  | setPurpose (p : List Char)
  | addFootnote (n : List Char)
  | parse (argv : List (List Char))

variable {R : Type}

/-- Name and help text, if the call registers an option of that type. -/
def CmdOp.registers (k : Kind) : CmdOp R → Option (List Char × List Char)
  | .setDouble n _ h => if k = .double then some (n, h) else none
  | .setInt n _ h => if k = .int then some (n, h) else none
  | .setString n _ h => if k = .string then some (n, h) else none
  | .setBool n _ h => if k = .bool then some (n, h) else none
  | _ => none

/-- All calls since the object was created: the constructor registers `-h` itself. -/
def fullHistory (hist : List (CmdOp R)) : List (CmdOp R) :=
  .setBool "-h".toList false "Print help.".toList :: hist

/-- The option was registered with that type. -/
def Registered (k : Kind) (hist : List (CmdOp R)) (name : List Char) : Prop :=
  ∃ op ∈ fullHistory hist, ∃ h, op.registers k = some (name, h)

/-- Help text given at the last registration of the option with that type. -/
def lastHelp (k : Kind) (hist : List (CmdOp R)) (name : List Char) : Option (List Char) :=
  (fullHistory hist).foldl (fun acc op =>
    match op.registers k with
    | some (n, h) => if n = name then some h else acc
    | none => acc) none

/-- The purpose set last. -/
def lastPurpose (hist : List (CmdOp R)) : List Char :=
  ((hist.filterMap fun op => match op with | .setPurpose p => some p | _ => none).getLast?).getD []

/-- The program name given to the last `parse`. -/
def lastExec (hist : List (CmdOp R)) : List Char :=
  ((hist.filterMap fun op => match op with | .parse (e :: _) => some e | _ => none).getLast?).getD []

/-- The footnotes, the newest first, each on a line, then the standard footnote. -/
def footnotes (hist : List (CmdOp R)) : List Char :=
  (hist.reverse.flatMap fun op => match op with | .addFootnote n => n ++ ['\n'] | _ => []) ++
    "\nReport bugs to alexander@gokliya.net\n".toList

/-- The exponent of a floating-point literal: `e` or `E`, an optional sign and at least one digit. -/
def IsExponent (s : List Char) : Prop :=
  ∃ (e : Char) (sign ds : List Char), (e = 'e' ∨ e = 'E') ∧ (sign = [] ∨ sign = ['-'] ∨ sign = ['+']) ∧ ds ≠ [] ∧
    (∀ c ∈ ds, '0' ≤ c ∧ c ≤ '9') ∧ s = e :: (sign ++ ds)

/-- A decimal floating-point literal: an optional minus sign, digits and an optional fraction, with at least one digit, and
an optional exponent. -/
def IsDecimalLiteral (s : List Char) : Prop :=
  ∃ (neg : Bool) (ip : List Char) (frac : Option (List Char)) (ex : List Char),
    (∀ c ∈ ip, '0' ≤ c ∧ c ≤ '9') ∧ (∀ f, frac = some f → ∀ c ∈ f, '0' ≤ c ∧ c ≤ '9') ∧
    (ip ≠ [] ∨ ∃ f, frac = some f ∧ f ≠ []) ∧ (ex = [] ∨ IsExponent ex) ∧
    s = (if neg then ['-'] else []) ++ ip ++ (match frac with | some f => '.' :: f | none => []) ++ ex

end Fidi.Spec
