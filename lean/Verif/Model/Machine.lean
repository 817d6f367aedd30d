/-
Machine layer of the model: undefined behaviour as an outcome, `size_t` (64 bit, wrapping) and `int`
(32 bit, overflow undefined) arithmetic, checked vector access and counted loops.

Not code of the repository: this is the C++ abstract machine (LP64 platform) that the model of every
function in /repo is written against.
-/
namespace Fidi

/-- Kinds of undefined or erroneous behaviour that the modelled C++ functions can run into. -/
inductive UB where
  /-- `v[i]` with `i ≥ v.size()`, or a raw buffer access past its end -/
  | outOfBounds
  /-- integer `/` or `%` by zero -/
  | divByZero
  /-- signed integer overflow -/
  | signedOverflow
  /-- read of an indeterminate value (scalar member of a default-constructed object, fresh MPI memory) -/
  | uninitialized
  /-- dereference of `map::end()` or of a null pointer -/
  | nullDeref
  /-- erroneous MPI call (invalid rank, access outside a window) -/
  | mpiError
  /-- value outside the domain of a C library function (`atoi`, `std::abs`) -/
  | badArgument
  deriving DecidableEq, Repr

/-- Outcome of running a piece of C++: a value or undefined behaviour. -/
abbrev M := Except UB

/-- Number of values of `size_t`: 2^64. -/
def W : Nat := 18446744073709551616

/-- Number of values of `unsigned int`: 2^32 (used for narrowing to `int`). -/
def W32 : Nat := 4294967296

/-- One past the largest `int`: 2^31. -/
def intLim : Nat := 2147483648

/-- `a + b` on `size_t`. -/
def szAdd (a b : Nat) : Nat := (a + b) % W
/-- `a - b` on `size_t`. -/
def szSub (a b : Nat) : Nat := (a + (W - b % W)) % W
/-- `a * b` on `size_t`. -/
def szMul (a b : Nat) : Nat := (a * b) % W
/-- `a / b` on `size_t`. -/
def szDiv (a b : Nat) : M Nat := if b = 0 then throw .divByZero else pure (a / b)
/-- `a % b` on `size_t`. -/
def szMod (a b : Nat) : M Nat := if b = 0 then throw .divByZero else pure (a % b)

/-- Conversion `int` → `size_t` (modulo 2^64). -/
def szOfInt (x : Int) : Nat := (x % (W : Int)).toNat

/-- Conversion `size_t` → `int` (modulo 2^32, the value in `[-2^31, 2^31)`). -/
def intOfSz (n : Nat) : Int := Int.bmod (n : Int) W32

/-- `x` is representable as an `int`. -/
def inInt (x : Int) : Bool := decide (-(intLim : Int) ≤ x) && decide (x < (intLim : Int))

/-- Result of a signed `int` operation: undefined if it does not fit. -/
def mkInt (x : Int) : M Int := if inInt x then pure x else throw .signedOverflow

/-- Checked read `v[i]`. -/
def rd {α : Type} (v : List α) (i : Nat) : M α :=
  match v[i]? with
  | some x => pure x
  | none => throw .outOfBounds

/-- Checked write `v[i] = x`. -/
def wr {α : Type} (v : List α) (i : Nat) (x : α) : M (List α) :=
  if i < v.length then pure (v.set i x) else throw .outOfBounds

/-- `v.resize(n)`: keeps the first elements, new ones are value-initialised to `d`. -/
def resize {α : Type} (v : List α) (n : Nat) (d : α) : List α :=
  v.take n ++ List.replicate (n - v.length) d

/-- `for (i = a; i < b; ++i) s = f i s`. -/
def forUp {σ : Type} (a b : Nat) (s : σ) (f : Nat → σ → M σ) : M σ :=
  (List.range' a (b - a)).foldlM (fun s i => f i s) s

/-- `for (i = n - 1; i >= 0; --i) s = f i s`. -/
def forDown {σ : Type} : (n : Nat) → σ → (Nat → σ → M σ) → M σ
  | 0, s, _ => pure s
  | n + 1, s, f => do
    let s' ← f n s
    forDown n s' f

end Fidi
