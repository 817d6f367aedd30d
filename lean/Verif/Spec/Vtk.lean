/-
A reader of the legacy VTK file format (ASCII files with one scalar field on the cells of a rectilinear or structured
grid). Independent of the model. Numbers are decimal naturals; coordinates and values are kept as texts.
-/
namespace Fidi.Spec

/-- White space of the C locale. -/
def isBlank (c : Char) : Bool := c == ' ' || c == '\t' || c == '\n' || c == '\x0b' || c == '\x0c' || c == '\r'

/-- The pieces between white space characters. -/
def pieces : List Char → List (List Char)
  | [] => [[]]
  | c :: s =>
    if isBlank c then [] :: pieces s
    else match pieces s with
      | [] => [[c]]
      | w :: ws => (c :: w) :: ws

/-- The words of a text. -/
def words (s : List Char) : List (List Char) := (pieces s).filter fun w => !w.isEmpty

/-- A text that is one word. -/
def IsWord (w : List Char) : Prop := w ≠ [] ∧ ∀ c ∈ w, isBlank c = false

/-- The first line and the rest. -/
def firstLine (s : List Char) : List Char × List Char := (s.takeWhile (· ≠ '\n'), (s.dropWhile (· ≠ '\n')).drop 1)

/-- A decimal natural number. -/
def readNat (w : List Char) : Option Nat :=
  if w ≠ [] ∧ w.all (fun c => '0' ≤ c && c ≤ '9') then some (w.foldl (fun n c => 10 * n + (c.toNat - '0'.toNat)) 0)
  else none

/-- The next word must be `w`. -/
def expect (w : String) : List (List Char) → Option (List (List Char))
  | x :: ws => if x = w.toList then some ws else none
  | [] => none

/-- The next word must be a number. -/
def number : List (List Char) → Option (Nat × List (List Char))
  | x :: ws => (readNat x).map fun n => (n, ws)
  | [] => none

/-- The next word must be the name of a floating point type. -/
def floatType : List (List Char) → Option (List (List Char))
  | x :: ws => if x = "float".toList ∨ x = "double".toList then some ws else none
  | [] => none

/-- The next `n` words. -/
def nextWords (n : Nat) (ws : List (List Char)) : Option (List (List Char) × List (List Char)) :=
  if n ≤ ws.length then some (ws.take n, ws.drop n) else none

/-- The header: version, title and format lines. The rest is read word by word. -/
def header (s : List Char) : Option (List (List Char)) :=
  let (version, s) := firstLine s
  let (_, s) := firstLine s
  let (format, s) := firstLine s
  if "# vtk DataFile Version ".toList <+: version ∧ format = "ASCII".toList then some (words s) else none

/-- Number of nodes along the three axes. -/
def dimensions (ws : List (List Char)) : Option ((Nat × Nat × Nat) × List (List Char)) := do
  let ws ← expect "DIMENSIONS" ws
  let (nx, ws) ← number ws
  let (ny, ws) ← number ws
  let (nz, ws) ← number ws
  pure ((nx, ny, nz), ws)

/-- Number of cells along an axis with `n` nodes; an axis with one node is degenerate. -/
def cellsOf (n : Nat) : Nat := if n = 1 then 1 else n - 1

/-- The scalar field: name and one value for each of the `cells` cells; nothing may follow. -/
def scalars (cells : Nat) (ws : List (List Char)) : Option (List Char × List (List Char)) := do
  let ws ← expect "CELL_DATA" ws
  let (n, ws) ← number ws
  if n ≠ cells then failure
  let ws ← expect "SCALARS" ws
  let (name, ws) ← nextWords 1 ws
  let ws ← floatType ws
  let ws := (expect "1" ws).getD ws
  let ws ← expect "LOOKUP_TABLE" ws
  let ws ← expect "default" ws
  if ws.length ≠ n then failure
  pure (name.flatten, ws)

/-- The coordinates of the nodes along one axis. -/
def coordinates (axis : String) (n : Nat) (ws : List (List Char)) : Option (List (List Char) × List (List Char)) := do
  let ws ← expect axis ws
  let (m, ws) ← number ws
  if m ≠ n then failure
  let ws ← floatType ws
  nextWords n ws

/-- What a rectilinear grid file contains. -/
structure RectGrid where
  x : List (List Char)
  y : List (List Char)
  z : List (List Char)
  name : List Char
  values : List (List Char)
  deriving DecidableEq, Repr

/-- Read a rectilinear grid file. -/
def readRect (s : List Char) : Option RectGrid := do
  let ws ← header s
  let ws ← expect "DATASET" ws
  let ws ← expect "RECTILINEAR_GRID" ws
  let ((nx, ny, nz), ws) ← dimensions ws
  let (x, ws) ← coordinates "X_COORDINATES" nx ws
  let (y, ws) ← coordinates "Y_COORDINATES" ny ws
  let (z, ws) ← coordinates "Z_COORDINATES" nz ws
  let (name, values) ← scalars (cellsOf nx * cellsOf ny * cellsOf nz) ws
  pure { x, y, z, name, values }

/-- As `readRect`, whatever the number of words after the head of the values; these are the `values` of the result. -/
def readRectHead (s : List Char) : Option RectGrid := do
  let ws ← header s
  let ws ← expect "DATASET" ws
  let ws ← expect "RECTILINEAR_GRID" ws
  let ((nx, ny, nz), ws) ← dimensions ws
  let (x, ws) ← coordinates "X_COORDINATES" nx ws
  let (y, ws) ← coordinates "Y_COORDINATES" ny ws
  let (z, ws) ← coordinates "Z_COORDINATES" nz ws
  let ws ← expect "CELL_DATA" ws
  let (n, ws) ← number ws
  if n ≠ cellsOf nx * cellsOf ny * cellsOf nz then failure
  let ws ← expect "SCALARS" ws
  let (name, ws) ← nextWords 1 ws
  let ws ← floatType ws
  let ws := (expect "1" ws).getD ws
  let ws ← expect "LOOKUP_TABLE" ws
  let values ← expect "default" ws
  pure { x, y, z, name := name.flatten, values }

/-- The value in cell `(i, j, k)`: the first axis varies fastest. -/
def RectGrid.value (g : RectGrid) (i j k : Nat) : Option (List Char) :=
  g.values[i + cellsOf g.x.length * (j + cellsOf g.y.length * k)]?

/-- What a structured grid file contains. -/
structure StructGrid where
  nx : Nat
  ny : Nat
  nz : Nat
  /-- three coordinates for each node -/
  coords : List (List Char)
  name : List Char
  values : List (List Char)
  deriving DecidableEq, Repr

/-- Read a structured grid file. -/
def readStruct (s : List Char) : Option StructGrid := do
  let ws ← header s
  let ws ← expect "DATASET" ws
  let ws ← expect "STRUCTURED_GRID" ws
  let ((nx, ny, nz), ws) ← dimensions ws
  let ws ← expect "POINTS" ws
  let (n, ws) ← number ws
  if n ≠ nx * ny * nz then failure
  let ws ← floatType ws
  let (coords, ws) ← nextWords (3 * n) ws
  let (name, values) ← scalars (cellsOf nx * cellsOf ny * cellsOf nz) ws
  pure { nx, ny, nz, coords, name, values }

/-- The coordinates of node `(i, j, k)`: the first axis varies fastest. -/
def StructGrid.point (g : StructGrid) (i j k : Nat) : List (List Char) :=
  (g.coords.drop (3 * (i + g.nx * (j + g.ny * k)))).take 3

/-- Node `i` of `n` equal cells between `lo` and `hi`. -/
def gridNode {R : Type} [Add R] [Sub R] [Mul R] [Div R] [NatCast R] (lo hi : R) (n i : Nat) : R :=
  lo + (hi - lo) * (i : R) / (n : R)

/-- The value in cell `(i, j, k)`: the first axis varies fastest. -/
def StructGrid.value (g : StructGrid) (i j k : Nat) : Option (List Char) :=
  g.values[i + cellsOf g.nx * (j + cellsOf g.ny * k)]?

end Fidi.Spec
