import Mathlib.Data.Rat.Floor
import Mathlib.Algebra.Order.Floor.Ring
import Mathlib.Data.List.Sort

/-!
# Python, numpy and itertools primitives used by the code

These are not functions of /repo but the library functions the modelled code calls.
Floats are exact rationals (see DESIGN.md §2).
-/

namespace Verif

/-- Python exceptions as values. -/
inductive PyErr
  | keyError
  | indexError
  | valueError
  | typeError
  | linAlgError
  | unboundLocalError
  | attributeError
  | nameError
  | osError
  deriving DecidableEq, Repr

abbrev Py (α : Type _) := Except PyErr α

/-! ### numbers -/

/-- Round to the nearest integer, ties to even (`np.rint`, the rule of `np.around` and of Python's `round`). -/
def rint (q : ℚ) : ℤ :=
  let f := ⌊q⌋
  let r := q - f
  if r < 1 / 2 then f
  else if 1 / 2 < r then f + 1
  else if f % 2 = 0 then f else f + 1

/-- `np.around(x, decimals=k)` and Python's `round(x, k)` on exact numbers. -/
def around (k : ℕ) (x : ℚ) : ℚ := (rint (x * 10 ^ k) : ℚ) / 10 ^ k

/-- `x % 1` for a Python float / `np.mod(x, 1)`. -/
def mod1 (x : ℚ) : ℚ := x - ⌊x⌋

/-! ### 3-vectors and 3×3 matrices (rows) -/

abbrev V3 (α : Type _) := α × α × α
abbrev M3 (α : Type _) := V3 (V3 α)

def V3.map {α β} (f : α → β) (v : V3 α) : V3 β := (f v.1, f v.2.1, f v.2.2)

def V3.toList {α} (v : V3 α) : List α := [v.1, v.2.1, v.2.2]

section
variable {α : Type _} [CommRing α]

/-- dot product -/
def dot (u v : V3 α) : α := u.1 * v.1 + u.2.1 * v.2.1 + u.2.2 * v.2.2

/-- row vector times matrix: `np.matmul(v, m)` -/
def vecMul (v : V3 α) (m : M3 α) : V3 α :=
  (v.1 * m.1.1 + v.2.1 * m.2.1.1 + v.2.2 * m.2.2.1,
   v.1 * m.1.2.1 + v.2.1 * m.2.1.2.1 + v.2.2 * m.2.2.2.1,
   v.1 * m.1.2.2 + v.2.1 * m.2.1.2.2 + v.2.2 * m.2.2.2.2)

/-- matrix times column vector -/
def mulVec (m : M3 α) (v : V3 α) : V3 α := (dot m.1 v, dot m.2.1 v, dot m.2.2 v)

/-- `np.matmul(a, b)` -/
def matMul (a b : M3 α) : M3 α := (vecMul a.1 b, vecMul a.2.1 b, vecMul a.2.2 b)

/-- `m.T` -/
def transpose (m : M3 α) : M3 α :=
  ((m.1.1, m.2.1.1, m.2.2.1), (m.1.2.1, m.2.1.2.1, m.2.2.2.1), (m.1.2.2, m.2.1.2.2, m.2.2.2.2))

def det (m : M3 α) : α :=
  m.1.1 * (m.2.1.2.1 * m.2.2.2.2 - m.2.1.2.2 * m.2.2.2.1)
  - m.1.2.1 * (m.2.1.1 * m.2.2.2.2 - m.2.1.2.2 * m.2.2.1)
  + m.1.2.2 * (m.2.1.1 * m.2.2.2.1 - m.2.1.2.1 * m.2.2.1)

/-- adjugate -/
def adj (m : M3 α) : M3 α :=
  ((m.2.1.2.1 * m.2.2.2.2 - m.2.1.2.2 * m.2.2.2.1,
    m.1.2.2 * m.2.2.2.1 - m.1.2.1 * m.2.2.2.2,
    m.1.2.1 * m.2.1.2.2 - m.1.2.2 * m.2.1.2.1),
   (m.2.1.2.2 * m.2.2.1 - m.2.1.1 * m.2.2.2.2,
    m.1.1 * m.2.2.2.2 - m.1.2.2 * m.2.2.1,
    m.1.2.2 * m.2.1.1 - m.1.1 * m.2.1.2.2),
   (m.2.1.1 * m.2.2.2.1 - m.2.1.2.1 * m.2.2.1,
    m.1.2.1 * m.2.2.1 - m.1.1 * m.2.2.2.1,
    m.1.1 * m.2.1.2.1 - m.1.2.1 * m.2.1.1))

def identM : M3 α := ((1, 0, 0), (0, 1, 0), (0, 0, 1))

/-- scalar times matrix -/
def smulM (c : α) (m : M3 α) : M3 α := V3.map (V3.map (c * ·)) m

end

/-- integer vector as a rational vector -/
def castV (v : V3 ℤ) : V3 ℚ := V3.map (fun x : ℤ => (x : ℚ)) v
/-- integer matrix as a rational matrix -/
def castM (m : M3 ℤ) : M3 ℚ := V3.map castV m

/-- `np.linalg.inv`: `LinAlgError` on a singular matrix. -/
def inv (m : M3 ℚ) : Py (M3 ℚ) :=
  if det m = 0 then .error .linAlgError else .ok (smulM (1 / det m) (adj m))

/-! ### sequences -/

/-- `itertools.combinations(l, n)` in its documented (lexicographic by position) order. -/
def combinations {α} : List α → ℕ → List (List α)
  | _, 0 => [[]]
  | [], _ + 1 => []
  | x :: xs, n + 1 => (combinations xs n).map (x :: ·) ++ combinations xs (n + 1)

/-- numpy fancy indexing `xs[idx]` with non-negative indices: `IndexError` if one is out of range. -/
def fancy {α} (xs : List α) (idx : List ℕ) : Py (List α) :=
  idx.mapM fun i => match xs[i]? with
    | some v => .ok v
    | none => .error .indexError

/-- lexicographic `≤` on triples: first component most significant -/
def lexLe (a b : V3 ℚ) : Bool :=
  decide (a.1 < b.1) || (decide (a.1 = b.1) &&
    (decide (a.2.1 < b.2.1) || (decide (a.2.1 = b.2.1) && decide (a.2.2 ≤ b.2.2))))

/-- `np.lexsort((z, y, x))`: the *last* key (`x`) is the primary one; the sort is stable; the result lists indices.
(Written with a stable insertion sort; `sortedPairs_unique` shows that the result does not depend on the algorithm.) -/
def lexsort3 (keys : List (V3 ℚ)) : List ℕ :=
  ((keys.zipIdx).insertionSort (fun a b => lexLe a.1 b.1 = true)).map (·.2)

end Verif
