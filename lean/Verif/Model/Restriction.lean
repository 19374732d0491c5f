import Verif.Model.Grid
import Verif.Py.Text

/-! # Model of ababe/stru/restriction.py -/

namespace Verif

/-- squared Euclidean distance -/
def sqDist (u v : V3 ℚ) : ℚ := dot (u - v) (u - v)

/-- `pdist(points)` with squared distances: one entry per pair of rows `i < j` -/
def pdistSq : List (V3 ℚ) → List ℚ
  | [] => []
  | p :: ps => ps.map (sqDist p) ++ pdistSq ps

/-- `np.min`: `ValueError` on an empty array -/
def npMin : List ℚ → Py ℚ
  | [] => .error .valueError
  | x :: xs => .ok (xs.foldl min x)

/-- `√a > d`, decided on squares -/
def sqrtGt (a d : ℚ) : Bool := decide (d < 0) || decide (d * d < a)

/-- `MinDistanceRestriction((ele, d)).is_satisfied(gcell)` (ababe/stru/restriction.py:29-45). The minimum of the distances
is compared through its square. -/
def minDistSatisfied (ele : Specie) (d : ℚ) (c : GCell) : Py Bool := do
  let s ← c.supercell ((2, 0, 0), (0, 2, 0), (0, 0, 2))
  let cart ← s.getCartesian (some ele)
  let m ← npMin (pdistSq cart)
  return sqrtGt m d

/-- `SpaceGroupRestriction(l_sp).is_satisfied(gcell)` (ababe/stru/restriction.py:54-62); `spg` is the string returned by
`gcell.get_spacegroup()` (spglib), for example `'Pm (6)'`. `findall(...)[0]` raises `IndexError` without digits. -/
def spaceGroupSatisfied (lsp : List ℤ) (spg : List Char) : Py Bool :=
  match firstDigits spg with
  | none => .error .indexError
  | some ds => .ok (lsp.contains (natOfDigits ds : ℤ))

end Verif
