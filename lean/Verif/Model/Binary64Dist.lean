import Verif.Model.Binary64
import Verif.Model.Restriction

/-! # The minimum-distance restriction in double precision

`Model/Restriction` decides the restriction with exact numbers. Here the same function with the IEEE 754 operations numpy and scipy
perform, so that the two can be compared (C93). `sq` stands for the square root of the C library.
Simplification: no overflow, infinities and NaN; sums of three terms are added from left to right. -/

namespace Verif

/-- `gcell.supercell([[2, 0, 0], [0, 2, 0], [0, 0, 2]])` (ababe/stru/restriction.py:34-37, ababe/stru/scaffold.py:435-468) in double
precision. The inverse of the matrix is exact and all but one term of each product with it are zero, so that one rounding is left. -/
def GCell.double64 (c : GCell) : Py GCell :=
  enlarge64 (V3.map (V3.map fun x => fl64 (2 * x)) c.lattice) (c.positions.map (V3.map fun x => fl64 (x / 2))) c.numbers
    (V3.map fun k : ℤ => fl64 ((k : ℚ) / 2)) ((2, 0, 0), (0, 2, 0), (0, 0, 2))

/-- a sum of three products in double precision -/
def dot64 (p l : V3 ℚ) : ℚ := fl64 (fl64 (fl64 (p.1 * l.1) + fl64 (p.2.1 * l.2.1)) + fl64 (p.2.2 * l.2.2))

/-- one row of `np.matmul(p_target, self.lattice)` (ababe/stru/scaffold.py:432) in double precision -/
def cart64 (L : M3 ℚ) (p : V3 ℚ) : V3 ℚ :=
  (dot64 p (L.1.1, L.2.1.1, L.2.2.1), dot64 p (L.1.2.1, L.2.1.2.1, L.2.2.2.1), dot64 p (L.1.2.2, L.2.1.2.2, L.2.2.2.2))

/-- `get_cartesian(ele)` (ababe/stru/scaffold.py:419-433) in double precision -/
def GCell.getCartesian64 (c : GCell) (e : Specie) : Py (List (V3 ℚ)) := do
  let pt ← fancy c.positions ((c.numbers.zipIdx.filter (fun p => p.1 == e.Z)).map (·.2))
  return pt.map (cart64 c.lattice)

/-- the sum of the squared differences of the coordinates in double precision -/
def sqDist64 (u v : V3 ℚ) : ℚ :=
  let x := fl64 (u.1 - v.1)
  let y := fl64 (u.2.1 - v.2.1)
  let z := fl64 (u.2.2 - v.2.2)
  fl64 (fl64 (fl64 (x * x) + fl64 (y * y)) + fl64 (z * z))

/-- scipy's `pdist(points)` (ababe/stru/restriction.py:41) in double precision: one distance per pair of rows `i < j` -/
def pdist64 (sq : ℚ → ℚ) : List (V3 ℚ) → List ℚ
  | [] => []
  | p :: ps => ps.map (fun q => sq (sqDist64 p q)) ++ pdist64 sq ps

/-- `MinDistanceRestriction((ele, d)).is_satisfied(gcell)` (ababe/stru/restriction.py:29-45) in double precision -/
def minDistSatisfied64 (sq : ℚ → ℚ) (ele : Specie) (d : ℚ) (c : GCell) : Py Bool := do
  let s ← c.double64
  let cart ← s.getCartesian64 ele
  let m ← npMin (pdist64 sq cart)
  return decide (d < m)

end Verif
