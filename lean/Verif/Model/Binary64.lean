import Verif.Model.Sogen
import Verif.Model.Grid
import Mathlib.Data.Int.Log

/-! # The sorting of sites in double precision

The rest of the model computes with exact numbers. Here the functions that decide the order of the sites are modelled a second time
with the IEEE 754 operations numpy and Python perform, so that the two can be compared (C87).
Simplification: no overflow, infinities and NaN; the theorems bound the numbers. -/

namespace Verif

/-- the exponent of the last place of the doubles around `x` -/
def ulpExp (x : ℚ) : ℤ := max (Int.log 2 |x| - 52) (-1074)

/-- the double nearest to `x`, ties to even (the rounding of every arithmetic operation) -/
def fl64 (x : ℚ) : ℚ := rint (x / 2 ^ ulpExp x) * 2 ^ ulpExp x

/-- `np.around(x, decimals=3)` (ababe/stru/scaffold.py:276): numpy multiplies by 1000, rounds to an integer and divides by 1000 -/
def npAround3 (x : ℚ) : ℚ := fl64 (rint (fl64 (x * 1000)) / 1000)

/-- C's `fmod(x, 1)`: exact, with the sign of `x` -/
def fmod1 (x : ℚ) : ℚ := if 0 ≤ x then x - ⌊x⌋ else x - ⌈x⌉

/-- Python's `x % 1` (ababe/stru/scaffold.py:277): `fmod`, and 1 added if the remainder is negative -/
def pyMod1 (x : ℚ) : ℚ := if fmod1 x < 0 then fl64 (fmod1 x + 1) else fmod1 x

/-- Python's `round(x, 3)` (ababe/stru/scaffold.py:277): the double nearest to the correctly rounded decimal -/
def pyRound3 (x : ℚ) : ℚ := fl64 (rint (x * 1000) / 1000)

/-- the coordinate reduction of `_get_new_id_seq` (ababe/stru/scaffold.py:276-278) in double precision -/
def wrap64 (x : ℚ) : ℚ := pyRound3 (pyMod1 (npAround3 x))

/-- `_get_new_id_seq(pos, numbers)` (ababe/stru/scaffold.py:268-284) in double precision -/
def newIdSeq64 (pos : List (V3 ℚ)) : Py (List ℕ) :=
  if pos = [] then .error .valueError else .ok (lexsort3 (pos.map (V3.map wrap64)))

/-- `GeneralCell(lattice, positions, numbers)` (ababe/stru/scaffold.py:250-260) in double precision -/
def GCell.new64 (lattice : M3 ℚ) (positions : List (V3 ℚ)) (numbers : List ℤ) : Py GCell := do
  let initIndex ← newIdSeq64 positions
  let ps ← fancy positions initIndex
  let ns ← fancy numbers initIndex
  return { lattice := lattice, positions := ps, numbers := ns, spgNumbers := ns, numCount := numbers.length }

/-- one coordinate of `np.matmul(r, positions.T) + t` (ababe/stru/scaffold.py:358) in double precision, added from left to right
(the order of the additions is the library's choice; `C87_images` covers every order) -/
def coord64 (r : V3 ℤ) (t : ℚ) (p : V3 ℚ) : ℚ :=
  fl64 (fl64 (fl64 (fl64 (r.1 * p.1) + fl64 (r.2.1 * p.2.1)) + fl64 (r.2.2 * p.2.2)) + t)

/-- `np.transpose(np.matmul(r, positions.T)) + t` for one site (ababe/stru/scaffold.py:358) in double precision -/
def applyOp64 (op : M3 ℤ × V3 ℚ) (p : V3 ℚ) : V3 ℚ :=
  (coord64 op.1.1 op.2.1 p, coord64 op.1.2.1 op.2.2.1 p, coord64 op.1.2.2 op.2.2.2 p)

/-- `get_symmetry_permutation()` (ababe/stru/scaffold.py:347-362) in double precision -/
def GCell.symmetryPermutation64 (c : GCell) (ops : List (M3 ℤ × V3 ℚ)) : Py (List (List ℕ)) :=
  ops.mapM fun op => newIdSeq64 (c.positions.map (applyOp64 op))

/-- `OccupyGenerator(general_cell)` (ababe/stru/sogen.py:33-40) in double precision -/
def OGen.new64 (c : GCell) (ops : List (M3 ℤ × V3 ℚ)) (wy : List String) : Py OGen := do
  let perms ← c.symmetryPermutation64 ops
  return { init := c, perms := perms, wyckoffs := wy }

/-! ### superlattices

The inverse matrices come from LAPACK; `comp` is whatever was computed, and the theorems assume how far it may be off. -/

/-- `np.all(np.mod(h_mat, 1) == 0)` after `np.around(h_mat, decimals=3)` (ababe/stru/grid.py:42-43) in double precision -/
def isIntAround64 (m : M3 ℚ) : Bool :=
  (m.1.toList ++ m.2.1.toList ++ m.2.2.toList).all fun x => pyMod1 (npAround3 x) == 0

/-- the loop of `SuperLatticeCell.__eq__` (ababe/stru/grid.py:37-46) in double precision; `comp r` is the computed
`mul(mul(other.lat_coeff, inv(r.T)), inv(self.lat_coeff))` -/
def slEqLoop64 (comp : M3 ℤ → M3 ℚ) : List (M3 ℤ) → Bool
  | [] => false
  | r :: rs => if isIntAround64 (comp r) then true else slEqLoop64 comp rs

/-- the test on one coordinate (ababe/stru/grid.py:88, ababe/stru/scaffold.py:464) with the bounds as doubles -/
def inCell1_64 (x : ℚ) : Bool := decide (fl64 (-1 / 100000) ≤ x) && decide (x < fl64 (99999 / 100000))

/-- `np.all(..., axis=1)` (ababe/stru/grid.py:88-89, ababe/stru/scaffold.py:464-465) with the bounds as doubles -/
def inCell64 (v : V3 ℚ) : Bool := inCell1_64 v.1 && inCell1_64 v.2.1 && inCell1_64 v.2.2

/-- `get_frac_from_H(h_mat)` (ababe/stru/grid.py:79-92), `get_frac_from_mat(scale_mat)` (ababe/stru/scaffold.py:455-468); `comp v` is
the computed row of `mul(int_coor_all, inv(h_mat))` for the integer point `v` -/
def fracFrom64 (comp : V3 ℤ → V3 ℚ) (h : M3 ℤ) : Py (List (V3 ℚ)) :=
  if amax h ≤ 0 then .error .valueError
  else .ok (((intCoords (amax h * 3).toNat).map comp).filter inCell64)

/-- `to_general_cell()` (ababe/stru/grid.py:58-77) and `supercell` (ababe/stru/scaffold.py:441-453) in double precision; `latt` is the
computed lattice, `oUnit` the computed `np.matmul(positions, inv(h))` -/
def enlarge64 (latt : M3 ℚ) (oUnit : List (V3 ℚ)) (numbers : List ℤ) (comp : V3 ℤ → V3 ℚ) (h : M3 ℤ) : Py GCell := do
  let oPos ← fracFrom64 comp h
  if oUnit = [] then .error .valueError
  else
    let pos := oUnit.flatMap fun x => oPos.map fun o => V3.map fl64 (x + o)
    let nums ← repeatNumbers numbers (diagProd h)
    GCell.new64 latt pos nums

end Verif
