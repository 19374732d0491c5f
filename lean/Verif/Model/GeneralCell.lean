import Verif.Model.Element

/-! # Model of `GeneralCell` (ababe/stru/scaffold.py:245-468), constructor, identity and symmetry part -/

namespace Verif

/-- A `GeneralCell` object (ababe/stru/scaffold.py:250-260): `_lattice`, `_positions`, `_numbers`, the numbers inside the
tuple `_spg_cell` (its lattice and positions are the same objects as the first two fields) and `_num_count`.
Simplification: `symprec` is only passed on to spglib and left out. -/
structure GCell where
  lattice : M3 ℚ
  positions : List (V3 ℚ)
  numbers : List ℤ
  spgNumbers : List ℤ
  numCount : ℕ
  deriving DecidableEq, Repr

/-- The coordinate reduction in `_get_new_id_seq` (ababe/stru/scaffold.py:276-278):
`np.around(x, 3)`, then `round(x % 1, 3)`. -/
def wrap3 (x : ℚ) : ℚ := around 3 (mod1 (around 3 x))

/-- the reduced coordinates of a site (ababe/stru/scaffold.py:276-278) -/
def siteKey (p : V3 ℚ) : V3 ℚ := V3.map wrap3 p

/-- `GeneralCell._get_new_id_seq(pos, numbers)` (ababe/stru/scaffold.py:268-284); the argument `numbers` is not used by the
code. An empty position array is rejected by `np.vectorize` / by the column selection. -/
def newIdSeq (pos : List (V3 ℚ)) : Py (List ℕ) :=
  if pos = [] then .error .valueError else .ok (lexsort3 (pos.map siteKey))

/-- `GeneralCell(lattice, positions, numbers)` (ababe/stru/scaffold.py:250-260) -/
def GCell.new (lattice : M3 ℚ) (positions : List (V3 ℚ)) (numbers : List ℤ) : Py GCell := do
  let initIndex ← newIdSeq positions
  let ps ← fancy positions initIndex
  let ns ← fancy numbers initIndex
  return { lattice := lattice, positions := ps, numbers := ns, spgNumbers := ns, numCount := numbers.length }

/-- `get_speckle_num(sp)` (ababe/stru/scaffold.py:262-266) -/
def GCell.getSpeckleNum (c : GCell) (sp : Specie) : ℕ := c.numbers.count sp.Z

/-- the setter `cell.numbers = arr` (ababe/stru/scaffold.py:302-304): `_spg_cell` is *not* updated -/
def GCell.setNumbers (c : GCell) (arr : List ℤ) : GCell := { c with numbers := arr }

/-- the property `id` (ababe/stru/scaffold.py:328-331); `hash` stands for `xxhash.xxh64(·).intdigest()` -/
def GCell.id (hash : List ℤ → ℕ) (c : GCell) : ℕ := hash c.numbers

/-- `np.transpose(np.matmul(r, positions.T)) + t` for one site (ababe/stru/scaffold.py:358, ababe/stru/sogen.py:252, 313) -/
def applyOp (op : M3 ℤ × V3 ℚ) (p : V3 ℚ) : V3 ℚ := mulVec (castM op.1) p + op.2

/-- `get_symmetry_permutation()` (ababe/stru/scaffold.py:347-362). `ops` is what `spglib.get_symmetry(self._spg_cell)`
returns (rotations zipped with translations). -/
def GCell.symmetryPermutation (c : GCell) (ops : List (M3 ℤ × V3 ℚ)) : Py (List (List ℕ)) :=
  ops.mapM fun op => newIdSeq (c.positions.map (applyOp op))

end Verif
