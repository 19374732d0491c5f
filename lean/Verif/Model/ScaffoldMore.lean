import Verif.Model.Scaffold
import Verif.Model.GeneralCell
import Verif.Model.Bucky

/-! # Remaining functions of `scaffold.py` and `buckyball.py` -/

namespace Verif

/-- `SitesGrid.random_fill(bsp, size, sp)` (ababe/stru/scaffold.py:85-91); `r` is the array returned by
`np.random.randint(2, size=size)`, which has the given size and entries 0 and 1 -/
def SGrid.randomFill (h : RowHeap) (bsp : Specie) (r : Cube ℤ) (sp : Specie) : Py (RowHeap × SGrid) :=
  SGrid.fromArray h (cubeMap (fun x => bsp.Z + (sp.Z - bsp.Z) * x) r)

/-- `get_gcell()` (ababe/stru/scaffold.py:182-185) -/
def CStru.getGcell (s : CStru) : Py GCell := do
  let c ← s.getCell
  GCell.new c.lattice c.positions c.numbers

/-- the eight bytes of a number in an `int64` array, lowest first (x86-64; two's complement) -/
def int64Bytes (v : ℤ) : List ℤ := (List.range 8).map fun k => v / 256 ^ k % 256

/-- `get_name()` (ababe/stru/buckyball.py:101-107): the bytes of `numbers` -/
def Bucky.getName (b : Bucky) : List ℤ := b.numbers.flatMap int64Bytes

/-- `to_gen()` (ababe/stru/buckyball.py:109-116) -/
def Bucky.toGen (b : Bucky) : List (List ℤ) := [b.numbers]

/-- `get_symmetry_permutation()` (ababe/stru/buckyball.py:67-81) -/
def Bucky.getSymmetryPermutation (b : Bucky) : List (List ℕ) := b.symPerm

/-- the first `next(nodup_generator())` (ababe/stru/buckyball.py:196-199): `atoms` is not defined -/
def Bucky.nodupGeneratorNext (_ : Bucky) : Py (List ℤ) := .error .nameError

end Verif
