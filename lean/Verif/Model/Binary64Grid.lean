import Verif.Model.Binary64
import Verif.Model.SogenGrid

/-! # The grid functions of ababe/stru/sogen.py in double precision

`get_cell`, `get_permutation_cell`, `gen_nodup_cstru` and `is_stru_equal` a second time, with the IEEE 754 operations numpy and Python
perform, so that the two can be compared (C131). Simplification: no overflow, infinities and NaN. -/

namespace Verif

/-- `np.around(x, decimals=n)` (ababe/stru/sogen.py:263, 295): numpy multiplies by `10**n`, rounds to an integer and divides -/
def npAroundN (n : ℕ) (x : ℚ) : ℚ := fl64 (rint (fl64 (x * 10 ^ n)) / 10 ^ n)

/-- `round(np.around(x, decimals=n) % 1, 3)` (ababe/stru/sogen.py:263-265, 295-297) in double precision -/
def keyN64 (n : ℕ) (x : ℚ) : ℚ := pyRound3 (pyMod1 (npAroundN n x))

/-- the sorting step of `_get_id_seq` and `get_new_id_seq` (ababe/stru/sogen.py:262-269, 294-303) in double precision -/
def idSeqN64 (n : ℕ) (pos : List (V3 ℚ)) : Py (List ℕ) :=
  if pos = [] then .error .valueError else .ok (lexsort3 (pos.map (V3.map (keyN64 n))))

/-- `get_cell()` (ababe/stru/scaffold.py:163-180) in double precision: the quotients `1/d`, `1/w`, `1/l` are rounded, and so are the
products with them -/
def CStru.getCell64 (s : CStru) : Py SpgCell := do
  let arr ← s.getArray
  return { lattice := (V3.map (fun x => fl64 ((s.depth : ℚ) * x)) s.m.1, V3.map (fun x => fl64 ((s.width : ℚ) * x)) s.m.2.1,
             V3.map (fun x => fl64 ((s.length : ℚ) * x)) s.m.2.2)
           positions := (yieldPosition s.depth s.width s.length).map fun p =>
             (fl64 ((p.1 : ℚ) * fl64 (1 / s.depth)), fl64 ((p.2.1 : ℚ) * fl64 (1 / s.width)), fl64 ((p.2.2 : ℚ) * fl64 (1 / s.length)))
           numbers := arr.flatten.flatten }

/-- `_get_id_seq(pos, arr_num)` (ababe/stru/sogen.py:259-272) in double precision -/
def getIdSeq64 (render : List ℤ → List Char) (pos : List (V3 ℚ)) (nums : List ℤ) : Py (List Char) := do
  let ind ← idSeqN64 10 pos
  let seq ← fancy nums ind
  return render seq

/-- `is_stru_equal(struA, struB, ops)` (ababe/stru/sogen.py:245-257) in double precision -/
def isStruEqual64 (render : List ℤ → List Char) (a b : CStru) (ops : List (M3 ℤ × V3 ℚ)) : Py Bool := do
  let ca ← a.getCell64
  let cb ← b.getCell64
  let ida ← getIdSeq64 render ca.positions ca.numbers
  ops.foldlM (fun isEq op => do
    let id ← getIdSeq64 render (cb.positions.map (applyOp64 op)) cb.numbers
    return if id = ida then true else isEq) false

/-- `get_permutation_cell(cell)` (ababe/stru/sogen.py:305-317) in double precision -/
def getPermutationCell64 (cell : SpgCell) (ops : List (M3 ℤ × V3 ℚ)) : Py (List (List ℕ)) :=
  ops.mapM fun op => idSeqN64 5 (cell.positions.map (applyOp64 op))

/-- the loop of `gen_nodup_cstru` (ababe/stru/sogen.py:336-347) in double precision -/
def genNodupLoop64 (symPerm : List (List ℕ)) : List (List Char) → List CStru → Py (List CStru)
  | _, [] => .ok []
  | isoset, s :: rest => do
    let cell ← s.getCell64
    if atomSeqId cell.numbers ∈ isoset then genNodupLoop64 symPerm isoset rest
    else do
      let isoset' ← updateIsosetStr isoset cell.numbers symPerm
      let out ← genNodupLoop64 symPerm isoset' rest
      return s :: out

/-- `gen_nodup_cstru(lattice, sea_ele, size, speckle, num)` (ababe/stru/sogen.py:319-347) in double precision -/
def genNodupCstru64 (spg : SpgCell → List (M3 ℤ × V3 ℚ)) (lattice : M3 ℚ) (sea : Specie) (size : ℕ × ℕ × ℕ) (speckle : Specie)
    (num : ℕ) : Py (List CStru) := do
  let mother ← CStru.new lattice (seaCube size.1 size.2.1 size.2.2 sea)
  let cell ← mother.getCell64
  let symPerm ← getPermutationCell64 cell (spg cell)
  let dup ← CStru.genSpeckle lattice sea size speckle num
  genNodupLoop64 symPerm [] dup

end Verif
