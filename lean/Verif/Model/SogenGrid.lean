import Verif.Model.Scaffold
import Verif.Model.Sogen
import Verif.Py.Text

/-! # Model of the grid functions of ababe/stru/sogen.py (lines 245-425) -/

namespace Verif

/-- `round(np.around(x, decimals=n) % 1, 3)` (ababe/stru/sogen.py:263-265 with `n = 10`, 295-297 with `n = 5`) -/
def keyN (n : ℕ) (x : ℚ) : ℚ := around 3 (mod1 (around n x))

/-- the sorting step of `_get_id_seq` and `get_new_id_seq` (ababe/stru/sogen.py:262-269, 294-303); `np.vectorize` rejects an
empty array with ValueError -/
def idSeqN (n : ℕ) (pos : List (V3 ℚ)) : Py (List ℕ) :=
  if pos = [] then .error .valueError else .ok (lexsort3 (pos.map (V3.map (keyN n))))

/-- `_get_id_seq(pos, arr_num)` (ababe/stru/sogen.py:259-272); `render` is `str` of a one-dimensional integer array -/
def getIdSeq (render : List ℤ → List Char) (pos : List (V3 ℚ)) (nums : List ℤ) : Py (List Char) := do
  let ind ← idSeqN 10 pos
  let seq ← fancy nums ind
  return render seq

/-- `is_stru_equal(struA, struB, ops)` (ababe/stru/sogen.py:245-257) -/
def isStruEqual (render : List ℤ → List Char) (a b : CStru) (ops : List (M3 ℤ × V3 ℚ)) : Py Bool := do
  let ca ← a.getCell
  let cb ← b.getCell
  let ida ← getIdSeq render ca.positions ca.numbers
  ops.foldlM (fun isEq op => do
    let id ← getIdSeq render (cb.positions.map (applyOp op)) cb.numbers
    return if id = ida then true else isEq) false

/-- `_get_atom_seq_identifier(numbers)` (ababe/stru/sogen.py:274-275): `str` of a list of integers -/
def atomSeqId (numbers : List ℤ) : List Char := '[' :: (pyJoin [',', ' '] (numbers.map intStr) ++ [']'])

/-- `_update_isoset(isoset, numbers, sym_perm)` (ababe/stru/sogen.py:277-286) -/
def updateIsosetStr (isoset : List (List Char)) (numbers : List ℤ) : List (List ℕ) → Py (List (List Char))
  | [] => .ok isoset
  | ind :: rest => do
    let s ← fancy numbers ind
    updateIsosetStr (atomSeqId s :: isoset) numbers rest

/-- `get_permutation_cell(cell)` (ababe/stru/sogen.py:305-317); `ops` is what spglib returns for the cell -/
def getPermutationCell (cell : SpgCell) (ops : List (M3 ℤ × V3 ℚ)) : Py (List (List ℕ)) :=
  ops.mapM fun op => idSeqN 5 (cell.positions.map (applyOp op))

/-- the loop of `gen_nodup_cstru` (ababe/stru/sogen.py:336-347) -/
def genNodupLoop (symPerm : List (List ℕ)) : List (List Char) → List CStru → Py (List CStru)
  | _, [] => .ok []
  | isoset, s :: rest => do
    let cell ← s.getCell
    if atomSeqId cell.numbers ∈ isoset then genNodupLoop symPerm isoset rest
    else do
      let isoset' ← updateIsosetStr isoset cell.numbers symPerm
      let out ← genNodupLoop symPerm isoset' rest
      return s :: out

/-- `gen_nodup_cstru(lattice, sea_ele, size, speckle, num)` (ababe/stru/sogen.py:319-347); `spg` stands for
`spglib.get_symmetry`, called on the cell of the grid filled with `sea_ele`. The progress bar has no effect on the result. -/
def genNodupCstru (spg : SpgCell → List (M3 ℤ × V3 ℚ)) (lattice : M3 ℚ) (sea : Specie) (size : ℕ × ℕ × ℕ) (speckle : Specie) (num : ℕ) :
    Py (List CStru) := do
  let mother ← CStru.new lattice (seaCube size.1 size.2.1 size.2.2 sea)
  let cell ← mother.getCell
  let symPerm ← getPermutationCell cell (spg cell)
  let dup ← CStru.genSpeckle lattice sea size speckle num
  genNodupLoop symPerm [] dup

/-- `lat_dict(lattice)` (ababe/stru/sogen.py:352-368); the parameter `s` is the floating point value of `sqrt(3)/2` -/
def latDict (s : ℚ) (name : String) : Py (M3 ℚ) :=
  if name = "bcc" then .ok ((-1/2, -1/2, -1/2), (-1/2, 1/2, 1/2), (1/2, -1/2, 1/2))
  else if name = "fcc" then .ok ((0, 1/2, 1/2), (1/2, 0, 1/2), (1/2, 1/2, 0))
  else if name = "scc" then .ok ((1, 0, 0), (0, 1, 0), (0, 0, 1))
  else if name = "triflat" then .ok ((0, 0, 20), (1, 0, 0), (1/2, s, 0))
  else .error .keyError

/-- append the first item once more -/
def wrapFirst {α} (l : List α) : List α := l ++ l.take 1

/-- `_pool_sites(sites_arr)` (ababe/stru/sogen.py:403-416) for an array with at least one entry -/
def poolSites (arr : Cube ℤ) : Cube ℤ := (wrapFirst arr).map fun plane => (wrapFirst plane).map wrapFirst

/-- `np.argwhere(pool == ele)` (ababe/stru/sogen.py:381): indices in C order -/
def argwhere (pool : Cube ℤ) (ele : ℤ) : List (V3 ℕ) :=
  pool.zipIdx.flatMap fun pi => pi.1.zipIdx.flatMap fun rj => rj.1.zipIdx.filterMap fun xk =>
    if xk.1 = ele then some (pi.2, rj.2, xk.2) else none

/-- `_index2coor(ind, m)` (ababe/stru/sogen.py:418-425) -/
def index2coor (m : M3 ℚ) (ind : V3 ℕ) : V3 ℚ :=
  let d : ℚ := ind.1; let w : ℚ := ind.2.1; let l : ℚ := ind.2.2
  (m.1.1 * d + m.2.1.1 * w + m.2.2.1 * l, m.1.2.1 * d + m.2.1.2.1 * w + m.2.2.2.1 * l,
   m.1.2.2 * d + m.2.1.2.2 * w + m.2.2.2.2 * l)

/-- `_min_dist(points)` (ababe/stru/sogen.py:388-401), squared: the pairs of `combinations(points, 2)`, starting at `9999` -/
def minDistSq (points : List (V3 ℚ)) : ℚ :=
  (combinations points 2).foldl (fun m pair => match pair with
    | [p, q] => if gridDistSq p q < m then gridDistSq p q else m
    | _ => m) (9999 ^ 2)

/-- `is_speckle_disjunct(cstru, speckle)` (ababe/stru/sogen.py:375-386): `min_d > 1.01`, compared through squares -/
def isSpeckleDisjunct (s : CStru) (speckle : Specie) : Py Bool := do
  let arr ← s.getArray
  let pts := (argwhere (poolSites arr) speckle.Z).map (index2coor s.m)
  return decide (minDistSq pts > (101 / 100) ^ 2)

end Verif
