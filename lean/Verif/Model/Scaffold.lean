import Verif.Model.Element
import Verif.Py.Seq

/-! # Model of `SitesGrid` and `CStru` (ababe/stru/scaffold.py:20-242) -/

namespace Verif

/-- a nested list `sites[d][w][l]` of species, or (with `ℤ`) a three-dimensional integer array as nested lists -/
abbrev Cube (α : Type) := List (List (List α))

/-- The heap of innermost lists (rows). `SitesGrid` objects refer to rows, and rows may be shared between grids. -/
abbrev RowHeap := List (List Specie)

/-- A `SitesGrid` object (ababe/stru/scaffold.py:26-30). `sites[d][w]` is the address of a row.
Simplification: the outer and the middle lists are values here, because no method of the class ever writes to them (a caller
who changes the list returned by the property `sites` is outside the model); rows are written by `__setitem__` and are kept
on the heap. -/
structure SGrid where
  sites : List (List ℕ)
  depth : ℕ
  width : ℕ
  length : ℕ
  deriving DecidableEq, Repr

/-- contents of a row -/
def RowHeap.row (h : RowHeap) (r : ℕ) : List Specie := h.getD r []

/-- `SitesGrid(sites)` (ababe/stru/scaffold.py:26-30): `sites[0]` and `sites[0][0]` raise IndexError on empty lists -/
def SGrid.new (h : RowHeap) (sites : List (List ℕ)) : Py SGrid :=
  match sites with
  | [] => .error .indexError
  | [] :: _ => .error .indexError
  | (r :: rs) :: rest => .ok ⟨(r :: rs) :: rest, rest.length + 1, rs.length + 1, (h.row r).length⟩

/-- evaluation of a nested list display: every row becomes a new list object -/
def allocCube (h : RowHeap) : Cube Specie → RowHeap × List (List ℕ)
  | [] => (h, [])
  | plane :: rest =>
    let refs := List.range' h.length plane.length
    let r := allocCube (h ++ plane) rest
    (r.1, refs :: r.2)

/-- `SitesGrid([[[…]]])` on a fresh nested list -/
def SGrid.ofCube (h : RowHeap) (cube : Cube Specie) : Py (RowHeap × SGrid) := do
  let r := allocCube h cube
  let g ← SGrid.new r.1 r.2
  return (r.1, g)

/-- the list comprehension in `sea` (ababe/stru/scaffold.py:34-36) -/
def seaCube (depth width length : ℕ) (sp : Specie) : Cube Specie :=
  (List.range depth).map fun _ => (List.range width).map fun _ => (List.range length).map fun _ => sp

/-- `SitesGrid.sea(depth, width, length, sp)` (ababe/stru/scaffold.py:32-38) -/
def SGrid.sea (h : RowHeap) (depth width length : ℕ) (sp : Specie) : Py (RowHeap × SGrid) :=
  SGrid.ofCube h (seaCube depth width length sp)

/-- `g[d, w, l]` (ababe/stru/scaffold.py:56-58) -/
def SGrid.getItem (h : RowHeap) (g : SGrid) (pos : V3 ℤ) : Py Specie := do
  let plane ← pyGet g.sites pos.1
  let r ← pyGet plane pos.2.1
  pyGet (h.row r) pos.2.2

/-- `g[d, w, l] = sp` (ababe/stru/scaffold.py:60-62) -/
def SGrid.setItem (h : RowHeap) (g : SGrid) (pos : V3 ℤ) (sp : Specie) : Py RowHeap := do
  let plane ← pyGet g.sites pos.1
  let r ← pyGet plane pos.2.1
  let row ← pySet (h.row r) pos.2.2 sp
  return h.set r row

/-- the nested list as seen by a reader -/
def SGrid.contents (h : RowHeap) (g : SGrid) : Cube Specie := g.sites.map fun plane => plane.map h.row

/-- `==` of Python lists whose elements are compared with `eq` -/
def pyListEq {α} (eq : α → α → Bool) (xs ys : List α) : Bool := xs.length == ys.length && (xs.zip ys).all fun p => eq p.1 p.2

/-- `==` of nested lists of species (ababe/stru/scaffold.py:67) -/
def cubeEq (a b : Cube Specie) : Bool := pyListEq (pyListEq (pyListEq Specie.pyEq)) a b

/-- `g == other` (ababe/stru/scaffold.py:64-67); `none` is `None` -/
def SGrid.pyEq (h : RowHeap) (g : SGrid) (other : Option SGrid) : Bool :=
  match other with
  | none => false
  | some g' => cubeEq (g.contents h) (g'.contents h)

/-- `g.deepCopy()` (ababe/stru/scaffold.py:69-72): `x[:][:]` copies the list `x` of rows (twice), not the rows; as lists of
row addresses are values here, the copy of `x` is `x`. -/
def SGrid.deepCopy (h : RowHeap) (g : SGrid) : Py SGrid := do
  let g' ← SGrid.new h g.sites
  return { g' with sites := g.sites.map fun x => x }

/-- number of entries of a nested list -/
def cubeSize {α} (c : Cube α) : ℕ := c.flatten.flatten.length

/-- entrywise application to a nested list -/
def cubeMap {α β} (f : α → β) (c : Cube α) : Cube β := c.map fun p => p.map fun r => r.map f

/-- `to_array()` (ababe/stru/scaffold.py:74-77) on the contents; `np.vectorize` rejects arrays without elements with
ValueError. Only rectangular contents are meant. -/
def cubeToArray (c : Cube Specie) : Py (Cube ℤ) :=
  if cubeSize c = 0 then .error .valueError else .ok (cubeMap (·.Z) c)

/-- `g.to_array()` (ababe/stru/scaffold.py:74-77) -/
def SGrid.toArray (h : RowHeap) (g : SGrid) : Py (Cube ℤ) := cubeToArray (g.contents h)

/-- the nested list of species built by `from_array` (ababe/stru/scaffold.py:79-83) -/
def cubeFromArray (arr : Cube ℤ) : Py (Cube Specie) :=
  if cubeSize arr = 0 then .error .valueError
  else arr.mapM fun p => p.mapM fun r => r.mapM Specie.fromNum

/-- `SitesGrid.from_array(arr)` (ababe/stru/scaffold.py:79-83) -/
def SGrid.fromArray (h : RowHeap) (arr : Cube ℤ) : Py (RowHeap × SGrid) := do
  let c ← cubeFromArray arr
  SGrid.ofCube h c

/-- cut a list into `k` pieces of length `n` -/
def chunks {α} (n : ℕ) : ℕ → List α → List (List α)
  | 0, _ => []
  | k + 1, l => l.take n :: chunks n k (l.drop n)

/-- `np.array(out).reshape((d, w, l))` (C order) for a list of length `d * w * l` -/
def reshape3 {α} (d w l : ℕ) (out : List α) : Cube α := (chunks (w * l) d out).map (chunks l w)

/-- overwriting in the inner loop of `gen_speckle` (ababe/stru/scaffold.py:101-102) -/
def putAll (out : List ℤ) (idx : List ℕ) (z : ℤ) : List ℤ := idx.foldl (fun o i => o.set i z) out

/-- `SitesGrid.gen_speckle(ssp, size, sp, noa)` (ababe/stru/scaffold.py:93-104); one nested list per yielded (fresh) grid.
The constructor can only fail on arrays without elements, which `from_array` rejects before. -/
def sgGenSpeckle (ssp : Specie) (size : ℕ × ℕ × ℕ) (sp : Specie) (noa : ℕ) : Py (List (Cube Specie)) :=
  let n := size.1 * size.2.1 * size.2.2
  (combinations (List.range n) noa).mapM fun w_on =>
    cubeFromArray (reshape3 size.1 size.2.1 size.2.2 (putAll (List.replicate n ssp.Z) w_on sp.Z))

/-- A `CStru` object (ababe/stru/scaffold.py:107-114), with the contents of its grid at the time of the call. -/
structure CStru where
  m : M3 ℚ
  grid : Cube Specie
  depth : ℕ
  width : ℕ
  length : ℕ
  deriving DecidableEq, Repr

/-- `CStru(m, SitesGrid(grid))` (ababe/stru/scaffold.py:26-30, 109-114) -/
def CStru.new (m : M3 ℚ) (grid : Cube Specie) : Py CStru :=
  match grid with
  | [] => .error .indexError
  | [] :: _ => .error .indexError
  | (r :: rs) :: rest => .ok ⟨m, (r :: rs) :: rest, rest.length + 1, rs.length + 1, r.length⟩

/-- `get_array()` (ababe/stru/scaffold.py:139-140) -/
def CStru.getArray (s : CStru) : Py (Cube ℤ) := cubeToArray s.grid

/-- `s == other` for another structure (ababe/stru/scaffold.py:142-145); `other.m == self.m` compares nested lists of numbers -/
def CStru.pyEq (s t : CStru) : Bool := decide (t.m = s.m) && cubeEq t.grid s.grid

/-- `CStru.from_array(m, arr)` (ababe/stru/scaffold.py:147-149) -/
def CStru.fromArray (m : M3 ℚ) (arr : Cube ℤ) : Py CStru := do
  let g ← cubeFromArray arr
  CStru.new m g

/-- `CStru.gen_speckle(m, ssp, size, sp, noa)` (ababe/stru/scaffold.py:151-154) -/
def CStru.genSpeckle (m : M3 ℚ) (ssp : Specie) (size : ℕ × ℕ × ℕ) (sp : Specie) (noa : ℕ) : Py (List CStru) := do
  let gs ← sgGenSpeckle ssp size sp noa
  gs.mapM (CStru.new m)

/-- `_yield_position(d, w, l)` (ababe/stru/scaffold.py:156-161) -/
def yieldPosition (d w l : ℕ) : List (V3 ℕ) :=
  (List.range d).flatMap fun c => (List.range w).flatMap fun b => (List.range l).map fun a => (c, b, a)

/-- the triple returned by `get_cell()` -/
structure SpgCell where
  lattice : M3 ℚ
  positions : List (V3 ℚ)
  numbers : List ℤ
  deriving DecidableEq, Repr

/-- `get_cell()` (ababe/stru/scaffold.py:163-180); `grid_position * frac` multiplies by `1/d`, `1/w`, `1/l` -/
def CStru.getCell (s : CStru) : Py SpgCell := do
  let arr ← s.getArray
  return { lattice := (V3.map ((s.depth : ℚ) * ·) s.m.1, V3.map ((s.width : ℚ) * ·) s.m.2.1, V3.map ((s.length : ℚ) * ·) s.m.2.2)
           positions := (yieldPosition s.depth s.width s.length).map fun p =>
             ((p.1 : ℚ) * (1 / s.depth), (p.2.1 : ℚ) * (1 / s.width), (p.2.2 : ℚ) * (1 / s.length))
           numbers := arr.flatten.flatten }

/-- `get_id_matrix(cell, d, w, l)` (ababe/stru/scaffold.py:199-203); `reshape` raises ValueError when the sizes do not fit -/
def getIdMatrix (cell : SpgCell) (d w l : ℕ) : Py (Cube ℤ) :=
  if cell.numbers.length = d * w * l then .ok (reshape3 d w l cell.numbers) else .error .valueError

/-- `get_midpoint()` (ababe/stru/scaffold.py:205-209) -/
def CStru.getMidpoint (s : CStru) : V3 ℕ := (s.depth / 2, s.width / 2, s.length / 2)

/-- `p_gen()` (ababe/stru/scaffold.py:226-230): the points `(x, y, z)` with `x < width`, `y < length`, `z < depth` -/
def CStru.pGen (s : CStru) : List (V3 ℤ) :=
  (List.range s.depth).flatMap fun (z : ℕ) => (List.range s.width).flatMap fun (x : ℕ) => (List.range s.length).map fun (y : ℕ) =>
    ((x : ℤ), (y : ℤ), (z : ℤ))

/-- `_pos2coor(pos)` (ababe/stru/scaffold.py:220-224) -/
def pos2coor (m : M3 ℚ) (pos : V3 ℤ) : V3 ℚ :=
  let a := m.1; let b := m.2.1; let c := m.2.2
  let x : ℚ := pos.1; let y : ℚ := pos.2.1; let z : ℚ := pos.2.2
  (a.1 * x + b.1 * y + c.1 * z, a.2.1 * x + b.2.1 * y + c.2.1 * z, a.2.2 * x + b.2.2 * y + c.2.2 * z)

/-- squared Euclidean distance -/
def gridDistSq (p q : V3 ℚ) : ℚ := (p.1 - q.1) ^ 2 + (p.2.1 - q.2.1) ^ 2 + (p.2.2 - q.2.2) ^ 2

/-- what `get_neighbors` returns: a set of positions, or – when there is exactly one neighbour – the set of that position's
three coordinates -/
inductive Neighbours
  | positions (l : List (V3 ℤ))
  | coordinates (l : List ℤ)
  deriving DecidableEq, Repr

/-- `set(itemgetter(*ind)(keys))` (ababe/stru/scaffold.py:241-242): `itemgetter()` without arguments is a TypeError, with one
argument the result is the bare item, which `set` then takes apart. The list is the set of items selected. -/
def selectNeighbours (sel : List (V3 ℤ)) : Py Neighbours :=
  match sel with
  | [] => .error .typeError
  | [p] => .ok (.coordinates [p.1, p.2.1, p.2.2].dedup)
  | p :: q :: rest => .ok (.positions (p :: q :: rest))

/-- `get_neighbors(pos, delta)` (ababe/stru/scaffold.py:218-242): `del coor_map[pos]` raises KeyError for a foreign position,
`cKDTree([])` raises ValueError, `query_ball_point` selects the points at distance at most `delta` (compared through squares;
a negative radius selects nothing). -/
def CStru.getNeighbors (s : CStru) (pos : V3 ℤ) (delta : ℚ) : Py Neighbours :=
  let point := pos2coor s.m pos
  if pos ∈ s.pGen then
    let keys := s.pGen.erase pos
    if keys = [] then .error .valueError
    else selectNeighbours (keys.filter fun q => decide (0 ≤ delta) && decide (gridDistSq (pos2coor s.m q) point ≤ delta ^ 2))
  else .error .keyError

end Verif
