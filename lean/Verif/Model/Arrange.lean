import Verif.Model.Scaffold
import Verif.Model.Mlearn

/-! # Model of ababe/stru/scaffold2d.py (`SitesGrid2d`, `CStru2d`) and ababe/mlearn/arrangeAgent.py -/

namespace Verif

/-! ### two-dimensional grids -/

/-- A `SitesGrid2d` object (ababe/stru/scaffold2d.py:9-22). The class has no method that changes the rows. -/
structure Grid2d where
  sites : List (List Specie)
  width : ℕ
  length : ℕ
  deriving DecidableEq, Repr

/-- `SitesGrid2d(sites)` (ababe/stru/scaffold2d.py:11-14): `len(sites[0])` -/
def Grid2d.new (sites : List (List Specie)) : Py Grid2d :=
  match sites with
  | [] => .error .indexError
  | r :: rs => .ok ⟨r :: rs, rs.length + 1, r.length⟩

/-- `SitesGrid2d.sea(width, length, sp)` (ababe/stru/scaffold2d.py:24-29); `range` of a negative number is empty -/
def Grid2d.sea (width length : ℤ) (sp : Specie) : Py Grid2d :=
  Grid2d.new (List.replicate width.toNat (List.replicate length.toNat sp))

/-- `g == other` (ababe/stru/scaffold2d.py:31-33); `none` is `None`. For another grid `other == None` is the same method with the roles
exchanged and returns False. -/
def Grid2d.pyEq (g : Grid2d) (other : Option Grid2d) : Bool :=
  match other with
  | none => false
  | some h => pyListEq (pyListEq Specie.pyEq) g.sites h.sites

/-- `get_array()` (ababe/stru/scaffold2d.py:35-38) of a rectangular grid; `np.vectorize` rejects arrays without elements -/
def Grid2d.getArray (g : Grid2d) : Py (List (List ℤ)) :=
  if g.sites.flatten.length = 0 then .error .valueError else .ok (g.sites.map fun r => r.map (·.Z))

/-- `SitesGrid2d.from_array(arr)` (ababe/stru/scaffold2d.py:40-44): `Specie` has no attribute `to_sp`; `np.vectorize` evaluates the
function only on arrays with elements and rejects the others -/
def Grid2d.fromArray (arr : List (List ℤ)) : Py Grid2d :=
  if arr.flatten.length = 0 then .error .valueError else .error .attributeError

/-- a 2 × 2 matrix, by rows -/
abbrev M2 := (ℚ × ℚ) × (ℚ × ℚ)

/-- A `CStru2d` object (ababe/stru/scaffold2d.py:46-55) -/
structure CStru2d where
  m : M2
  grid : Grid2d
  width : ℕ
  length : ℕ
  deriving DecidableEq, Repr

/-- `CStru2d(m, sg)` (ababe/stru/scaffold2d.py:47-51) -/
def CStru2d.new (m : M2) (sg : Grid2d) : CStru2d := ⟨m, sg, sg.width, sg.length⟩

/-- `get_array()` (ababe/stru/scaffold2d.py:57-58) -/
def CStru2d.getArray (s : CStru2d) : Py (List (List ℤ)) := s.grid.getArray

/-- `get_midpoint()` (ababe/stru/scaffold2d.py:60-63) -/
def CStru2d.getMidpoint (s : CStru2d) : ℤ × ℤ := (((s.width / 2 : ℕ) : ℤ), ((s.length / 2 : ℕ) : ℤ))

/-- `_pos2coor(pos)` (ababe/stru/scaffold2d.py:74-78) -/
def pos2coor2 (m : M2) (pos : ℤ × ℤ) : ℚ × ℚ :=
  let a := m.1; let b := m.2
  let x : ℚ := pos.1; let y : ℚ := pos.2
  (a.1 * x + b.1 * y, a.2 * x + b.2 * y)

/-- `p_gen()` (ababe/stru/scaffold2d.py:80-83) -/
def CStru2d.pGen (s : CStru2d) : List (ℤ × ℤ) :=
  (List.range s.width).flatMap fun (x : ℕ) => (List.range s.length).map fun (y : ℕ) => ((x : ℤ), (y : ℤ))

/-- what `get_neighbors` returns: a set of positions, or – when there is exactly one neighbour – the set of its coordinates -/
inductive Neighbours2
  | positions (l : List (ℤ × ℤ))
  | coordinates (l : List ℤ)
  deriving DecidableEq, Repr

/-- `set(itemgetter(*ind)(keys))` (ababe/stru/scaffold2d.py:94-95), see `selectNeighbours` -/
def selectNeighbours2 (sel : List (ℤ × ℤ)) : Py Neighbours2 :=
  match sel with
  | [] => .error .typeError
  | [p] => .ok (.coordinates [p.1, p.2].dedup)
  | p :: q :: rest => .ok (.positions (p :: q :: rest))

/-- `get_neighbors(pos, delta)` (ababe/stru/scaffold2d.py:72-95), see `CStru.getNeighbors` -/
def CStru2d.getNeighbors (s : CStru2d) (pos : ℤ × ℤ) (delta : ℚ) : Py Neighbours2 :=
  let point := pos2coor2 s.m pos
  if pos ∈ s.pGen then
    let keys := s.pGen.erase pos
    if keys = [] then .error .valueError
    else selectNeighbours2 (keys.filter fun q => decide (0 ≤ delta) &&
      decide (((pos2coor2 s.m q).1 - point.1) ^ 2 + ((pos2coor2 s.m q).2 - point.2) ^ 2 ≤ delta ^ 2))
  else .error .keyError

/-! ### arrangement problems -/

section walk
variable {α : Type} [DecidableEq α]

/-- The loop of `random_walk_arrange` (ababe/mlearn/arrange.py:26-32) for neighbours that may fail. `random.randint(0, k - 1)` is
`i % k` for the next number `i` of `rand`, so that `rand` ranges over all its possible results. -/
def walkE (goal : ℕ → Bool) (nbrs : α → Py (List α)) : List ℕ → List α → RPS α → Option (Py (List α))
  | rand, path, frontier =>
    if goal path.length then some (.ok path)
    else match rand with
      | [] => none
      | i :: rand =>
        match frontier.randomPop (i % frontier.list.length) with
        | .error e => some (.error e)
        | .ok (_, none) => some (.error .typeError)
        | .ok (f', some current) =>
          let path' := path ++ [current]
          match nbrs current with
          | .error e => some (.error e)
          | .ok ns => walkE goal nbrs rand path' (ns.foldl (fun f p => if p ∈ path' then f else f.add p) f')
termination_by structural rand => rand

/-- `random_walk_arrange(problem)` (ababe/mlearn/arrange.py:16-35) -/
def problemWalk (start : α) (goal : ℕ → Bool) (nbrs : α → Py (List α)) (rand : List ℕ) : Option (Py (List α)) :=
  match nbrs start with
  | .error e => some (.error e)
  | .ok ns => walkE goal nbrs rand [start] (ns.foldl RPS.add RPS.empty)

end walk

/-- the positions of a neighbour set in the iteration order `iter`. Simplification: a set of coordinates, whose items are no positions,
is a TypeError here (in the code, when one of them is popped). -/
def iterPositions2 (iter : List (ℤ × ℤ) → List (ℤ × ℤ)) (r : Py Neighbours2) : Py (List (ℤ × ℤ)) :=
  match r with
  | .error e => .error e
  | .ok (.positions l) => .ok (iter l)
  | .ok (.coordinates _) => .error .typeError

/-- see `iterPositions2` -/
def iterPositions3 (iter : List (V3 ℤ) → List (V3 ℤ)) (r : Py Neighbours) : Py (List (V3 ℤ)) :=
  match r with
  | .error e => .error e
  | .ok (.positions l) => .ok (iter l)
  | .ok (.coordinates _) => .error .typeError

/-- the lattice of `Boron2dArrangeProblem` (ababe/mlearn/arrangeAgent.py:13) -/
def boronM : M2 := ((2, 0), (1, 1732058 / 1000000))

/-- the structure of `Boron2dArrangeProblem(goal_num)` (ababe/mlearn/arrangeAgent.py:11-18) -/
def boronStru (n : ℤ) : Py CStru2d := do
  let sg ← Grid2d.new (List.replicate n.toNat (List.replicate n.toNat .ghost))
  return CStru2d.new boronM sg

/-- `random_walk_arrange(Boron2dArrangeProblem(n))` (ababe/mlearn/arrangeAgent.py:9-32, ababe/mlearn/arrange.py:16-35); `iter` is the
iteration order of sets -/
def boronWalk (iter : List (ℤ × ℤ) → List (ℤ × ℤ)) (n : ℤ) (rand : List ℕ) : Option (Py (List (ℤ × ℤ))) :=
  match boronStru n with
  | .error e => some (.error e)
  | .ok s => problemWalk s.getMidpoint (fun k => decide ((k : ℤ) = n)) (fun p => iterPositions2 iter (s.getNeighbors p (21 / 10))) rand

/-- the lattice of `FCC3dArrangeProblem` (ababe/mlearn/arrangeAgent.py:38-40) -/
def fccM : M3 ℚ := ((0, 1 / 2, 1 / 2), (1 / 2, 0, 1 / 2), (1 / 2, 1 / 2, 0))

/-- the structure of `FCC3dArrangeProblem(goal_num)` (ababe/mlearn/arrangeAgent.py:36-46) -/
def fccStru (n : ℤ) : Py CStru :=
  CStru.new fccM (List.replicate n.toNat (List.replicate n.toNat (List.replicate n.toNat .ghost)))

/-- `random_walk_arrange(FCC3dArrangeProblem(n))` (ababe/mlearn/arrangeAgent.py:34-60) -/
def fccWalk (iter : List (V3 ℤ) → List (V3 ℤ)) (n : ℤ) (rand : List ℕ) : Option (Py (List (V3 ℤ))) :=
  match fccStru n with
  | .error e => some (.error e)
  | .ok s => problemWalk (V3.map (fun k : ℕ => (k : ℤ)) s.getMidpoint) (fun k => decide ((k : ℤ) = n))
      (fun p => iterPositions3 iter (s.getNeighbors p (21 / 10))) rand

end Verif
