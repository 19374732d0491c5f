import Verif.Model.GeneralCell
import Verif.Py.Seq

/-!
# Model of `Site` (ababe/stru/site.py), `ModifiedCell` (ababe/stru/scaffold.py:471-644) and the clarifiers
(ababe/stru/clarifier.py)

`Site` objects, the lists `_sites` and the cells are objects with identity; they live on a heap, references are numbers.
-/

namespace Verif

/-- A `Site` object (ababe/stru/site.py:6-15) -/
structure Site where
  position : V3 ℚ
  element : Specie
  deriving DecidableEq, Repr

/-- the argument `ele` of `Site(position, ele)`: a `Specie`, an `int`, or a symbol -/
inductive EleArg
  | specie (s : Specie)
  | num (n : ℤ)
  | symbol (s : String)

/-- `Site(position, ele)` (ababe/stru/site.py:8-15) -/
def Site.new (position : V3 ℚ) : EleArg → Py Site
  | .specie s => .ok ⟨position, s⟩
  | .num n => do let e ← Specie.fromNum n; return ⟨position, e⟩
  | .symbol s => do let e ← Specie.ofSymbol s; return ⟨position, e⟩

/-- `Site.__eq__` (ababe/stru/site.py:17-18) -/
def Site.pyEq (a b : Site) : Bool := decide (a.position = b.position) && a.element.pyEq b.element

/-- A `ModifiedCell` object: `_lattice` and the reference of the list object `_sites` (ababe/stru/scaffold.py:481-484) -/
structure MObj where
  lattice : M3 ℚ
  sitesRef : ℕ

/-- The heap: `Site` objects, list objects (of site references) and `ModifiedCell` objects; the numbers below the counters
are allocated. -/
structure World where
  site : ℕ → Site
  nSite : ℕ
  list : ℕ → List ℕ
  nList : ℕ
  cell : ℕ → MObj
  nCell : ℕ

/-- nothing allocated yet -/
def World.empty : World :=
  ⟨fun _ => ⟨0, Specie.ghost⟩, 0, fun _ => [], 0, fun _ => ⟨0, 0⟩, 0⟩

/-- the list of site references a cell holds: `self._sites` -/
def World.sitesOf (w : World) (c : ℕ) : List ℕ := w.list (w.cell c).sitesRef

/-- allocate a `Site` object -/
def World.allocSite (w : World) (s : Site) : World × ℕ :=
  ({ w with site := Function.update w.site w.nSite s, nSite := w.nSite + 1 }, w.nSite)

/-- allocate several `Site` objects, in order -/
def World.allocSites (w : World) : List Site → World × List ℕ
  | [] => (w, [])
  | s :: ss =>
    let (w1, r) := w.allocSite s
    let (w2, rs) := w1.allocSites ss
    (w2, r :: rs)

/-- allocate a cell with a new list object -/
def World.allocCell (w : World) (lattice : M3 ℚ) (l : List ℕ) : World × ℕ :=
  ({ w with
      list := Function.update w.list w.nList l, nList := w.nList + 1,
      cell := Function.update w.cell w.nCell ⟨lattice, w.nList⟩, nCell := w.nCell + 1 }, w.nCell)

/-- in-place change of the list object held by cell `c` -/
def World.setSites (w : World) (c : ℕ) (l : List ℕ) : World :=
  { w with list := Function.update w.list (w.cell c).sitesRef l }

/-- `self._sites = <new list>`: a new list object, the old one keeps its content -/
def World.rebindSites (w : World) (c : ℕ) (l : List ℕ) : World :=
  { w with
    list := Function.update w.list w.nList l, nList := w.nList + 1,
    cell := Function.update w.cell c ⟨(w.cell c).lattice, w.nList⟩ }

/-- `site.position = p` (ababe/stru/site.py:24-26) -/
def World.setPosition (w : World) (r : ℕ) (p : V3 ℚ) : World :=
  { w with site := Function.update w.site r { w.site r with position := p } }

/-- `site.element = e` (ababe/stru/site.py:32-34) -/
def World.setElement (w : World) (r : ℕ) (e : Specie) : World :=
  { w with site := Function.update w.site r { w.site r with element := e } }

/-- `ModifiedCell(lattice, positions, numbers)` (ababe/stru/scaffold.py:481-484): `zip` stops at the shorter array -/
def World.newCell (w : World) (lattice : M3 ℚ) (positions : List (V3 ℚ)) (numbers : List ℤ) : Py (World × ℕ) := do
  let ss ← (positions.zip numbers).mapM fun s => Site.new s.1 (.num s.2)
  let (w1, rs) := w.allocSites ss
  return w1.allocCell lattice rs

/-- `cell.positions` (ababe/stru/scaffold.py:520-522) -/
def World.positions (w : World) (c : ℕ) : List (V3 ℚ) := (w.sitesOf c).map fun r => (w.site r).position

/-- `cell.numbers` (ababe/stru/scaffold.py:524-526) -/
def World.numbers (w : World) (c : ℕ) : List ℤ := (w.sitesOf c).map fun r => (w.site r).element.Z

/-- `ModifiedCell.from_gcell(gcell)` (ababe/stru/scaffold.py:542-544) -/
def World.fromGcell (w : World) (g : GCell) : Py (World × ℕ) := w.newCell g.lattice g.positions g.numbers

/-- `cell.to_gcell()` (ababe/stru/scaffold.py:546-547) -/
def World.toGcell (w : World) (c : ℕ) : Py GCell := GCell.new (w.cell c).lattice (w.positions c) (w.numbers c)

/-- `product([-1, 0, 1], repeat=3)` (ababe/stru/scaffold.py:610) -/
def transList : List (V3 ℤ) :=
  [-1, 0, 1].flatMap fun x => [-1, 0, 1].flatMap fun y => [-1, 0, 1].map fun z => (x, y, z)

/-- `√a < r`, decided on squares -/
def sqrtLt (a r : ℚ) : Bool := decide (0 < r) && decide (a < r * r)

/-- `in_euclidean_discance(pos, center, r)` (ababe/stru/scaffold.py:600-618) with the cell's lattice; the loop returns at the
first image that is close enough -/
def inEuclideanDistance (lattice : M3 ℚ) (pos center : V3 ℚ) (r : ℚ) : Bool :=
  let cartCent := vecMul center lattice
  transList.any fun t =>
    let cartP := vecMul (pos + castV t) lattice
    sqrtLt (dot (cartP - cartCent) (cartP - cartCent)) r

/-- the `condition` of `get_points_incell_insphere` for one site (ababe/stru/scaffold.py:557-560) -/
def insphereCond (lattice : M3 ℚ) (center : V3 ℚ) (r : ℚ) (ele : Option Specie) (s : Site) : Bool :=
  match ele with
  | none => inEuclideanDistance lattice s.position center r
  | some e => inEuclideanDistance lattice s.position center r && s.element.pyEq e

/-- `get_points_incell_insphere(center, r, ele)` (ababe/stru/scaffold.py:549-564): the dictionary `index ↦ site`, in insertion
order -/
def World.insphere (w : World) (c : ℕ) (center : V3 ℚ) (r : ℚ) (ele : Option Specie) : List (ℕ × ℕ) :=
  ((w.sitesOf c).zipIdx.filter fun p => insphereCond (w.cell c).lattice center r ele (w.site p.1)).map fun p => (p.2, p.1)

/-- `remove_sites(indexs)` (ababe/stru/scaffold.py:628-635) -/
def World.removeSites (w : World) (c : ℕ) (indexs : List ℤ) : World :=
  w.rebindSites c (pyDropIndices (w.sitesOf c) indexs)

/-- `translate_sites(idx, vector)` (ababe/stru/scaffold.py:593-598) -/
def World.translateSites (w : World) (c : ℕ) (idx : ℤ) (vector : V3 ℚ) : Py World := do
  let target ← pyGet (w.sitesOf c) idx
  let oFrac := (w.site target).position
  let newCart := vecMul oFrac (w.cell c).lattice + vector
  let m ← inv (w.cell c).lattice
  let newFrac := vecMul newCart m
  return w.setPosition target newFrac

/-- `get_rand_vec` inside `perturb` (ababe/stru/scaffold.py:584-588). `rand` is the sequence of vectors `np.random.randn(3)`
will return, `norm` stands for `np.linalg.norm`; zero vectors are skipped by the recursion; `none`: the given part of the
random sequence is used up. -/
def randVec (norm : V3 ℚ → ℚ) (distance : ℚ) : List (V3 ℚ) → Option (V3 ℚ × List (V3 ℚ))
  | [] => none
  | v :: rand =>
    if norm v ≠ 0 then some (V3.map (fun x => x / norm v * distance) v, rand)
    else randVec norm distance rand

/-- the loop of `perturb` (ababe/stru/scaffold.py:590-591) over the given indices -/
def perturbLoop (norm : V3 ℚ → ℚ) (distance : ℚ) (c : ℕ) : List ℕ → World → List (V3 ℚ) → Option (Py World)
  | [], w, _ => some (.ok w)
  | i :: is, w, rand =>
    match randVec norm distance rand with
    | none => none
    | some (v, rand') =>
      match w.translateSites c i v with
      | .error e => some (.error e)
      | .ok w' => perturbLoop norm distance c is w' rand'

/-- `perturb(distance)` (ababe/stru/scaffold.py:574-591) -/
def World.perturb (w : World) (c : ℕ) (norm : V3 ℚ → ℚ) (distance : ℚ) (rand : List (V3 ℚ)) : Option (Py World) :=
  perturbLoop norm distance c (List.range (w.sitesOf c).length) w rand

/-- the memo table of `deepcopy` for the sites of a list: each distinct `Site` object is copied once -/
def copyLoop (w0 : World) : List ℕ → World → List (ℕ × ℕ) → World × List ℕ
  | [], w, _ => (w, [])
  | r :: rs, w, memo =>
    match memo.lookup r with
    | some r' =>
      let (w1, l) := copyLoop w0 rs w memo
      (w1, r' :: l)
    | none =>
      let (w1, r') := w.allocSite (w0.site r)
      let (w2, l) := copyLoop w0 rs w1 ((r, r') :: memo)
      (w2, r' :: l)

/-- `copy()` (ababe/stru/scaffold.py:641-644), i.e. `deepcopy(self)` -/
def World.copy (w : World) (c : ℕ) : World × ℕ :=
  let (w1, l) := copyLoop w (w.sitesOf c) w []
  w1.allocCell (w.cell c).lattice l

/-! ### Operations as data -/

/-- the operations of the API (with the arguments a caller can pass) -/
inductive MOp
  | newSite (p : V3 ℚ) (e : EleArg)
  | newCell (lattice : M3 ℚ) (positions : List (V3 ℚ)) (numbers : List ℤ)
  | setPosition (s : ℕ) (p : V3 ℚ)
  | setElement (s : ℕ) (e : Specie)
  | getItem (c : ℕ) (i : ℤ)
  | setItem (c : ℕ) (i : ℤ) (s : ℕ)
  | delItem (c : ℕ) (i : ℤ)
  | append (c s : ℕ)
  | insert (c : ℕ) (i : ℤ) (s : ℕ)
  | pop (c : ℕ) (i : ℤ)
  | extend (c : ℕ) (ss : List ℕ)
  | removeSites (c : ℕ) (idx : List ℤ)
  | len (c : ℕ)
  | iter (c : ℕ)
  | translate (c : ℕ) (i : ℤ) (v : V3 ℚ)
  | copy (c : ℕ)

/-- results of operations -/
inductive MVal
  | unit
  | site (r : ℕ)
  | cell (c : ℕ)
  | nat (n : ℕ)
  | sites (l : List ℕ)
  deriving DecidableEq, Repr

/-- a failing operation changes nothing -/
def keep (w : World) (x : Py (World × MVal)) : World × Py MVal :=
  match x with
  | .ok (w', v) => (w', .ok v)
  | .error e => (w, .error e)

/-- One call. `append` is also `append_site` (ababe/stru/scaffold.py:528-529, 620-622), `extend` also `append_sites` (537-540,
637-639), `pop` also `remove_site` (534-535, 624-626). Simplification: slices as indices and the mixin methods of
`MutableSequence` are not modelled; the argument of `extend` is a list of sites (not the cell itself). -/
def World.step (w : World) : MOp → World × Py MVal
  | .newSite p e => keep w do
      let s ← Site.new p e
      let (w', r) := w.allocSite s
      return (w', .site r)
  | .newCell L ps ns => keep w do
      let (w', c) ← w.newCell L ps ns
      return (w', .cell c)
  | .setPosition s p => (w.setPosition s p, .ok .unit)
  | .setElement s e => (w.setElement s e, .ok .unit)
  -- ababe/stru/scaffold.py:502-503
  | .getItem c i => keep w do
      let r ← pyGet (w.sitesOf c) i
      return (w, .site r)
  -- ababe/stru/scaffold.py:498-500
  | .setItem c i s => keep w do
      let l ← pySet (w.sitesOf c) i s
      return (w.setSites c l, .unit)
  -- ababe/stru/scaffold.py:505-506
  | .delItem c i => keep w do
      let l ← pyDel (w.sitesOf c) i
      return (w.setSites c l, .unit)
  -- ababe/stru/scaffold.py:528-529
  | .append c s => (w.setSites c (w.sitesOf c ++ [s]), .ok .unit)
  -- ababe/stru/scaffold.py:531-532
  | .insert c i s => (w.setSites c (pyInsert (w.sitesOf c) i s), .ok .unit)
  -- ababe/stru/scaffold.py:534-535
  | .pop c i => keep w do
      let r ← pyGet (w.sitesOf c) i
      let l ← pyDel (w.sitesOf c) i
      return (w.setSites c l, .site r)
  -- ababe/stru/scaffold.py:537-540: the loop appends one site at a time
  | .extend c ss => (ss.foldl (fun w s => w.setSites c (w.sitesOf c ++ [s])) w, .ok .unit)
  | .removeSites c idx => (w.removeSites c idx, .ok .unit)
  -- ababe/stru/scaffold.py:492-496
  | .len c => (w, .ok (.nat (w.sitesOf c).length))
  -- ababe/stru/scaffold.py:486-490
  | .iter c => (w, .ok (.sites (w.sitesOf c)))
  | .translate c i v => keep w do
      let w' ← w.translateSites c i v
      return (w', .unit)
  | .copy c => let (w', c') := w.copy c; (w', .ok (.cell c'))

/-- a history of calls: final heap and the results in order -/
def World.run (w : World) : List MOp → World × List (Py MVal)
  | [] => (w, [])
  | op :: ops =>
    let (w1, v) := w.step op
    let (w2, vs) := w1.run ops
    (w2, v :: vs)

/-! ### clarifiers -/

/-- `AtomRemoveClarifier(centers, r, element).clarify(cell)` (ababe/stru/clarifier.py:18-30) -/
def atomRemoveClarify (centers : List (V3 ℚ)) (r : ℚ) (element : Option Specie) (w : World) (c : ℕ) : World :=
  centers.foldl (fun w center =>
    let dsites := w.insphere c center r element
    w.removeSites c (dsites.map fun p => (p.1 : ℤ))) w

/-- The loop `for site in modcell` of `VerboseAtomRemoveClarifier.clarify` (ababe/stru/clarifier.py:44-48). The iterator reads
the list object `ref` (the one `_sites` was bound to when the loop started) at increasing positions `k`; `none`: not finished
after `fuel` steps. -/
def verboseLoop (etobesub : Specie) (r : ℚ) (element : Option Specie) (c ref : ℕ) : ℕ → ℕ → World → Option World
  | 0, _, _ => none
  | fuel + 1, k, w =>
    match (w.list ref)[k]? with
    | none => some w
    | some s =>
      if (w.site s).element.pyEq etobesub then
        let center := (w.site s).position
        let dsites := w.insphere c center r element
        verboseLoop etobesub r element c ref fuel (k + 1) (w.removeSites c (dsites.map fun p => (p.1 : ℤ)))
      else verboseLoop etobesub r element c ref fuel (k + 1) w

/-- `VerboseAtomRemoveClarifier(etobesub, r, element).clarify(cell)` (ababe/stru/clarifier.py:35-49) -/
def verboseClarify (fuel : ℕ) (etobesub : Specie) (r : ℚ) (element : Option Specie) (w : World) (c : ℕ) : Option World :=
  verboseLoop etobesub r element c (w.cell c).sitesRef fuel 0 w

end Verif
