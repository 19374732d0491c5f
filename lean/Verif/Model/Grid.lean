import Verif.Model.GeneralCell
import Mathlib.Data.Nat.Sqrt

/-! # Model of ababe/stru/grid.py and of `GeneralCell.supercell` (ababe/stru/scaffold.py:419-468) -/

namespace Verif

/-! ### cells made from an integer matrix -/

/-- `np.amax(h_mat)` (ababe/stru/grid.py:83, ababe/stru/scaffold.py:459) -/
def amax (h : M3 ℤ) : ℤ :=
  max (max (max h.1.1 h.1.2.1) h.1.2.2) (max (max (max h.2.1.1 h.2.1.2.1) h.2.1.2.2)
    (max (max h.2.2.1 h.2.2.2.1) h.2.2.2.2))

/-- `product(range(m), repeat=3)` (ababe/stru/grid.py:84, ababe/stru/scaffold.py:460) -/
def intCoords (m : ℕ) : List (V3 ℤ) :=
  (List.range m).flatMap fun x : ℕ => (List.range m).flatMap fun y : ℕ => (List.range m).map fun z : ℕ => ((x : ℤ), (y : ℤ), (z : ℤ))

/-- the test `(frac >= -0.00001) & (frac < 0.99999)` on one coordinate (ababe/stru/grid.py:88, ababe/stru/scaffold.py:464) -/
def inCell1 (x : ℚ) : Bool := decide (-1 / 100000 ≤ x) && decide (x < 99999 / 100000)

/-- `np.all(..., axis=1)` of that test (ababe/stru/grid.py:88-89, ababe/stru/scaffold.py:464-465) -/
def inCell (v : V3 ℚ) : Bool := inCell1 v.1 && inCell1 v.2.1 && inCell1 v.2.2

/-- `SuperLatticeCell.get_frac_from_H(h_mat)` (ababe/stru/grid.py:79-92) and `GeneralCell.get_frac_from_mat(scale_mat)`
(ababe/stru/scaffold.py:455-468), which are the same text. A matrix without positive entry gives an empty coordinate
array, on which `matmul` raises. -/
def fracFrom (h : M3 ℤ) : Py (List (V3 ℚ)) := do
  let hi ← inv (castM h)
  if amax h ≤ 0 then .error .valueError
  else return ((intCoords (amax h * 3).toNat).map (fun v => vecMul (castV v) hi)).filter inCell

/-- `scale_mat.diagonal().prod()` (ababe/stru/grid.py:73, ababe/stru/scaffold.py:450) -/
def diagProd (h : M3 ℤ) : ℤ := h.1.1 * h.2.1.2.1 * h.2.2.2.2

/-- `np.repeat(numbers, n)` (ababe/stru/grid.py:74, ababe/stru/scaffold.py:451): `ValueError` for negative `n` -/
def repeatNumbers (numbers : List ℤ) (n : ℤ) : Py (List ℤ) :=
  if n < 0 then .error .valueError else .ok (numbers.flatMap fun z => List.replicate n.toNat z)

/-- the common body of `SuperLatticeCell.to_general_cell` (ababe/stru/grid.py:58-77) and `GeneralCell.supercell`
(ababe/stru/scaffold.py:441-453): new lattice, positions expressed in it, one copy per interior point, repeated numbers.
`np.concatenate` rejects an empty list of positions. -/
def enlarge (lattice : M3 ℚ) (positions : List (V3 ℚ)) (numbers : List ℤ) (h : M3 ℤ) : Py GCell := do
  let latt := matMul (castM h) lattice
  let hi ← inv (castM h)
  let oUnit := positions.map fun p => vecMul p hi
  let oPos ← fracFrom h
  if oUnit = [] then .error .valueError
  else
    let pos := oUnit.flatMap fun x => oPos.map fun o => x + o
    let nums ← repeatNumbers numbers (diagProd h)
    GCell.new latt pos nums

/-- `GeneralCell.supercell(scale_mat)` (ababe/stru/scaffold.py:435-453) -/
def GCell.supercell (c : GCell) (h : M3 ℤ) : Py GCell := enlarge c.lattice c.positions c.numbers h

/-- `GeneralCell.get_cartesian(ele)` (ababe/stru/scaffold.py:419-433) -/
def GCell.getCartesian (c : GCell) (ele : Option Specie) : Py (List (V3 ℚ)) :=
  match ele with
  | some e => do
    -- np.where(self.numbers == e)[0]
    let idx := (c.numbers.zipIdx.filter (fun p => p.1 == e.Z)).map (·.2)
    let pt ← fancy c.positions idx
    return pt.map fun p => vecMul p c.lattice
  | none => .ok (c.positions.map fun p => vecMul p c.lattice)

/-! ### superlattices -/

/-- A `SuperLatticeCell` (ababe/stru/grid.py:24-31). `rots` is `spglib.get_symmetry(...)['rotations']` of the unit cell. -/
structure SLCell where
  ub : M3 ℚ
  upositions : List (V3 ℚ)
  unumbers : List ℤ
  latCoeff : M3 ℤ
  rots : List (M3 ℤ)
  deriving DecidableEq

/-- `SuperLatticeCell(unit_gcell, lat_coeff)` (ababe/stru/grid.py:24-31) -/
def SLCell.new (unit : GCell) (rots : List (M3 ℤ)) (h : M3 ℤ) : SLCell :=
  ⟨unit.lattice, unit.positions, unit.numbers, h, rots⟩

/-- `np.all(np.mod(h_mat, 1) == 0)` after `np.around(h_mat, decimals=3)` (ababe/stru/grid.py:42-43) -/
def isIntAround (m : M3 ℚ) : Bool :=
  (m.1.toList ++ m.2.1.toList ++ m.2.2.toList).all fun x => mod1 (around 3 x) == 0

/-- the loop of `SuperLatticeCell.__eq__` (ababe/stru/grid.py:37-46) -/
def slEqLoop (hself hother : M3 ℤ) : List (M3 ℤ) → Py Bool
  | [] => .ok false
  | r :: rs => do
    let ri ← inv (castM (transpose r))
    let hInv := matMul (castM hother) ri
    let si ← inv (castM hself)
    let hMat := matMul hInv si
    if isIntAround hMat then return true else slEqLoop hself hother rs

/-- `SuperLatticeCell.__eq__` (ababe/stru/grid.py:33-46) -/
def SLCell.eq (self other : SLCell) : Py Bool := slEqLoop self.latCoeff other.latCoeff self.rots

/-- `to_general_cell()` (ababe/stru/grid.py:48-77) -/
def SLCell.toGeneralCell (s : SLCell) : Py GCell := enlarge s.ub s.upositions s.unumbers s.latCoeff

/-- the argument of `set(...)` in `factors` (ababe/stru/grid.py:100-102, 138-140): `reduce` without initial value raises
`TypeError` on an empty sequence. `int(n**0.5)` is modelled by the exact integer square root. -/
def factorsRaw (n : ℕ) : Py (List ℕ) :=
  match (List.range' 1 (Nat.sqrt n)).filter (fun i => n % i == 0) with
  | [] => .error .typeError
  | l => .ok (l.flatMap fun i => [i, n / i])

/-- `list(factors(n))` (ababe/stru/grid.py:99-102, 105): `setList l` is the list obtained by iterating over `set(l)`;
its order is left open. -/
def factors (setList : List ℕ → List ℕ) (n : ℕ) : Py (List ℕ) := do return setList (← factorsRaw n)

/-- one Hermite matrix (ababe/stru/grid.py:112-114) -/
def hnfMat (a b d c e f : ℕ) : M3 ℤ := (((a : ℤ), (b : ℤ), (d : ℤ)), ((0 : ℤ), (c : ℤ), (e : ℤ)), ((0 : ℤ), (0 : ℤ), (f : ℤ)))

/-- the matrices for one `a` (ababe/stru/grid.py:107-115) -/
def hnfMatsOf (setList : List ℕ → List ℕ) (n a : ℕ) : Py (List (M3 ℤ)) := do
  let cs ← factors setList (n / a)
  return cs.flatMap fun c => (List.range c).flatMap fun b =>
    (List.range (n / a / c)).flatMap fun d => (List.range (n / a / c)).map fun e => hnfMat a b d c e (n / a / c)

/-- the matrices built by `hnfs_from_n_dups` (ababe/stru/grid.py:104-115) -/
def hnfMats (setList : List ℕ → List ℕ) (n : ℕ) : Py (List (M3 ℤ)) := do
  let as ← factors setList n
  let ms ← as.mapM (hnfMatsOf setList n)
  return ms.flatten

/-- `SuperLatticeGenerator.hnfs_from_n_dups(unit_gcell, n)` (ababe/stru/grid.py:97-117) -/
def hnfsFromNDups (setList : List ℕ → List ℕ) (unit : GCell) (rots : List (M3 ℤ)) (n : ℕ) : Py (List SLCell) := do
  return (← hnfMats setList n).map (SLCell.new unit rots)

/-- `hnf in nodup_hnfs` (ababe/stru/grid.py:125, 160). CPython's `list.__contains__` calls `__eq__` on the list item or on
the searched object depending on the version: `itemFirst` chooses. (Identity of objects is irrelevant here: every
searched object is new.) -/
def slMem (itemFirst : Bool) (h : SLCell) : List SLCell → Py Bool
  | [] => .ok false
  | x :: xs => do if ← (if itemFirst then x.eq h else h.eq x) then return true else slMem itemFirst h xs

/-- the loop of `hnfs_from_n` (ababe/stru/grid.py:122-126, 157-161); `acc` is `nodup_hnfs` -/
def nodupLoop (itemFirst : Bool) : List SLCell → List SLCell → Py (List SLCell)
  | [], acc => .ok acc
  | h :: hs, acc => do if ← slMem itemFirst h acc then nodupLoop itemFirst hs acc else nodupLoop itemFirst hs (acc ++ [h])

/-- `SuperLatticeGenerator.hnfs_from_n(unit_gcell, n)` (ababe/stru/grid.py:119-130) -/
def hnfsFromN (setList : List ℕ → List ℕ) (itemFirst : Bool) (unit : GCell) (rots : List (M3 ℤ)) (n : ℕ) :
    Py (List SLCell) := do nodupLoop itemFirst (← hnfsFromNDups setList unit rots n) []

/-- the matrices built by the 2D `hnfs_from_n_dups` (ababe/stru/grid.py:142-150) -/
def hnfMats2D (setList : List ℕ → List ℕ) (n : ℕ) : Py (List (M3 ℤ)) := do
  let as ← factors setList n
  return as.flatMap fun a => (List.range (n / a)).map fun b => hnfMat a b 0 (n / a) 0 1

/-- `SuperLatticeGenerator2D.hnfs_from_n_dups(unit_gcell, n)` (ababe/stru/grid.py:135-152) -/
def hnfsFromNDups2D (setList : List ℕ → List ℕ) (unit : GCell) (rots : List (M3 ℤ)) (n : ℕ) : Py (List SLCell) := do
  return (← hnfMats2D setList n).map (SLCell.new unit rots)

/-- `SuperLatticeGenerator2D.hnfs_from_n(unit_gcell, n)` (ababe/stru/grid.py:154-165) -/
def hnfsFromN2D (setList : List ℕ → List ℕ) (itemFirst : Bool) (unit : GCell) (rots : List (M3 ℤ)) (n : ℕ) :
    Py (List SLCell) := do nodupLoop itemFirst (← hnfsFromNDups2D setList unit rots n) []

end Verif
