import Verif.Model.Apps
import Verif.Model.Binary64
import Verif.Spec.Twin
import Verif.Spec.Distance

/-! # Vocabulary for C130: cells, files and runs with every number replaced by the nearest double

`fl64` is the nearest double by `C87_nearest`. -/

namespace Verif

/-- the vector of the nearest doubles -/
def dV (v : V3 ℚ) : V3 ℚ := V3.map fl64 v

/-- the matrix of the nearest doubles -/
def dM (m : M3 ℚ) : M3 ℚ := V3.map dV m

/-- the cell with every number replaced by the nearest double -/
def GCell.doubled (c : GCell) : GCell := { c with lattice := dM c.lattice, positions := c.positions.map dV }

/-- the mapping with every number replaced by the nearest double -/
def YDoc.doubled (d : YDoc) : YDoc :=
  { d with lattice := d.lattice.map dM, positions := d.positions.map (List.map dV), zoom := d.zoom.map fl64 }

/-- the text stays, the mapping is doubled -/
def FileContent.doubled : FileContent → FileContent
  | .text s => .text s
  | .doc d => .doc d.doubled

/-- all files doubled -/
def Fs.doubled (fs : Fs) : Fs := { fs with files := fs.files.map fun f => (f.1, f.2.doubled) }

namespace Spec

/-- a number with four decimals -/
def Four (t : ℚ) : Prop := ∃ n : ℤ, t = n / 10 ^ 4

/-- a cell of ordinary size whose numbers have four decimals, the fourth decimal of a coordinate not being 5 -/
structure Tame (c : GCell) : Prop where
  lattice : AllM (fun t => |t| ≤ 100 ∧ Four t) c.lattice
  positions : ∀ x ∈ c.positions, All3 (fun t => |t| ≤ 1 ∧ Four t ∧ Clear (1 / 10 ^ 5) t) x

/-- the numbers of an input file: the rounding to four decimals is not a close call, and the result is tame -/
structure TameInput (l : M3 ℚ) (ps : List (V3 ℚ)) : Prop where
  lattice : AllM (fun t => |t| ≤ 99 ∧ ∀ n : ℤ, 1 / 10 ^ 3 < |t * 10 ^ 4 - (n + 1 / 2)|) l
  positions : ∀ x ∈ ps, All3 (fun t => |t| ≤ 2 ∧ |around 4 t| ≤ 1 ∧ (∀ n : ℤ, 1 / 10 ^ 3 < |t * 10 ^ 4 - (n + 1 / 2)|) ∧
    Clear (1 / 10 ^ 5) (around 4 t)) x

/-- a file with such numbers and scale factor 1 -/
def TameContent : FileContent → Prop
  | .text s => ∀ z l ps ns, vaspParse s = .ok (z, l, ps, ns) → z = 1 ∧ TameInput l ps
  | .doc d => (∀ z, d.zoom = some z → z = 1) ∧ ∀ l ps, d.lattice = some l → d.positions = some ps → TameInput l ps

/-- spglib's answers for the cell with exact numbers and for the one with doubles agree: the same operations up to errors of `10⁻⁹` and
lattice vectors, the same letters, the same verdict about primitivity for every decoration -/
structure SpgAgrees (e : Ext) (c : GCell) : Prop where
  ops : List.Forall₂ (NearOp (1 / 10 ^ 9)) (e.symmetry c) (e.symmetry c.doubled)
  small : ∀ g ∈ e.symmetry c, ∀ r ∈ [g.1.1, g.1.2.1, g.1.2.2], |r.1| ≤ 10 ∧ |r.2.1| ≤ 10 ∧ |r.2.2| ≤ 10
  translations : ∀ g ∈ e.symmetry c.doubled, All3 (fun t => |t| ≤ 100) g.2
  clear : ∀ g ∈ e.symmetry c, ∀ x ∈ c.positions, All3 (Clear (1 / 10 ^ 5)) (Op.image g x)
  wyckoffs : e.wyckoffs c.doubled = e.wyckoffs c
  primitive : ∀ d : GCell, d.lattice = c.lattice → d.positions = c.positions → d.doubled.isPrimitive e = d.isPrimitive e

/-- `t'` is computed for `t`, and the error is too small to change how the number is written with six decimals -/
structure Steady (t t' : ℚ) : Prop where
  bound : |t| ≤ 10 ^ 4
  close : |t' - t| ≤ 1 / 10 ^ 10
  sign : t' < 0 ↔ t < 0
  clear : ∀ n : ℤ, 1 / 10 ^ 2 < |t * 10 ^ 6 - (n + 1 / 2)|

/-- the same for vectors -/
def Steady3 (x y : V3 ℚ) : Prop := Steady x.1 y.1 ∧ Steady x.2.1 y.2.1 ∧ Steady x.2.2 y.2.2

/-- the same for matrices -/
def SteadyM (x y : M3 ℚ) : Prop := Steady3 x.1 y.1 ∧ Steady3 x.2.1 y.2.1 ∧ Steady3 x.2.2 y.2.2

/-- two refined cells returned by spglib that differ by such errors; the coordinates are no close calls for sorting -/
structure SteadyTuple (p p' : M3 ℚ × List (V3 ℚ) × List ℤ) : Prop where
  lattice : SteadyM p.1 p'.1
  positions : List.Forall₂ Steady3 p.2.1 p'.2.1
  numbers : p'.2.2 = p.2.2
  clear : ∀ x ∈ p.2.1, All3 (Clear (1 / 10 ^ 6)) x

/-- spglib refines every decoration of the cell with exact numbers and of the one with doubles to the same cell, up to such errors -/
def RefineAgrees (e : Ext) (c : GCell) : Prop :=
  ∀ d : GCell, d.lattice = c.lattice → d.positions = c.positions →
    Option.Rel SteadyTuple (e.standardize (d.lattice, d.positions, d.numbers)) (e.standardize (d.doubled.lattice, d.doubled.positions, d.numbers))

/-- the bound is not too large, and no squared distance between sites in neighbouring cells is within `10⁻⁴` of its square -/
structure ClearDistances (c : GCell) (r : ℚ) : Prop where
  bound : |r| ≤ 1000
  margin : ∀ (p q : V3 ℚ) (t : V3 ℤ), p ∈ c.positions → q ∈ c.positions → Near t →
    1 / 10 ^ 4 < |distSq (cartesian c.lattice p) (cartesian c.lattice (shift q t)) - r ^ 2|

end Spec

/-- the options with the bound of the restriction replaced by the nearest double -/
def OccOpts.doubled (o : OccOpts) : OccOpts := { o with trs := o.trs.map fun t => (t.1, fl64 t.2) }

end Verif
