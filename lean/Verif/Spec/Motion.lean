import Verif.Spec.Derivative

/-! # Specification vocabulary for the motions that carry one derivative structure onto another (independent of the model) -/

namespace Verif.Spec

/-- a vector of integers as a vector of fractional coordinates -/
def intVec (v : V3 ℤ) : V3 ℚ := ((v.1 : ℚ), (v.2.1 : ℚ), (v.2.2 : ℚ))

/-- a matrix of integers as a matrix of rationals -/
def intMat (m : M3 ℤ) : M3 ℚ := (intVec m.1, intVec m.2.1, intVec m.2.2)

/-- an operation followed by a translation along a lattice vector -/
def Op.shift (g : Op) (v : V3 ℤ) : Op := (g.1, g.2 + intVec v)

/-- the operations form the symmetry group of a crystal, up to lattice translations: they contain the identity, products and inverses and
carry every atom onto an atom of the same element -/
structure SpaceGroup (sites : List (V3 ℚ × ℤ)) (ops : List Op) : Prop where
  one : ∃ g ∈ ops, ∃ v, ∀ x, g.image x = x + intVec v
  mul : ∀ f ∈ ops, ∀ g ∈ ops, ∃ h ∈ ops, ∃ v, ∀ x, f.image (g.image x) = h.image x + intVec v
  inv : ∀ f ∈ ops, ∃ g ∈ ops, ∃ v, ∀ x, g.image (f.image x) = x + intVec v
  keeps : ∀ g ∈ ops, ∀ s ∈ Crystal sites, (g.image s.1, s.2) ∈ Crystal sites

/-- one crystal is the other, moved by an operation of the parent and a translation of the parent's lattice -/
def SameDerivative (latt : M3 ℚ) (ops : List Op) (X Y : Set (V3 ℚ × ℤ)) : Prop :=
  ∃ g ∈ ops, ∃ v, Moved latt (g.shift v) X = Y

/-- `ops'`, in coordinates of the superlattice with coefficients `h`, are the motions of the parent that keep this superlattice, up to
translations of the superlattice -/
structure Inherited (ops : List Op) (h : M3 ℤ) (ops' : List Op) : Prop where
  sound : ∀ f ∈ ops', ∃ g ∈ ops, ∃ v, (rowLattice h).map (rot g.1) = rowLattice h ∧
    ∀ x, cartesian (intMat h) (f.image x) = (g.shift v).image (cartesian (intMat h) x)
  complete : ∀ g ∈ ops, ∀ v, (rowLattice h).map (rot g.1) = rowLattice h →
    ∃ f ∈ ops', ∃ w, ∀ x, cartesian (intMat h) (f.image x + intVec w) = (g.shift v).image (cartesian (intMat h) x)

/-- `A` is the lattice of all translations of the parent that keep the decoration `D` -/
def ExactlyPeriodic (pos : List (V3 ℚ)) (A : AddSubgroup (V3 ℤ)) (D : V3 ℚ → ℤ) : Prop :=
  ∀ v, v ∈ A ↔ ∀ x ∈ AtomSites pos, D (x + intVec v) = D x

end Verif.Spec
