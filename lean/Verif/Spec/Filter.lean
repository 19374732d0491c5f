import Verif.Spec.Distance
import Verif.Spec.Symmetry

/-! # Specification vocabulary for the filters of the applications (independent of the model) -/

namespace Verif.Spec

/-- any two different atoms of element `z` of the infinite crystal `S` (fractional coordinates of a cell with lattice `L`) are farther than `d` apart -/
def Apart (L : M3 ℚ) (S : Set (V3 ℚ × ℤ)) (z : ℤ) (d : ℚ) : Prop :=
  ∀ x y, (x, z) ∈ S → (y, z) ∈ S → x ≠ y → Farther d (cartesian L x) (cartesian L y)

/-- the only translations that carry the infinite crystal `S` onto itself are those by vectors of the lattice (integer vectors in fractional coordinates) -/
def PrimitiveCrystal (S : Set (V3 ℚ × ℤ)) : Prop :=
  ∀ t : V3 ℚ, (∀ x z, (x, z) ∈ S ↔ (x + t, z) ∈ S) → ∃ k : V3 ℤ, t = ((k.1 : ℚ), (k.2.1 : ℚ), (k.2.2 : ℚ))

/-- the operation keeps all distances of the lattice `L` -/
def Isometric (L : M3 ℚ) (g : Op) : Prop :=
  ∀ x y, distSq (cartesian L (g.image x)) (cartesian L (g.image y)) = distSq (cartesian L x) (cartesian L y)

/-- what is assumed of spglib's operations for a cell with lattice `L` and sites `pos`: they map the infinite crystal of sites exactly onto itself, form a
group, and are isometries -/
structure ExactSymmetry (L : M3 ℚ) (pos : List (V3 ℚ)) (ops : List Op) : Prop where
  contract : SymContract Cong pos ops
  unit : ∀ g ∈ ops, (g.1.1.1 * (g.1.2.1.2.1 * g.1.2.2.2.2 - g.1.2.1.2.2 * g.1.2.2.2.1) - g.1.1.2.1 * (g.1.2.1.1 * g.1.2.2.2.2 - g.1.2.1.2.2 * g.1.2.2.1) +
    g.1.1.2.2 * (g.1.2.1.1 * g.1.2.2.2.1 - g.1.2.1.2.1 * g.1.2.2.1)).natAbs = 1
  isometric : ∀ g ∈ ops, Isometric L g

/-- the decoration `m` of the sites `pos` is wanted: its crystal is primitive (if asked), has atoms of the restricted element, and these are farther apart than
the given distance (if there is a restriction) -/
structure Wanted (L : M3 ℚ) (pos : List (V3 ℚ)) (mpr : Bool) (restriction : Option (ℤ × ℚ)) (m : List ℤ) : Prop where
  primitive : mpr = true → PrimitiveCrystal (Crystal (pos.zip m))
  apart : ∀ z d, restriction = some (z, d) → z ∈ m ∧ Apart L (Crystal (pos.zip m)) z d

end Verif.Spec
