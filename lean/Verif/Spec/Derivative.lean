import Verif.Spec.Lattice
import Verif.Spec.Symmetry

/-! # Specification vocabulary for derivative structures (independent of the model) -/

namespace Verif.Spec

/-- all atom positions of the infinite parent crystal, in fractional coordinates of the parent cell -/
def AtomSites (pos : List (V3 ℚ)) : Set (V3 ℚ) := {x | ∃ p ∈ pos, Cong p x}

/-- the infinite crystal with an atom of element `D x` on every site `x` of the parent crystal (Cartesian positions) -/
def Decorated (latt : M3 ℚ) (pos : List (V3 ℚ)) (D : V3 ℚ → ℤ) : Set (V3 ℚ × ℤ) :=
  {s | ∃ x ∈ AtomSites pos, s = (cartesian latt x, D x)}

/-- the elements repeat along every vector of the sublattice `L` of the parent's lattice -/
def PeriodicOn (pos : List (V3 ℚ)) (L : AddSubgroup (V3 ℤ)) (D : V3 ℚ → ℤ) : Prop :=
  ∀ x ∈ AtomSites pos, ∀ v ∈ L, D (x + ((v.1 : ℚ), (v.2.1 : ℚ), (v.2.2 : ℚ))) = D x

/-- the image of a decorated crystal (Cartesian positions) under an operation given in fractional coordinates of a cell -/
def Moved (latt : M3 ℚ) (g : Op) (S : Set (V3 ℚ × ℤ)) : Set (V3 ℚ × ℤ) :=
  {s | ∃ x z, (cartesian latt x, z) ∈ S ∧ s = (cartesian latt (g.image x), z)}

end Verif.Spec
