import Verif.Spec.Lattice

/-! # Specification vocabulary for superlattices of superlattices (independent of the model) -/

namespace Verif.Spec

/-- the lattice of a cell: all integer combinations of its basis vectors, as Cartesian vectors -/
def Translations (latt : M3 ℚ) : Set (V3 ℚ) := {v | ∃ k : V3 ℤ, v = cartesian latt ((k.1 : ℚ), (k.2.1 : ℚ), (k.2.2 : ℚ))}

end Verif.Spec
