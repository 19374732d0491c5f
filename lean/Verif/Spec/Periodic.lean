import Verif.Spec.Grid
import Verif.Spec.Lattice
import Verif.Spec.Distance

/-! # Specification: the infinite periodic grid -/

namespace Verif.Spec

/-- in the infinite periodic repetition of the `d × w × l` grid `c`, the lattice site `p` holds `x` -/
def Holds {α} (d w l : ℕ) (c : List (List (List α))) (x : α) (p : V3 ℤ) : Prop :=
  entry c (p.1 % (d : ℤ)).toNat (p.2.1 % (w : ℤ)).toNat (p.2.2 % (l : ℤ)).toNat = some x

/-- Cartesian position of the lattice site `p` -/
def latticeSite (m : M3 ℚ) (p : V3 ℤ) : V3 ℚ := cartesian m ((p.1 : ℚ), (p.2.1 : ℚ), (p.2.2 : ℚ))

/-- no two sites holding `x` are within distance `r` -/
def Disjunct {α} (m : M3 ℚ) (r : ℚ) (d w l : ℕ) (c : List (List (List α))) (x : α) : Prop :=
  ∀ p q : V3 ℤ, p ≠ q → Holds d w l c x p → Holds d w l c x q → r ^ 2 < distSq (latticeSite m p) (latticeSite m q)

end Verif.Spec
