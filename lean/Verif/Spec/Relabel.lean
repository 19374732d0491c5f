import Verif.Spec.Twin
import Mathlib.Data.Set.Function

/-! # The same cell with other elements -/

namespace Verif.Spec

/-- `c'` is `c` with every element renamed by `f`: the same lattice and positions, in the same order -/
structure Renamed (f : ℤ → ℤ) (c c' : GCell) : Prop where
  lattice : c'.lattice = c.lattice
  positions : c'.positions = c.positions
  numbers : c'.numbers = c.numbers.map f
  spgNumbers : c'.spgNumbers = c.spgNumbers.map f
  numCount : c'.numCount = c.numCount

/-- decorations of `N` sites with the elements `E` -/
def Rows (N : ℕ) (E : Set ℤ) : Set (List ℤ) := {l | l.length = N ∧ ∀ z ∈ l, z ∈ E}

end Verif.Spec
