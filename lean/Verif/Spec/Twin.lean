import Verif.Spec.Binary64
import Verif.Spec.Symmetry
import Verif.Model.GeneralCell

/-! # Cells that agree except for small errors in their coordinates -/

namespace Verif.Spec

/-- two computations end alike: both with results that are related, or both with the same exception -/
inductive SameOutcome {α β : Type*} (R : α → β → Prop) : Py α → Py β → Prop
  | ok {a b} : R a b → SameOutcome R (.ok a) (.ok b)
  | error (e) : SameOutcome R (.error e) (.error e)

/-- `c'` is `c` with other coordinates: the same elements at the same places of the list, every coordinate within `ε`; the lattices
are `L` and `L'` -/
structure Twin (ε : ℚ) (L L' : M3 ℚ) (c c' : GCell) : Prop where
  lattice : c.lattice = L
  lattice' : c'.lattice = L'
  numbers : c'.numbers = c.numbers
  spgNumbers : c'.spgNumbers = c.spgNumbers
  numCount : c'.numCount = c.numCount
  positions : List.Forall₂ (Within ε) c.positions c'.positions

/-- the same rotation, and translations that differ by at most `δ` in every coordinate, up to a lattice vector -/
def NearOp (δ : ℚ) (g g' : Op) : Prop :=
  g'.1 = g.1 ∧ ∃ v : V3 ℤ, Within δ (g.2.1 + v.1, g.2.2.1 + v.2.1, g.2.2.2 + v.2.2) g'.2

/-- sum of the absolute values of the entries of a row -/
def rowSum (r : V3 ℤ) : ℚ := |(r.1 : ℚ)| + |(r.2.1 : ℚ)| + |(r.2.2 : ℚ)|

/-- coordinates that may be off by `ε` and translations that may be off by `δ` cannot change how the coordinates of the image of `x` are
rounded to three decimals -/
def ClearImage (ε δ : ℚ) (g : Op) (x : V3 ℚ) : Prop :=
  Clear (1000 * (rowSum g.1.1 * ε + δ)) (g.image x).1 ∧ Clear (1000 * (rowSum g.1.2.1 * ε + δ)) (g.image x).2.1 ∧
    Clear (1000 * (rowSum g.1.2.2 * ε + δ)) (g.image x).2.2

end Verif.Spec
