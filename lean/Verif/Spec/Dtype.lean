import Mathlib.Algebra.Ring.Int.Defs

/-! # Integer types (independent of the model) -/

namespace Verif.Spec

/-- `z` is one of the numbers of the signed or unsigned type with `w` bytes -/
def FitsInt (w : ℕ) (signed : Bool) (z : ℤ) : Prop :=
  if signed then -2 ^ (8 * w - 1) ≤ z ∧ z < 2 ^ (8 * w - 1) else 0 ≤ z ∧ z < 2 ^ (8 * w)

end Verif.Spec
