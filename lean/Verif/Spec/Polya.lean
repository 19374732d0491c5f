import Mathlib.Data.Nat.Choose.Basic
import Mathlib.Algebra.BigOperators.Group.Finset.Defs

/-! # Specification: the number of decorations of the icosahedral molecule (independent of the model) -/

namespace Verif.Spec

/-- ways to choose `k` sites as a union of some of `n` blocks of `m` sites -/
def blocks (n m k : ℕ) : ℕ := if m ∣ k then n.choose (k / m) else 0

/-- ways to choose `k` sites as a union of some of `s` single sites and of some of `n` pairs -/
def mixed (s n k : ℕ) : ℕ := ∑ a ∈ Finset.range (k + 1), s.choose a * blocks n 2 (k - a)

/-- fixed decorations with `k` marked sites, added over the 120 operations of the icosahedral group `I_h` acting on its 60-site orbit:
the identity, 24 fivefold and 20 threefold rotations, 15 twofold rotations and the inversion, 15 mirrors, 24 tenfold and 20 sixfold
rotation-reflections -/
def icosahedral (k : ℕ) : ℕ :=
  Nat.choose 60 k + 24 * blocks 12 5 k + 20 * blocks 20 3 k + 16 * blocks 30 2 k + 15 * mixed 4 28 k + 24 * blocks 6 10 k + 20 * blocks 10 6 k

end Verif.Spec
