import Verif.Spec.Lattice
import Mathlib.Analysis.Real.Sqrt

/-! # Specification vocabulary for distances (independent of the model) -/

namespace Verif.Spec

/-- squared Euclidean distance -/
def distSq (u v : V3 ℚ) : ℚ := (u.1 - v.1) ^ 2 + (u.2.1 - v.2.1) ^ 2 + (u.2.2 - v.2.2) ^ 2

/-- the Euclidean distance of `u` and `v` is greater than `d` -/
def Farther (d : ℚ) (u v : V3 ℚ) : Prop := d < 0 ∨ d ^ 2 < distSq u v

/-- the Euclidean distance of `u` and `v` is smaller than `r` -/
def Closer (r : ℚ) (u v : V3 ℚ) : Prop := 0 < r ∧ distSq u v < r ^ 2

/-- `Farther` is the comparison of real numbers it stands for -/
theorem farther_iff_real (d : ℚ) (u v : V3 ℚ) : Farther d u v ↔ (d : ℝ) < Real.sqrt (distSq u v : ℚ) := by
  unfold Farther
  rcases lt_or_ge d 0 with h | h
  · have h1 : (d : ℝ) < 0 := by exact_mod_cast h
    exact ⟨fun _ => lt_of_lt_of_le h1 (Real.sqrt_nonneg _), fun _ => Or.inl h⟩
  · rw [Real.lt_sqrt (by exact_mod_cast h)]
    constructor
    · rintro (h' | h')
      · exact absurd h (not_le.2 h')
      · exact_mod_cast h'
    · intro h'
      exact Or.inr (by exact_mod_cast h')

/-- `Closer` is the comparison of real numbers it stands for -/
theorem closer_iff_real (r : ℚ) (u v : V3 ℚ) : Closer r u v ↔ Real.sqrt (distSq u v : ℚ) < (r : ℝ) := by
  unfold Closer
  rcases le_or_gt r 0 with h | h
  · have h1 : (r : ℝ) ≤ 0 := by exact_mod_cast h
    constructor
    · rintro ⟨h2, _⟩; exact absurd h (not_le.2 h2)
    · intro h2; exact absurd (lt_of_lt_of_le h2 h1) (not_lt.2 (Real.sqrt_nonneg _))
  · rw [Real.sqrt_lt' (by exact_mod_cast h)]
    constructor
    · rintro ⟨_, h'⟩; exact_mod_cast h'
    · intro h'; exact ⟨h, by exact_mod_cast h'⟩

/-- offsets to the 27 neighbouring cells (including the cell itself) -/
def Near (t : V3 ℤ) : Prop := (-1 ≤ t.1 ∧ t.1 ≤ 1) ∧ (-1 ≤ t.2.1 ∧ t.2.1 ≤ 1) ∧ (-1 ≤ t.2.2 ∧ t.2.2 ≤ 1)

/-- translate fractional coordinates by an integer vector -/
def shift (p : V3 ℚ) (t : V3 ℤ) : V3 ℚ := (p.1 + t.1, p.2.1 + t.2.1, p.2.2 + t.2.2)

end Verif.Spec
