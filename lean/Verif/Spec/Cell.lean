import Verif.Py.Basic

/-! # Specification vocabulary for cells (independent of the model) -/

namespace Verif.Spec

/-- `r` is a multiple of 0.001 in `[0,1)` that agrees with `x` modulo 1 up to half a unit in the third decimal. -/
def IsReduced (x r : ℚ) : Prop :=
  (∃ m : ℤ, r = m / 1000) ∧ 0 ≤ r ∧ r < 1 ∧ ∃ z : ℤ, |x - (r + z)| ≤ 1 / 2000

/-- componentwise reduction of a site -/
def IsReduced3 (p k : V3 ℚ) : Prop := IsReduced p.1 k.1 ∧ IsReduced p.2.1 k.2.1 ∧ IsReduced p.2.2 k.2.2

/-- lexicographic order, first coordinate most significant -/
def LexLE (a b : V3 ℚ) : Prop :=
  a.1 < b.1 ∨ (a.1 = b.1 ∧ (a.2.1 < b.2.1 ∨ (a.2.1 = b.2.1 ∧ a.2.2 ≤ b.2.2)))

/-- strictly before, in lexicographic order -/
def LexLT (a b : V3 ℚ) : Prop :=
  a.1 < b.1 ∨ (a.1 = b.1 ∧ (a.2.1 < b.2.1 ∨ (a.2.1 = b.2.1 ∧ a.2.2 < b.2.2)))

/-- same point of the crystal: fractional coordinates differ by an integer vector -/
def Cong (p q : V3 ℚ) : Prop := ∃ z : V3 ℤ, q = p + ((z.1 : ℚ), (z.2.1 : ℚ), (z.2.2 : ℚ))

/-- same site in another periodic image: congruent position and the same element -/
def SameSite (s t : V3 ℚ × ℤ) : Prop := Cong s.1 t.1 ∧ s.2 = t.2

end Verif.Spec
