import Verif.Py.Basic

/-! # Specification vocabulary for binary floating point (independent of the model) -/

namespace Verif.Spec

/-- the finite numbers of IEEE 754 binary64, without the upper limit of the exponent -/
def IsDouble (y : ℚ) : Prop := ∃ m k : ℤ, |m| < 2 ^ 53 ∧ -1074 ≤ k ∧ y = m * (2 : ℚ) ^ k

/-- `1000 x` keeps more than `δ` away from every half-integer, so that rounding `x` to three decimals is not a close call -/
def Clear (δ x : ℚ) : Prop := ∀ n : ℤ, δ < |1000 * x - (n + 1 / 2)|

/-- `x` has at most 20 binary digits after the point -/
def Dyadic20 (x : ℚ) : Prop := ∃ k : ℤ, x = k / 2 ^ 20

/-- the computed value `y` of the number `x` is as good as `x` for rounding to three decimals: it is either precise and not a close
call, or exact and its thousandfold can be computed exactly -/
def Faithful (x y : ℚ) : Prop := |x| ≤ 10 ^ 5 ∧ (|y - x| ≤ 1 / 10 ^ 10 ∧ Clear (1 / 10 ^ 6) x ∨ y = x ∧ IsDouble (1000 * x))

/-- the same for vectors -/
def Faithful3 (x y : V3 ℚ) : Prop := Faithful x.1 y.1 ∧ Faithful x.2.1 y.2.1 ∧ Faithful x.2.2 y.2.2

/-- the coordinates of a vector have a property -/
def All3 (P : ℚ → Prop) (v : V3 ℚ) : Prop := P v.1 ∧ P v.2.1 ∧ P v.2.2

/-- the entries of a matrix have a property -/
def AllM (P : ℚ → Prop) (m : M3 ℚ) : Prop := All3 P m.1 ∧ All3 P m.2.1 ∧ All3 P m.2.2

/-- two vectors differ by at most `ε` in every coordinate -/
def Within (ε : ℚ) (x y : V3 ℚ) : Prop := |y.1 - x.1| ≤ ε ∧ |y.2.1 - x.2.1| ≤ ε ∧ |y.2.2 - x.2.2| ≤ ε

/-- two matrices differ by at most `ε` in every entry -/
def WithinM (ε : ℚ) (a b : M3 ℚ) : Prop := Within ε a.1 b.1 ∧ Within ε a.2.1 b.2.1 ∧ Within ε a.2.2 b.2.2

end Verif.Spec
