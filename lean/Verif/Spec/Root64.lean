import Verif.Spec.Binary64

/-! # Square roots in double precision -/

namespace Verif.Spec

/-- `s` is the square root of `x` rounded to one of its two neighbouring doubles: no double that is at most the root exceeds `s`, and no
double that is at least the root lies below `s`. (If the root is a double, `s` is the root.) This is what an error below one unit in the
last place amounts to. -/
def FaithfulRoot (x s : ℚ) : Prop :=
  IsDouble s ∧ 0 ≤ s ∧ (∀ d, IsDouble d → 0 ≤ d → d ^ 2 ≤ x → d ≤ s) ∧ ∀ d, IsDouble d → 0 ≤ d → x ≤ d ^ 2 → s ≤ d

/-- `s` is a double nearest to the square root of `x`: the root lies on the side of `s` of the midpoint of `s` and any other double -/
def NearestRoot (x s : ℚ) : Prop :=
  IsDouble s ∧ 0 ≤ s ∧ (∀ d, IsDouble d → s < d → x ≤ ((s + d) / 2) ^ 2) ∧ ∀ d, IsDouble d → 0 ≤ d → d < s → ((s + d) / 2) ^ 2 ≤ x

end Verif.Spec
