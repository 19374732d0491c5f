import Verif.Spec.Grid

/-! # Specification vocabulary: the first and the last three sites of a grid -/

namespace Verif.Spec

/-- entry `[c][b][a]` is among the first three or the last three of a `d × w × l` grid, read row by row -/
def AtEnds (d w l c b a : ℕ) : Prop := (c * w + b) * l + a < 3 ∨ d * w * l ≤ (c * w + b) * l + a + 3

/-- like `Carries`, but only the first three and the last three entries of the second grid count -/
def CarriesEnds {α} (same : V3 ℚ → V3 ℚ → Prop) (d w l : ℕ) (op : Op) (A B : List (List (List α))) : Prop :=
  ∀ c b a c' b' a' : ℕ, c < d → b < w → a < l → c' < d → b' < w → a' < l → AtEnds d w l c' b' a' →
    same (op.image (site d w l c b a)) (site d w l c' b' a') → entry A c b a = entry B c' b' a'

end Verif.Spec
