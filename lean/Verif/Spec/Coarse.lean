import Verif.Spec.Count
import Mathlib.Data.Set.Card

/-! # Two lists of structures, one made with fewer symmetry operations than the other -/

namespace Verif.Spec

open Classical in
/-- `out` was made with the operations `ops` and `full` with `all`, of the same structures `D`: nothing of `full` is missing from `out`
up to the operations `all`, and what occurs in it several times does not do so more often than the operations are fewer. -/
structure Oversplit (same : V3 ℚ → V3 ℚ → Prop) (key : V3 ℚ → V3 ℚ) (pos : List (V3 ℚ)) (ops all : List Op) (D : Set (List ℤ))
    (out full : List (List ℤ)) : Prop where
  covers : ∀ d ∈ D, ∃ r ∈ out, GeomEquiv key pos all r d
  repeats : ∀ d ∈ D, (out.filter fun r => GeomEquiv key pos all d r).length * (SiteSyms same pos ops).ncard ≤ (SiteSyms same pos all).ncard
  more : full.length ≤ out.length
  bounded : out.length * (SiteSyms same pos ops).ncard ≤ full.length * (SiteSyms same pos all).ncard

end Verif.Spec
