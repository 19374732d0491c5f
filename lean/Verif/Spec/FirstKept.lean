import Verif.Spec.Occupation

/-! # Greedy selection

`FirstKept clash kept l out`: going through `l` in order, an item is dropped if an item kept before (those in `kept` included)
clashes with it, and kept otherwise; `out` is what was kept. -/

namespace Verif.Spec

inductive FirstKept {α : Type _} (clash : α → α → Prop) : List α → List α → List α → Prop
  | nil (kept : List α) : FirstKept clash kept [] []
  | drop {kept : List α} {a : α} {l out : List α} : (∃ r ∈ kept, clash r a) → FirstKept clash kept l out → FirstKept clash kept (a :: l) out
  | keep {kept : List α} {a : α} {l out : List α} : (¬ ∃ r ∈ kept, clash r a) → FirstKept clash (a :: kept) l out →
      FirstKept clash kept (a :: l) (a :: out)

end Verif.Spec
