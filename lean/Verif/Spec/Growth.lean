import Mathlib.Data.Set.Card
import Mathlib.Data.List.Nodup

/-! # Growth sequences: what a random walk arrangement may return -/

namespace Verif.Spec

variable {α : Type}

/-- a cluster grown from `start` one position at a time: no position twice, each later one next to an earlier one -/
structure Growth (start : α) (near : α → α → Prop) (path : List α) : Prop where
  head : path.head? = some start
  nodup : path.Nodup
  steps : ∀ (i : ℕ) (x : α), 0 < i → path[i]? = some x → ∃ j < i, ∃ y, path[j]? = some y ∧ near y x

/-- the positions at which a cluster can grow -/
def rim (near : α → α → Prop) (path : List α) : Set α := {x | x ∉ path ∧ ∃ y ∈ path, near y x}

/-- `rand` holds one number for every position after the first, each below the number of positions the cluster could grow at -/
def Draws (near : α → α → Prop) (path : List α) (rand : List ℕ) : Prop :=
  rand.length + 1 = path.length ∧ ∀ k i, rand[k]? = some i → i < (rim near (path.take (k + 1))).ncard

end Verif.Spec
