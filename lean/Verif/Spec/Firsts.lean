import Mathlib.Data.List.Basic

/-! # The first of every class in a list -/

namespace Verif.Spec

open Classical in
/-- the entries of a list that none of the entries before them, nor any of `pre`, is related to -/
noncomputable def firsts {α : Type*} (R : α → α → Prop) (pre : List α) : List α → List α
  | [] => []
  | a :: l => if ∃ q ∈ pre, R q a then firsts R (pre ++ [a]) l else a :: firsts R (pre ++ [a]) l

end Verif.Spec
