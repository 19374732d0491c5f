import Verif.Spec.Binary64
import Verif.Model.Mcts64
import Mathlib.Algebra.BigOperators.Group.List.Basic

/-! # What the value of a node should be -/

namespace Verif.Spec

/-- the arithmetic mean -/
def average (vs : List ℚ) : ℚ := vs.sum / vs.length

/-- the value really is a number of the machine, of absolute value at most `B` -/
def Leaf (B : ℚ) (v : PyNum) : Prop := IsDouble v.toRat ∧ |v.toRat| ≤ B

/-- the value is a float, not an integer -/
def IsFloat (v : PyNum) : Prop := ∃ x, v = .flt x

/-- the score the search is meant to maximise: mean value plus exploration bonus -/
def score (c p s : ℚ) (vs : List ℚ) : ℚ := average vs + c * p * s / (1 + vs.length)

end Verif.Spec
