import Verif.Py.Basic
import Mathlib.Algebra.Field.Rat

/-! # Lines of play and what a search may hold of a game, without any search -/

namespace Verif.Spec

variable {σ A : Type} [DecidableEq A]

/-- every move of the line `p`, played from `s`, is offered at the state where it is played -/
def Legal (offers : σ → List (A × ℚ)) (play : σ → A → σ) : σ → List A → Prop
  | _, [] => True
  | s, a :: p => a ∈ (offers s).map (·.1) ∧ Legal offers play (play s a) p

/-- positions a search should know after playouts along the given lines: the present one, and those reached by an offered move from a
position that some playout left by a move -/
def KnownLine (offers : σ → List (A × ℚ)) (play : σ → A → σ) (s : σ) (lines : List (List A)) (p : List A) : Prop :=
  p = [] ∨ ∃ q b, p = q ++ [b] ∧ (∃ l ∈ lines, ∃ c, q ++ [c] <+: l) ∧ b ∈ (offers (q.foldl play s)).map (·.1)

end Verif.Spec
