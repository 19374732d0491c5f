import Verif.Model.Binary64
import Verif.Model.Mcts

/-! # The statistics of a node of the tree search in the numbers Python has (ababe/mlearn/mcts.py:16-83)

`Model/Mcts.lean` computes with exact rationals. Here a number is a Python integer or a double, arithmetic on doubles rounds, and `/`
of two integers is what the interpreter makes of it: the file has no `from __future__ import division`, so on Python 2 (the only one
with `dict.iteritems`) it rounds down. -/

namespace Verif

/-- a number of Python: an integer or a double (infinities and NaN are left out) -/
inductive PyNum where
  | int (z : ℤ)
  | flt (x : ℚ)
deriving DecidableEq

/-- the number denoted -/
def PyNum.toRat : PyNum → ℚ
  | .int z => z
  | .flt x => x

/-- the double an operand is converted to when the other one is a double -/
def PyNum.toDouble : PyNum → ℚ
  | .int z => fl64 z
  | .flt x => x

/-- `a - b` (ababe/mlearn/mcts.py:62) -/
def PyNum.sub : PyNum → PyNum → PyNum
  | .int a, .int b => .int (a - b)
  | a, b => .flt (fl64 (a.toDouble - b.toDouble))

/-- `a + b` (ababe/mlearn/mcts.py:62, 83) -/
def PyNum.add : PyNum → PyNum → PyNum
  | .int a, .int b => .int (a + b)
  | a, b => .flt (fl64 (a.toDouble + b.toDouble))

/-- `a * b` (ababe/mlearn/mcts.py:166) -/
def PyNum.mul : PyNum → PyNum → PyNum
  | .int a, .int b => .int (a * b)
  | a, b => .flt (fl64 (a.toDouble * b.toDouble))

/-- `a / n` for a positive integer `n` (ababe/mlearn/mcts.py:62): two integers give the floor on Python 2 and the nearest double on
Python 3 -/
def PyNum.divNat (py2 : Bool) : PyNum → ℕ → PyNum
  | .int a, n => if py2 then .int (a / n) else .flt (fl64 (a / n))
  | .flt x, n => .flt (fl64 (x / fl64 n))

/-- the visit count and the value of a `TreeNode` (ababe/mlearn/mcts.py:19-20) -/
structure NodeStat where
  n : ℕ
  q : PyNum
deriving DecidableEq

/-- `_n_visits = 0`, `_Q = 0` (ababe/mlearn/mcts.py:19-20) -/
def NodeStat.new : NodeStat := ⟨0, .int 0⟩

/-- what `update(leaf_value, c_puct)` does to them (ababe/mlearn/mcts.py:60-62) -/
def NodeStat.update (py2 : Bool) (s : NodeStat) (v : PyNum) : NodeStat :=
  ⟨s.n + 1, s.q.add ((v.sub s.q).divNat py2 (s.n + 1))⟩

/-- a new node after `update` with these values, one after the other -/
def NodeStat.run (py2 : Bool) (vs : List PyNum) : NodeStat := vs.foldl (NodeStat.update py2) .new

/-- `c_puct * P * np.sqrt(N) / (1 + n)` (ababe/mlearn/mcts.py:66), where `s` is the double `np.sqrt` returned -/
def bonus64 (c p s : ℚ) (n : ℕ) : ℚ := fl64 (fl64 (fl64 (c * p) * s) / fl64 (1 + n))

/-- `get_value()` (ababe/mlearn/mcts.py:79-83) of a node that is not the root and has been visited -/
def NodeStat.val64 (c p s : ℚ) (x : NodeStat) : ℚ := (x.q.add (.flt (bonus64 c p s x.n))).toRat

/-- the leaf value (ababe/mlearn/mcts.py:164-166), with `v` and `z` what `value_fn` and `_evaluate_rollout` return -/
def leafNum (lmbda v z : PyNum) : PyNum :=
  let v := if lmbda.toRat < 1 then v else .int 0
  let z := if 0 < lmbda.toRat then z else .int 0
  (((PyNum.int 1).sub lmbda).mul v).add (lmbda.mul z)

end Verif
