import Verif.Py.Dict
import Mathlib.Logic.Function.Basic
import Mathlib.Algebra.Field.Rat

/-! # Model of ababe/mlearn/mcts.py (Monte Carlo tree search)

Nodes live on a heap, so that parent pointers and the old nodes above a new root are visible. Numbers are exact rationals and `/`
is true division (see `Model/Mcts64.lean` for machine numbers). `np.sqrt` of a visit count is a parameter. The flag `py2` says whether
`dict.iteritems` exists: it does on Python 2 only, while `setup.py` declares Python 3. The items of a Python 2 dictionary come in an order
that depends on hash values: `iter` is any such order (children are stored in insertion order). -/

namespace Verif

/-- `TreeNode` (ababe/mlearn/mcts.py:16-24) -/
structure TNode (A : Type) where
  parent : Option ℕ
  children : List (A × ℕ)
  n : ℕ
  q : ℚ
  u : ℚ
  p : ℚ

/-- the heap of nodes, how many have been made, and which is the root of the search -/
structure MTree (A : Type) where
  node : ℕ → TNode A
  size : ℕ
  root : ℕ

/-- what a search is given (ababe/mlearn/mcts.py:109-132) and the game it plays -/
structure MGame (σ A : Type) where
  policy : σ → List (A × ℚ)
  value : σ → ℚ
  rollout : σ → List (A × ℚ)
  doMove : σ → A → σ
  player : σ → ℤ
  winner : σ → ℤ
  lmbda : ℚ
  cpuct : ℚ
  rolloutLimit : ℕ
  sqrt : ℕ → ℚ
  py2 : Bool
  iter : List (A × ℕ) → List (A × ℕ)
  iter_perm : ∀ l, (iter l).Perm l

variable {σ A : Type} [DecidableEq A]

/-- `TreeNode(parent, prior_p)` (ababe/mlearn/mcts.py:16-24) -/
def TNode.new (parent : Option ℕ) (prior : ℚ) : TNode A := ⟨parent, [], 0, 0, prior, prior⟩

/-- the tree of `MCTS(...)` (ababe/mlearn/mcts.py:124): one root node -/
def MTree.fresh : MTree A := ⟨fun _ => TNode.new none 1, 1, 0⟩

/-- one round of the loop of `expand` (ababe/mlearn/mcts.py:36-38) -/
def MTree.expandOne (t : MTree A) (i : ℕ) (ap : A × ℚ) : MTree A :=
  if dictHas (t.node i).children ap.1 then t
  else
    let node := Function.update t.node t.size (TNode.new (some i) ap.2)
    { t with node := Function.update node i { node i with children := dictSet (node i).children ap.1 t.size }, size := t.size + 1 }

/-- `expand(action_priors)` (ababe/mlearn/mcts.py:26-38) -/
def MTree.expand (t : MTree A) (i : ℕ) (aps : List (A × ℚ)) : MTree A := aps.foldl (fun t ap => t.expandOne i ap) t

/-- `max(xs, key=…)`: the first of the items with the largest key -/
def pyMax {β : Type} (key : β → ℚ) : List β → Option β
  | [] => none
  | x :: xs => some (xs.foldl (fun best y => if key best < key y then y else best) x)

/-- `get_value()` (ababe/mlearn/mcts.py:79-83) -/
def TNode.val (x : TNode A) : ℚ := x.q + x.u

/-- `select()` (ababe/mlearn/mcts.py:40-46) -/
def MTree.select (g : MGame σ A) (t : MTree A) (i : ℕ) : Py (A × ℕ) :=
  if g.py2 then
    match pyMax (fun an => (t.node an.2).val) (g.iter (t.node i).children) with
    | none => .error .valueError
    | some an => .ok an
  else .error .attributeError

/-- `update(leaf_value, c_puct)` (ababe/mlearn/mcts.py:48-66) -/
def MTree.update (sqrt : ℕ → ℚ) (t : MTree A) (i : ℕ) (v c : ℚ) : MTree A :=
  let x := t.node i
  let n := x.n + 1
  let q := x.q + (v - x.q) / n
  let u := match x.parent with
    | none => x.u
    | some j => c * x.p * sqrt (t.node j).n / (1 + n)
  { t with node := Function.update t.node i { x with n := n, q := q, u := u } }

/-- `update_recursive(leaf_value, c_puct)` (ababe/mlearn/mcts.py:68-77). `fuel` bounds the recursion; the number of nodes suffices. -/
def MTree.updateRec (sqrt : ℕ → ℚ) : ℕ → MTree A → ℕ → ℚ → ℚ → MTree A
  | 0, t, _, _, _ => t
  | fuel + 1, t, i, v, c =>
    match (t.node i).parent with
    | none => t.update sqrt i v c
    | some j => (MTree.updateRec sqrt fuel t j v c).update sqrt i v c

/-- the loop of `_playout` (ababe/mlearn/mcts.py:146-158): from node `i` and state `s`, at most so many moves down. Also returns the
moves played. -/
def MTree.descend (g : MGame σ A) : ℕ → MTree A → ℕ → σ → Py (MTree A × ℕ × σ × List A)
  | 0, t, i, s => .ok (t, i, s, [])
  | d + 1, t, i, s =>
    let leaf := (t.node i).children.isEmpty
    let aps := g.policy s
    if leaf && aps.isEmpty then .ok (t, i, s, [])
    else
      let t := if leaf then t.expand i aps else t
      match t.select g i with
      | .error e => .error e
      | .ok (a, j) =>
        match MTree.descend g d t j (g.doMove s a) with
        | .error e => .error e
        | .ok (t', k, s', as) => .ok (t', k, s', a :: as)

/-- the loop of `_evaluate_rollout` (ababe/mlearn/mcts.py:176-181): the state reached. `max(action_probs, key=itemgetter(1))` never
sees an empty list. -/
def rolloutState (g : MGame σ A) : ℕ → σ → σ
  | 0, s => s
  | k + 1, s =>
    match pyMax (fun ap : A × ℚ => ap.2) (g.rollout s) with
    | none => s
    | some ap => rolloutState g k (g.doMove s ap.1)

/-- `_evaluate_rollout(state, limit)` (ababe/mlearn/mcts.py:171-189) -/
def evaluateRollout (g : MGame σ A) (s : σ) : ℚ :=
  let w := g.winner (rolloutState g g.rolloutLimit s)
  if w = 0 then 0 else if w = g.player s then 1 else -1

/-- the leaf value (ababe/mlearn/mcts.py:164-166) -/
def leafValue (g : MGame σ A) (s : σ) : ℚ :=
  let v := if g.lmbda < 1 then g.value s else 0
  let z := if 0 < g.lmbda then evaluateRollout g s else 0
  (1 - g.lmbda) * v + g.lmbda * z

/-- `_playout(state, leaf_depth)` (ababe/mlearn/mcts.py:134-169). Also returns the moves played before the leaf was evaluated. The
tree is the new one only if no exception is raised. -/
def MTree.playout (g : MGame σ A) (t : MTree A) (s : σ) (depth : ℕ) : Py (MTree A × List A) :=
  match t.descend g depth t.root s with
  | .error e => .error e
  | .ok (t', i, s', as) => .ok (t'.updateRec g.sqrt t'.size i (leafValue g s') g.cpuct, as)

/-- the loop of `get_move` (ababe/mlearn/mcts.py:200-202): `state.copy()` is the same state each time -/
def MTree.playouts (g : MGame σ A) (s : σ) (depth : ℕ) : ℕ → MTree A → Py (MTree A × List (List A))
  | 0, t => .ok (t, [])
  | k + 1, t =>
    match t.playout g s depth with
    | .error e => .error e
    | .ok (t', as) =>
      match MTree.playouts g s depth k t' with
      | .error e => .error e
      | .ok (t'', ass) => .ok (t'', as :: ass)

/-- `get_move(state)` (ababe/mlearn/mcts.py:191-206) with `n_playout` and `playout_depth` -/
def MTree.getMove (g : MGame σ A) (t : MTree A) (s : σ) (depth nPlayout : ℕ) : Py (MTree A × A) :=
  match t.playouts g s depth nPlayout with
  | .error e => .error e
  | .ok (t', _) =>
    if g.py2 then
      match pyMax (fun an : A × ℕ => ((t'.node an.2).n : ℚ)) (g.iter (t'.node t'.root).children) with
      | none => .error .valueError
      | some an => .ok (t', an.1)
    else .error .attributeError

/-- `update_with_move(last_move)` (ababe/mlearn/mcts.py:208-216) -/
def MTree.updateWithMove (t : MTree A) (a : A) : MTree A :=
  match dictGet (t.node t.root).children a with
  | some j => { t with node := Function.update t.node j { t.node j with parent := none }, root := j }
  | none => { node := Function.update t.node t.size (TNode.new none 1), size := t.size + 1, root := t.size }

end Verif
