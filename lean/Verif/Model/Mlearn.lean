import Verif.Py.Dict

/-! # Model of ababe/mlearn/dsutils.py (`RandomPopSet`) and ababe/mlearn/arrange.py (`random_walk_arrange`) -/

namespace Verif

/-- A `RandomPopSet` (ababe/mlearn/dsutils.py:10-14): the dictionary `map` and the list `list` -/
structure RPS (α : Type) where
  map : List (α × ℕ)
  list : List α
  deriving DecidableEq, Repr

variable {α : Type} [DecidableEq α]

/-- `RandomPopSet()` (ababe/mlearn/dsutils.py:10-12) -/
def RPS.empty : RPS α := ⟨[], []⟩

/-- `add(item)`, `push(item)` (ababe/mlearn/dsutils.py:25-31) -/
def RPS.add (s : RPS α) (x : α) : RPS α :=
  if dictHas s.map x then s else ⟨dictSet s.map x s.list.length, s.list ++ [x]⟩

/-- `discard(item)` (ababe/mlearn/dsutils.py:33-39); the `IndexError` branches cannot occur when `map` and `list` agree -/
def RPS.discard (s : RPS α) (x : α) : Py (RPS α) :=
  if dictHas s.map x then
    match dictGet s.map x with
    | none => .error .keyError
    | some index =>
      match s.list[index]?, s.list[s.list.length - 1]? with
      | some a, some b =>
        let l := (s.list.set index b).set (s.list.length - 1) a
        match l[index]? with
        | none => .error .indexError
        | some y =>
          let m := dictSet s.map y index
          .ok ⟨dictDel m x, l.dropLast⟩
      | _, _ => .error .indexError
  else .ok s

/-- `get_random()` (ababe/mlearn/dsutils.py:41-44); `i` is what `random.randint(0, len - 1)` returns -/
def RPS.getRandom (s : RPS α) (i : ℕ) : Py (Option α) :=
  if s.list = [] then .ok none
  else match s.list[i]? with
    | some x => .ok (some x)
    | none => .error .indexError

/-- `random_pop()` (ababe/mlearn/dsutils.py:46-50). On the empty set `discard(None)` does nothing. -/
def RPS.randomPop (s : RPS α) (i : ℕ) : Py (RPS α × Option α) := do
  match ← s.getRandom i with
  | none => return (s, none)
  | some x =>
    let s' ← s.discard x
    return (s', some x)

/-- the operations; `remove`, `pop`, `clear`, `|=` and `-=` come from `collections.abc.MutableSet`. The argument of `|=` and `-=`
is another collection (not the set itself). -/
inductive SetOp (α : Type)
  | add (x : α)
  | discard (x : α)
  | remove (x : α)
  | randomPop (i : ℕ)
  | pop
  | clear
  | ior (l : List α)
  | isub (l : List α)
  | contains (x : α)
  | len
  | iter

/-- results -/
inductive SetVal (α : Type)
  | unit
  | item (x : α)
  | none
  | bool (b : Bool)
  | nat (n : ℕ)
  | list (l : List α)
  deriving DecidableEq, Repr

/-- `MutableSet.pop`: the first item in iteration order, `KeyError` if there is none -/
def RPS.pop (s : RPS α) : Py (RPS α × α) :=
  match s.list with
  | [] => .error .keyError
  | x :: _ => do let s' ← s.discard x; return (s', x)

/-- `MutableSet.clear`: `pop` until `KeyError`; `fuel` bounds the number of rounds (the length of the list suffices) -/
def RPS.clear : ℕ → RPS α → Py (RPS α)
  | 0, s => .ok s
  | fuel + 1, s =>
    match s.pop with
    | .error .keyError => .ok s
    | .error e => .error e
    | .ok (s', _) => RPS.clear fuel s'

/-- discard several items one after the other -/
def RPS.discardAll (s : RPS α) : List α → Py (RPS α)
  | [] => .ok s
  | x :: xs => do let s' ← s.discard x; s'.discardAll xs

/-- a failing operation changes nothing -/
def keepSet (s : RPS α) (r : Py (RPS α × SetVal α)) : RPS α × Py (SetVal α) :=
  match r with
  | .ok (s', v) => (s', .ok v)
  | .error e => (s, .error e)

/-- one call -/
def RPS.step (s : RPS α) : SetOp α → RPS α × Py (SetVal α)
  | .add x => (s.add x, .ok .unit)
  | .discard x => keepSet s do let s' ← s.discard x; return (s', .unit)
  | .remove x => keepSet s (if dictHas s.map x then do let s' ← s.discard x; return (s', .unit) else .error .keyError)
  | .randomPop i => keepSet s do
      let (s', o) ← s.randomPop i
      return (s', match o with | some x => .item x | none => .none)
  | .pop => keepSet s do let (s', x) ← s.pop; return (s', .item x)
  | .clear => keepSet s do let s' ← RPS.clear (s.list.length + 1) s; return (s', .unit)
  | .ior l => (l.foldl RPS.add s, .ok .unit)
  | .isub l => keepSet s do let s' ← s.discardAll l; return (s', .unit)
  -- ababe/mlearn/dsutils.py:22-23
  | .contains x => (s, .ok (.bool (dictHas s.map x)))
  -- ababe/mlearn/dsutils.py:16-17
  | .len => (s, .ok (.nat s.map.length))
  -- ababe/mlearn/dsutils.py:19-20
  | .iter => (s, .ok (.list s.list))

/-- a history of calls -/
def RPS.run (s : RPS α) : List (SetOp α) → RPS α × List (Py (SetVal α))
  | [] => (s, [])
  | op :: ops =>
    let (s1, v) := s.step op
    let (s2, vs) := s1.run ops
    (s2, v :: vs)

/-- `a == b` (`collections.abc.Set.__eq__`): same `len`, and every item of `a` in `b` -/
def RPS.pyEq (a b : RPS α) : Bool := decide (a.map.length = b.map.length) && a.list.all fun x => dictHas b.map x

/-- The loop of `random_walk_arrange` (ababe/mlearn/arrange.py:26-32). `rand` is the sequence of random indices; the outer
`none`: not finished after these. On an empty frontier `random_pop()` returns `None`, and `get_neighbors(None)` fails for the
problems of the code base: an error. -/
def walkLoop (goal : ℕ → Bool) (nbrs : α → List α) : List ℕ → List α → RPS α → Option (Py (List α))
  | rand, path, frontier =>
    if goal path.length then some (.ok path)
    else match rand with
      | [] => none
      | i :: rand =>
        match frontier.randomPop i with
        | .error e => some (.error e)
        | .ok (_, none) => some (.error .typeError)
        | .ok (f', some current) =>
          let path' := path ++ [current]
          let f'' := (nbrs current).foldl (fun f p => if p ∈ path' then f else f.add p) f'
          walkLoop goal nbrs rand path' f''

/-- `random_walk_arrange(problem)` (ababe/mlearn/arrange.py:16-35) for a problem with the given start position, goal test on the path
length, and neighbours in iteration order -/
def randomWalkArrange (start : α) (goal : ℕ → Bool) (nbrs : α → List α) (rand : List ℕ) : Option (Py (List α)) :=
  walkLoop goal nbrs rand [start] ((nbrs start).foldl RPS.add RPS.empty)

end Verif
