import Verif.Model.Modified

/-! # More of `ModifiedCell` (ababe/stru/scaffold.py:471-644): the methods it inherits from `collections.abc.MutableSequence`,
and `==`

The inherited methods are those of Python's `_collections_abc.py`, written in terms of the methods the class defines. -/

namespace Verif

/-- the loop of `MutableSequence.reverse` on the list: `for i in range(n//2): self[i], self[n-i-1] = self[n-i-1], self[i]` -/
def reverseLoop (n : ℕ) : List ℕ → List ℕ → Py (List ℕ)
  | [], l => .ok l
  | i :: is, l =>
    match l[n - i - 1]?, l[i]? with
    | some a, some b => reverseLoop n is ((l.set i a).set (n - i - 1) b)
    | _, _ => .error .indexError

/-- `cell.reverse()` -/
def World.reverse (w : World) (c : ℕ) : Py World := do
  let n := (w.sitesOf c).length
  let l ← reverseLoop n (List.range (n / 2)) (w.sitesOf c)
  return w.setSites c l

/-- `v is value or v == value` for a site of the list and the given site -/
def World.sameSite (w : World) (v value : ℕ) : Bool := decide (v = value) || (w.site v).pyEq (w.site value)

/-- the loop of `Sequence.index` from position `i` on; `ValueError` at the end -/
def World.indexLoop (w : World) (value : ℕ) : ℕ → List ℕ → Py ℕ
  | _, [] => .error .valueError
  | i, v :: vs => if w.sameSite v value then .ok i else w.indexLoop value (i + 1) vs

/-- `cell.index(site)` -/
def World.index (w : World) (c value : ℕ) : Py ℕ := w.indexLoop value 0 (w.sitesOf c)

/-- `cell.remove(site)`: `del self[self.index(value)]` -/
def World.remove (w : World) (c value : ℕ) : Py World := do
  let i ← w.index c value
  let l ← pyDel (w.sitesOf c) i
  return w.setSites c l

/-- `cell.count(site)` -/
def World.count (w : World) (c value : ℕ) : ℕ := (w.sitesOf c).foldl (fun n v => if w.sameSite v value then n + 1 else n) 0

/-- `site in cell` -/
def World.contains (w : World) (c value : ℕ) : Bool := (w.sitesOf c).any fun v => w.sameSite v value

/-- `reversed(cell)`: `for i in reversed(range(len(self))): yield self[i]` -/
def World.reversed (w : World) (c : ℕ) : Py (List ℕ) :=
  ((List.range (w.sitesOf c).length).reverse).mapM fun i : ℕ => pyGet (w.sitesOf c) (i : ℤ)

/-- `cell.clear()`: `pop()` until `IndexError`; the length is fuel enough -/
def World.clearLoop (c : ℕ) : ℕ → World → World
  | 0, w => w
  | fuel + 1, w =>
    match pyDel (w.sitesOf c) (-1) with
    | .error _ => w
    | .ok l => World.clearLoop c fuel (w.setSites c l)

/-- `cell.clear()` -/
def World.clear (w : World) (c : ℕ) : World := World.clearLoop c ((w.sitesOf c).length + 1) w

/-- `cell.extend(cell)` (ababe/stru/scaffold.py:537-540), also `cell += cell` and `cell.append_sites(cell)`: the iterator reads the list it
appends to, at increasing positions `k`; `none`: not finished after `fuel` rounds -/
def World.extendSelf (c : ℕ) : ℕ → ℕ → World → Option World
  | 0, _, _ => none
  | fuel + 1, k, w =>
    match (w.sitesOf c)[k]? with
    | none => some w
    | some s => World.extendSelf c fuel (k + 1) (w.setSites c (w.sitesOf c ++ [s]))

/-! ### `==` -/

/-- one comparison of `np.allclose(a, b)` with the default tolerances -/
def close (a b : ℚ) : Bool := decide (|a - b| ≤ 1 / 10 ^ 8 + 1 / 10 ^ 5 * |b|)

/-- `close` on three numbers -/
def closeV (a b : V3 ℚ) : Bool := close a.1 b.1 && close a.2.1 b.2.1 && close a.2.2 b.2.2

/-- numpy's broadcasting of the first axis: equal lengths, or one of them is 1 -/
def broadcast {α β : Type} (a : List α) (b : List β) : Py (List (α × β)) :=
  if a.length = b.length then .ok (a.zip b)
  else match a, b with
    | [x], _ => .ok (b.map fun y => (x, y))
    | _, [y] => .ok (a.map fun x => (x, y))
    | _, _ => .error .valueError

/-- the same for arrays of positions; the array of no positions has shape `(0,)`, which fits only itself -/
def broadcastRows (a b : List (V3 ℚ)) : Py (List (V3 ℚ × V3 ℚ)) :=
  if a.isEmpty ≠ b.isEmpty then .error .valueError else broadcast a b

/-- `a == b` (ababe/stru/scaffold.py:508-514) -/
def World.cellEq (w : World) (a b : ℕ) : Py Bool :=
  let L := (w.cell a).lattice
  let K := (w.cell b).lattice
  if closeV L.1 K.1 && closeV L.2.1 K.2.1 && closeV L.2.2 K.2.2 then
    match broadcastRows (w.positions a) (w.positions b) with
    | .error e => .error e
    | .ok ps =>
      if ps.all fun p => closeV p.1 p.2 then
        match broadcast (w.numbers a) (w.numbers b) with
        | .error e => .error e
        | .ok ns => .ok (ns.all fun n => close (n.1 : ℚ) (n.2 : ℚ))
      else .ok false
  else .ok false

end Verif
