import Verif.Py.Basic

/-! # Python list methods with Python's index conventions -/

namespace Verif

/-- index normalisation of `list.__getitem__` and friends: negative indices count from the end; `none` = out of range -/
def pyIndex (n : ℕ) (i : ℤ) : Option ℕ :=
  let k := if i < 0 then i + n else i
  if 0 ≤ k ∧ k < n then some k.toNat else none

/-- `l[i]` -/
def pyGet {α} (l : List α) (i : ℤ) : Py α :=
  match pyIndex l.length i with
  | some k => match l[k]? with
    | some x => .ok x
    | none => .error .indexError
  | none => .error .indexError

/-- `l[i] = x` -/
def pySet {α} (l : List α) (i : ℤ) (x : α) : Py (List α) :=
  match pyIndex l.length i with
  | some k => .ok (l.set k x)
  | none => .error .indexError

/-- `del l[i]` -/
def pyDel {α} (l : List α) (i : ℤ) : Py (List α) :=
  match pyIndex l.length i with
  | some k => .ok (l.eraseIdx k)
  | none => .error .indexError

/-- `l.insert(i, x)`: the index is clamped to `[0, len]` -/
def pyInsert {α} (l : List α) (i : ℤ) (x : α) : List α :=
  let k := if i < 0 then max (i + l.length) 0 else min i l.length
  l.insertIdx k.toNat x

/-- `[s for i, s in enumerate(l) if i not in idx]` -/
def pyDropIndices {α} (l : List α) (idx : List ℤ) : List α :=
  ((l.zipIdx).filter fun p => !(idx.contains (p.2 : ℤ))).map (·.1)

end Verif
