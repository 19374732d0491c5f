import Verif.Py.Basic

/-! # Specification of Python's list operations on plain lists (independent of the model) -/

namespace Verif.Spec

/-- operations on a list of object identities -/
inductive LOp
  | get (i : ℤ) | set (i : ℤ) (x : ℕ) | del (i : ℤ) | append (x : ℕ) | insert (i : ℤ) (x : ℕ)
  | pop (i : ℤ) | extend (xs : List ℕ) | removeAt (idx : List ℤ) | len | items

inductive LVal
  | unit | elem (x : ℕ) | nat (n : ℕ) | elems (l : List ℕ)
  deriving DecidableEq

/-- the position that index `i` addresses in a list of length `n`: legal for `-n ≤ i < n`, counted modulo `n` -/
def slot (n : ℕ) (i : ℤ) : Except PyErr ℕ :=
  if -(n : ℤ) ≤ i ∧ i < n then .ok (i % n).toNat else .error .indexError

/-- what one operation does to a plain list -/
def plain (l : List ℕ) : LOp → List ℕ × Except PyErr LVal
  | .get i => (l, (slot l.length i).map fun k => .elem (l.getD k 0))
  | .set i x => match slot l.length i with
    | .ok k => (l.take k ++ x :: l.drop (k + 1), .ok .unit)
    | .error e => (l, .error e)
  | .del i => match slot l.length i with
    | .ok k => (l.take k ++ l.drop (k + 1), .ok .unit)
    | .error e => (l, .error e)
  | .append x => (l ++ [x], .ok .unit)
  | .insert i x =>
    -- the clamped index
    let k := (max 0 (min (l.length : ℤ) (if i < 0 then l.length + i else i))).toNat
    (l.take k ++ x :: l.drop k, .ok .unit)
  | .pop i => match slot l.length i with
    | .ok k => (l.take k ++ l.drop (k + 1), .ok (.elem (l.getD k 0)))
    | .error e => (l, .error e)
  | .extend xs => (l ++ xs, .ok .unit)
  | .removeAt idx => ((List.range l.length).filterMap (fun k : ℕ => if (k : ℤ) ∈ idx then none else l[k]?), .ok .unit)
  | .len => (l, .ok (.nat l.length))
  | .items => (l, .ok (.elems l))

/-- a sequence of operations on one plain list -/
def plainRun (l : List ℕ) : List LOp → List ℕ × List (Except PyErr LVal)
  | [] => (l, [])
  | op :: ops => ((plainRun (plain l op).1 ops).1, (plain l op).2 :: (plainRun (plain l op).1 ops).2)

end Verif.Spec
