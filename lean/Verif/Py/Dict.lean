import Verif.Py.Basic

/-! # Python dictionaries as association lists in insertion order -/

namespace Verif

/-- `k in d` -/
def dictHas {α β} [DecidableEq α] (d : List (α × β)) (k : α) : Bool := d.any fun kv => kv.1 = k

/-- `d[k]` -/
def dictGet {α β} [DecidableEq α] (d : List (α × β)) (k : α) : Option β := (d.find? fun kv => kv.1 = k).map (·.2)

/-- `d[k] = v`: a known key keeps its place -/
def dictSet {α β} [DecidableEq α] (d : List (α × β)) (k : α) (v : β) : List (α × β) :=
  if dictHas d k then d.map fun kv => if kv.1 = k then (kv.1, v) else kv else d ++ [(k, v)]

/-- `del d[k]` -/
def dictDel {α β} [DecidableEq α] (d : List (α × β)) (k : α) : List (α × β) := d.filter fun kv => kv.1 ≠ k

end Verif
