import Verif.Py.Basic
import Mathlib.Algebra.Field.Rat
import Mathlib.Algebra.BigOperators.Group.List.Basic

/-! # What a Monte Carlo tree search should record, in terms of its playouts alone

A playout is recorded as the moves it played from the root and the value it gave to the leaf. A log lists playouts, newest first. -/

namespace Verif.Spec

variable {A : Type} [DecidableEq A]

/-- playouts that passed through the position reached by the moves `p` -/
def through (log : List (List A × ℚ)) (p : List A) : List (List A × ℚ) := log.filter fun e => p.isPrefixOf e.1

/-- how many -/
def visits (log : List (List A × ℚ)) (p : List A) : ℕ := (through log p).length

/-- their mean value (0 if there are none) -/
def mean (log : List (List A × ℚ)) (p : List A) : ℚ := ((through log p).map (·.2)).sum / visits log p

/-- the exploration bonus of a position with prior `P`: computed at the last playout that passed through it -/
def bonus (c : ℚ) (sqrt : ℕ → ℚ) (P : ℚ) : List (List A × ℚ) → List A → ℚ
  | [], _ => P
  | e :: log, p =>
    if p.isPrefixOf e.1 then c * P * sqrt (visits (e :: log) p.dropLast) / (1 + visits (e :: log) p)
    else bonus c sqrt P log p

/-- the playouts that began with the move `a`, without that move -/
def strip (a : A) (log : List (List A × ℚ)) : List (List A × ℚ) :=
  log.filterMap fun e => match e.1 with
    | [] => none
    | b :: bs => if b = a then some (bs, e.2) else none

end Verif.Spec
