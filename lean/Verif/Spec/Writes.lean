import Verif.Py.Basic

/-! # Specification: files after a sequence of writes -/

namespace Verif.Spec

/-- what a path holds after a sequence of whole-file writes (oldest first), given what it held before: the last write wins -/
def afterWrites {β} (before : Option β) : List (List Char × β) → List Char → Option β
  | [], _ => before
  | w :: ws, p => afterWrites (if w.1 = p then some w.2 else before) ws p

theorem afterWrites_other {β} (before : Option β) (ws : List (List Char × β)) (p : List Char) (h : p ∉ ws.map (·.1)) :
    afterWrites before ws p = before := by
  induction ws generalizing before with
  | nil => rfl
  | cons w ws ih =>
    simp only [List.map_cons, List.mem_cons, not_or] at h
    rw [afterWrites, if_neg (fun e => h.1 e.symm), ih _ h.2]

theorem afterWrites_own {β} (before : Option β) (ws : List (List Char × β)) (hn : (ws.map (·.1)).Nodup) (w : List Char × β) (hw : w ∈ ws) :
    afterWrites before ws w.1 = some w.2 := by
  induction ws generalizing before with
  | nil => cases hw
  | cons v ws ih =>
    rw [List.map_cons, List.nodup_cons] at hn
    rw [afterWrites]
    rcases List.mem_cons.1 hw with rfl | hw
    · rw [if_pos rfl, afterWrites_other _ _ _ hn.1]
    · exact ih _ hn.2 hw

theorem afterWrites_mem {β} (before : Option β) (ws : List (List Char × β)) (p : List Char) (x : β) (h : afterWrites before ws p = some x) :
    (p, x) ∈ ws ∨ before = some x := by
  induction ws generalizing before with
  | nil => exact .inr h
  | cons w ws ih =>
    rw [afterWrites] at h
    rcases ih _ h with h | h
    · exact .inl (List.mem_cons_of_mem _ h)
    · split at h
      · rename_i e
        injection h with h
        subst h; subst e
        exact .inl (by simp)
      · exact .inr h

/-- an earlier write to a path that is written again later is lost -/
theorem afterWrites_last {β} (before : Option β) (ws : List (List Char × β)) (w : List Char × β) :
    afterWrites before (ws ++ [w]) w.1 = some w.2 := by
  induction ws generalizing before with
  | nil => simp [afterWrites]
  | cons v ws ih => rw [List.cons_append, afterWrites]; exact ih _

end Verif.Spec
