import Verif.Py.Dict
import Mathlib.Data.List.Nodup
import Mathlib.Data.List.Perm.Lattice

namespace Verif

variable {α β : Type} [DecidableEq α]

/-- the keys are pairwise different -/
def DictOk (d : List (α × β)) : Prop := (d.map (·.1)).Nodup

theorem dictGet_cons (kv : α × β) (d : List (α × β)) (k : α) :
    dictGet (kv :: d) k = if kv.1 = k then some kv.2 else dictGet d k := by
  unfold dictGet
  rw [List.find?_cons]
  by_cases h : kv.1 = k <;> simp [h]

theorem dictGet_none_iff (d : List (α × β)) (k : α) : dictGet d k = none ↔ k ∉ d.map (·.1) := by
  induction d with
  | nil => simp [dictGet]
  | cons kv d ih =>
    rw [dictGet_cons]
    by_cases h : kv.1 = k
    · simp [h]
    · simp only [if_neg h, ih, List.map_cons, List.mem_cons, not_or]
      exact ⟨fun h' => ⟨fun e => h e.symm, h'⟩, fun h' => h'.2⟩

theorem dictHas_iff (d : List (α × β)) (k : α) : dictHas d k = true ↔ k ∈ d.map (·.1) := by
  simp [dictHas, List.any_eq_true]

theorem dictHas_iff_get (d : List (α × β)) (k : α) : dictHas d k = true ↔ ∃ v, dictGet d k = some v := by
  rw [dictHas_iff]
  constructor
  · intro h
    cases hg : dictGet d k with
    | none => exact absurd h ((dictGet_none_iff d k).1 hg)
    | some v => exact ⟨v, rfl⟩
  · rintro ⟨v, hv⟩
    by_contra h
    rw [(dictGet_none_iff d k).2 h] at hv
    cases hv

theorem dictGet_mem {d : List (α × β)} {k : α} {v : β} (h : dictGet d k = some v) : (k, v) ∈ d := by
  induction d with
  | nil => simp [dictGet] at h
  | cons kv d ih =>
    rw [dictGet_cons] at h
    by_cases e : kv.1 = k
    · rw [if_pos e] at h
      injection h with h
      subst e h
      simp
    · rw [if_neg e] at h
      exact List.mem_cons_of_mem _ (ih h)

theorem dictGet_of_mem {d : List (α × β)} (hd : DictOk d) {k : α} {v : β} (h : (k, v) ∈ d) : dictGet d k = some v := by
  induction d with
  | nil => simp at h
  | cons kv d ih =>
    unfold DictOk at hd
    rw [List.map_cons, List.nodup_cons] at hd
    rw [dictGet_cons]
    rcases List.mem_cons.1 h with rfl | h
    · simp
    · have : kv.1 ≠ k := fun e => hd.1 (List.mem_map.2 ⟨_, h, e.symm⟩)
      rw [if_neg this, ih hd.2 h]

theorem keys_dictSet_of_has {d : List (α × β)} {k : α} (h : dictHas d k = true) (v : β) :
    (dictSet d k v).map (·.1) = d.map (·.1) := by
  unfold dictSet
  rw [if_pos h, List.map_map]
  apply List.map_congr_left
  intro kv _
  simp only [Function.comp]
  split <;> rfl

theorem dictGet_dictSet (d : List (α × β)) (k z : α) (v : β) :
    dictGet (dictSet d k v) z = if z = k then some v else dictGet d z := by
  unfold dictSet
  by_cases hh : dictHas d k = true
  · rw [if_pos hh]
    rw [dictHas_iff] at hh
    induction d with
    | nil => simp at hh
    | cons kv d ih =>
      rw [List.map_cons, dictGet_cons, dictGet_cons]
      by_cases e : kv.1 = k
      · by_cases hz : z = k
        · simp [e, hz]
        · have h1 : ¬ k = z := fun h => hz h.symm
          have h2 : ¬ kv.1 = z := by rw [e]; exact h1
          simp only [if_pos e, if_neg h2, if_neg hz]
          by_cases hm : k ∈ d.map (·.1)
          · rw [ih hm, if_neg hz]
          · have : (d.map fun kv => if kv.1 = k then (kv.1, v) else kv) = d := by
              conv_rhs => rw [← List.map_id d]
              apply List.map_congr_left
              intro kv' hkv'
              rw [if_neg (fun h => hm (List.mem_map.2 ⟨kv', hkv', h⟩))]
              rfl
            rw [this]
      · have hm : k ∈ d.map (·.1) := by
          rw [List.map_cons, List.mem_cons] at hh
          exact hh.resolve_left fun h => e h.symm
        rw [if_neg e, ih hm]
        by_cases h : kv.1 = z
        · have : z ≠ k := by rw [← h]; exact e
          simp [h, this]
        · simp [h]
  · rw [if_neg hh]
    rw [dictHas_iff] at hh
    induction d with
    | nil => simp [dictGet, eq_comm]
    | cons kv d ih =>
      rw [List.map_cons, List.mem_cons, not_or] at hh
      rw [List.cons_append, dictGet_cons, ih hh.2, dictGet_cons]
      by_cases h : kv.1 = z
      · have : z ≠ k := by rw [← h]; exact fun e => hh.1 e.symm
        simp [h, this]
      · simp [h]

theorem dictGet_dictDel (d : List (α × β)) (k z : α) :
    dictGet (dictDel d k) z = if z = k then none else dictGet d z := by
  unfold dictDel
  induction d with
  | nil => simp [dictGet]
  | cons kv d ih =>
    rw [List.filter_cons]
    by_cases e : kv.1 = k
    · simp only [ne_eq, e, not_true, decide_false, Bool.false_eq_true, if_false]
      rw [ih, dictGet_cons]
      by_cases hz : z = k
      · simp [hz]
      · have : ¬ kv.1 = z := by rw [e]; exact fun h => hz h.symm
        simp [hz, this]
    · simp only [ne_eq, e, not_false_iff, decide_true, if_true]
      rw [dictGet_cons, dictGet_cons, ih]
      by_cases hz : z = k
      · have : ¬ kv.1 = k := e
        simp [hz, this]
      · simp [hz]

theorem dictOk_dictSet {d : List (α × β)} (hd : DictOk d) (k : α) (v : β) : DictOk (dictSet d k v) := by
  unfold DictOk
  by_cases hh : dictHas d k = true
  · rw [keys_dictSet_of_has hh]; exact hd
  · unfold dictSet
    rw [if_neg hh]
    rw [dictHas_iff] at hh
    rw [List.map_append, List.nodup_append]
    refine ⟨hd, by simp, ?_⟩
    intro a ha b hb
    simp at hb
    subst hb
    rintro rfl
    exact hh ha

theorem dictOk_dictDel {d : List (α × β)} (hd : DictOk d) (k : α) : DictOk (dictDel d k) := by
  unfold DictOk dictDel
  exact hd.sublist ((List.filter_sublist).map _)

end Verif
