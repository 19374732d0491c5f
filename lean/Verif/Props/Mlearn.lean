import Verif.Model.Mlearn
import Verif.Lemmas.Dict
import Mathlib.Data.Finset.Card
import Mathlib.Tactic.Push

/-! # C52–C54: `RandomPopSet` and `random_walk_arrange` -/

namespace Verif

variable {α : Type} [DecidableEq α]

/-- the mathematical set a `RandomPopSet` stands for: what iteration lists -/
def RPS.toSet (s : RPS α) : Finset α := s.list.toFinset

/-- the index agrees with the list: `map[x] = i` exactly if `list[i] = x` (and no key occurs twice) -/
structure RPS.Inv (s : RPS α) : Prop where
  keys : DictOk s.map
  agree : ∀ x i, dictGet s.map x = some i ↔ s.list[i]? = some x

theorem RPS.Inv.nodup {s : RPS α} (h : s.Inv) : s.list.Nodup := by
  rw [List.nodup_iff_getElem?_ne_getElem?]
  intro i j hij hj e
  have hx : s.list[i]? = some (s.list[i]'(by omega)) := List.getElem?_eq_getElem _
  have h1 := (h.agree _ i).2 hx
  have h2 := (h.agree _ j).2 (e ▸ hx)
  rw [h1] at h2
  injection h2 with h2
  omega

theorem RPS.Inv.has {s : RPS α} (h : s.Inv) (x : α) : dictHas s.map x = true ↔ x ∈ s.list := by
  rw [dictHas_iff_get, List.mem_iff_getElem?]
  simp only [h.agree]

theorem RPS.Inv.len {s : RPS α} (h : s.Inv) : s.map.length = s.list.length := by
  rw [← List.length_map (f := (·.1))]
  apply List.Perm.length_eq
  rw [List.perm_ext_iff_of_nodup h.keys h.nodup]
  intro x
  rw [← h.has, dictHas_iff]

theorem RPS.inv_empty : (RPS.empty : RPS α).Inv := by
  constructor
  · simp [DictOk, RPS.empty]
  · simp [RPS.empty, dictGet]

theorem RPS.add_spec {s : RPS α} (h : s.Inv) (x : α) : (s.add x).Inv ∧ (s.add x).toSet = insert x s.toSet := by
  unfold RPS.add
  by_cases hx : dictHas s.map x = true
  · rw [if_pos hx]
    refine ⟨h, ?_⟩
    have := (h.has x).1 hx
    rw [Finset.insert_eq_of_mem (by simpa [RPS.toSet] using this)]
  · rw [if_neg hx]
    have hnx : x ∉ s.list := fun hm => hx ((h.has x).2 hm)
    refine ⟨⟨dictOk_dictSet h.keys _ _, ?_⟩, ?_⟩
    · intro z i
      rw [dictGet_dictSet]
      by_cases hz : z = x
      · subst hz
        rw [if_pos rfl]
        constructor
        · intro e; injection e with e; subst e; simp
        · intro e
          rcases lt_trichotomy i s.list.length with hi | hi | hi
          · rw [List.getElem?_append_left hi] at e
            exact absurd (List.mem_iff_getElem?.2 ⟨i, e⟩) hnx
          · rw [hi]
          · rw [List.getElem?_eq_none (by simp; omega)] at e; cases e
      · rw [if_neg hz, h.agree]
        by_cases hi : i < s.list.length
        · rw [List.getElem?_append_left hi]
        · rw [List.getElem?_eq_none (by omega)]
          simp only [reduceCtorEq, false_iff]
          intro e
          have hm := List.mem_iff_getElem?.2 ⟨i, e⟩
          rcases lt_trichotomy i s.list.length with hi' | hi' | hi'
          · omega
          · subst hi'; simp at e; exact hz e.symm
          · rw [List.getElem?_eq_none (by simp; omega)] at e; cases e
    · ext z; simp [RPS.toSet]

theorem RPS.discard_spec {s : RPS α} (h : s.Inv) (x : α) :
    ∃ s', s.discard x = .ok s' ∧ s'.Inv ∧ s'.toSet = s.toSet.erase x := by
  unfold RPS.discard
  by_cases hx : dictHas s.map x = true
  · rw [if_pos hx]
    obtain ⟨i, hi⟩ := (dictHas_iff_get _ _).1 hx
    have hli := (h.agree _ _).1 hi
    have hil : i < s.list.length := (List.getElem?_eq_some_iff.1 hli).1
    obtain ⟨b, hb⟩ : ∃ b, s.list[s.list.length - 1]? = some b := ⟨_, List.getElem?_eq_getElem (by omega)⟩
    have uniq : ∀ {j k : ℕ} {z : α}, s.list[j]? = some z → s.list[k]? = some z → j = k := by
      intro j k z hj hk
      have h1 := (h.agree _ _).2 hj
      rw [(h.agree _ _).2 hk] at h1
      injection h1 with h1
      exact h1.symm
    simp only [hi, hli, hb]
    have hy : ((s.list.set i b).set (s.list.length - 1) x)[i]? = some b := by
      rw [List.getElem?_set]
      by_cases e : s.list.length - 1 = i
      · rw [if_pos e, if_pos (by rw [List.length_set]; omega)]
        rw [e] at hb
        rw [hli] at hb
        exact hb
      · rw [if_neg e, List.getElem?_set_self (by omega)]
    simp only [hy]
    refine ⟨_, rfl, ?_⟩
    have hlist : ∀ j, (((s.list.set i b).set (s.list.length - 1) x).dropLast)[j]? =
        if j < s.list.length - 1 then (if j = i then some b else s.list[j]?) else none := by
      intro j
      rw [List.getElem?_dropLast]
      simp only [List.length_set]
      split
      · rw [List.getElem?_set_ne (by omega), List.getElem?_set]
        by_cases e : i = j
        · subst e; simp [hil]
        · rw [if_neg e, if_neg fun h : j = i => e h.symm]
      · rfl
    have hagree : ∀ z j, dictGet (dictDel (dictSet s.map b i) x) z = some j ↔
        (((s.list.set i b).set (s.list.length - 1) x).dropLast)[j]? = some z := by
      intro z j
      rw [dictGet_dictDel, dictGet_dictSet, hlist]
      by_cases hz : z = x
      · subst hz
        simp only [if_true, reduceCtorEq, false_iff]
        split
        · split
          · rename_i h1 h2
            intro e
            injection e with e
            subst e
            have := uniq hb hli
            omega
          · rename_i h1 h2
            intro e
            exact h2 (uniq e hli)
        · simp
      · rw [if_neg hz]
        by_cases hzb : z = b
        · subst hzb
          rw [if_pos rfl]
          have hin : i ≠ s.list.length - 1 := by
            rintro e
            rw [← e, hli] at hb
            injection hb with hb
            exact hz hb.symm
          constructor
          · intro e; injection e with e; subst e
            rw [if_pos (by omega), if_pos rfl]
          · intro e
            split at e
            · split at e
              · rename_i h1 h2; rw [h2]
              · rename_i h1 h2
                have := uniq e hb
                omega
            · cases e
        · rw [if_neg hzb, h.agree]
          constructor
          · intro e
            have hj : j < s.list.length := (List.getElem?_eq_some_iff.1 e).1
            have h1 : j ≠ s.list.length - 1 := by
              rintro rfl
              rw [e] at hb
              injection hb with hb
              exact hzb hb
            have h2 : j ≠ i := by
              rintro rfl
              rw [e] at hli
              injection hli with hli
              exact hz hli
            rw [if_pos (by omega), if_neg h2, e]
          · intro e
            split at e
            · split at e
              · injection e with e; exact absurd e.symm hzb
              · exact e
            · cases e
    refine ⟨⟨dictOk_dictDel (dictOk_dictSet h.keys _ _) _, hagree⟩, ?_⟩
    ext z
    have hm : ∀ {l : List α} {m : List (α × ℕ)}, (∀ z j, dictGet m z = some j ↔ l[j]? = some z) → (z ∈ l ↔ ∃ j, dictGet m z = some j) := by
      intro l m hh
      rw [List.mem_iff_getElem?]
      simp only [hh]
    rw [Finset.mem_erase]
    simp only [RPS.toSet, List.mem_toFinset]
    rw [hm hagree, hm h.agree, dictGet_dictDel, dictGet_dictSet]
    by_cases hz : z = x
    · simp [hz]
    · simp only [ne_eq, hz, not_false_iff, true_and]
      by_cases hzb : z = b
      · subst hzb
        simp only [if_true]
        exact ⟨fun _ => ⟨_, (h.agree _ _).2 hb⟩, fun _ => ⟨i, rfl⟩⟩
      · simp [hzb]
  · rw [if_neg hx]
    refine ⟨s, rfl, h, ?_⟩
    rw [Finset.erase_eq_of_notMem]
    simp only [RPS.toSet, List.mem_toFinset]
    exact fun hm => hx ((h.has x).2 hm)

theorem RPS.Inv.card {s : RPS α} (h : s.Inv) : s.toSet.card = s.list.length := List.toFinset_card_of_nodup h.nodup

theorem RPS.toSet_eq_empty {s : RPS α} : s.toSet = ∅ ↔ s.list = [] := by
  simp [RPS.toSet, List.toFinset_eq_empty_iff]

theorem RPS.addAll_spec {s : RPS α} (h : s.Inv) (l : List α) :
    (l.foldl RPS.add s).Inv ∧ (l.foldl RPS.add s).toSet = s.toSet ∪ l.toFinset := by
  induction l generalizing s with
  | nil => simpa using h
  | cons x l ih =>
    obtain ⟨h1, h2⟩ := RPS.add_spec h x
    obtain ⟨h3, h4⟩ := ih h1
    refine ⟨h3, ?_⟩
    rw [List.foldl_cons, h4, h2]
    ext z; simp

theorem RPS.discardAll_spec {s : RPS α} (h : s.Inv) (l : List α) :
    ∃ s', s.discardAll l = .ok s' ∧ s'.Inv ∧ s'.toSet = s.toSet \ l.toFinset := by
  induction l generalizing s with
  | nil => exact ⟨s, rfl, h, by simp⟩
  | cons x l ih =>
    obtain ⟨s1, e1, h1, h2⟩ := RPS.discard_spec h x
    obtain ⟨s2, e2, h3, h4⟩ := ih h1
    refine ⟨s2, ?_, h3, ?_⟩
    · rw [RPS.discardAll, e1]; exact e2
    · rw [h4, h2]; ext z; simp; tauto

theorem RPS.pop_spec {s : RPS α} (h : s.Inv) (hne : s.list ≠ []) :
    ∃ s' x, s.pop = .ok (s', x) ∧ x ∈ s.toSet ∧ s'.Inv ∧ s'.toSet = s.toSet.erase x := by
  unfold RPS.pop
  cases hl : s.list with
  | nil => exact absurd hl hne
  | cons x xs =>
    obtain ⟨s1, e1, h1, h2⟩ := RPS.discard_spec h x
    refine ⟨s1, x, ?_, by simp [RPS.toSet, hl], h1, h2⟩
    simp only [e1]; rfl

theorem RPS.clear_spec : ∀ (fuel : ℕ) {s : RPS α}, s.Inv → s.list.length < fuel →
    ∃ s', RPS.clear fuel s = .ok s' ∧ s'.Inv ∧ s'.toSet = ∅ := by
  intro fuel
  induction fuel with
  | zero => intro s _ h; omega
  | succ f ih =>
    intro s h hl
    rw [RPS.clear]
    by_cases he : s.list = []
    · refine ⟨s, ?_, h, RPS.toSet_eq_empty.2 he⟩
      simp [RPS.pop, he]
    · obtain ⟨s1, x, e, hx, h1, h2⟩ := RPS.pop_spec h he
      have hc := Finset.card_erase_of_mem hx
      rw [← h2, h1.card, h.card] at hc
      have : 0 < s.list.length := List.length_pos_iff.2 he
      obtain ⟨s2, e2, h3, h4⟩ := ih h1 (by omega)
      exact ⟨s2, by rw [e]; exact e2, h3, h4⟩

theorem RPS.randomPop_spec {s : RPS α} (h : s.Inv) {i : ℕ} {x : α} (hx : s.list[i]? = some x) :
    ∃ s', s.randomPop i = .ok (s', some x) ∧ s'.Inv ∧ s'.toSet = s.toSet.erase x := by
  obtain ⟨s1, e1, h1, h2⟩ := RPS.discard_spec h x
  refine ⟨s1, ?_, h1, h2⟩
  have hne : s.list ≠ [] := by rintro e; rw [e] at hx; simp at hx
  have hg : s.getRandom i = .ok (some x) := by
    unfold RPS.getRandom; rw [if_neg hne]; simp only [hx]
  unfold RPS.randomPop
  rw [hg]
  change (do let s' ← s.discard x; return (s', some x)) = _
  rw [e1]; rfl

theorem RPS.randomPop_empty {s : RPS α} (he : s.list = []) (i : ℕ) : s.randomPop i = .ok (s, none) := by
  unfold RPS.randomPop RPS.getRandom; rw [if_pos he]; rfl

theorem RPS.randomPop_out {s : RPS α} (he : s.list ≠ []) {i : ℕ} (hi : s.list.length ≤ i) :
    s.randomPop i = .error .indexError := by
  unfold RPS.randomPop RPS.getRandom
  rw [if_neg he, List.getElem?_eq_none hi]; rfl

/-! ## the specification: a mathematical set -/

/-- What one call does on a mathematical set `S`: it becomes `S'`, the call returns (or raises) `r`. -/
def Spec.SetStep (S : Finset α) (op : SetOp α) (S' : Finset α) (r : Py (SetVal α)) : Prop :=
  match op with
  | .add x => S' = insert x S ∧ r = .ok .unit
  | .discard x => S' = S.erase x ∧ r = .ok .unit
  | .remove x => (x ∈ S → S' = S.erase x ∧ r = .ok .unit) ∧ (x ∉ S → S' = S ∧ r = .error .keyError)
  | .randomPop _ => (S = ∅ → S' = ∅ ∧ r = .ok .none) ∧ (S ≠ ∅ → ∃ x ∈ S, S' = S.erase x ∧ r = .ok (.item x))
  | .pop => (S = ∅ → S' = ∅ ∧ r = .error .keyError) ∧ (S ≠ ∅ → ∃ x ∈ S, S' = S.erase x ∧ r = .ok (.item x))
  | .clear => S' = ∅ ∧ r = .ok .unit
  | .ior l => S' = S ∪ l.toFinset ∧ r = .ok .unit
  | .isub l => S' = S \ l.toFinset ∧ r = .ok .unit
  | .contains x => S' = S ∧ r = .ok (.bool (decide (x ∈ S)))
  | .len => S' = S ∧ r = .ok (.nat S.card)
  | .iter => S' = S ∧ ∃ l : List α, l.Nodup ∧ l.toFinset = S ∧ r = .ok (.list l)

/-- a history of calls on a mathematical set -/
def Spec.SetRun (S : Finset α) : List (SetOp α) → Finset α → List (Py (SetVal α)) → Prop
  | [], S', rs => S' = S ∧ rs = []
  | op :: ops, S', rs => ∃ S1 r rs', Spec.SetStep S op S1 r ∧ Spec.SetRun S1 ops S' rs' ∧ rs = r :: rs'

/-- `random.randint(a, b)` returns a number between `a` and `b`: the index of every `random_pop` on a non-empty set is below its size -/
def RPS.RandOk (s : RPS α) : List (SetOp α) → Prop
  | [] => True
  | op :: ops => (∀ i, op = .randomPop i → s.list ≠ [] → i < s.list.length) ∧ (s.step op).1.RandOk ops

theorem RPS.step_spec {s : RPS α} (h : s.Inv) (op : SetOp α)
    (hr : ∀ i, op = .randomPop i → s.list ≠ [] → i < s.list.length) :
    (s.step op).1.Inv ∧ Spec.SetStep s.toSet op (s.step op).1.toSet (s.step op).2 := by
  cases op with
  | add x => exact ⟨(RPS.add_spec h x).1, (RPS.add_spec h x).2, rfl⟩
  | discard x =>
    obtain ⟨s1, e1, h1, h2⟩ := RPS.discard_spec h x
    have : s.step (.discard x) = (s1, .ok .unit) := by rw [RPS.step, e1]; rfl
    rw [this]; exact ⟨h1, h2, rfl⟩
  | remove x =>
    by_cases hx : dictHas s.map x = true
    · obtain ⟨s1, e1, h1, h2⟩ := RPS.discard_spec h x
      have : s.step (.remove x) = (s1, .ok .unit) := by rw [RPS.step, e1, if_pos hx]; rfl
      rw [this]
      refine ⟨h1, fun _ => ⟨h2, rfl⟩, fun hn => ?_⟩
      exact absurd (by simpa [RPS.toSet] using (h.has x).1 hx) hn
    · have : s.step (.remove x) = (s, .error .keyError) := by rw [RPS.step, if_neg hx]; rfl
      rw [this]
      refine ⟨h, fun hm => ?_, fun _ => ⟨rfl, rfl⟩⟩
      exact absurd ((h.has x).2 (by simpa [RPS.toSet] using hm)) hx
  | randomPop i =>
    by_cases he : s.list = []
    · have : s.step (.randomPop i) = (s, .ok .none) := by rw [RPS.step, RPS.randomPop_empty he]; rfl
      rw [this]
      have h0 := RPS.toSet_eq_empty.2 he
      exact ⟨h, fun _ => ⟨h0, rfl⟩, fun hn => absurd h0 hn⟩
    · have hi := hr i rfl he
      have hx : s.list[i]? = some s.list[i] := List.getElem?_eq_getElem hi
      obtain ⟨s1, e1, h1, h2⟩ := RPS.randomPop_spec h hx
      have : s.step (.randomPop i) = (s1, .ok (.item s.list[i])) := by rw [RPS.step, e1]; rfl
      rw [this]
      refine ⟨h1, fun h0 => absurd (RPS.toSet_eq_empty.1 h0) he, fun _ => ⟨_, by simp [RPS.toSet], h2, rfl⟩⟩
  | pop =>
    by_cases he : s.list = []
    · have : s.step .pop = (s, .error .keyError) := by rw [RPS.step]; simp [RPS.pop, he, keepSet, bind, Except.bind]
      rw [this]
      have h0 := RPS.toSet_eq_empty.2 he
      exact ⟨h, fun _ => ⟨h0, rfl⟩, fun hn => absurd h0 hn⟩
    · obtain ⟨s1, x, e1, hx, h1, h2⟩ := RPS.pop_spec h he
      have : s.step .pop = (s1, .ok (.item x)) := by rw [RPS.step, e1]; rfl
      rw [this]
      exact ⟨h1, fun h0 => absurd (RPS.toSet_eq_empty.1 h0) he, fun _ => ⟨_, hx, h2, rfl⟩⟩
  | clear =>
    obtain ⟨s1, e1, h1, h2⟩ := RPS.clear_spec (s.list.length + 1) h (by omega)
    have : s.step .clear = (s1, .ok .unit) := by rw [RPS.step, e1]; rfl
    rw [this]; exact ⟨h1, h2, rfl⟩
  | ior l => exact ⟨(RPS.addAll_spec h l).1, (RPS.addAll_spec h l).2, rfl⟩
  | isub l =>
    obtain ⟨s1, e1, h1, h2⟩ := RPS.discardAll_spec h l
    have : s.step (.isub l) = (s1, .ok .unit) := by rw [RPS.step, e1]; rfl
    rw [this]; exact ⟨h1, h2, rfl⟩
  | contains x =>
    refine ⟨h, rfl, ?_⟩
    simp only [RPS.step]
    congr 2
    rw [Bool.eq_iff_iff, h.has]
    simp [RPS.toSet]
  | len =>
    refine ⟨h, rfl, ?_⟩
    simp only [RPS.step]
    rw [h.card, h.len]
  | iter => exact ⟨h, rfl, s.list, h.nodup, rfl, rfl⟩

theorem RPS.run_spec {s : RPS α} (h : s.Inv) (ops : List (SetOp α)) (hr : s.RandOk ops) :
    (s.run ops).1.Inv ∧ Spec.SetRun s.toSet ops (s.run ops).1.toSet (s.run ops).2 := by
  induction ops generalizing s with
  | nil => exact ⟨h, rfl, rfl⟩
  | cons op ops ih =>
    obtain ⟨h1, h2⟩ := RPS.step_spec h op hr.1
    obtain ⟨h3, h4⟩ := ih h1 hr.2
    exact ⟨h3, _, _, _, h2, h4, rfl⟩

/-- **C52.** Every history of calls on a fresh `RandomPopSet` behaves as on a mathematical set that starts empty: same membership,
length, errors, and iteration lists each member once. And after every history the index of the implementation agrees with the list. -/
theorem C52_is_a_set (ops : List (SetOp α)) (hr : (RPS.empty : RPS α).RandOk ops) :
    Spec.SetRun ∅ ops ((RPS.empty : RPS α).run ops).1.toSet ((RPS.empty : RPS α).run ops).2 ∧
      ∀ x i, dictGet ((RPS.empty : RPS α).run ops).1.map x = some i ↔ ((RPS.empty : RPS α).run ops).1.list[i]? = some x :=
  have h := RPS.run_spec RPS.inv_empty ops hr
  ⟨h.2, h.1.agree⟩

/-- **C52.** `a == b` holds exactly if both have the same members. -/
theorem C52_equality (ops ops' : List (SetOp α)) (hr : (RPS.empty : RPS α).RandOk ops) (hr' : (RPS.empty : RPS α).RandOk ops') :
    (((RPS.empty : RPS α).run ops).1.pyEq ((RPS.empty : RPS α).run ops').1 = true ↔
      ((RPS.empty : RPS α).run ops).1.toSet = ((RPS.empty : RPS α).run ops').1.toSet) := by
  have h := (RPS.run_spec RPS.inv_empty ops hr).1
  have h' := (RPS.run_spec RPS.inv_empty ops' hr').1
  generalize ((RPS.empty : RPS α).run ops).1 = a at h
  generalize ((RPS.empty : RPS α).run ops').1 = b at h'
  unfold RPS.pyEq
  rw [Bool.and_eq_true, decide_eq_true_iff, List.all_eq_true]
  simp only [h'.has, h.len, h'.len, ← h.card, ← h'.card]
  constructor
  · rintro ⟨h1, h2⟩
    exact Finset.eq_of_subset_of_card_le (fun x hx => by simpa [RPS.toSet] using h2 x (by simpa [RPS.toSet] using hx)) h1.ge
  · intro e
    refine ⟨by rw [e], fun x hx => ?_⟩
    have : x ∈ a.toSet := by simpa [RPS.toSet] using hx
    rw [e] at this
    simpa [RPS.toSet] using this

/-- **C53.** After any history: on a non-empty set, for every random index, `random_pop()` returns a member and removes exactly it;
and every member is returned for exactly one random index (so uniformly, if the index is). On the empty set it returns `None` and
changes nothing. -/
theorem C53_random_pop (ops : List (SetOp α)) (hr : (RPS.empty : RPS α).RandOk ops) :
    let s := ((RPS.empty : RPS α).run ops).1
    (s.toSet = ∅ → ∀ i, s.randomPop i = .ok (s, none)) ∧
    (∀ i, i < s.toSet.card → ∃ x ∈ s.toSet, ∃ s', s.randomPop i = .ok (s', some x) ∧ s'.toSet = s.toSet.erase x) ∧
    (∀ x ∈ s.toSet, ∃! i, i < s.toSet.card ∧ ∃ s', s.randomPop i = .ok (s', some x)) := by
  have h := (RPS.run_spec RPS.inv_empty ops hr).1
  generalize ((RPS.empty : RPS α).run ops).1 = s at h
  refine ⟨fun he i => RPS.randomPop_empty (RPS.toSet_eq_empty.1 he) i, fun i hi => ?_, fun x hx => ?_⟩
  · rw [h.card] at hi
    obtain ⟨s1, e1, _, h2⟩ := RPS.randomPop_spec h (List.getElem?_eq_getElem hi)
    exact ⟨s.list[i], by simp [RPS.toSet], s1, e1, h2⟩
  · rw [h.card]
    have hx' : x ∈ s.list := by simpa [RPS.toSet] using hx
    obtain ⟨i, hi⟩ := List.mem_iff_getElem?.1 hx'
    have hil := (List.getElem?_eq_some_iff.1 hi).1
    refine ⟨i, ⟨hil, ?_⟩, ?_⟩
    · obtain ⟨s1, e1, _⟩ := RPS.randomPop_spec h hi
      exact ⟨s1, e1⟩
    · rintro j ⟨hj, s', e⟩
      obtain ⟨s1, e1, _⟩ := RPS.randomPop_spec h (List.getElem?_eq_getElem hj)
      rw [e1] at e
      injection e with e
      have hxj : s.list[j] = x := by
        have := congrArg Prod.snd e
        simpa using this
      have h1 := (h.agree _ _).2 hi
      have h2 := (h.agree x j).2 (by rw [← hxj]; exact List.getElem?_eq_getElem hj)
      rw [h1] at h2
      injection h2 with h2
      exact h2.symm

/-- a history that moves the last item (discard of an earlier one), pops at random, and fails once -/
def exPopOps : List (SetOp ℕ) := [.add 5, .add 7, .add 5, .add 9, .discard 5, .len, .iter, .randomPop 1, .remove 7, .contains 9, .iter]

example : (RPS.empty : RPS ℕ).RandOk exPopOps := by
  simp [exPopOps, RPS.RandOk, RPS.step, RPS.add, RPS.empty, dictHas, dictSet, RPS.discard, keepSet, dictGet, dictDel, bind, Except.bind, pure, Except.pure]

example : ((RPS.empty : RPS ℕ).run exPopOps).2 =
    [.ok .unit, .ok .unit, .ok .unit, .ok .unit, .ok .unit, .ok (.nat 2), .ok (.list [9, 7]), .ok (.item 7), .error .keyError,
      .ok (.bool true), .ok (.list [9])] := by decide +kernel

/-! ## C54: the random walk -/

/-- what the walk keeps true -/
structure WalkInv (start : α) (nbrs : α → List α) (path : List α) (f : RPS α) : Prop where
  inv : f.Inv
  nodup : path.Nodup
  head : path.head? = some start
  fresh : ∀ x ∈ path, x ∉ f.toSet
  near : ∀ x ∈ f.toSet, ∃ y ∈ path, x ∈ nbrs y
  closed : ∀ y ∈ path, ∀ x ∈ nbrs y, x ∈ path ∨ x ∈ f.toSet
  steps : ∀ i x, 0 < i → path[i]? = some x → ∃ j < i, ∃ y, path[j]? = some y ∧ x ∈ nbrs y

theorem pushNew_spec {path : List α} (l : List α) {f : RPS α} (h : f.Inv) :
    (l.foldl (fun f p => if p ∈ path then f else f.add p) f).Inv ∧
    ∀ x, x ∈ (l.foldl (fun f p => if p ∈ path then f else f.add p) f).toSet ↔ x ∈ f.toSet ∨ (x ∈ l ∧ x ∉ path) := by
  induction l generalizing f with
  | nil => exact ⟨h, by simp⟩
  | cons p l ih =>
    rw [List.foldl_cons]
    by_cases hp : p ∈ path
    · rw [if_pos hp]
      refine ⟨(ih h).1, fun x => ?_⟩
      rw [(ih h).2]
      simp only [List.mem_cons]
      constructor
      · tauto
      · rintro (h' | ⟨rfl | h', h''⟩)
        · exact .inl h'
        · exact absurd hp h''
        · exact .inr ⟨h', h''⟩
    · rw [if_neg hp]
      obtain ⟨h1, h2⟩ := RPS.add_spec h p
      refine ⟨(ih h1).1, fun x => ?_⟩
      rw [(ih h1).2, h2]
      simp only [List.mem_cons, Finset.mem_insert]
      constructor
      · rintro ((rfl | h') | h')
        · exact .inr ⟨.inl rfl, hp⟩
        · exact .inl h'
        · exact .inr ⟨.inr h'.1, h'.2⟩
      · tauto

theorem WalkInv.next {start : α} {nbrs : α → List α} {path : List α} {f f' : RPS α} {x : α} (h : WalkInv start nbrs path f)
    (hf' : f'.Inv) (hx : x ∈ f.toSet) (hs : f'.toSet = f.toSet.erase x) :
    WalkInv start nbrs (path ++ [x]) ((nbrs x).foldl (fun f p => if p ∈ path ++ [x] then f else f.add p) f') := by
  obtain ⟨h1, h2⟩ := pushNew_spec (path := path ++ [x]) (nbrs x) hf'
  have hxp : x ∉ path := fun hp => h.fresh x hp hx
  have hpne : path ≠ [] := by rintro e; have := h.head; rw [e] at this; simp at this
  refine ⟨h1, ?_, ?_, ?_, ?_, ?_, ?_⟩
  · rw [List.nodup_append]
    refine ⟨h.nodup, by simp, ?_⟩
    intro a ha b hb
    simp at hb
    subst hb
    rintro rfl
    exact hxp ha
  · rw [List.head?_append, h.head]; rfl
  · intro z hz
    rw [h2, hs]
    rw [not_or]
    refine ⟨?_, fun hh => hh.2 hz⟩
    rw [Finset.mem_erase]
    rintro ⟨hzx, hzf⟩
    rw [List.mem_append, List.mem_singleton] at hz
    rcases hz with hz | hz
    · exact h.fresh z hz hzf
    · exact hzx hz
  · intro z hz
    rw [h2, hs, Finset.mem_erase] at hz
    rcases hz with ⟨_, hz⟩ | ⟨hz, _⟩
    · obtain ⟨y, hy, hzy⟩ := h.near z hz
      exact ⟨y, List.mem_append_left _ hy, hzy⟩
    · exact ⟨x, by simp, hz⟩
  · intro y hy z hz
    by_cases hzp : z ∈ path ++ [x]
    · exact .inl hzp
    · right
      rw [h2, hs, Finset.mem_erase]
      rw [List.mem_append, List.mem_singleton] at hy
      rcases hy with hy | rfl
      · rcases h.closed y hy z hz with hzp' | hzf
        · exact absurd (List.mem_append_left _ hzp') hzp
        · left
          refine ⟨?_, hzf⟩
          rintro rfl
          exact hzp (by simp)
      · exact .inr ⟨hz, hzp⟩
  · intro i z hi hz
    by_cases hil : i < path.length
    · rw [List.getElem?_append_left hil] at hz
      obtain ⟨j, hj, y, hy, hzy⟩ := h.steps i z hi hz
      exact ⟨j, hj, y, by rw [List.getElem?_append_left (by omega)]; exact hy, hzy⟩
    · have hieq : i = path.length := by
        by_contra hne
        rw [List.getElem?_eq_none (by simp; omega)] at hz
        cases hz
      subst hieq
      rw [List.getElem?_append_right (le_refl _)] at hz
      simp at hz
      subst hz
      obtain ⟨y, hy, hxy⟩ := h.near x hx
      obtain ⟨j, hj⟩ := List.mem_iff_getElem?.1 hy
      have hjl := (List.getElem?_eq_some_iff.1 hj).1
      exact ⟨j, hjl, y, by rw [List.getElem?_append_left hjl]; exact hj, hxy⟩

theorem walkInv_start {start : α} {nbrs : α → List α} (hs : start ∉ nbrs start) :
    WalkInv start nbrs [start] ((nbrs start).foldl RPS.add RPS.empty) := by
  obtain ⟨h1, h2⟩ := RPS.addAll_spec (RPS.inv_empty (α := α)) (nbrs start)
  have he : (RPS.empty : RPS α).toSet = ∅ := rfl
  rw [he, Finset.empty_union] at h2
  refine ⟨h1, by simp, rfl, ?_, ?_, ?_, ?_⟩
  · intro x hx; rw [List.mem_singleton] at hx; subst hx; rw [h2]; simpa using hs
  · intro x hx; rw [h2] at hx; exact ⟨start, by simp, by simpa using hx⟩
  · intro y hy x hx; rw [List.mem_singleton] at hy; subst hy; right; rw [h2]; simpa using hx
  · intro i x hi hx
    rw [List.getElem?_eq_none (by simp; omega)] at hx
    cases hx

/-- how the walk can end, from any state of the loop -/
theorem walkLoop_spec {start : α} {goal : ℕ → Bool} {nbrs : α → List α} (rand : List ℕ) : ∀ {path : List α} {f : RPS α},
    WalkInv start nbrs path f → (∀ k, 1 ≤ k → k < path.length → goal k = false) →
    (∀ res, walkLoop goal nbrs rand path f = some (.ok res) →
      goal res.length = true ∧ (∀ k, 1 ≤ k → k < res.length → goal k = false) ∧ ∃ f', WalkInv start nbrs res f') ∧
    (∀ e, walkLoop goal nbrs rand path f = some (.error e) → e = .indexError ∨
      ∃ res f', WalkInv start nbrs res f' ∧ f'.toSet = ∅ ∧ ∀ k, 1 ≤ k → k ≤ res.length → goal k = false) ∧
    (walkLoop goal nbrs rand path f = none → ∀ k, path.length ≤ k → k ≤ path.length + rand.length → goal k = false) := by
  induction rand with
  | nil =>
    intro path f h hg
    rw [walkLoop]
    by_cases hgoal : goal path.length = true
    · rw [if_pos hgoal]
      refine ⟨?_, by simp, by simp⟩
      intro res e
      simp at e
      subst e
      exact ⟨hgoal, hg, f, h⟩
    · rw [if_neg hgoal]
      refine ⟨by simp, by simp, ?_⟩
      intro _ k hk hk'
      simp at hk'
      have : k = path.length := by omega
      rw [this]
      simpa using hgoal
  | cons i rand ih =>
    intro path f h hg
    rw [walkLoop]
    by_cases hgoal : goal path.length = true
    · rw [if_pos hgoal]
      refine ⟨?_, by simp, by simp⟩
      intro res e
      simp at e
      subst e
      exact ⟨hgoal, hg, f, h⟩
    · rw [if_neg hgoal]
      have hgoal' : goal path.length = false := by simpa using hgoal
      by_cases he : f.list = []
      · simp only [RPS.randomPop_empty he]
        refine ⟨by simp, ?_, by simp⟩
        intro e _
        right
        refine ⟨path, f, h, RPS.toSet_eq_empty.2 he, fun k hk hk' => ?_⟩
        rcases Nat.lt_or_ge k path.length with hlt | hge
        · exact hg k hk hlt
        · have : k = path.length := by omega
          rw [this]; exact hgoal'
      · by_cases hi : i < f.list.length
        · obtain ⟨f', e1, h1, h2⟩ := RPS.randomPop_spec h.inv (List.getElem?_eq_getElem hi)
          simp only [e1]
          have hn := h.next h1 (x := f.list[i]) (by simp [RPS.toSet]) h2
          have hlen : (path ++ [f.list[i]]).length = path.length + 1 := by simp
          obtain ⟨i1, i2, i3⟩ := ih hn (by
            intro k hk hk'
            rw [hlen] at hk'
            rcases Nat.lt_or_ge k path.length with hlt | hge
            · exact hg k hk hlt
            · have : k = path.length := by omega
              rw [this]; exact hgoal')
          refine ⟨i1, i2, fun e k hk hk' => ?_⟩
          rcases Nat.eq_or_lt_of_le hk with rfl | hlt
          · exact hgoal'
          · simp only [List.length_cons] at hk'
            exact i3 e k (by rw [hlen]; omega) (by rw [hlen]; omega)
        · rw [RPS.randomPop_out he (by omega)]
          refine ⟨by simp, ?_, by simp⟩
          intro e h'
          simp at h'
          exact .inl h'.symm

/-- **C54.** When `random_walk_arrange` returns a path, no position repeats, it starts at the start position, its length is the
first (from 1) that meets the goal, and every later position is a neighbour of an earlier one. -/
theorem C54_path {start : α} {goal : ℕ → Bool} {nbrs : α → List α} {rand : List ℕ} {path : List α} (hs : start ∉ nbrs start)
    (h : randomWalkArrange start goal nbrs rand = some (.ok path)) :
    path.Nodup ∧ path.head? = some start ∧ goal path.length = true ∧ (∀ k, 1 ≤ k → k < path.length → goal k = false) ∧
      ∀ i x, 0 < i → path[i]? = some x → ∃ j < i, ∃ y, path[j]? = some y ∧ x ∈ nbrs y := by
  obtain ⟨h1, _, _⟩ := walkLoop_spec (goal := goal) rand (walkInv_start hs) (by simp; omega)
  obtain ⟨g1, g2, f', w⟩ := h1 path h
  exact ⟨w.nodup, w.head, g1, g2, w.steps⟩

/-- **C54.** For the goal "length `n`" of the code base (`n ≥ 1`): if enough positions can be reached (every set of positions that
contains the start and is closed under neighbours has at least `n` positions), the walk ends with a path within `n - 1` rounds,
whatever indices the random generator returns within its range. -/
theorem C54_ends {start : α} {nbrs : α → List α} {n : ℕ} {rand : List ℕ} (hs : start ∉ nbrs start) (hn : 1 ≤ n)
    (hr : n ≤ rand.length + 1)
    (hbig : ∀ S : Finset α, start ∈ S → (∀ y ∈ S, ∀ x ∈ nbrs y, x ∈ S) → n ≤ S.card) :
    (∃ path, path.length = n ∧ randomWalkArrange start (fun k => decide (k = n)) nbrs rand = some (.ok path)) ∨
      randomWalkArrange start (fun k => decide (k = n)) nbrs rand = some (.error .indexError) := by
  obtain ⟨h1, h2, h3⟩ := walkLoop_spec (goal := fun k => decide (k = n)) rand (walkInv_start hs) (by simp; omega)
  unfold randomWalkArrange
  cases hw : walkLoop (fun k => decide (k = n)) nbrs rand [start] ((nbrs start).foldl RPS.add RPS.empty) with
  | none =>
    have := h3 hw n (by simpa using hn) (by simp; omega)
    simp at this
  | some r =>
    cases r with
    | ok path =>
      left
      exact ⟨path, by simpa using (h1 path hw).1, rfl⟩
    | error e =>
      right
      rcases h2 e hw with rfl | ⟨res, f', w, hf, hg⟩
      · rfl
      · exfalso
        have hlen : res.length < n := by
          by_contra hlt
          have := hg n hn (by omega)
          simp at this
        have hstart : start ∈ res := by
          have := w.head
          cases res with
          | nil => simp at this
          | cons a l => simp at this; simp [this]
        have := hbig res.toFinset (by simpa using hstart) (by
          intro y hy x hx
          rcases w.closed y (by simpa using hy) x hx with h' | h'
          · simpa using h'
          · rw [hf] at h'; simp at h')
        rw [List.toFinset_card_of_nodup w.nodup] at this
        omega

/-- neighbours on the integer line -/
def exLine (x : ℤ) : List ℤ := [x - 1, x + 1]

example : (0 : ℤ) ∉ exLine 0 := by decide

/-- the hypothesis of `C54_ends` on the line, for every `n`: a finite set is not closed under the successor -/
example (n : ℕ) : ∀ S : Finset ℤ, (0 : ℤ) ∈ S → (∀ y ∈ S, ∀ x ∈ exLine y, x ∈ S) → n ≤ S.card := by
  intro S h0 hS
  have hall : ∀ k : ℕ, (k : ℤ) ∈ S := by
    intro k
    induction k with
    | zero => simpa using h0
    | succ k ih => have := hS _ ih (k + 1) (by simp [exLine]); push_cast; exact this
  have : ((Finset.range n).map ⟨fun k : ℕ => (k : ℤ), fun a b h => by simpa using h⟩) ⊆ S := by
    intro z hz
    simp at hz
    obtain ⟨k, _, rfl⟩ := hz
    exact hall k
  have := Finset.card_le_card this
  simpa using this

example : randomWalkArrange 0 (fun k => decide (k = 4)) exLine [1, 0, 1] = some (.ok [0, 1, -1, -2]) := by decide +kernel

end Verif
