import Verif.Py.Basic
import Mathlib.Data.List.Nodup
import Mathlib.Data.List.Sort
import Mathlib.Data.Nat.Choose.Basic
import Mathlib.Data.List.Perm.Subperm

/-! # List lemmas: fancy indexing, `lexsort3`, `combinations` -/

namespace Verif

variable {α β : Type _}

/-! ### fancy indexing -/

theorem fancy_nil (xs : List α) : fancy xs [] = .ok [] := rfl

theorem fancy_cons (xs : List α) (i : ℕ) (idx : List ℕ) :
    fancy xs (i :: idx) = (match xs[i]? with
      | some v => (match fancy xs idx with | .ok vs => .ok (v :: vs) | .error e => .error e)
      | none => .error .indexError) := by
  unfold fancy
  rw [List.mapM_cons]
  cases xs[i]? with
  | none => rfl
  | some v =>
    simp only [bind, Except.bind, pure, Except.pure]
    split <;> simp_all

theorem fancy_ok_iff (xs : List α) (idx : List ℕ) (ys : List α) :
    fancy xs idx = .ok ys ↔ idx.map (fun i => xs[i]?) = ys.map some := by
  induction idx generalizing ys with
  | nil =>
    rw [fancy_nil]
    constructor
    · intro h; injection h with h; subst h; rfl
    · intro h; cases ys with
      | nil => rfl
      | cons => simp at h
  | cons i idx ih =>
    rw [fancy_cons]
    cases hx : xs[i]? with
    | none =>
      constructor
      · intro h; cases h
      · intro h; cases ys with
        | nil => simp at h
        | cons y ys => simp [hx] at h
    | some v =>
      simp only
      cases hf : fancy xs idx with
      | error e =>
        constructor
        · intro h; cases h
        · intro h
          cases ys with
          | nil => simp at h
          | cons y ys =>
            simp only [List.map_cons, List.cons.injEq, hx] at h
            have := (ih ys).2 h.2
            rw [hf] at this; cases this
      | ok vs =>
        have hv := (ih vs).1 hf
        constructor
        · intro h; injection h with h; subst h; simp [hx, hv]
        · intro h
          cases ys with
          | nil => simp at h
          | cons y ys =>
            simp only [List.map_cons, List.cons.injEq, hx, hv] at h
            obtain ⟨h1, h2⟩ := h
            injection h1 with h1
            have : vs = ys := List.map_injective_iff.2 (Option.some_injective _) h2
            rw [h1, this]

/-- Fancy indexing succeeds iff every index is in range. -/
theorem fancy_isOk_iff (xs : List α) (idx : List ℕ) :
    (∃ ys, fancy xs idx = .ok ys) ↔ ∀ i ∈ idx, i < xs.length := by
  constructor
  · rintro ⟨ys, h⟩ i hi
    rw [fancy_ok_iff] at h
    have : xs[i]? ∈ idx.map (fun i => xs[i]?) := List.mem_map_of_mem hi
    rw [h, List.mem_map] at this
    obtain ⟨y, _, hy⟩ := this
    exact (List.getElem?_eq_some_iff.1 hy.symm).1
  · intro h
    induction idx with
    | nil => exact ⟨[], rfl⟩
    | cons i idx ih =>
      obtain ⟨ys, hys⟩ := ih (fun j hj => h j (List.mem_cons_of_mem _ hj))
      have hi : i < xs.length := h i (by simp)
      exact ⟨xs[i] :: ys, by rw [fancy_cons, List.getElem?_eq_getElem hi, hys]⟩

/-- When it fails, it fails with `IndexError`. -/
theorem fancy_error (xs : List α) (idx : List ℕ) (h : ¬ ∀ i ∈ idx, i < xs.length) :
    fancy xs idx = .error .indexError := by
  induction idx with
  | nil => simp at h
  | cons i idx ih =>
    rw [fancy_cons]
    by_cases hi : i < xs.length
    · have : ¬ ∀ i ∈ idx, i < xs.length := by
        intro h'; apply h; intro j hj
        rcases List.mem_cons.1 hj with rfl | hj
        · exact hi
        · exact h' j hj
      rw [ih this, List.getElem?_eq_getElem hi]
    · rw [List.getElem?_eq_none (by omega)]

theorem fancy_length {xs : List α} {idx : List ℕ} {ys : List α} (h : fancy xs idx = .ok ys) :
    ys.length = idx.length := by
  rw [fancy_ok_iff] at h
  have := congrArg List.length h
  simpa using this.symm

theorem fancy_getElem? {xs : List α} {idx : List ℕ} {ys : List α} (h : fancy xs idx = .ok ys)
    {k i : ℕ} (hk : idx[k]? = some i) : ys[k]? = xs[i]? := by
  rw [fancy_ok_iff] at h
  have := congrArg (·[k]?) h
  simp only [List.getElem?_map, hk, Option.map_some] at this
  cases hy : ys[k]? with
  | none => rw [hy] at this; simp at this
  | some y => rw [hy] at this; simp at this; rw [this]

theorem fancy_map {xs : List α} {idx : List ℕ} {ys : List α} (f : α → β) (h : fancy xs idx = .ok ys) :
    fancy (xs.map f) idx = .ok (ys.map f) := by
  rw [fancy_ok_iff] at h ⊢
  have := congrArg (List.map (Option.map f)) h
  simpa [List.map_map, Function.comp_def] using this

theorem fancy_range (xs : List α) : fancy xs (List.range xs.length) = .ok xs := by
  rw [fancy_ok_iff]
  apply List.ext_getElem?
  intro k
  simp only [List.getElem?_map]
  by_cases hk : k < xs.length
  · simp [hk]
  · rw [List.getElem?_eq_none (by simp; omega), List.getElem?_eq_none (by omega)]; rfl

/-- fancy indexing along a list of pairs that carries its own indices -/
theorem fancy_of_pairs (xs : List α) (l : List (α × ℕ)) (h : ∀ p ∈ l, xs[p.2]? = some p.1) :
    fancy xs (l.map (·.2)) = .ok (l.map (·.1)) := by
  rw [fancy_ok_iff]
  simp only [List.map_map]
  apply List.map_congr_left
  intro p hp
  simp [h p hp]

/-! ### combinations -/

theorem mem_combinations (l : List α) (n : ℕ) (c : List α) :
    c ∈ combinations l n ↔ c.Sublist l ∧ c.length = n := by
  induction l generalizing n c with
  | nil =>
    cases n with
    | zero => simp [combinations, List.length_eq_zero_iff]
    | succ n =>
      simp only [combinations, List.not_mem_nil, false_iff, not_and, List.sublist_nil]
      rintro rfl; simp
  | cons x xs ih =>
    cases n with
    | zero =>
      simp only [combinations, List.mem_singleton, List.length_eq_zero_iff]
      constructor
      · rintro rfl; exact ⟨List.nil_sublist _, rfl⟩
      · exact fun h => h.2
    | succ n =>
      simp only [combinations, List.mem_append, List.mem_map, ih]
      constructor
      · rintro (⟨d, ⟨h1, h2⟩, rfl⟩ | ⟨h1, h2⟩)
        · exact ⟨h1.cons_cons x, by simp [h2]⟩
        · exact ⟨h1.cons x, h2⟩
      · rintro ⟨h1, h2⟩
        cases h1 with
        | cons _ h => exact Or.inr ⟨h, h2⟩
        | cons_cons _ h => exact Or.inl ⟨_, ⟨h, by simpa using h2⟩, rfl⟩

theorem length_combinations (l : List α) (n : ℕ) :
    (combinations l n).length = l.length.choose n := by
  induction l generalizing n with
  | nil => cases n <;> simp [combinations]
  | cons x xs ih =>
    cases n with
    | zero => simp [combinations]
    | succ n => simp [combinations, ih, Nat.choose_succ_succ]

theorem nodup_combinations (l : List α) (hl : l.Nodup) (n : ℕ) : (combinations l n).Nodup := by
  induction l generalizing n with
  | nil => cases n <;> simp [combinations]
  | cons x xs ih =>
    rw [List.nodup_cons] at hl
    cases n with
    | zero => simp [combinations]
    | succ n =>
      simp only [combinations]
      rw [List.nodup_append']
      refine ⟨(ih hl.2 n).map (by intro a b h; simpa using h), ih hl.2 (n + 1), ?_⟩
      intro c hc hc'
      rw [List.mem_map] at hc
      obtain ⟨d, _, rfl⟩ := hc
      rw [mem_combinations] at hc'
      exact hl.1 (hc'.1.subset (by simp))

theorem combinations_map (f : α → β) (l : List α) (n : ℕ) :
    combinations (l.map f) n = (combinations l n).map (List.map f) := by
  induction l generalizing n with
  | nil => cases n <;> simp [combinations]
  | cons x xs ih =>
    cases n with
    | zero => simp [combinations]
    | succ n => simp [combinations, ih, List.map_map, Function.comp_def]

end Verif
