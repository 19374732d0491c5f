import Verif.Spec.SpaceGroups
import Verif.Props.Restriction

/-! # C132: which space-group numbers `SpaceGroupRestriction` can tell apart

`is_satisfied` takes the first run of digits of a name like `'P-62m (189)'` for the number (ababe/stru/restriction.py:58-60). -/

namespace Verif

/-- the name of type `k` -/
def spgReport (k : ℕ) : List Char := spgString (Spec.spaceGroupSymbol k) k

/-- the restriction with list `l` accepts exactly the types in `l` -/
def RightFor (l : List ℤ) : Prop :=
  ∀ k : ℕ, 1 ≤ k → k ≤ 230 → spaceGroupSatisfied l (spgReport k) = .ok (decide ((k : ℤ) ∈ l))

/-- the first number in the name of every type -/
def spgRuns : List ℕ :=
  [1, 1, 2, 2, 2, 6, 7, 8, 9, 2, 2, 2, 2, 2, 2, 222, 222, 2, 2, 222, 222, 222, 222, 2, 2, 2, 2, 2, 2, 2, 2, 2, 2, 2, 2, 2,
   2, 2, 2, 2, 2, 2, 2, 2, 2, 2, 47, 48, 49, 50, 51, 52, 53, 54, 55, 56, 57, 58, 59, 60, 61, 62, 63, 64, 65, 66, 67, 68,
   69, 70, 71, 72, 73, 74, 4, 4, 4, 4, 4, 4, 4, 4, 4, 4, 4, 4, 4, 4, 422, 42, 4, 4, 4, 4, 4, 4, 422, 4, 4, 4, 4, 4, 4, 4,
   4, 4, 4, 4, 4, 4, 42, 42, 42, 42, 4, 4, 4, 4, 4, 4, 42, 42, 4, 4, 4, 4, 4, 4, 4, 4, 4, 4, 4, 4, 4, 4, 4, 4, 4, 4, 4, 4,
   3, 3, 3, 3, 3, 3, 312, 321, 3, 3, 3, 3, 32, 3, 31, 3, 31, 3, 3, 31, 31, 3, 3, 3, 3, 6, 6, 6, 6, 6, 6, 6, 6, 6, 622, 6,
   6, 6, 6, 6, 6, 6, 6, 6, 6, 6, 62, 62, 6, 6, 6, 6, 23, 23, 23, 2, 2, 3, 3, 3, 3, 3, 3, 3, 432, 4, 432, 4, 432, 4, 4, 4,
   43, 43, 43, 43, 43, 43, 3, 3, 3, 3, 3, 3, 3, 3, 3, 3]

/-- the first number in the name of type `k` -/
def spgRun (k : ℕ) : ℕ := spgRuns.getD (k - 1) 0

set_option maxRecDepth 100000 in
theorem spgRun_table : ∀ k ∈ List.range' 1 230, (firstDigits (spgReport k)).map natOfDigits = some (spgRun k) := by decide +kernel

theorem mem_types {k : ℕ} (h1 : 1 ≤ k) (h2 : k ≤ 230) : k ∈ List.range' 1 230 := by
  rw [List.mem_range'_1]; omega

theorem spgVerdict (l : List ℤ) {k : ℕ} (h1 : 1 ≤ k) (h2 : k ≤ 230) :
    spaceGroupSatisfied l (spgReport k) = .ok (decide ((spgRun k : ℤ) ∈ l)) := by
  have h := spgRun_table k (mem_types h1 h2)
  unfold spaceGroupSatisfied
  cases hd : firstDigits (spgReport k) with
  | none => rw [hd] at h; cases h
  | some ds =>
    rw [hd] at h
    injection h with h
    simp only [h]
    congr 1
    rw [Bool.eq_iff_iff]
    simp

theorem rightFor_iff (l : List ℤ) : RightFor l ↔ ∀ k : ℕ, 1 ≤ k → k ≤ 230 → ((spgRun k : ℤ) ∈ l ↔ (k : ℤ) ∈ l) := by
  refine forall_congr' fun k => forall_congr' fun h1 => forall_congr' fun h2 => ?_
  rw [spgVerdict l h1 h2, Except.ok.injEq, decide_eq_decide]

/-- **C38, texts without a number.** `is_satisfied` raises `IndexError` exactly if the reported text has no digit, whatever the list. -/
theorem C38_no_number (l : List ℤ) (spg : List Char) :
    spaceGroupSatisfied l spg = .error .indexError ↔ ∀ c ∈ spg, isDig c = false := by
  constructor
  · intro h
    have hn : spg.dropWhile (fun c => !isDig c) = [] := by
      unfold spaceGroupSatisfied firstDigits at h
      cases hd : spg.dropWhile (fun c => !isDig c) with
      | nil => rfl
      | cons x xs => rw [hd] at h; cases h
    clear h
    induction spg with
    | nil => simp
    | cons x xs ih =>
      rw [List.dropWhile_cons] at hn
      split at hn
      · rename_i hx
        intro c hc
        rcases List.mem_cons.1 hc with rfl | hc
        · simpa using hx
        · exact ih hn c hc
      · cases hn
  · intro h
    unfold spaceGroupSatisfied
    rw [firstDigits_none h]

/-- a case: a symbol without its number -/
example : spaceGroupSatisfied [6] "Pm".toList = .error .indexError := (C38_no_number _ _).2 (by decide)

/-- **C132, one number.** `SpaceGroupRestriction([n])` accepts exactly the structures of type `n` for 30 of the 230 types: 7, 8, 9, 47 to 61
and 63 to 74. -/
theorem C132_single (n : ℕ) (h1 : 1 ≤ n) (h2 : n ≤ 230) :
    RightFor [(n : ℤ)] ↔ (7 ≤ n ∧ n ≤ 9) ∨ (47 ≤ n ∧ n ≤ 61) ∨ (63 ≤ n ∧ n ≤ 74) := by
  have key : ∀ n ∈ List.range' 1 230, (∀ k ∈ List.range' 1 230, (spgRun k = n ↔ k = n)) ↔
      (7 ≤ n ∧ n ≤ 9) ∨ (47 ≤ n ∧ n ≤ 61) ∨ (63 ≤ n ∧ n ≤ 74) := by decide +kernel
  rw [rightFor_iff, ← key n (mem_types h1 h2)]
  constructor
  · intro h k hk
    rw [List.mem_range'_1] at hk
    have := h k (by omega) (by omega)
    simpa using this
  · intro h k hk hk'
    simpa using h k (mem_types hk hk')

/-- **C132, one type.** The verdict on structures of type `k` is right for every list exactly if `k` is 1, 6 to 9, or 47 to 74. -/
theorem C132_type (k : ℕ) (h1 : 1 ≤ k) (h2 : k ≤ 230) :
    (∀ l : List ℤ, spaceGroupSatisfied l (spgReport k) = .ok (decide ((k : ℤ) ∈ l))) ↔
      k = 1 ∨ (6 ≤ k ∧ k ≤ 9) ∨ (47 ≤ k ∧ k ≤ 74) := by
  have key : ∀ k ∈ List.range' 1 230, spgRun k = k ↔ k = 1 ∨ (6 ≤ k ∧ k ≤ 9) ∨ (47 ≤ k ∧ k ≤ 74) := by decide +kernel
  rw [← key k (mem_types h1 h2)]
  constructor
  · intro h
    have := h [(k : ℤ)]
    rw [spgVerdict _ h1 h2, Except.ok.injEq, decide_eq_decide] at this
    simpa using this
  · intro h l
    rw [spgVerdict _ h1 h2, h]

/-- **C132, numbers without effect.** `SpaceGroupRestriction([n])` accepts a structure of some type exactly for these 47 numbers `n`; it
rejects every structure for all others, for example 225 (rock salt) and 194 (hcp). -/
theorem C132_accepts (n : ℤ) : (∃ k : ℕ, 1 ≤ k ∧ k ≤ 230 ∧ spaceGroupSatisfied [n] (spgReport k) = .ok true) ↔
    n ∈ ([1, 2, 3, 4, 6, 7, 8, 9, 23, 31, 32, 42, 43, 222, 312, 321, 422, 432, 622] : List ℤ) ∨ (47 ≤ n ∧ n ≤ 74) := by
  have key : ∀ k ∈ List.range' 1 230,
      (spgRun k : ℤ) ∈ ([1, 2, 3, 4, 6, 7, 8, 9, 23, 31, 32, 42, 43, 222, 312, 321, 422, 432, 622] : List ℤ) ∨
        (47 ≤ (spgRun k : ℤ) ∧ (spgRun k : ℤ) ≤ 74) := by decide +kernel
  constructor
  · rintro ⟨k, h1, h2, h⟩
    rw [spgVerdict _ h1 h2, Except.ok.injEq, decide_eq_true_eq, List.mem_singleton] at h
    rw [← h]
    exact key k (mem_types h1 h2)
  · have some : ∀ m : ℕ, (∃ k ∈ List.range' 1 230, spgRun k = m) → ∃ k : ℕ, 1 ≤ k ∧ k ≤ 230 ∧
        spaceGroupSatisfied [(m : ℤ)] (spgReport k) = .ok true := by
      rintro m ⟨k, hk, h⟩
      rw [List.mem_range'_1] at hk
      exact ⟨k, by omega, by omega, by rw [spgVerdict _ (by omega) (by omega), h]; simp⟩
    have all : ∀ m ∈ ([1, 2, 3, 4, 6, 7, 8, 9, 23, 31, 32, 42, 43, 222, 312, 321, 422, 432, 622] : List ℕ) ++ List.range' 47 28,
        ∃ k ∈ List.range' 1 230, spgRun k = m := by decide +kernel
    intro h
    have hn : 0 ≤ n := by
      rcases h with h | h
      · revert n; decide
      · omega
    obtain ⟨m, rfl⟩ := Int.eq_ofNat_of_zero_le hn
    refine some m (all m ?_)
    rcases h with h | h
    · refine List.mem_append_left _ ?_
      simp only [List.mem_cons, List.not_mem_nil, or_false] at h ⊢
      omega
    · exact List.mem_append_right _ (by rw [List.mem_range'_1]; omega)

/-- **C132, lists.** A list of types works – the restriction accepts exactly the types in it – if and only if it contains all or none of
the 164 types connected with 1, all or none of the 25 connected with 6, all or none of 62, 189, 190, and none of 89, 97, 149, 150, 177,
207, 209, 211. -/
theorem C132_lists (l : List ℤ) (hl : ∀ x ∈ l, 1 ≤ x ∧ x ≤ 230) :
    RightFor l ↔ (∀ k : ℕ, 1 ≤ k → k ≤ 230 → Spec.likeOne k → ((k : ℤ) ∈ l ↔ (1 : ℤ) ∈ l)) ∧
      (∀ k : ℕ, 1 ≤ k → k ≤ 230 → Spec.likeSix k → ((k : ℤ) ∈ l ↔ (6 : ℤ) ∈ l)) ∧
      ((189 : ℤ) ∈ l ↔ (62 : ℤ) ∈ l) ∧ ((190 : ℤ) ∈ l ↔ (62 : ℤ) ∈ l) ∧
      ∀ k ∈ ([89, 97, 149, 150, 177, 207, 209, 211] : List ℤ), k ∉ l := by
  rw [rightFor_iff]
  -- following the first numbers, every type connected with 1 leads to 1 in five steps
  have one : ∀ k ∈ List.range' 1 230, Spec.likeOne k → Spec.likeOne (spgRun k) ∧ 1 ≤ spgRun k ∧ spgRun k ≤ 230 ∧
      spgRun (spgRun (spgRun (spgRun (spgRun k)))) = 1 := by decide +kernel
  have six : ∀ k ∈ List.range' 1 230, Spec.likeSix k → spgRun k = 6 := by decide +kernel
  have dead : ∀ k ∈ [89, 97, 149, 150, 177, 207, 209, 211], 230 < spgRun k := by decide +kernel
  have rest : ∀ k ∈ List.range' 1 230, Spec.likeOne k ∨ Spec.likeSix k ∨ k = 189 ∨ k = 190 ∨ k ∈ [89, 97, 149, 150, 177, 207, 209, 211] ∨
      spgRun k = k := by decide +kernel
  have r189 : spgRun 189 = 62 := by decide +kernel
  have r190 : spgRun 190 = 62 := by decide +kernel
  have deadl : ∀ k ∈ [89, 97, 149, 150, 177, 207, 209, 211], (spgRun k : ℤ) ∉ l := by
    intro k hk h
    have h1 := (hl _ h).2
    have h2 := dead k hk
    omega
  constructor
  · intro h
    refine ⟨fun k k1 k2 hk => ?_, fun k k1 k2 hk => ?_, ?_, ?_, ?_⟩
    · have a0 := one k (mem_types k1 k2) hk
      have a1 := one _ (mem_types a0.2.1 a0.2.2.1) a0.1
      have a2 := one _ (mem_types a1.2.1 a1.2.2.1) a1.1
      have a3 := one _ (mem_types a2.2.1 a2.2.2.1) a2.1
      rw [← h k k1 k2, ← h _ a0.2.1 a0.2.2.1, ← h _ a1.2.1 a1.2.2.1, ← h _ a2.2.1 a2.2.2.1, ← h _ a3.2.1 a3.2.2.1, a0.2.2.2]
      exact Iff.of_eq (by norm_num)
    · rw [← h k k1 k2, six k (mem_types k1 k2) hk]
      exact Iff.of_eq (by norm_num)
    · have := h 189 (by norm_num) (by norm_num)
      rw [r189] at this
      exact_mod_cast this.symm
    · have := h 190 (by norm_num) (by norm_num)
      rw [r190] at this
      exact_mod_cast this.symm
    · have : ∀ k ∈ [89, 97, 149, 150, 177, 207, 209, 211], ((k : ℕ) : ℤ) ∉ l := by
        intro k hk hm
        have hr : 1 ≤ k ∧ k ≤ 230 := by clear hm; revert k; decide
        exact deadl k hk ((h k hr.1 hr.2).2 hm)
      simpa using this
  · rintro ⟨h1, h6, h189, h190, hd⟩ k k1 k2
    rcases rest k (mem_types k1 k2) with h | h | rfl | rfl | h | h
    · have a := one k (mem_types k1 k2) h
      rw [h1 k k1 k2 h, h1 _ a.2.1 a.2.2.1 a.1]
    · rw [six k (mem_types k1 k2) h, h6 k k1 k2 h]
      exact Iff.of_eq (by norm_num)
    · rw [r189]
      exact_mod_cast h189.symm
    · rw [r190]
      exact_mod_cast h190.symm
    · have hk : ∀ k ∈ [89, 97, 149, 150, 177, 207, 209, 211], ((k : ℕ) : ℤ) ∉ l := by simpa using hd
      exact iff_of_false (deadl k h) (hk k h)
    · rw [h]

/-- cases: `Pnma` and `P-62m` are taken for the same type; `[62]` accepts both, `[189]` neither -/
example : spaceGroupSatisfied [62] (spgReport 62) = .ok true ∧ spaceGroupSatisfied [62] (spgReport 189) = .ok true ∧
    spaceGroupSatisfied [189] (spgReport 189) = .ok false ∧ spgReport 189 = "P-62m (189)".toList := by decide +kernel

/-- cases: lists that work, and lists that do not -/
example : RightFor [7, 47, 62, 189, 190, 74] ∧ ¬ RightFor [62] ∧ ¬ RightFor [225] ∧ ¬ RightFor [1] := by
  refine ⟨(C132_lists _ (by decide)).2 ⟨?_, ?_, by decide, by decide, by decide⟩, fun h => ?_, fun h => ?_, fun h => ?_⟩
  · have : ∀ k ∈ List.range' 1 230, Spec.likeOne k → ((k : ℤ) ∈ ([7, 47, 62, 189, 190, 74] : List ℤ) ↔ (1 : ℤ) ∈ ([7, 47, 62, 189, 190, 74] : List ℤ)) := by
      decide +kernel
    exact fun k h1 h2 => this k (mem_types h1 h2)
  · have : ∀ k ∈ List.range' 1 230, Spec.likeSix k → ((k : ℤ) ∈ ([7, 47, 62, 189, 190, 74] : List ℤ) ↔ (6 : ℤ) ∈ ([7, 47, 62, 189, 190, 74] : List ℤ)) := by
      decide +kernel
    exact fun k h1 h2 => this k (mem_types h1 h2)
  · have := (C132_single 62 (by norm_num) (by norm_num)).1 h
    omega
  · have := (C132_single 225 (by norm_num) (by norm_num)).1 h
    omega
  · have := (C132_single 1 (by norm_num) (by norm_num)).1 h
    omega

end Verif
