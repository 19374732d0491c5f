import Verif.Lemmas.Subst

/-! # Hash-set deduplication with symmetry images -/

namespace Verif

section generic
variable {A : Type _} {K : Type _} [DecidableEq K] (key : A → K) (iso : A → List K)

/-- pure version of the deduplication loop: emit an item whose key was not seen, then mark all keys in `iso` -/
def dedupL : List K → List A → List A
  | _, [] => []
  | seen, a :: as => if key a ∈ seen then dedupL seen as else a :: dedupL (iso a ++ seen) as

theorem dedupL_cons (seen : List K) (a : A) (as : List A) : dedupL key iso seen (a :: as) =
    if key a ∈ seen then dedupL key iso seen as else a :: dedupL key iso (iso a ++ seen) as := rfl

theorem dedupL_sublist (seen : List K) (l : List A) : (dedupL key iso seen l).Sublist l := by
  induction l generalizing seen with
  | nil => exact List.Sublist.refl _
  | cons a l ih =>
    unfold dedupL
    split
    · exact (ih seen).cons a
    · exact (ih _).cons_cons a

theorem dedupL_not_seen {seen : List K} {l : List A} {a : A} (h : a ∈ dedupL key iso seen l) : key a ∉ seen := by
  induction l generalizing seen with
  | nil => simp [dedupL] at h
  | cons b l ih =>
    unfold dedupL at h
    split at h
    · exact ih h
    · rename_i hb
      rcases List.mem_cons.1 h with rfl | h
      · exact hb
      · intro hs; exact ih h (List.mem_append_right _ hs)

theorem dedupL_pairwise (seen : List K) (l : List A) :
    (dedupL key iso seen l).Pairwise (fun a b => key b ∉ iso a) := by
  induction l generalizing seen with
  | nil => exact List.Pairwise.nil
  | cons b l ih =>
    unfold dedupL
    split
    · exact ih _
    · refine List.Pairwise.cons ?_ (ih _)
      intro a ha hk
      exact dedupL_not_seen key iso ha (List.mem_append_left _ hk)

/-- every item is covered by an emitted item that does not come later -/
theorem dedupL_cover {seen : List K} {pre post : List A} {a : A} (hrefl : key a ∈ iso a) (hs : key a ∉ seen) :
    ∃ r ∈ dedupL key iso seen (pre ++ a :: post), r ∈ pre ++ [a] ∧ key a ∈ iso r := by
  induction pre generalizing seen with
  | nil =>
    simp only [List.nil_append]
    unfold dedupL
    rw [if_neg hs]
    exact ⟨a, by simp, by simp, hrefl⟩
  | cons b pre ih =>
    rw [List.cons_append]
    unfold dedupL
    split
    · obtain ⟨r, h1, h2, h3⟩ := ih hs
      exact ⟨r, h1, by simp at h2 ⊢; tauto, h3⟩
    · by_cases hb : key a ∈ iso b
      · exact ⟨b, by simp, by simp, hb⟩
      · obtain ⟨r, h1, h2, h3⟩ := ih (seen := iso b ++ seen) (by simp [hb, hs])
        exact ⟨r, by simp [h1], by simp at h2 ⊢; tauto, h3⟩

theorem dedupL_first {seen : List K} {l : List A} {r : A} (h : r ∈ dedupL key iso seen l) :
    ∃ pre post, l = pre ++ r :: post ∧ ∀ q ∈ dedupL key iso seen pre, key r ∉ iso q := by
  induction l generalizing seen with
  | nil => simp [dedupL] at h
  | cons b l ih =>
    unfold dedupL at h
    split at h
    · rename_i hb
      obtain ⟨pre, post, rfl, h2⟩ := ih h
      refine ⟨b :: pre, post, rfl, ?_⟩
      unfold dedupL
      rw [if_pos hb]; exact h2
    · rename_i hb
      rcases List.mem_cons.1 h with rfl | h
      · exact ⟨[], l, rfl, by simp [dedupL]⟩
      · have hns := dedupL_not_seen key iso h
        obtain ⟨pre, post, rfl, h2⟩ := ih h
        refine ⟨b :: pre, post, rfl, ?_⟩
        unfold dedupL
        rw [if_neg hb]
        intro q hq
        rcases List.mem_cons.1 hq with rfl | hq
        · intro hk; exact hns (List.mem_append_left _ hk)
        · exact h2 q hq

/-- laziness: the output on an initial part of the input is an initial part of the output -/
theorem dedupL_append (seen : List K) (l₁ l₂ : List A) :
    ∃ seen', dedupL key iso seen (l₁ ++ l₂) = dedupL key iso seen l₁ ++ dedupL key iso seen' l₂ := by
  induction l₁ generalizing seen with
  | nil => exact ⟨seen, rfl⟩
  | cons a l₁ ih =>
    rw [List.cons_append, dedupL_cons, dedupL_cons]
    split
    · exact ih seen
    · obtain ⟨s, hs⟩ := ih (iso a ++ seen)
      exact ⟨s, by rw [hs]; rfl⟩

end generic

theorem updateIsoset_ok (hash : List ℤ → ℕ) (numbers : List ℤ) (P : List (List ℕ)) (isoset : List ℕ)
    (hP : ∀ p ∈ P, ∀ i ∈ p, i < numbers.length) :
    ∃ s, updateIsoset hash isoset numbers P = .ok s ∧
      ∀ k, k ∈ s ↔ k ∈ P.map (fun p => hash (gather numbers p)) ++ isoset := by
  induction P generalizing isoset with
  | nil => exact ⟨isoset, rfl, by simp⟩
  | cons p P ih =>
    unfold updateIsoset
    rw [fancy_gather (hP p (by simp))]
    obtain ⟨s, h1, h2⟩ := ih (hash (gather numbers p) :: isoset) (fun q hq => hP q (List.mem_cons_of_mem _ hq))
    refine ⟨s, h1, fun k => ?_⟩
    rw [h2]; simp [or_left_comm]

/-- keys put into the table after emitting a cell -/
def isoKeys (hash : List ℤ → ℕ) (P : List (List ℕ)) (c : GCell) : List ℕ := P.map (fun p => hash (gather c.numbers p))

theorem dedupL_congr_seen {A K} [DecidableEq K] (key : A → K) (iso : A → List K) (s s' : List K) (h : ∀ k, k ∈ s ↔ k ∈ s') (l : List A) :
    dedupL key iso s l = dedupL key iso s' l := by
  induction l generalizing s s' with
  | nil => rfl
  | cons a l ih =>
    unfold dedupL
    by_cases hk : key a ∈ s
    · rw [if_pos hk, if_pos ((h _).1 hk)]; exact ih _ _ h
    · rw [if_neg hk, if_neg (fun h' => hk ((h _).2 h'))]
      rw [ih (iso a ++ s) (iso a ++ s') (fun k => by simp [h k])]

theorem gen2NodupLoop_eq (hash : List ℤ → ℕ) (P : List (List ℕ)) (seen : List ℕ) (l : List GCell)
    (hP : ∀ c ∈ l, ∀ p ∈ P, ∀ i ∈ p, i < c.numbers.length) :
    gen2NodupLoop hash P seen l = .ok (dedupL (GCell.id hash) (isoKeys hash P) seen l) := by
  induction l generalizing seen with
  | nil => rfl
  | cons c l ih =>
    unfold gen2NodupLoop dedupL
    split
    · exact ih seen (fun d hd => hP d (List.mem_cons_of_mem _ hd))
    · obtain ⟨s, h1, h2⟩ := updateIsoset_ok hash c.numbers P seen (hP c (by simp))
      rw [h1]
      simp only [bind, Except.bind]
      rw [ih s (fun d hd => hP d (List.mem_cons_of_mem _ hd))]
      simp only [pure, Except.pure]
      rw [dedupL_congr_seen _ _ s (isoKeys hash P c ++ seen) h2]

/-- even when rows are invalid a successful run is the pure deduplication as far as it is observable:
rows of a successfully emitted cell are valid -/
theorem updateIsoset_valid {hash : List ℤ → ℕ} {numbers : List ℤ} {P : List (List ℕ)} {isoset s : List ℕ}
    (h : updateIsoset hash isoset numbers P = .ok s) : ∀ p ∈ P, ∀ i ∈ p, i < numbers.length := by
  induction P generalizing isoset with
  | nil => simp
  | cons p P ih =>
    unfold updateIsoset at h
    cases hf : fancy numbers p with
    | error e => rw [hf] at h; cases h
    | ok nn =>
      rw [hf] at h
      intro q hq
      rcases List.mem_cons.1 hq with rfl | hq
      · exact (fancy_isOk_iff _ _).1 ⟨nn, hf⟩
      · exact ih h q hq

theorem image_iff_rel {P : List (List ℕ)} {a b : List ℤ} (hP : ∀ p ∈ P, ∀ i ∈ p, i < a.length) :
    Spec.Image P a b ↔ Rel P a b := by
  refine exists_congr fun p => and_congr_right fun hp => ?_
  constructor
  · rintro ⟨h1, h2⟩
    apply List.ext_getElem?
    intro i
    rw [gather_getElem? (hP p hp)]
    cases hi : p[i]? with
    | none =>
      rw [Option.bind_none]
      rw [List.getElem?_eq_none_iff] at hi
      exact (List.getElem?_eq_none (by omega)).symm
    | some j => rw [Option.bind_some]; exact (h2 i j hi).symm
  · rintro rfl
    refine ⟨gather_length (hP p hp), fun i j hij => ?_⟩
    rw [gather_getElem? (hP p hp), hij]; rfl

end Verif
