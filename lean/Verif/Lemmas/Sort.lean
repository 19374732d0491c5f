import Verif.Lemmas.Lists
import Mathlib.Tactic.Linarith
import Mathlib.Data.List.NodupEquivFin

/-! # The stable argsort `lexsort3` -/

namespace Verif

theorem lexLe_refl (a : V3 ℚ) : lexLe a a = true := by simp [lexLe]

theorem lexLe_iff (a b : V3 ℚ) : lexLe a b = true ↔
    a.1 < b.1 ∨ (a.1 = b.1 ∧ (a.2.1 < b.2.1 ∨ (a.2.1 = b.2.1 ∧ a.2.2 ≤ b.2.2))) := by
  simp [lexLe]

theorem lexLe_trans (a b c : V3 ℚ) (h1 : lexLe a b = true) (h2 : lexLe b c = true) : lexLe a c = true := by
  rw [lexLe_iff] at *
  rcases h1 with h1 | ⟨h1, h1' | ⟨h1', h1''⟩⟩ <;> rcases h2 with h2 | ⟨h2, h2' | ⟨h2', h2''⟩⟩
  · left; linarith
  · left; linarith
  · left; linarith
  · left; linarith
  · right; exact ⟨by linarith, Or.inl (by linarith)⟩
  · right; exact ⟨by linarith, Or.inl (by linarith)⟩
  · left; linarith
  · right; exact ⟨by linarith, Or.inl (by linarith)⟩
  · right; exact ⟨by linarith, Or.inr ⟨by linarith, by linarith⟩⟩

theorem lexLe_total (a b : V3 ℚ) : lexLe a b = true ∨ lexLe b a = true := by
  rw [lexLe_iff, lexLe_iff]
  rcases lt_trichotomy a.1 b.1 with h | h | h
  · exact Or.inl (Or.inl h)
  · rcases lt_trichotomy a.2.1 b.2.1 with h' | h' | h'
    · exact Or.inl (Or.inr ⟨h, Or.inl h'⟩)
    · rcases le_total a.2.2 b.2.2 with h'' | h''
      · exact Or.inl (Or.inr ⟨h, Or.inr ⟨h', h''⟩⟩)
      · exact Or.inr (Or.inr ⟨h.symm, Or.inr ⟨h'.symm, h''⟩⟩)
    · exact Or.inr (Or.inr ⟨h.symm, Or.inl h'⟩)
  · exact Or.inr (Or.inl h)

theorem lexLe_antisymm (a b : V3 ℚ) (h1 : lexLe a b = true) (h2 : lexLe b a = true) : a = b := by
  rw [lexLe_iff] at *
  rcases h1 with h1 | ⟨h1, h1' | ⟨h1', h1''⟩⟩ <;> rcases h2 with h2 | ⟨h2, h2' | ⟨h2', h2''⟩⟩
  all_goals first | (exfalso; linarith) | skip
  exact Prod.ext h1 (Prod.ext h1' (le_antisymm h1'' h2''))

/-- two-element sublists in both orders contradict `Nodup` -/
theorem nodup_pair_sublist {α} {l : List α} (hl : l.Nodup) {a b : α} (h1 : [a, b].Sublist l) (h2 : [b, a].Sublist l) :
    False := by
  induction l with
  | nil => simp at h1
  | cons x xs ih =>
    rw [List.nodup_cons] at hl
    cases h1 with
    | cons _ h1 =>
      cases h2 with
      | cons _ h2 => exact ih hl.2 h1 h2
      | cons_cons _ h2 => exact hl.1 (h1.subset (by simp))
    | cons_cons _ h1 =>
      cases h2 with
      | cons _ h2 => exact hl.1 (h2.subset (by simp))
      | cons_cons _ h2 => exact hl.1 (h1.subset (by simp))

theorem pairwise_of_pair_sublist {α} {l : List α} {R : α → α → Prop} (h : ∀ a b, [a, b].Sublist l → R a b) :
    l.Pairwise R := List.pairwise_iff_forall_sublist.2 (fun {a b} hab => h a b hab)

theorem zipIdx_pairwise_lt {α} (l : List α) (k : ℕ) : (l.zipIdx k).Pairwise (fun a b => a.2 < b.2) := by
  have : ((l.zipIdx k).map (·.2)).Pairwise (· < ·) := by
    rw [List.zipIdx_map_snd]
    exact List.pairwise_lt_range'
  rwa [List.pairwise_map] at this

theorem zipIdx_nodup {α} (l : List α) (k : ℕ) : (l.zipIdx k).Nodup :=
  (zipIdx_pairwise_lt l k).imp (fun h => by rintro rfl; exact absurd h (lt_irrefl _))

def keyLe (a b : V3 ℚ × ℕ) : Prop := lexLe a.1 b.1 = true

instance : DecidableRel keyLe := fun a b => inferInstanceAs (Decidable (lexLe a.1 b.1 = true))
instance : IsTrans _ keyLe := ⟨fun _ _ _ h1 h2 => lexLe_trans _ _ _ h1 h2⟩
instance : Std.Total keyLe := ⟨fun _ _ => lexLe_total _ _⟩

/-- sorted pairs (key, index) -/
def sortedPairs (keys : List (V3 ℚ)) : List (V3 ℚ × ℕ) :=
  (keys.zipIdx).insertionSort keyLe

theorem lexsort3_eq (keys : List (V3 ℚ)) : lexsort3 keys = (sortedPairs keys).map (·.2) := rfl

theorem sortedPairs_perm (keys : List (V3 ℚ)) : (sortedPairs keys).Perm keys.zipIdx :=
  List.perm_insertionSort _ _

theorem mem_sortedPairs (keys : List (V3 ℚ)) (p : V3 ℚ × ℕ) : p ∈ sortedPairs keys ↔ keys[p.2]? = some p.1 := by
  rw [(sortedPairs_perm keys).mem_iff]
  rw [List.mem_zipIdx_iff_getElem?]

/-- strict order on (key, index) pairs -/
def pairLt (a b : V3 ℚ × ℕ) : Prop := lexLe a.1 b.1 = true ∧ (a.1 = b.1 → a.2 < b.2)

theorem sortedPairs_pairwise (keys : List (V3 ℚ)) : (sortedPairs keys).Pairwise pairLt := by
  apply pairwise_of_pair_sublist
  intro a b hab
  have hs : (sortedPairs keys).Pairwise (fun a b => lexLe a.1 b.1 = true) :=
    List.pairwise_insertionSort keyLe _
  have hle : lexLe a.1 b.1 = true := List.pairwise_iff_forall_sublist.1 hs hab
  refine ⟨hle, fun heq => ?_⟩
  have hnd : (sortedPairs keys).Nodup := (sortedPairs_perm keys).nodup_iff.2 (zipIdx_nodup keys 0)
  have hne : a ≠ b := by
    rintro rfl
    have := hnd.sublist hab
    simp at this
  have ha : keys[a.2]? = some a.1 := (mem_sortedPairs keys a).1 (hab.subset (by simp))
  have hb : keys[b.2]? = some b.1 := (mem_sortedPairs keys b).1 (hab.subset (by simp))
  by_contra hlt
  have hlt' : b.2 < a.2 := by
    rcases lt_trichotomy a.2 b.2 with h | h | h
    · exact absurd h hlt
    · exfalso; apply hne
      exact Prod.ext heq h
    · exact h
  have hsub : [b, a].Sublist keys.zipIdx := by
    have hpair := zipIdx_pairwise_lt keys 0
    have hma : a ∈ keys.zipIdx := by rw [List.mem_zipIdx_iff_getElem?]; exact ha
    have hmb : b ∈ keys.zipIdx := by rw [List.mem_zipIdx_iff_getElem?]; exact hb
    -- a sublist with the right order
    have : (List.filter (fun p => decide (p = b ∨ p = a)) keys.zipIdx) = [b, a] := by
      have hpf := hpair.filter (fun p => decide (p = b ∨ p = a))
      have hperm : (List.filter (fun p => decide (p = b ∨ p = a)) keys.zipIdx).Perm [b, a] := by
        rw [List.perm_ext_iff_of_nodup ((zipIdx_nodup keys 0).filter _)
          (by simp [Ne.symm hne])]
        intro p
        simp only [List.mem_filter, decide_eq_true_eq, List.mem_cons, List.not_mem_nil, or_false]
        constructor
        · exact fun h => h.2
        · rintro (rfl | rfl)
          · exact ⟨hmb, Or.inl rfl⟩
          · exact ⟨hma, Or.inr rfl⟩
      apply List.Perm.eq_of_pairwise (le := fun a b : V3 ℚ × ℕ => a.2 < b.2) _ hpf _ hperm
      · intro x y _ _ h1 h2; exact absurd h1 (by omega)
      · simp [hlt']
    rw [← this]
    exact List.filter_sublist
  have hsub2 : [b, a].Sublist (sortedPairs keys) :=
    List.pair_sublist_insertionSort (r := keyLe)
      (by unfold keyLe; rw [heq]; exact lexLe_refl _) hsub
  exact nodup_pair_sublist hnd hab hsub2

theorem sortedPairs_unique (keys : List (V3 ℚ)) (l : List (V3 ℚ × ℕ)) (hp : l.Perm keys.zipIdx)
    (hs : l.Pairwise pairLt) : l = sortedPairs keys := by
  apply List.Perm.eq_of_pairwise (le := pairLt) _ hs (sortedPairs_pairwise keys)
    (hp.trans (sortedPairs_perm keys).symm)
  rintro a b _ _ ⟨h1, h2⟩ ⟨h3, h4⟩
  have : a.1 = b.1 := lexLe_antisymm _ _ h1 h3
  have := h2 this
  have := h4 (by simp [*])
  omega

theorem lexsort3_perm (keys : List (V3 ℚ)) : (lexsort3 keys).Perm (List.range keys.length) := by
  rw [lexsort3_eq]
  have := (sortedPairs_perm keys).map (·.2)
  rw [List.zipIdx_map_snd] at this
  rwa [← List.range_eq_range'] at this

theorem lexsort3_length (keys : List (V3 ℚ)) : (lexsort3 keys).length = keys.length := by
  simpa using (lexsort3_perm keys).length_eq

theorem lexsort3_nodup (keys : List (V3 ℚ)) : (lexsort3 keys).Nodup :=
  (lexsort3_perm keys).nodup_iff.2 List.nodup_range

theorem mem_lexsort3 (keys : List (V3 ℚ)) (i : ℕ) : i ∈ lexsort3 keys ↔ i < keys.length := by
  rw [(lexsort3_perm keys).mem_iff, List.mem_range]

theorem fancy_lexsort3 (keys : List (V3 ℚ)) : fancy keys (lexsort3 keys) = .ok ((sortedPairs keys).map (·.1)) := by
  rw [lexsort3_eq]
  exact fancy_of_pairs _ _ (fun p hp => (mem_sortedPairs keys p).1 hp)

theorem sorted_keys (keys : List (V3 ℚ)) : ((sortedPairs keys).map (·.1)).Pairwise (fun a b => lexLe a b = true) := by
  rw [List.pairwise_map]
  exact (sortedPairs_pairwise keys).imp (fun h => h.1)

theorem sorted_keys_perm (keys : List (V3 ℚ)) : ((sortedPairs keys).map (·.1)).Perm keys := by
  have := (sortedPairs_perm keys).map (·.1)
  rwa [List.zipIdx_map_fst] at this

/-- on already sorted keys the stable argsort is the identity -/
theorem lexsort3_of_sorted (keys : List (V3 ℚ)) (h : keys.Pairwise (fun a b => lexLe a b = true)) :
    lexsort3 keys = List.range keys.length := by
  rw [lexsort3_eq, ← sortedPairs_unique keys keys.zipIdx (List.Perm.refl _), List.zipIdx_map_snd,
    List.range_eq_range']
  have h1 : (keys.zipIdx).Pairwise (fun a b => lexLe a.1 b.1 = true) := by
    rw [← List.pairwise_map (f := Prod.fst) (R := fun a b => lexLe a b = true), List.zipIdx_map_fst]
    exact h
  exact h1.imp₂ (fun a b hab hlt => ⟨hab, fun _ => hlt⟩) (zipIdx_pairwise_lt keys 0)

end Verif
