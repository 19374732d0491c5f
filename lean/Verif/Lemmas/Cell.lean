import Verif.Lemmas.Round
import Verif.Lemmas.Sort
import Verif.Spec.Cell

/-! # Constructor lemmas -/

namespace Verif

theorem newIdSeq_ok {pos : List (V3 ℚ)} (h : pos ≠ []) : newIdSeq pos = .ok (lexsort3 (pos.map siteKey)) := by
  simp [newIdSeq, h]

theorem new_nil (L : M3 ℚ) (nums : List ℤ) : GCell.new L [] nums = .error .valueError := rfl

theorem new_short {L : M3 ℚ} {pos : List (V3 ℚ)} {nums : List ℤ} (h : pos ≠ []) (hl : nums.length < pos.length) :
    GCell.new L pos nums = .error .indexError := by
  unfold GCell.new
  rw [newIdSeq_ok h]
  obtain ⟨ps, hps⟩ := (fancy_isOk_iff pos (lexsort3 (pos.map siteKey))).2
    (fun i hi => by simpa using (mem_lexsort3 _ i).1 hi)
  have : fancy nums (lexsort3 (pos.map siteKey)) = .error .indexError := by
    apply fancy_error
    intro hall
    have h1 : nums.length ∈ lexsort3 (pos.map siteKey) := (mem_lexsort3 _ _).2 (by simpa using hl)
    exact absurd (hall _ h1) (lt_irrefl _)
  simp [bind, Except.bind, hps, this]

theorem new_spec (L : M3 ℚ) {pos : List (V3 ℚ)} {nums : List ℤ} (h : pos ≠ []) (hl : pos.length ≤ nums.length) :
    ∃ ps ns, fancy pos (lexsort3 (pos.map siteKey)) = .ok ps ∧ fancy nums (lexsort3 (pos.map siteKey)) = .ok ns ∧
      GCell.new L pos nums = .ok ⟨L, ps, ns, ns, nums.length⟩ := by
  obtain ⟨ps, hps⟩ := (fancy_isOk_iff pos (lexsort3 (pos.map siteKey))).2
    (fun i hi => by simpa using (mem_lexsort3 _ i).1 hi)
  obtain ⟨ns, hns⟩ := (fancy_isOk_iff nums (lexsort3 (pos.map siteKey))).2
    (fun i hi => by have := (mem_lexsort3 _ i).1 hi; simp at this; omega)
  refine ⟨ps, ns, hps, hns, ?_⟩
  unfold GCell.new
  rw [newIdSeq_ok h]
  simp [bind, Except.bind, hps, hns, pure, Except.pure]

theorem new_ok_inv {L : M3 ℚ} {pos : List (V3 ℚ)} {nums : List ℤ} {c : GCell} (hc : GCell.new L pos nums = .ok c) :
    pos ≠ [] ∧ pos.length ≤ nums.length ∧ fancy pos (lexsort3 (pos.map siteKey)) = .ok c.positions ∧
      fancy nums (lexsort3 (pos.map siteKey)) = .ok c.numbers ∧ c.lattice = L ∧ c.spgNumbers = c.numbers ∧
      c.numCount = nums.length := by
  have h1 : pos ≠ [] := by rintro rfl; rw [new_nil] at hc; cases hc
  have h2 : pos.length ≤ nums.length := by
    by_contra h; rw [new_short h1 (by omega)] at hc; cases hc
  obtain ⟨ps, ns, hps, hns, hnew⟩ := new_spec L h1 h2
  rw [hnew] at hc
  injection hc with hc
  subst hc
  exact ⟨h1, h2, hps, hns, rfl, rfl, rfl⟩

theorem new_keys {L : M3 ℚ} {pos : List (V3 ℚ)} {nums : List ℤ} {c : GCell} (hc : GCell.new L pos nums = .ok c) :
    c.positions.map siteKey = (sortedPairs (pos.map siteKey)).map (·.1) := by
  obtain ⟨_, _, hps, _⟩ := new_ok_inv hc
  have h1 := fancy_map siteKey hps
  rw [fancy_lexsort3] at h1
  injection h1 with h1
  exact h1.symm

theorem new_keys_sorted {L : M3 ℚ} {pos : List (V3 ℚ)} {nums : List ℤ} {c : GCell} (hc : GCell.new L pos nums = .ok c) :
    (c.positions.map siteKey).Pairwise (fun a b => lexLe a b = true) := by
  rw [new_keys hc]; exact sorted_keys _

theorem new_lengths {L : M3 ℚ} {pos : List (V3 ℚ)} {nums : List ℤ} {c : GCell} (hc : GCell.new L pos nums = .ok c) :
    c.positions.length = pos.length ∧ c.numbers.length = pos.length := by
  obtain ⟨_, _, hps, hns, _⟩ := new_ok_inv hc
  have h1 := fancy_length hps
  have h2 := fancy_length hns
  rw [lexsort3_length, List.length_map] at h1 h2
  exact ⟨h1, h2⟩

theorem fancy_zip {α β} {xs : List α} {ys : List β} {idx : List ℕ} {as : List α} {bs : List β}
    (h1 : fancy xs idx = .ok as) (h2 : fancy ys idx = .ok bs) : fancy (xs.zip ys) idx = .ok (as.zip bs) := by
  induction idx generalizing as bs with
  | nil =>
    rw [fancy_nil] at *
    injection h1 with h1; subst h1; rfl
  | cons i idx ih =>
    rw [fancy_cons] at *
    cases hx : xs[i]? with
    | none => rw [hx] at h1; cases h1
    | some x =>
      cases hy : ys[i]? with
      | none => rw [hy] at h2; cases h2
      | some y =>
        rw [hx] at h1; rw [hy] at h2
        simp only at h1 h2
        cases hf : fancy xs idx with
        | error e => rw [hf] at h1; cases h1
        | ok as' =>
          cases hg : fancy ys idx with
          | error e => rw [hg] at h2; cases h2
          | ok bs' =>
            rw [hf] at h1; rw [hg] at h2
            injection h1 with h1; injection h2 with h2
            subst h1; subst h2
            have hz : (xs.zip ys)[i]? = some (x, y) := by
              rw [List.getElem?_zip_eq_some]; exact ⟨hx, hy⟩
            rw [hz, ih hf hg]; rfl

/-- fancy indexing by a permutation of the index range is a rearrangement -/
theorem fancy_perm {α} {xs : List α} {idx : List ℕ} {ys : List α} (h : fancy xs idx = .ok ys)
    (hp : idx.Perm (List.range xs.length)) : ys.Perm xs := by
  have h1 := (fancy_ok_iff _ _ _).1 h
  have h2 := (fancy_ok_iff _ _ _).1 (fancy_range xs)
  have : (ys.map some).Perm (xs.map some) := by
    rw [← h1, ← h2]; exact hp.map _
  simpa [List.reduceOption] using this.filterMap id

theorem siteKey_reduced (p : V3 ℚ) : Spec.IsReduced3 p (siteKey p) := by
  have h (x : ℚ) : Spec.IsReduced x (wrap3 x) :=
    ⟨⟨rint (x * 10 ^ 3) % 1000, by rw [wrap3_eq]; norm_num⟩, wrap3_nonneg x, wrap3_lt_one x, wrap3_close x⟩
  exact ⟨h _, h _, h _⟩

theorem siteKey_cong {p q : V3 ℚ} (h : Spec.Cong p q) : siteKey q = siteKey p := by
  obtain ⟨z, rfl⟩ := h
  unfold siteKey V3.map
  simp only [Prod.fst_add, Prod.snd_add, wrap3_add_int]

theorem lexLe_iff_spec (a b : V3 ℚ) : lexLe a b = true ↔ Spec.LexLE a b := lexLe_iff a b

end Verif
