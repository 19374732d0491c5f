import Verif.Lemmas.Symmetry
import Verif.Spec.Occupation
import Mathlib.Data.Finset.Card
import Mathlib.Data.Finset.Dedup
import Mathlib.Data.Finset.Range
import Mathlib.Data.Finset.Powerset

/-! # Overwriting sites; combinations as finite sets -/

namespace Verif

theorem overwrite_length (ns : List ℤ) (idx : List ℕ) (z : ℤ) : (overwrite ns idx z).length = ns.length := by
  induction idx generalizing ns with
  | nil => rfl
  | cons i idx ih => unfold overwrite at *; rw [List.foldl_cons, ih]; simp

theorem overwrite_getElem? (ns : List ℤ) (idx : List ℕ) (z : ℤ) (i : ℕ) (hi : i < ns.length) :
    (overwrite ns idx z)[i]? = if i ∈ idx then some z else ns[i]? := by
  induction idx generalizing ns with
  | nil => simp [overwrite]
  | cons k idx ih =>
    have : overwrite ns (k :: idx) z = overwrite (ns.set k z) idx z := rfl
    rw [this, ih _ (by simpa using hi)]
    by_cases h : i ∈ idx
    · simp [h]
    · by_cases hk : i = k
      · subst hk; simp [hi, h]
      · simp [h, hk, List.getElem?_set_ne (Ne.symm hk)]

theorem overwrite_subst (ns : List ℤ) (idx : List ℕ) (z : ℤ) :
    Spec.Subst ns idx.toFinset z (overwrite ns idx z) := by
  refine ⟨overwrite_length _ _ _, fun i hi => ?_⟩
  rw [overwrite_getElem? _ _ _ _ hi]
  simp

theorem Spec.Subst.unique {base : List ℤ} {S : Finset ℕ} {z : ℤ} {m m' : List ℤ} (h : Spec.Subst base S z m)
    (h' : Spec.Subst base S z m') : m = m' := by
  apply List.ext_getElem?
  intro i
  by_cases hi : i < base.length
  · rw [h.2 i hi, h'.2 i hi]
  · rw [List.getElem?_eq_none (by rw [h.1]; omega), List.getElem?_eq_none (by rw [h'.1]; omega)]

theorem Spec.Subst2.unique {base : List ℤ} {S T : Finset ℕ} {z w : ℤ} {m m' : List ℤ} (h : Spec.Subst2 base S z T w m)
    (h' : Spec.Subst2 base S z T w m') : m = m' := by
  apply List.ext_getElem?
  intro i
  by_cases hi : i < base.length
  · rw [h.2 i hi, h'.2 i hi]
  · rw [List.getElem?_eq_none (by rw [h.1]; omega), List.getElem?_eq_none (by rw [h'.1]; omega)]

theorem sublist_eq_filter {l c : List ℕ} (hl : l.Nodup) (h : c.Sublist l) : c = l.filter (fun x => decide (x ∈ c)) := by
  have h1 : c.Sublist (l.filter (fun x => decide (x ∈ c))) := by
    have := h.filter (fun x => decide (x ∈ c))
    rwa [List.filter_eq_self.2 (by simp)] at this
  refine h1.eq_of_length_le ?_
  have hnd : (l.filter (fun x => decide (x ∈ c))).Nodup := hl.filter _
  exact (hnd.subperm (fun x hx => by simpa using (List.mem_filter.1 hx).2)).length_le

/-- the subsets enumerated by `combinations` -/
theorem combinations_subsets (l : List ℕ) (hl : l.Nodup) (n : ℕ) :
    ((combinations l n).map List.toFinset).Nodup ∧
    ∀ S : Finset ℕ, S ∈ (combinations l n).map List.toFinset ↔ S ⊆ l.toFinset ∧ S.card = n := by
  constructor
  · apply List.Nodup.map_on _ (nodup_combinations l hl n)
    intro a ha b hb hab
    rw [mem_combinations] at ha hb
    rw [sublist_eq_filter hl ha.1, sublist_eq_filter hl hb.1]
    congr 1; funext x
    have : x ∈ a ↔ x ∈ b := by rw [← List.mem_toFinset, hab, List.mem_toFinset]
    simp [this]
  · intro S
    rw [List.mem_map]
    constructor
    · rintro ⟨c, hc, rfl⟩
      rw [mem_combinations] at hc
      refine ⟨fun x hx => ?_, ?_⟩
      · rw [List.mem_toFinset] at *; exact hc.1.subset hx
      · rw [List.toFinset_card_of_nodup (hl.sublist hc.1), hc.2]
    · rintro ⟨h1, h2⟩
      have hfin : (l.filter (fun x => decide (x ∈ S))).toFinset = S := by
        ext x
        simp only [List.mem_toFinset, List.mem_filter, decide_eq_true_eq]
        exact ⟨fun h => h.2, fun h => ⟨List.mem_toFinset.1 (h1 h), h⟩⟩
      refine ⟨l.filter (fun x => decide (x ∈ S)), ?_, hfin⟩
      rw [mem_combinations]
      refine ⟨List.filter_sublist, ?_⟩
      rw [← h2, ← hfin, List.toFinset_card_of_nodup (hl.filter _), hfin]

/-- what the constructor returns inside the generators -/
def redecorate (c : GCell) (m : List ℤ) : GCell := ⟨c.lattice, c.positions, m, m, m.length⟩

theorem Built.new {c : GCell} (h : Built c) {m : List ℤ} (hm : m.length = c.positions.length) (L : M3 ℚ) :
    GCell.new L c.positions m = .ok ⟨L, c.positions, m, m, m.length⟩ := by
  have hne := h.ne_nil
  obtain ⟨ps, ns, hps, hns, hnew⟩ := new_spec L hne (le_of_eq hm.symm)
  rw [lexsort3_of_sorted _ h.sorted, List.length_map] at hps hns
  rw [fancy_range] at hps
  rw [← hm, fancy_range] at hns
  injection hps with hps; injection hns with hns
  subst hps; subst hns
  exact hnew

theorem Built.redecorate {c : GCell} (h : Built c) {m : List ℤ} (hm : m.length = c.positions.length) :
    Built (redecorate c m) := ⟨_, _, _, h.new hm c.lattice⟩

theorem subst_core {c : GCell} (h : Built c) (combs : List (List ℕ)) (z : ℤ) :
    combs.mapM (fun comb => GCell.new c.lattice c.positions (overwrite c.numbers comb z)) =
      .ok (combs.map (fun comb => redecorate c (overwrite c.numbers comb z))) := by
  apply mapM_ok
  intro comb _
  exact h.new (by rw [overwrite_length, h.length]) _

/-- number of sites holding `z` after a substitution on sites not holding it -/
theorem count_eq_card (m : List ℤ) (z : ℤ) :
    m.count z = ((Finset.range m.length).filter (fun i => m[i]? = some z)).card := by
  induction m using List.reverseRecOn with
  | nil => simp
  | append_singleton m a ih =>
    rw [List.count_append, ih, List.length_append, List.length_singleton, Finset.range_add_one,
      Finset.filter_insert]
    have hcongr : (Finset.range m.length).filter (fun i => (m ++ [a])[i]? = some z) =
        (Finset.range m.length).filter (fun i => m[i]? = some z) := by
      apply Finset.filter_congr
      intro i hi
      rw [List.getElem?_append_left (Finset.mem_range.1 hi)]
    rw [hcongr]
    have hlast : (m ++ [a])[m.length]? = some a := by simp
    rw [hlast]
    by_cases h : a = z
    · subst h
      simp
    · simp [h]

theorem Spec.Subst.count {base : List ℤ} {S : Finset ℕ} {z : ℤ} {m : List ℤ} (h : Spec.Subst base S z m)
    (hS : ∀ i ∈ S, ∃ v, base[i]? = some v ∧ v ≠ z) : m.count z = base.count z + S.card := by
  rw [count_eq_card, count_eq_card, h.1]
  have : (Finset.range base.length).filter (fun i => m[i]? = some z) =
      ((Finset.range base.length).filter (fun i => base[i]? = some z)) ∪ S := by
    ext i
    simp only [Finset.mem_filter, Finset.mem_range, Finset.mem_union]
    constructor
    · rintro ⟨hi, hm⟩
      rw [h.2 i hi] at hm
      by_cases hiS : i ∈ S
      · exact Or.inr hiS
      · rw [if_neg hiS] at hm; exact Or.inl ⟨hi, hm⟩
    · rintro (⟨hi, hb⟩ | hiS)
      · refine ⟨hi, ?_⟩
        rw [h.2 i hi]; split
        · rfl
        · exact hb
      · obtain ⟨v, hv, _⟩ := hS i hiS
        have hi := (List.getElem?_eq_some_iff.1 hv).1
        exact ⟨hi, by rw [h.2 i hi, if_pos hiS]⟩
  rw [this, Finset.card_union_of_disjoint]
  rw [Finset.disjoint_left]
  intro i hi hiS
  obtain ⟨v, hv, hne⟩ := hS i hiS
  rw [Finset.mem_filter] at hi
  rw [hv] at hi
  exact hne (by simpa using hi.2)

/-- different sets of sites not holding `z` give different decorations -/
theorem Spec.Subst.inj {base : List ℤ} {S T : Finset ℕ} {z : ℤ} {m : List ℤ} (h : Spec.Subst base S z m)
    (h' : Spec.Subst base T z m) (hS : ∀ i ∈ S, ∃ v, base[i]? = some v ∧ v ≠ z)
    (hT : ∀ i ∈ T, ∃ v, base[i]? = some v ∧ v ≠ z) : S = T := by
  have key : ∀ {S T : Finset ℕ}, Spec.Subst base S z m → Spec.Subst base T z m →
      (∀ i ∈ S, ∃ v, base[i]? = some v ∧ v ≠ z) → S ⊆ T := by
    intro S T h h' hS i hi
    obtain ⟨v, hv, hne⟩ := hS i hi
    have hlt := (List.getElem?_eq_some_iff.1 hv).1
    have e1 := h.2 i hlt
    rw [if_pos hi, h'.2 i hlt] at e1
    by_contra hiT
    rw [if_neg hiT, hv] at e1
    exact hne (by simpa using e1)
  exact Finset.Subset.antisymm (key h h' hS) (key h' h hT)

end Verif
