import Verif.Lemmas.Cell

/-! # C09–C12: the `GeneralCell` constructor -/

namespace Verif

/-- C09. A successful construction keeps the lattice and rearranges the (position, number) pairs. -/
theorem C09_sites_rearranged (L : M3 ℚ) (pos : List (V3 ℚ)) (nums : List ℤ) (c : GCell)
    (hc : GCell.new L pos nums = .ok c) :
    c.lattice = L ∧ (c.positions.zip c.numbers).Perm (pos.zip nums) ∧ c.positions.length = pos.length ∧
      c.numbers.length = pos.length ∧ c.spgNumbers = c.numbers := by
  obtain ⟨h1, h2, hps, hns, hL, hspg, _⟩ := new_ok_inv hc
  obtain ⟨l1, l2⟩ := new_lengths hc
  refine ⟨hL, ?_, l1, l2, hspg⟩
  apply fancy_perm (fancy_zip hps hns)
  have := lexsort3_perm (pos.map siteKey)
  rw [List.length_map] at this
  rw [List.length_zip, Nat.min_eq_left h2]
  exact this

/-- C09. Exactly when the construction succeeds, and which error it raises otherwise. -/
theorem C09_constructor_domain (L : M3 ℚ) (pos : List (V3 ℚ)) (nums : List ℤ) :
    ((∃ c, GCell.new L pos nums = .ok c) ↔ pos ≠ [] ∧ pos.length ≤ nums.length) ∧
    (GCell.new L pos nums = .error .valueError ↔ pos = []) ∧
    (GCell.new L pos nums = .error .indexError ↔ pos ≠ [] ∧ nums.length < pos.length) := by
  by_cases h : pos = []
  · subst h
    rw [new_nil]
    simp
  · by_cases hl : pos.length ≤ nums.length
    · obtain ⟨ps, ns, _, _, hnew⟩ := new_spec L h hl
      rw [hnew]
      simp [h, hl]
    · rw [new_short h (by omega)]
      simp [h]; omega

/-- C10. The stored order: a permutation `σ` of the input indices, strictly increasing for
(reduced coordinates, input index), reduced coordinates taken modulo 1 and rounded to 3 decimals. -/
theorem C10_stored_order (L : M3 ℚ) (pos : List (V3 ℚ)) (nums : List ℤ) (c : GCell)
    (hc : GCell.new L pos nums = .ok c) :
    ∃ (key : V3 ℚ → V3 ℚ) (σ : List ℕ),
      (∀ p, Spec.IsReduced3 p (key p)) ∧ (∀ p q, Spec.Cong p q → key p = key q) ∧
      σ.Perm (List.range pos.length) ∧
      c.positions.map some = σ.map (fun i => pos[i]?) ∧ c.numbers.map some = σ.map (fun i => nums[i]?) ∧
      (c.positions.map key).Pairwise Spec.LexLE ∧
      σ.Pairwise (fun i j => ∀ p q, pos[i]? = some p → pos[j]? = some q →
        Spec.LexLE (key p) (key q) ∧ (key p = key q → i < j)) := by
  obtain ⟨h1, h2, hps, hns, _⟩ := new_ok_inv hc
  refine ⟨siteKey, lexsort3 (pos.map siteKey), siteKey_reduced, fun p q h => (siteKey_cong h).symm, ?_,
    ((fancy_ok_iff _ _ _).1 hps).symm, ((fancy_ok_iff _ _ _).1 hns).symm, ?_, ?_⟩
  · simpa using lexsort3_perm (pos.map siteKey)
  · exact (new_keys_sorted hc).imp (fun h => (lexLe_iff_spec _ _).1 h)
  · rw [lexsort3_eq, List.pairwise_map]
    have hmem := mem_sortedPairs (pos.map siteKey)
    refine List.Pairwise.imp_of_mem ?_ (sortedPairs_pairwise (pos.map siteKey))
    intro a b ha hb hab p q hp hq
    have ha' := (hmem a).1 ha
    have hb' := (hmem b).1 hb
    rw [List.getElem?_map, hp] at ha'
    rw [List.getElem?_map, hq] at hb'
    simp only [Option.map_some, Option.some.injEq] at ha' hb'
    rw [ha', hb']
    exact ⟨(lexLe_iff_spec _ _).1 hab.1, hab.2⟩

/-- C11. Permuting the input sites and moving sites by lattice vectors changes neither the stored numbers (hence the id)
nor the stored sites, up to lattice vectors, when sites are pairwise distinct after reduction. -/
theorem C11_identity_canonical (L L' : M3 ℚ) (sites sites₁ sites' : List (V3 ℚ × ℤ)) (c c' : GCell)
    (hperm : sites.Perm sites₁) (hmove : List.Forall₂ Spec.SameSite sites₁ sites')
    (hdist : (sites.map (fun s => siteKey s.1)).Nodup)
    (hc : GCell.new L (sites.map (·.1)) (sites.map (·.2)) = .ok c)
    (hc' : GCell.new L' (sites'.map (·.1)) (sites'.map (·.2)) = .ok c') :
    c'.numbers = c.numbers ∧ (∀ hash, c'.id hash = c.id hash) ∧
      c'.positions.map siteKey = c.positions.map siteKey ∧ List.Forall₂ Spec.Cong c.positions c'.positions := by
  have z1 : (c.positions.zip c.numbers).Perm sites := by
    have := (C09_sites_rearranged _ _ _ _ hc).2.1
    rwa [List.zip_map', List.map_id''] at this
    intro x; rfl
  have z2 : (c'.positions.zip c'.numbers).Perm sites' := by
    have := (C09_sites_rearranged _ _ _ _ hc').2.1
    rwa [List.zip_map', List.map_id''] at this
    intro x; rfl
  obtain ⟨l1a, l1b⟩ := new_lengths hc
  obtain ⟨l2a, l2b⟩ := new_lengths hc'
  obtain ⟨T, hT1, hT2⟩ := List.perm_comp_forall₂ (z1.trans hperm) hmove
  have hTS : T.Perm (c'.positions.zip c'.numbers) := hT2.trans z2.symm
  have hkeyT : T.map (fun s => siteKey s.1) = (c.positions.zip c.numbers).map (fun s => siteKey s.1) := by
    generalize c.positions.zip c.numbers = S at hT1
    clear * - hT1
    induction hT1 with
    | nil => rfl
    | cons h _ ih => simp only [List.map_cons, ih, siteKey_cong h.1]
  have hfst : (c.positions.zip c.numbers).map (·.1) = c.positions := by
    rw [List.map_fst_zip]; omega
  have hsnd : (c.positions.zip c.numbers).map (·.2) = c.numbers := by
    rw [List.map_snd_zip]; omega
  have hfst' : (c'.positions.zip c'.numbers).map (·.1) = c'.positions := by
    rw [List.map_fst_zip]; omega
  have hsnd' : (c'.positions.zip c'.numbers).map (·.2) = c'.numbers := by
    rw [List.map_snd_zip]; omega
  have hcomp (l : List (V3 ℚ × ℤ)) : l.map (fun s => siteKey s.1) = (l.map (·.1)).map siteKey := by
    rw [List.map_map]; rfl
  have hsortS : (T.map (fun s => siteKey s.1)).Pairwise (fun a b => lexLe a b = true) := by
    rw [hkeyT, hcomp, hfst]; exact new_keys_sorted hc
  have hsortS' : ((c'.positions.zip c'.numbers).map (fun s => siteKey s.1)).Pairwise (fun a b => lexLe a b = true) := by
    rw [hcomp, hfst']; exact new_keys_sorted hc'
  have hnd : (T.map (fun s => siteKey s.1)).Nodup := by
    rw [hkeyT]
    exact (z1.map _).nodup_iff.2 hdist
  have hEq : T = c'.positions.zip c'.numbers := by
    have q1 := List.pairwise_map.1 hsortS
    have q2 := List.pairwise_map.1 hsortS'
    refine List.Perm.eq_of_pairwise (le := fun a b : V3 ℚ × ℤ => lexLe (siteKey a.1) (siteKey b.1) = true) ?_ q1 q2 hTS
    intro a b ha hb h1 h2
    have hk : siteKey a.1 = siteKey b.1 := lexLe_antisymm (siteKey a.1) (siteKey b.1) h1 h2
    exact List.inj_on_of_nodup_map (f := fun s : V3 ℚ × ℤ => siteKey s.1) hnd ha (hTS.symm.subset hb) hk
  subst hEq
  have hn : c'.numbers = c.numbers := by
    rw [← hsnd, ← hsnd']
    generalize c.positions.zip c.numbers = S at hT1
    generalize c'.positions.zip c'.numbers = S' at hT1
    clear * - hT1
    induction hT1 with
    | nil => rfl
    | cons h _ ih => simp only [List.map_cons, ih, h.2]
  refine ⟨hn, fun hash => by simp [GCell.id, hn], ?_, ?_⟩
  · rw [← hfst, ← hfst', ← hcomp, ← hcomp, hkeyT]
  · rw [← hfst, ← hfst', List.forall₂_map_left_iff, List.forall₂_map_right_iff]
    exact hT1.imp (fun a b h => h.1)

/-- C12. Re-building a constructed cell from its own positions with any numbers array of the right size keeps both in place. -/
theorem C12_rebuild_identity (L L' : M3 ℚ) (pos : List (V3 ℚ)) (nums m : List ℤ) (c : GCell)
    (hc : GCell.new L pos nums = .ok c) (hm : m.length = c.positions.length) :
    GCell.new L' c.positions m = .ok ⟨L', c.positions, m, m, m.length⟩ := by
  obtain ⟨h1, -⟩ := new_ok_inv hc
  obtain ⟨l1, l2⟩ := new_lengths hc
  have hne : c.positions ≠ [] := by
    intro h; rw [h] at l1; exact h1 (List.length_eq_zero_iff.1 l1.symm)
  obtain ⟨ps, ns, hps, hns, hnew⟩ := new_spec L' hne (le_of_eq hm.symm)
  rw [lexsort3_of_sorted _ (new_keys_sorted hc), List.length_map] at hps hns
  rw [fancy_range] at hps
  rw [← hm, fancy_range] at hns
  injection hps with hps; injection hns with hns
  subst hps; subst hns
  exact hnew

/-! ### The hypotheses are met: a three-site cell whose constructor really reorders -/

/-- sites out of order, with a negative and a `> 1` coordinate -/
def exCell : Py GCell :=
  GCell.new ((2, 0, 0), (0, 2, 0), (0, 0, 2)) [(1/2, 1/2, 1/2), (-3/4, 0, 0), (1, 0, 1/4)] [26, 8, 79]

example : exCell = .ok ⟨((2, 0, 0), (0, 2, 0), (0, 0, 2)), [(1, 0, 1/4), (-3/4, 0, 0), (1/2, 1/2, 1/2)],
    [79, 8, 26], [79, 8, 26], 3⟩ := by decide +kernel

example : ([((1/2, 1/2, 1/2), 26), ((-3/4, 0, 0), 8), ((1, 0, 1/4), 79)] : List (V3 ℚ × ℤ)).Perm
    [((1, 0, 1/4), 79), ((-3/4, 0, 0), 8), ((1/2, 1/2, 1/2), 26)] ∧
    List.Forall₂ Spec.SameSite ([((1, 0, 1/4), 79), ((-3/4, 0, 0), 8), ((1/2, 1/2, 1/2), 26)] : List (V3 ℚ × ℤ))
      [((-4, 0, 1/4), 79), ((1/4, 7, 0), 8), ((1/2, 1/2, 3/2), 26)] ∧
    (([((1/2, 1/2, 1/2), 26), ((-3/4, 0, 0), 8), ((1, 0, 1/4), 79)] : List (V3 ℚ × ℤ)).map
      (fun s => siteKey s.1)).Nodup := by
  refine ⟨by decide +kernel, ?_, by decide +kernel⟩
  refine .cons ⟨⟨(-5, 0, 0), by decide +kernel⟩, rfl⟩ (.cons ⟨⟨(1, 7, 0), by decide +kernel⟩, rfl⟩
    (.cons ⟨⟨(0, 0, 1), by decide +kernel⟩, rfl⟩ .nil))

end Verif
