import Verif.Lemmas.Symmetry

/-! # Permutation rows read off by sorting reduced coordinates, for any reduction `κ` that respects lattice translations -/

namespace Verif

section
variable {κ : V3 ℚ → V3 ℚ} {pos : List (V3 ℚ)}

theorem keyRow_perm {g : Spec.Op} (hk : (pos.map κ).Nodup)
    (maps : ∀ x ∈ pos, ∃ y ∈ pos, κ (g.image x) = κ y)
    (inj : ∀ x ∈ pos, ∀ y ∈ pos, κ (g.image x) = κ (g.image y) → x = y) :
    ((pos.map (applyOp g)).map κ).Perm (pos.map κ) := by
  have hnd : ((pos.map (applyOp g)).map κ).Nodup := by
    rw [List.map_map]
    apply List.Nodup.map_on _ (List.Nodup.of_map _ hk)
    intro x hx y hy h
    exact inj x hx y hy h
  have hsub : ((pos.map (applyOp g)).map κ) ⊆ (pos.map κ) := by
    intro k hk
    simp only [List.map_map, List.mem_map, Function.comp] at hk ⊢
    obtain ⟨x, hx, rfl⟩ := hk
    obtain ⟨y, hy, hxy⟩ := maps x hx
    exact ⟨y, hy, hxy.symm⟩
  exact (hnd.subperm hsub).perm_of_length_le (by simp)

/-- relation between an operation and its table row, for a notion `S` of "same site": site `j` is carried onto site `i` iff
entry `i` of the row is `j` -/
def SameRow (S : V3 ℚ → V3 ℚ → Prop) (pos : List (V3 ℚ)) (g : Spec.Op) (p : List ℕ) : Prop :=
  IsPerm pos.length p ∧
    ∀ (i : ℕ) (x : V3 ℚ), pos[i]? = some x → ∀ (j : ℕ) (y : V3 ℚ), pos[j]? = some y → (p[i]? = some j ↔ S (g.image y) x)

theorem keyRow_spec (hsorted : (pos.map κ).Pairwise (fun a b => lexLe a b = true)) (hk : (pos.map κ).Nodup) {g : Spec.Op}
    (maps : ∀ x ∈ pos, ∃ y ∈ pos, κ (g.image x) = κ y)
    (inj : ∀ x ∈ pos, ∀ y ∈ pos, κ (g.image x) = κ (g.image y) → x = y) :
    SameRow (fun x y => κ x = κ y) pos g (lexsort3 ((pos.map (applyOp g)).map κ)) := by
  refine ⟨by simpa using lexsort3_perm ((pos.map (applyOp g)).map κ), ?_⟩
  have hperm := keyRow_perm hk maps inj
  have hsort := sorted_keys ((pos.map (applyOp g)).map κ)
  have hsperm := sorted_keys_perm ((pos.map (applyOp g)).map κ)
  have heq : (sortedPairs ((pos.map (applyOp g)).map κ)).map (·.1) = pos.map κ := by
    refine List.Perm.eq_of_pairwise (le := fun a b : V3 ℚ => lexLe a b = true) ?_ hsort hsorted (hsperm.trans hperm)
    intro a b _ _ h1 h2; exact lexLe_antisymm a b h1 h2
  have hf := fancy_lexsort3 ((pos.map (applyOp g)).map κ)
  rw [heq] at hf
  have key : ∀ (i : ℕ) (x : V3 ℚ), pos[i]? = some x → ∀ (j : ℕ) (y : V3 ℚ), pos[j]? = some y →
      (lexsort3 ((pos.map (applyOp g)).map κ))[i]? = some j → κ (g.image y) = κ x := by
    intro i x hx j y hy hp
    have := fancy_getElem? hf hp
    simp only [List.getElem?_map, hx, hy, Option.map_some, Option.some.injEq] at this
    exact this.symm
  intro i x hx j y hy
  refine ⟨key i x hx j y hy, ?_⟩
  intro hs
  have hi : i < pos.length := (List.getElem?_eq_some_iff.1 hx).1
  obtain ⟨j', hj'⟩ : ∃ j', (lexsort3 ((pos.map (applyOp g)).map κ))[i]? = some j' := by
    have : i < (lexsort3 ((pos.map (applyOp g)).map κ)).length := by
      rw [lexsort3_length]; simpa using hi
    exact ⟨_, List.getElem?_eq_getElem this⟩
  have hj'm := (mem_lexsort3 _ _).1 (List.mem_of_getElem? hj')
  simp only [List.length_map] at hj'm
  have h2 := key i x hx j' _ (List.getElem?_eq_getElem hj'm) hj'
  have h3 := inj _ (List.getElem_mem hj'm) y (List.mem_of_getElem? hy) (h2.trans hs.symm)
  have hnd : pos.Nodup := List.Nodup.of_map _ hk
  rw [hj']
  congr 1
  have e1 : pos[j']? = pos[j]? := by rw [hy, List.getElem?_eq_getElem hj'm, h3]
  exact (List.getElem?_inj hj'm hnd).1 e1

/-- for operations permuting the sites exactly (modulo lattice translations) the reduced coordinates tell the same as congruence -/
theorem key_of_exact (hκ : ∀ x y, Spec.Cong x y → κ x = κ y) (hk : (pos.map κ).Nodup) {g : Spec.Op}
    (maps : ∀ x ∈ pos, ∃ y ∈ pos, Spec.Cong (g.image x) y)
    (inj : ∀ x ∈ pos, ∀ y ∈ pos, Spec.Cong (g.image x) (g.image y) → x = y) :
    (∀ x ∈ pos, ∃ y ∈ pos, κ (g.image x) = κ y) ∧ (∀ x ∈ pos, ∀ y ∈ pos, κ (g.image x) = κ (g.image y) → x = y) ∧
      ∀ x ∈ pos, ∀ y ∈ pos, (κ (g.image x) = κ y ↔ Spec.Cong (g.image x) y) := by
  have hinj : ∀ x ∈ pos, ∀ y ∈ pos, κ x = κ y → x = y := fun x hx y hy hxy => List.inj_on_of_nodup_map hk hx hy hxy
  refine ⟨fun x hx => ?_, fun x hx y hy hxy => ?_, fun x hx y hy => ⟨fun hxy => ?_, fun hc => hκ _ _ hc⟩⟩
  · obtain ⟨y, hy, hc⟩ := maps x hx
    exact ⟨y, hy, hκ _ _ hc⟩
  · obtain ⟨x', hx', hcx⟩ := maps x hx
    obtain ⟨y', hy', hcy⟩ := maps y hy
    have : x' = y' := hinj x' hx' y' hy' (by rw [← hκ _ _ hcx, ← hκ _ _ hcy, hxy])
    subst this
    exact inj x hx y hy (hcx.trans hcy.symm)
  · obtain ⟨y', hy', hc⟩ := maps x hx
    have : y' = y := hinj y' hy' y hy ((hκ _ _ hc).symm.trans hxy)
    rwa [← this]

theorem exactRow_of_sort (hκ : ∀ x y, Spec.Cong x y → κ x = κ y)
    (hsorted : (pos.map κ).Pairwise (fun a b => lexLe a b = true)) (hk : (pos.map κ).Nodup) {g : Spec.Op}
    (maps : ∀ x ∈ pos, ∃ y ∈ pos, Spec.Cong (g.image x) y)
    (inj : ∀ x ∈ pos, ∀ y ∈ pos, Spec.Cong (g.image x) (g.image y) → x = y) :
    SameRow Spec.Cong pos g (lexsort3 ((pos.map (applyOp g)).map κ)) := by
  obtain ⟨h1, h2, h3⟩ := key_of_exact hκ hk maps inj
  have hr := keyRow_spec hsorted hk h1 h2
  refine ⟨hr.1, fun i x hx j y hy => ?_⟩
  exact (hr.2 i x hx j y hy).trans (h3 y (List.mem_of_getElem? hy) x (List.mem_of_getElem? hx))

variable {S : V3 ℚ → V3 ℚ → Prop}

theorem SameRow.ext {g : Spec.Op} {p : List ℕ} (h : SameRow S pos g p) {q : List ℕ}
    (hq : IsPerm pos.length q)
    (hpq : ∀ (i j : ℕ) x y, pos[i]? = some x → pos[j]? = some y → q[i]? = some j → S (g.image y) x) :
    q = p := by
  apply List.ext_getElem?
  intro i
  by_cases hi : i < pos.length
  · have hiq : i < q.length := by rw [hq.length]; exact hi
    have hj : q[i] < pos.length := hq.lt _ (List.getElem_mem hiq)
    have e := List.getElem?_eq_getElem hiq
    rw [e]
    symm
    exact (h.2 i _ (List.getElem?_eq_getElem hi) _ _ (List.getElem?_eq_getElem hj)).2
      (hpq i _ _ _ (List.getElem?_eq_getElem hi) (List.getElem?_eq_getElem hj) e)
  · rw [List.getElem?_eq_none (by rw [hq.length]; omega), List.getElem?_eq_none (by rw [h.1.length]; omega)]

/-- the table of a group of operations is a permutation group -/
theorem sameRow_group (hS : Equivalence S) {ops : List Spec.Op} (h : Spec.SymContract S pos ops)
    {rows : List (List ℕ)} (hr : List.Forall₂ (SameRow S pos) ops rows) : PermGroup pos.length rows := by
  have getp : ∀ {i : ℕ} {x}, pos[i]? = some x → x ∈ pos := fun h => List.mem_of_getElem? h
  refine ⟨?_, ?_, ?_, ?_⟩
  · intro p hp
    obtain ⟨g, _, hR⟩ := forall₂_mem_right hr hp
    exact hR.1
  · obtain ⟨g, hg, hx⟩ := h.one
    obtain ⟨p, hp, hR⟩ := forall₂_mem_left hr hg
    have : List.range pos.length = p := by
      apply hR.ext (List.Perm.refl _)
      intro i j x y hi hj hij
      have : i = j := by
        rw [List.getElem?_range] at hij
        · simpa using hij
        · exact (List.getElem?_eq_some_iff.1 hi).1
      subst this
      rw [hi] at hj; injection hj with hj; subst hj
      exact hx x (getp hi)
    rw [this]; exact hp
  · intro p hp q hq
    obtain ⟨f, hf, hRf⟩ := forall₂_mem_right hr hp
    obtain ⟨g, hg, hRg⟩ := forall₂_mem_right hr hq
    obtain ⟨k, hk, hh⟩ := h.mul g hg f hf
    obtain ⟨r, hr', hRk⟩ := forall₂_mem_left hr hk
    have hlt : ∀ i ∈ q, i < p.length := by rw [hRf.1.length]; exact hRg.1.lt
    have : gather p q = r := by
      apply hRk.ext (gather_isPerm hRf.1 hRg.1)
      intro i j x y hi hj hij
      rw [gather_getElem? hlt] at hij
      cases hqi : q[i]? with
      | none => rw [hqi] at hij; simp at hij
      | some m =>
        rw [hqi] at hij
        simp only [Option.bind_some] at hij
        have hm : m < pos.length := hRg.1.lt _ (List.mem_of_getElem? hqi)
        have em := List.getElem?_eq_getElem hm
        have h1 := (hRg.2 i x hi m _ em).1 hqi
        have h2 := (hRf.2 m _ em j y hj).1 hij
        exact hh y (getp hj) _ (getp em) x (getp hi) h2 h1
    rw [this]; exact hr'
  · intro p hp
    obtain ⟨f, hf, hRf⟩ := forall₂_mem_right hr hp
    obtain ⟨g, hg, hh⟩ := h.inv f hf
    obtain ⟨q, hq, hRg⟩ := forall₂_mem_left hr hg
    refine ⟨q, hq, ?_⟩
    have hlt : ∀ i ∈ q, i < p.length := by rw [hRf.1.length]; exact hRg.1.lt
    apply List.ext_getElem?
    intro i
    rw [gather_getElem? hlt]
    by_cases hi : i < pos.length
    · have hiq : i < q.length := by rw [hRg.1.length]; exact hi
      have hj : q[i] < pos.length := hRg.1.lt _ (List.getElem_mem hiq)
      have ei := List.getElem?_eq_getElem hi
      have ej := List.getElem?_eq_getElem hj
      rw [List.getElem?_eq_getElem hiq, Option.bind_some, List.getElem?_range hi]
      have h1 := (hRg.2 i _ ei _ _ ej).1 (List.getElem?_eq_getElem hiq)
      refine (hRf.2 _ _ ej i _ ei).2 ?_
      obtain ⟨y, hy, hfy⟩ := h.maps f hf _ (getp ei)
      have h2 := hh _ (getp ei) y hy hfy
      have h3 := h.inj g hg y hy _ (getp ej) (hS.trans h2 (hS.symm h1))
      rwa [h3] at hfy
    · rw [List.getElem?_eq_none (by rw [hRg.1.length]; omega), List.getElem?_eq_none (by simp; omega)]; rfl

/-- an image of a decoration read through the row: the element on site `j` moves to the site it is carried to -/
theorem gather_sameRow {α} {g : Spec.Op} {p : List ℕ} (h : SameRow S pos g p) {a b : List α} (ha : a.length = pos.length)
    (hb : b.length = pos.length) : gather a p = b ↔
      ∀ (i j : ℕ) x y, pos[i]? = some x → pos[j]? = some y → S (g.image x) y → a[i]? = b[j]? := by
  have hlt : ∀ i ∈ p, i < a.length := by rw [ha]; exact h.1.lt
  constructor
  · rintro rfl i j x y hx hy hc
    rw [gather_getElem? hlt, (h.2 j y hy i x hx).2 hc]; rfl
  · intro hall
    apply List.ext_getElem?
    intro j
    rw [gather_getElem? hlt]
    by_cases hj : j < pos.length
    · have hjp : j < p.length := by rw [h.1.length]; exact hj
      have hi : p[j] < pos.length := h.1.lt _ (List.getElem_mem hjp)
      rw [List.getElem?_eq_getElem hjp, Option.bind_some]
      exact hall _ _ _ _ (List.getElem?_eq_getElem hi) (List.getElem?_eq_getElem hj)
        ((h.2 j _ (List.getElem?_eq_getElem hj) _ _ (List.getElem?_eq_getElem hi)).1 (List.getElem?_eq_getElem hjp))
    · rw [List.getElem?_eq_none (by rw [h.1.length]; omega), List.getElem?_eq_none (by omega)]; rfl

end

end Verif
