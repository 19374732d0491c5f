import Verif.Props.Count
import Verif.Lemmas.UpDown
import Mathlib.Data.Nat.Choose.Sum

/-! # C103: how the number of structures depends on the number of substituted atoms -/

namespace Verif

/-- the permutations of the sites in the table -/
def tablePerms (n : ℕ) (rows : List (List ℕ)) : Set (Equiv.Perm (Fin n)) := {σ | toRow σ ∈ rows}

theorem gather_rows {n : ℕ} (σ τ : Equiv.Perm (Fin n)) : gather (toRow σ) (toRow τ) = toRow (τ * σ) := by
  have hl : (toRow σ).length = n := by unfold toRow; simp
  have hlt : ∀ i ∈ toRow τ, i < (toRow σ).length := by rw [hl]; exact toRow_lt τ
  apply List.ext_getElem?
  intro k
  rw [gather_getElem? hlt]
  by_cases hk : k < n
  · have h1 := toRow_getElem? τ ⟨k, hk⟩
    have h2 := toRow_getElem? (τ * σ) ⟨k, hk⟩
    simp only at h1 h2
    rw [h1, h2, Option.bind_some, toRow_getElem?]
    rfl
  · rw [List.getElem?_eq_none (by unfold toRow; simp; omega), List.getElem?_eq_none (by unfold toRow; simp; omega)]
    rfl

theorem toRow_one (n : ℕ) : toRow (1 : Equiv.Perm (Fin n)) = List.range n := by
  apply List.ext_getElem
  · unfold toRow; simp
  · intro i h1 h2
    have hn : i < n := by simpa using h2
    have := toRow_getElem? (1 : Equiv.Perm (Fin n)) ⟨i, hn⟩
    rw [List.getElem_range]
    exact Option.some.inj ((List.getElem?_eq_getElem h1).symm.trans this)

theorem tablePerms_keeps {n : ℕ} {rows : List (List ℕ)} (hG : PermGroup n rows) {T : Finset (Fin n)}
    (hT : ∀ p ∈ rows, ∀ i j : Fin n, p[(i : ℕ)]? = some (j : ℕ) → j ∈ T → i ∈ T) : KeepsSet T (tablePerms n rows) where
  one := by show toRow 1 ∈ rows; rw [toRow_one]; exact hG.one
  mul := fun σ hσ τ hτ => by show toRow (σ * τ) ∈ rows; rw [← gather_rows]; exact hG.mul _ hτ _ hσ
  inv := fun σ hσ => by
    obtain ⟨q, hq, e⟩ := hG.inv _ hσ
    obtain ⟨τ, rfl⟩ := toRow_of_isPerm (hG.perm q hq)
    rw [gather_rows, ← toRow_one] at e
    have : τ * σ = 1 := toRow_inj e
    show toRow σ⁻¹ ∈ rows
    rw [← eq_inv_of_mul_eq_one_left this]
    exact hq
  keeps := fun σ hσ x hx => hT _ hσ (σ x) x (by rw [toRow_getElem?]; simp) hx

section

variable {c : GCell} {ops : List Spec.Op} {wy : List String} {g : OGen}

/-- the decorations with `k` of the admissible sites substituted -/
def SubstOn (c : GCell) (Q : ℕ → Prop) (z : ℤ) (k : ℕ) : Set (List ℤ) :=
  {m | ∃ S : Finset ℕ, (∀ i ∈ S, Q i) ∧ S.card = k ∧ Spec.Subst c.numbers S z m}

open Classical in
/-- the substituted sites of a decoration -/
noncomputable def substituted (c : GCell) (Q : ℕ → Prop) (z : ℤ) (m : List ℤ) : Finset (Fin c.positions.length) :=
  Finset.univ.filter fun i => Q i ∧ m[(i : ℕ)]? = some z

open Classical in
/-- the sites where substitution is permitted -/
noncomputable def admissible (c : GCell) (Q : ℕ → Prop) : Finset (Fin c.positions.length) := Finset.univ.filter fun i => Q i

theorem mem_admissible {Q : ℕ → Prop} {i : Fin c.positions.length} : i ∈ admissible c Q ↔ Q i := by
  unfold admissible
  simp

/-- admissible sites are sites, are not occupied by the new element yet, and are carried to admissible sites -/
structure Adm (c : GCell) (g : OGen) (Q : ℕ → Prop) (z : ℤ) : Prop where
  site : ∀ i, Q i → i < c.positions.length
  other : ∀ i, Q i → c.numbers[i]? ≠ some z
  inv : ∀ p ∈ g.perms, ∀ i j, p[i]? = some j → (Q i ↔ Q j)

theorem substituted_of {Q : ℕ → Prop} {z : ℤ} (hc : Built c) (hQ : Adm c g Q z) {S : Finset ℕ} (hS : ∀ i ∈ S, Q i) {m : List ℤ}
    (hm : Spec.Subst c.numbers S z m) : (substituted c Q z m).map Fin.valEmbedding = S := by
  ext i
  simp only [substituted, Finset.mem_map, Finset.mem_filter, Finset.mem_univ, true_and, Fin.valEmbedding_apply]
  constructor
  · rintro ⟨i, ⟨h1, h2⟩, rfl⟩
    rw [hm.2 _ (by rw [hc.length]; exact i.2)] at h2
    by_contra hn
    rw [if_neg hn] at h2
    exact hQ.other _ h1 h2
  · intro hi
    have hi' := hQ.site i (hS i hi)
    refine ⟨⟨i, hi'⟩, ⟨hS i hi, ?_⟩, rfl⟩
    rw [hm.2 i (by rw [hc.length]; exact hi'), if_pos hi]

theorem subst_unique {base : List ℤ} {S : Finset ℕ} {z : ℤ} {m m' : List ℤ} (h : Spec.Subst base S z m) (h' : Spec.Subst base S z m') : m = m' := by
  apply List.ext_getElem?
  intro i
  by_cases hi : i < base.length
  · rw [h.2 i hi, h'.2 i hi]
  · rw [List.getElem?_eq_none (by rw [h.1]; omega), List.getElem?_eq_none (by rw [h'.1]; omega)]

theorem subst_exists (base : List ℤ) (S : Finset ℕ) (z : ℤ) : ∃ m, Spec.Subst base S z m := by
  refine ⟨base.mapIdx fun i x => if i ∈ S then z else x, by simp, fun i hi => ?_⟩
  rw [List.getElem?_mapIdx, List.getElem?_eq_getElem hi, Option.map_some]
  split <;> rfl

/-- a row of the table moves the substituted sites -/
theorem substituted_gather {Q : ℕ → Prop} {z : ℤ} (hQ : Adm c g Q z) {σ : Equiv.Perm (Fin c.positions.length)} (hσ : toRow σ ∈ g.perms) {m : List ℤ}
    (hm : m.length = c.positions.length) :
    substituted c Q z (gather m (toRow σ)) = (substituted c Q z m).map σ.toEmbedding := by
  have hlt : ∀ i ∈ toRow σ, i < m.length := by rw [hm]; exact toRow_lt σ
  ext i
  simp only [substituted, Finset.mem_map, Finset.mem_filter, Finset.mem_univ, true_and, Equiv.coe_toEmbedding]
  rw [gather_getElem? hlt, toRow_getElem?, Option.bind_some, hQ.inv _ hσ i _ (toRow_getElem? σ i)]
  constructor
  · intro h; exact ⟨_, h, by simp⟩
  · rintro ⟨j, h, rfl⟩; simpa using h

/-- from representatives of the decorations to representatives of the sets of substituted sites -/
theorem orbit_reps (h : GenSetup c ops wy g) {Q : ℕ → Prop} {z : ℤ} (hQ : Adm c g Q z)
    (hk : Spec.KeepsElements sameKey c.positions ops c.numbers) {k : ℕ} {out : List (List ℤ)}
    (ht : Spec.Transversal (Spec.GeomEquiv siteKey c.positions ops) (SubstOn c Q z k) out) :
    ∃ R : Finset (Finset (Fin c.positions.length)), R.card = out.length ∧ (∀ A ∈ R, A ⊆ admissible c Q ∧ A.card = k) ∧
      (∀ A ∈ R, ∀ A' ∈ R, ∀ σ ∈ tablePerms c.positions.length g.perms, A.map σ.toEmbedding = A' → A = A') ∧
      ∀ B, B ⊆ admissible c Q → B.card = k → ∃ B' ∈ R, ∃ σ ∈ tablePerms c.positions.length g.perms, B'.map σ.toEmbedding = B := by
  classical
  obtain ⟨_, _, hF, hG⟩ := h.rows
  have hb := h.built
  have hlen : ∀ m ∈ SubstOn c Q z k, m.length = c.positions.length := by rintro m ⟨S, _, _, hm⟩; rw [hm.1, hb.length]
  have hrel : ∀ a ∈ SubstOn c Q z k, ∀ b ∈ SubstOn c Q z k, (Rel g.perms a b ↔ Spec.GeomEquiv siteKey c.positions ops a b) := fun a ha b hb =>
    rel_iff_geom h.distinct h.contract hF a b (hlen a ha) (hlen b hb)
  have hinj : ∀ a ∈ SubstOn c Q z k, ∀ b ∈ SubstOn c Q z k, substituted c Q z a = substituted c Q z b → a = b := by
    rintro a ⟨S, s1, _, s3⟩ b ⟨S', s1', _, s3'⟩ e
    have := (substituted_of hb hQ s1 s3).symm.trans ((congrArg _ e).trans (substituted_of hb hQ s1' s3'))
    subst this
    exact subst_unique s3 s3'
  have hcl : ∀ a ∈ SubstOn c Q z k, ∀ p ∈ g.perms, gather a p ∈ SubstOn c Q z k := by
    rintro a ⟨S, s1, s2, s3⟩ p hp
    refine ⟨_, fun i hi => ?_, (preim_card (hb.length ▸ hG.perm p hp) fun i hi => ?_).trans s2, gather_subst h hk hp s3⟩
    · obtain ⟨_, j, hj, hij⟩ := Finset.mem_filter.1 hi
      exact (hQ.inv p hp i j hij).2 (s1 j hj)
    · rw [Finset.mem_range, hb.length]; exact hQ.site i (s1 i hi)
  have hself : ∀ a ∈ SubstOn c Q z k, Spec.GeomEquiv siteKey c.positions ops a a := by
    intro a ha
    refine (hrel a ha a ha).1 ⟨_, hG.one, ?_⟩
    rw [← toRow_one, gather_toRow _ (hlen a ha)]
    intro i; rfl
  have hnd : out.Nodup := by
    refine ht.2.2.imp_of_mem fun {a b} ha _ hab e => ?_
    subst e
    exact hab.1 (hself a (ht.1 a ha))
  refine ⟨out.toFinset.image (substituted c Q z), ?_, ?_, ?_, ?_⟩
  · rw [Finset.card_image_of_injOn, List.toFinset_card_of_nodup hnd]
    intro a ha b hb e
    exact hinj a (ht.1 a (List.mem_toFinset.1 ha)) b (ht.1 b (List.mem_toFinset.1 hb)) e
  · intro A hA
    obtain ⟨a, ha, rfl⟩ := Finset.mem_image.1 hA
    obtain ⟨S, s1, s2, s3⟩ := ht.1 a (List.mem_toFinset.1 ha)
    refine ⟨fun i hi => ?_, ?_⟩
    · exact Finset.mem_filter.2 ⟨Finset.mem_univ _, (Finset.mem_filter.1 hi).2.1⟩
    · rw [← s2, ← substituted_of hb hQ s1 s3, Finset.card_map]
  · intro A hA A' hA' σ hσ e
    obtain ⟨a, ha, rfl⟩ := Finset.mem_image.1 hA
    obtain ⟨b, hb', rfl⟩ := Finset.mem_image.1 hA'
    have ha := List.mem_toFinset.1 ha
    have hb' := List.mem_toFinset.1 hb'
    have hab : gather a (toRow σ) = b := hinj _ (hcl a (ht.1 a ha) _ hσ) _ (ht.1 b hb') (by
      rw [substituted_gather hQ hσ (hlen a (ht.1 a ha)), e])
    have hge := (hrel a (ht.1 a ha) b (ht.1 b hb')).1 ⟨_, hσ, hab⟩
    by_contra hne
    have hne' : a ≠ b := fun e => hne (by rw [e])
    obtain ⟨i, hi, ei⟩ := List.mem_iff_getElem.1 ha
    obtain ⟨j, hj, ej⟩ := List.mem_iff_getElem.1 hb'
    have hpw := List.pairwise_iff_getElem.1 ht.2.2
    rcases Nat.lt_trichotomy i j with hij | hij | hij
    · exact (hpw i j hi hj hij).1 (by rw [ei, ej]; exact hge)
    · subst hij; exact hne' (ei.symm.trans ej)
    · exact (hpw j i hj hi hij).2 (by rw [ei, ej]; exact hge)
  · intro B hB hBk
    obtain ⟨m, hm⟩ := subst_exists c.numbers (B.map Fin.valEmbedding) z
    have hBQ : ∀ i ∈ B.map Fin.valEmbedding, Q i := by
      intro i hi
      obtain ⟨j, hj, rfl⟩ := Finset.mem_map.1 hi
      exact (Finset.mem_filter.1 (hB hj)).2
    have hmD : m ∈ SubstOn c Q z k := ⟨_, hBQ, by rw [Finset.card_map]; exact hBk, hm⟩
    obtain ⟨r, hr, hrm⟩ := ht.2.1 m hmD
    obtain ⟨p, hp, e⟩ := (hrel r (ht.1 r hr) m hmD).2 hrm
    obtain ⟨σ, rfl⟩ := toRow_of_isPerm (hG.perm p hp)
    refine ⟨_, Finset.mem_image_of_mem _ (List.mem_toFinset.2 hr), σ, hp, ?_⟩
    rw [← substituted_gather hQ hp (hlen r (ht.1 r hr)), e]
    exact Finset.map_injective Fin.valEmbedding (substituted_of hb hQ hBQ hm)


/-- the set of permitted decorations is closed under the rows -/
theorem substOn_closed (h : GenSetup c ops wy g) {Q : ℕ → Prop} {z : ℤ} (hQ : Adm c g Q z)
    (hk : Spec.KeepsElements sameKey c.positions ops c.numbers) {k : ℕ} {m : List ℤ} (hm : m ∈ SubstOn c Q z k) {p : List ℕ} (hp : p ∈ g.perms) :
    gather m p ∈ SubstOn c Q z k := by
  obtain ⟨_, _, hF, hG⟩ := h.rows
  obtain ⟨S, s1, s2, s3⟩ := hm
  refine ⟨_, fun i hi => ?_, (preim_card (h.built.length ▸ hG.perm p hp) fun i hi => ?_).trans s2, gather_subst h hk hp s3⟩
  · obtain ⟨_, j, hj, hij⟩ := Finset.mem_filter.1 hi
    exact (hQ.inv p hp i j hij).2 (s1 j hj)
  · rw [Finset.mem_range, h.built.length]; exact hQ.site i (s1 i hi)

theorem substOn_inj (h : GenSetup c ops wy g) {Q : ℕ → Prop} {z : ℤ} (hQ : Adm c g Q z)
    (hk : Spec.KeepsElements sameKey c.positions ops c.numbers) {k : ℕ} {hash : List ℤ → ℕ} (hinj : Set.InjOn hash (SubstOn c Q z k)) :
    Set.InjOn hash {m | m.length = c.positions.length ∧ ∃ d ∈ SubstOn c Q z k, Spec.GeomEquiv siteKey c.positions ops d m} := by
  obtain ⟨_, _, hF, hG⟩ := h.rows
  refine hinj.mono ?_
  rintro m ⟨hm, d, hd, hdm⟩
  have hdl : d.length = c.positions.length := by obtain ⟨S, _, _, hs⟩ := hd; rw [hs.1, h.built.length]
  obtain ⟨p, hp, rfl⟩ := (rel_iff_geom h.distinct h.contract hF d m hdl hm).2 hdm
  exact substOn_closed h hQ hk hd hp

/-- the shape of a sequence of numbers of structures: one structure when nothing is substituted, none when there are
not enough atoms, the same number for `n` atoms substituted as for `n` atoms left, never fewer on the way to one half,
and never more after it; at most one structure per choice of the atoms, and `s` symmetries identify at most `s`
choices with each other -/
structure Mountain (N s : ℕ) (a : ℕ → ℕ) : Prop where
  zero : a 0 = 1
  none : ∀ n, N < n → a n = 0
  mirror : ∀ n, n ≤ N → a (N - n) = a n
  rise : ∀ n, 2 * n < N → a n ≤ a (n + 1)
  fall : ∀ n, N ≤ 2 * n + 1 → a (n + 1) ≤ a n
  upper : ∀ n, a n ≤ N.choose n
  lower : ∀ n, N.choose n ≤ a n * s

theorem mountain_of (h : GenSetup c ops wy g) {Q : ℕ → Prop} {z : ℤ} (hQ : Adm c g Q z)
    (hk : Spec.KeepsElements sameKey c.positions ops c.numbers) {a : ℕ → ℕ}
    (ha : ∀ k, ∃ out : List (List ℤ), Spec.Transversal (Spec.GeomEquiv siteKey c.positions ops) (SubstOn c Q z k) out ∧ out.length = a k) :
    Mountain (admissible c Q).card (Spec.SiteSyms sameKey c.positions ops).ncard a := by
  classical
  obtain ⟨_, _, hF, hG⟩ := h.rows
  have hK : KeepsSet (admissible c Q) (tablePerms c.positions.length g.perms) := tablePerms_keeps hG fun p hp i j hij hj =>
    Finset.mem_filter.2 ⟨Finset.mem_univ _, (hQ.inv p hp i j hij).2 (Finset.mem_filter.1 hj).2⟩
  have hr : ∀ k, ∃ R : Finset (Finset (Fin c.positions.length)), R.card = a k ∧ (∀ A ∈ R, A ⊆ admissible c Q ∧ A.card = k) ∧
      (∀ A ∈ R, ∀ A' ∈ R, ∀ σ ∈ tablePerms c.positions.length g.perms, A.map σ.toEmbedding = A' → A = A') ∧
      ∀ B, B ⊆ admissible c Q → B.card = k → ∃ B' ∈ R, ∃ σ ∈ tablePerms c.positions.length g.perms, B'.map σ.toEmbedding = B := by
    intro k
    obtain ⟨out, h1, h2⟩ := ha k
    rw [← h2]
    exact orbit_reps h hQ hk h1
  choose R r1 r2 r3 r4 using hr
  have hcompl : ∀ n, n ≤ (admissible c Q).card → a n ≤ a ((admissible c Q).card - n) := by
    intro n hn
    rw [← r1, ← r1]
    exact orbits_compl hK (r2 n) (r3 n) (r4 _)
  have hmirror : ∀ n, n ≤ (admissible c Q).card → a ((admissible c Q).card - n) = a n := by
    intro n hn
    refine le_antisymm ?_ (hcompl n hn)
    have := hcompl ((admissible c Q).card - n) (by omega)
    rwa [Nat.sub_sub_self hn] at this
  have hrise : ∀ n, 2 * n < (admissible c Q).card → a n ≤ a (n + 1) := by
    intro n hn
    rw [← r1, ← r1]
    exact orbits_le hK hn (r2 n) (r3 n) (r4 _)
  have hnone : ∀ n, (admissible c Q).card < n → a n = 0 := by
    intro n hn
    rw [← r1, Finset.card_eq_zero, Finset.eq_empty_iff_forall_notMem]
    intro A hA
    have := Finset.card_le_card (r2 n A hA).1
    rw [(r2 n A hA).2] at this
    omega
  have hle : ∀ n, a n ≤ (admissible c Q).card.choose n := by
    intro n
    rw [← r1, ← Finset.card_powersetCard]
    exact Finset.card_le_card fun A hA => Finset.mem_powersetCard.2 (r2 n A hA)
  refine ⟨?_, hnone, hmirror, hrise, ?_, hle, ?_⟩
  · obtain ⟨B', hB', _⟩ := r4 0 ∅ (Finset.empty_subset _) rfl
    have h1 := hle 0
    rw [Nat.choose_zero_right] at h1
    have h2 : 0 < a 0 := by rw [← r1]; exact Finset.card_pos.2 ⟨_, hB'⟩
    omega
  · intro n hn
    by_cases hlt : (admissible c Q).card < n + 1
    · rw [hnone _ hlt]; exact Nat.zero_le _
    · have h1 := hmirror (n + 1) (by omega)
      have h2 := hmirror n (by omega)
      rw [← h1, ← h2]
      have e : (admissible c Q).card - n = (admissible c Q).card - (n + 1) + 1 := by omega
      rw [e]
      by_cases hh : 2 * ((admissible c Q).card - (n + 1)) < (admissible c Q).card
      · exact hrise _ hh
      · omega
  · intro n
    have hsy : (Spec.SiteSyms sameKey c.positions ops).ncard = (Finset.univ.filter (· ∈ tablePerms c.positions.length g.perms)).card := by
      rw [← Set.ncard_coe_finset]
      congr 1
      ext σ
      have := Finset.ext_iff.1 (rows_eq_image hF) (toRow σ)
      simp only [List.mem_toFinset, Finset.mem_image, Finset.mem_filter, Finset.mem_univ, true_and] at this
      simp only [Finset.coe_filter, Finset.mem_univ, true_and, Set.mem_ofPred_eq]
      constructor
      · intro hs; exact this.2 ⟨σ, hs, rfl⟩
      · intro hs
        obtain ⟨τ, hτ, e⟩ := this.1 hs
        rw [← toRow_inj e]; exact hτ
    rw [hsy, ← r1, ← Finset.card_product, ← Finset.card_powersetCard]
    refine le_trans (Finset.card_le_card ?_) (Finset.card_image_le (f := fun x : Finset (Fin c.positions.length) × Equiv.Perm (Fin c.positions.length) => x.1.map x.2.toEmbedding))
    intro B hB
    obtain ⟨b1, b2⟩ := Finset.mem_powersetCard.1 hB
    obtain ⟨B', h1, σ, h2, h3⟩ := r4 n B b1 b2
    exact Finset.mem_image.2 ⟨(B', σ), Finset.mem_product.2 ⟨h1, Finset.mem_filter.2 ⟨Finset.mem_univ _, h2⟩⟩, h3⟩

end

theorem card_sites {α : Type} [DecidableEq α] (l : List α) (z : α) (n : ℕ) (hn : l.length = n) :
    (Finset.univ.filter fun i : Fin n => l[(i : ℕ)]? = some z).card = l.count z := by
  classical
  have h1 : ∀ l : List α, ((Finset.range l.length).filter fun i => l[i]? = some z).card = l.count z := by
    intro l
    induction l using List.reverseRecOn with
    | nil => rfl
    | append_singleton l x ih =>
      rw [List.length_append, List.length_singleton, Finset.range_add_one, Finset.filter_insert, List.count_append, ← ih]
      have e : ((Finset.range l.length).filter fun i => (l ++ [x])[i]? = some z) = (Finset.range l.length).filter fun i => l[i]? = some z := by
        refine Finset.filter_congr fun i hi => ?_
        rw [List.getElem?_append_left (Finset.mem_range.1 hi)]
      have e2 : (l ++ [x])[l.length]? = some x := by simp
      rw [e, e2]
      by_cases hx : x = z
      · subst hx
        rw [if_pos rfl, Finset.card_insert_of_notMem (by simp)]
        simp
      · rw [if_neg (fun h => hx (Option.some.inj h))]
        simp [hx]
  rw [← h1 l, hn]
  refine Finset.card_bij (fun i _ => (i : ℕ)) ?_ ?_ ?_
  · intro i hi; exact Finset.mem_filter.2 ⟨Finset.mem_range.2 i.2, (Finset.mem_filter.1 hi).2⟩
  · intro i _ j _ e; exact Fin.ext e
  · intro i hi
    obtain ⟨h2, h3⟩ := Finset.mem_filter.1 hi
    exact ⟨⟨i, Finset.mem_range.1 h2⟩, Finset.mem_filter.2 ⟨Finset.mem_univ _, h3⟩, rfl⟩

/-- **C103 (`gen_nodup_of_ele`).** Substituting `n` of the `N` atoms of an element by another element: the number of
structures yielded, as a function of `n`, is `1` at `0`, symmetric, never decreases up to `N / 2`, never increases
after it, is `0` beyond `N`, and lies between `choose N n / s` and `choose N n`, where `s` is the number of symmetry
permutations of the sites. -/
theorem C103_of_ele (hash : List ℤ → ℕ) (c : GCell) (ops : List Spec.Op) (wy : List String) (g : OGen) (h : GenSetup c ops wy g)
    (hk : Spec.KeepsElements sameKey c.positions ops c.numbers) (ele sp : Specie) (hne : ele.Z ≠ sp.Z)
    (hinj : ∀ n, Set.InjOn hash {m | ∃ S : Finset ℕ, (∀ i ∈ S, c.numbers[i]? = some ele.Z) ∧ S.card = n ∧ Spec.Subst c.numbers S sp.Z m}) :
    ∃ a : ℕ → ℕ, (∀ n, ∃ out, g.genNodupOfEle hash ele n sp = .ok out ∧ out.length = a n) ∧
      Mountain (c.numbers.count ele.Z) (Spec.SiteSyms sameKey c.positions ops).ncard a := by
  classical
  have hQ : Adm c g (fun i => c.numbers[i]? = some ele.Z) sp.Z := by
    refine ⟨fun i hi => ?_, fun i hi e => hne ?_, fun p hp i j hij => ?_⟩
    · rw [← h.built.length]; exact (List.getElem?_eq_some_iff.1 hi).1
    · exact Option.some.inj (hi.symm.trans e)
    · show _ = _ ↔ _ = _
      rw [gather_base h hk hp hij]
  have h1 := fun n => C21_nodup_of_ele hash c ops wy g h ele n sp (SubstOn c _ sp.Z n) rfl (substOn_inj h hQ hk (hinj n))
  choose out o1 _ o3 using h1
  refine ⟨fun n => (out n).length, fun n => ⟨out n, o1 n, rfl⟩, ?_⟩
  have := mountain_of h hQ hk (a := fun n => (out n).length) fun n => ⟨_, o3 n, by rw [List.length_map]⟩
  have hc : (admissible c fun i => c.numbers[i]? = some ele.Z).card = c.numbers.count ele.Z := by
    rw [← card_sites c.numbers ele.Z c.positions.length h.built.length]
    unfold admissible
    congr
  rwa [hc] at this

/-- **C103 (`gen_nodup_unitary`).** The same for a generator over all atoms of a cell which does not contain the new
element. -/
theorem C103_unitary (hash : List ℤ → ℕ) (c : GCell) (ops : List Spec.Op) (wy : List String) (g : OGen) (h : GenSetup c ops wy g)
    (hk : Spec.KeepsElements sameKey c.positions ops c.numbers) (sp : Specie) (hne : sp.Z ∉ c.numbers)
    (hinj : ∀ n, Set.InjOn hash {m | ∃ S : Finset ℕ, S ⊆ Finset.range c.numbers.length ∧ S.card = n ∧ Spec.Subst c.numbers S sp.Z m}) :
    ∃ a : ℕ → ℕ, (∀ n, ∃ out, g.genNodupUnitary hash n sp = .ok out ∧ out.length = a n) ∧
      Mountain c.numbers.length (Spec.SiteSyms sameKey c.positions ops).ncard a := by
  classical
  obtain ⟨_, _, hF, hG⟩ := h.rows
  have hQ : Adm c g (fun i => i ∈ Finset.range c.numbers.length) sp.Z := by
    refine ⟨fun i hi => ?_, fun i hi e => hne (List.mem_of_getElem? e), fun p hp i j hij => ?_⟩
    · rw [← h.built.length]; exact Finset.mem_range.1 hi
    · obtain ⟨hl, he⟩ := List.getElem?_eq_some_iff.1 hij
      have hP := hG.perm p hp
      rw [Finset.mem_range, Finset.mem_range, h.built.length]
      exact ⟨fun _ => hP.lt j (List.mem_of_getElem? hij), fun _ => by rw [← hP.length]; exact hl⟩
  have h1 := fun n => C21_nodup_unitary hash c ops wy g h n sp (SubstOn c _ sp.Z n) rfl (substOn_inj h hQ hk (hinj n))
  choose out o1 _ o3 using h1
  refine ⟨fun n => (out n).length, fun n => ⟨out n, o1 n, rfl⟩, ?_⟩
  have := mountain_of h hQ hk (a := fun n => (out n).length) fun n => ⟨_, o3 n, by rw [List.length_map]⟩
  have hc : (admissible c fun i => i ∈ Finset.range c.numbers.length).card = c.numbers.length := by
    have e : (admissible c fun i => i ∈ Finset.range c.numbers.length) = Finset.univ :=
      Finset.eq_univ_of_forall fun i => mem_admissible.2 (Finset.mem_range.2 (by rw [h.built.length]; exact i.2))
    rw [e, Finset.card_univ, Fintype.card_fin, h.built.length]
  rwa [hc] at this

/-- **C103 (`gen_nodup`).** The same for the atoms of one Wyckoff letter, none of which is of the new element yet. -/
theorem C103_wyckoff (hash : List ℤ → ℕ) (c : GCell) (ops : List Spec.Op) (wy : List String) (g : OGen) (h : GenSetup c ops wy g)
    (hk : Spec.KeepsElements sameKey c.positions ops c.numbers) (hl : wy.length = c.numbers.length)
    (hw : Spec.KeepsLabels sameKey c.positions ops wy) (w : String) (sp : Specie)
    (hne : ∀ i : ℕ, wy[i]? = some w → c.numbers[i]? ≠ some sp.Z)
    (hinj : ∀ n, Set.InjOn hash {m | ∃ S : Finset ℕ, (∀ i ∈ S, wy[i]? = some w) ∧ S.card = n ∧ Spec.Subst c.numbers S sp.Z m}) :
    ∃ a : ℕ → ℕ, (∀ n, ∃ out, g.genNodup hash w n sp = .ok out ∧ out.length = a n) ∧
      Mountain (wy.count w) (Spec.SiteSyms sameKey c.positions ops).ncard a := by
  classical
  have hQ : Adm c g (fun i => wy[i]? = some w) sp.Z := by
    refine ⟨fun i hi => ?_, hne, fun p hp i j hij => ?_⟩
    · rw [← h.built.length, ← hl]; exact (List.getElem?_eq_some_iff.1 hi).1
    · show _ = _ ↔ _ = _
      rw [gather_wyckoff h hw hp hij]
  have h1 := fun n => C21_nodup_wyckoff hash c ops wy g h hl w n sp (SubstOn c _ sp.Z n) rfl (substOn_inj h hQ hk (hinj n))
  choose out o1 _ o3 using h1
  refine ⟨fun n => (out n).length, fun n => ⟨out n, o1 n, rfl⟩, ?_⟩
  have := mountain_of h hQ hk (a := fun n => (out n).length) fun n => ⟨_, o3 n, by rw [List.length_map]⟩
  have hc : (admissible c fun i => wy[i]? = some w).card = wy.count w := by
    rw [← card_sites wy w c.positions.length (hl.trans h.built.length)]
    unfold admissible
    congr
  rwa [hc] at this

/-- for the chain of four atoms the numbers are 1, 1, 2, 1, 1 -/
example : ∃ a : ℕ → ℕ, (∀ n, ∃ out, exGen.genNodupUnitary exHash n exAu = .ok out ∧ out.length = a n) ∧
    Mountain 4 (Spec.SiteSyms sameKey exChain.positions exOps).ncard a ∧ a 2 = 2 := by
  obtain ⟨a, h1, h2⟩ := C103_unitary exHash exChain exOps _ exGen exGen_setup exChain_keeps exAu (by decide +kernel) fun n => exHash_inj _
  refine ⟨a, h1, h2, ?_⟩
  obtain ⟨out, e1, e2⟩ := h1 2
  have e : (exGen.genNodupUnitary exHash 2 exAu).map List.length = .ok 2 := by decide +kernel
  rw [e1] at e
  rw [← e2]
  exact Except.ok.inj e

end Verif
