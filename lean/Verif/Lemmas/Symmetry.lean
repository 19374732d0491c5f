import Verif.Lemmas.Perm
import Verif.Model.Sogen
import Verif.Spec.Symmetry
import Verif.Lemmas.Cong

namespace Verif

/-- a cell returned by the constructor -/
def Built (c : GCell) : Prop := ∃ L pos nums, GCell.new L pos nums = .ok c

theorem Built.sorted {c : GCell} (h : Built c) : (c.positions.map siteKey).Pairwise (fun a b => lexLe a b = true) := by
  obtain ⟨_, _, _, h⟩ := h; exact new_keys_sorted h

theorem Built.ne_nil {c : GCell} (h : Built c) : c.positions ≠ [] := by
  obtain ⟨_, pos, _, h⟩ := h
  intro h0
  have := (new_lengths h).1
  rw [h0] at this
  exact (new_ok_inv h).1 (List.length_eq_zero_iff.1 this.symm)

theorem Built.length {c : GCell} (h : Built c) : c.numbers.length = c.positions.length := by
  obtain ⟨_, pos, _, h⟩ := h
  rw [(new_lengths h).1, (new_lengths h).2]

/-- same reduced coordinates (modulo 1, rounded to 3 decimals) -/
def sameKey (p q : V3 ℚ) : Prop := siteKey p = siteKey q

theorem applyOp_eq (g : Spec.Op) (x : V3 ℚ) : applyOp g x = g.image x := rfl

theorem mapM_ok {α β} (f : α → Py β) (g : α → β) (l : List α) (h : ∀ a ∈ l, f a = .ok (g a)) :
    l.mapM f = .ok (l.map g) := by
  induction l with
  | nil => rfl
  | cons a l ih =>
    rw [List.mapM_cons, h a (by simp), ih (fun b hb => h b (List.mem_cons_of_mem _ hb))]
    rfl

theorem map_sites_perm {pos : List (V3 ℚ)} {g : Spec.Op} (hk : (pos.map siteKey).Nodup)
    (maps : ∀ x ∈ pos, ∃ y ∈ pos, sameKey (g.image x) y)
    (inj : ∀ x ∈ pos, ∀ y ∈ pos, sameKey (g.image x) (g.image y) → x = y) :
    ((pos.map (applyOp g)).map siteKey).Perm (pos.map siteKey) := by
  have hnd : ((pos.map (applyOp g)).map siteKey).Nodup := by
    rw [List.map_map]
    apply List.Nodup.map_on _ (List.Nodup.of_map _ hk)
    intro x hx y hy h
    exact inj x hx y hy h
  have hsub : ((pos.map (applyOp g)).map siteKey) ⊆ (pos.map siteKey) := by
    intro k hk
    simp only [List.map_map, List.mem_map, Function.comp] at hk ⊢
    obtain ⟨x, hx, rfl⟩ := hk
    obtain ⟨y, hy, hxy⟩ := maps x hx
    exact ⟨y, hy, hxy.symm⟩
  exact (hnd.subperm hsub).perm_of_length_le (by simp)

/-- one row of the permutation table -/
theorem row_spec {c : GCell} (hc : Built c) (hk : (c.positions.map siteKey).Nodup) {g : Spec.Op}
    (maps : ∀ x ∈ c.positions, ∃ y ∈ c.positions, sameKey (g.image x) y)
    (inj : ∀ x ∈ c.positions, ∀ y ∈ c.positions, sameKey (g.image x) (g.image y) → x = y) :
    ∃ p, newIdSeq (c.positions.map (applyOp g)) = .ok p ∧ IsPerm c.positions.length p ∧
      ∀ (i : ℕ) (x : V3 ℚ), c.positions[i]? = some x → ∀ (j : ℕ) (y : V3 ℚ), c.positions[j]? = some y →
        (p[i]? = some j ↔ sameKey (g.image y) x) := by
  have hne : c.positions.map (applyOp g) ≠ [] := by simpa using hc.ne_nil
  refine ⟨_, newIdSeq_ok hne, ?_, ?_⟩
  · simpa using lexsort3_perm ((c.positions.map (applyOp g)).map siteKey)
  · have hperm := map_sites_perm hk maps inj
    have hsort := sorted_keys ((c.positions.map (applyOp g)).map siteKey)
    have hsperm := sorted_keys_perm ((c.positions.map (applyOp g)).map siteKey)
    have heq : (sortedPairs ((c.positions.map (applyOp g)).map siteKey)).map (·.1) = c.positions.map siteKey := by
      refine List.Perm.eq_of_pairwise (le := fun a b : V3 ℚ => lexLe a b = true) ?_ hsort hc.sorted (hsperm.trans hperm)
      intro a b _ _ h1 h2; exact lexLe_antisymm a b h1 h2
    have hf := fancy_lexsort3 ((c.positions.map (applyOp g)).map siteKey)
    rw [heq] at hf
    have key : ∀ (i : ℕ) (x : V3 ℚ), c.positions[i]? = some x → ∀ (j : ℕ) (y : V3 ℚ), c.positions[j]? = some y →
        (lexsort3 ((c.positions.map (applyOp g)).map siteKey))[i]? = some j → sameKey (g.image y) x := by
      intro i x hx j y hy hp
      have := fancy_getElem? hf hp
      simp only [List.getElem?_map, hx, hy, Option.map_some, Option.some.injEq] at this
      exact this.symm
    intro i x hx j y hy
    refine ⟨key i x hx j y hy, ?_⟩
    intro hs
    have hi : i < c.positions.length := (List.getElem?_eq_some_iff.1 hx).1
    obtain ⟨j', hj'⟩ : ∃ j', (lexsort3 ((c.positions.map (applyOp g)).map siteKey))[i]? = some j' := by
      have : i < (lexsort3 ((c.positions.map (applyOp g)).map siteKey)).length := by
        rw [lexsort3_length]; simpa using hi
      exact ⟨_, List.getElem?_eq_getElem this⟩
    have hj'm := (mem_lexsort3 _ _).1 (List.mem_of_getElem? hj')
    simp only [List.length_map] at hj'm
    have h2 := key i x hx j' _ (List.getElem?_eq_getElem hj'm) hj'
    have h3 := inj _ (List.getElem_mem hj'm) y (List.mem_of_getElem? hy) (h2.trans hs.symm)
    have hnd : c.positions.Nodup := List.Nodup.of_map _ hk
    rw [hj']
    congr 1
    have e1 : c.positions[j']? = c.positions[j]? := by rw [hy, List.getElem?_eq_getElem hj'm, h3]
    exact (List.getElem?_inj hj'm hnd).1 e1

/-- exact congruence contract implies the rounded contract when sites are distinct after rounding -/
theorem contract_of_exact {pos : List (V3 ℚ)} {ops : List Spec.Op} (hk : (pos.map siteKey).Nodup)
    (h : Spec.SymContract Spec.Cong pos ops) : Spec.SymContract sameKey pos ops ∧
      ∀ g ∈ ops, ∀ x ∈ pos, ∀ y ∈ pos, (sameKey (g.image x) y ↔ Spec.Cong (g.image x) y) := by
  have hinj : ∀ x ∈ pos, ∀ y ∈ pos, siteKey x = siteKey y → x = y :=
    fun x hx y hy hxy => List.inj_on_of_nodup_map hk hx hy hxy
  have hiff : ∀ g ∈ ops, ∀ x ∈ pos, ∀ y ∈ pos, (sameKey (g.image x) y ↔ Spec.Cong (g.image x) y) := by
    intro g hg x hx y hy
    constructor
    · intro hxy
      obtain ⟨y', hy', hc⟩ := h.maps g hg x hx
      have : y' = y := hinj y' hy' y hy ((siteKey_cong hc).trans hxy)
      rwa [← this]
    · intro hc; exact (siteKey_cong hc).symm
  refine ⟨⟨?_, ?_, ?_, ?_, ?_⟩, hiff⟩
  · intro g hg x hx
    obtain ⟨y, hy, hc⟩ := h.maps g hg x hx
    exact ⟨y, hy, (siteKey_cong hc).symm⟩
  · intro g hg x hx y hy hxy
    obtain ⟨x', hx', hcx⟩ := h.maps g hg x hx
    obtain ⟨y', hy', hcy⟩ := h.maps g hg y hy
    have : x' = y' := hinj x' hx' y' hy' (by
      rw [siteKey_cong hcx, siteKey_cong hcy]; exact hxy)
    subst this
    apply h.inj g hg x hx y hy
    exact hcx.trans hcy.symm
  · obtain ⟨g, hg, hx⟩ := h.one
    exact ⟨g, hg, fun x hxm => (siteKey_cong (hx x hxm)).symm⟩
  · intro f hf g hg
    obtain ⟨k, hk', hh⟩ := h.mul f hf g hg
    refine ⟨k, hk', fun x hx y hy z hz h1 h2 => ?_⟩
    exact (hiff k hk' x hx z hz).2 (hh x hx y hy z hz ((hiff g hg x hx y hy).1 h1) ((hiff f hf y hy z hz).1 h2))
  · intro f hf
    obtain ⟨g, hg, hh⟩ := h.inv f hf
    exact ⟨g, hg, fun x hx y hy h1 => (hiff g hg y hy x hx).2 (hh x hx y hy ((hiff f hf x hx y hy).1 h1))⟩

/-- relation between an operation and its table row -/
def RowOf (c : GCell) (g : Spec.Op) (p : List ℕ) : Prop :=
  IsPerm c.positions.length p ∧
    ∀ (i : ℕ) (x : V3 ℚ), c.positions[i]? = some x → ∀ (j : ℕ) (y : V3 ℚ), c.positions[j]? = some y →
      (p[i]? = some j ↔ sameKey (g.image y) x)

theorem mapM_forall₂ {α β} (f : α → Py β) (R : α → β → Prop) (l : List α)
    (h : ∀ a ∈ l, ∃ b, f a = .ok b ∧ R a b) : ∃ bs, l.mapM f = .ok bs ∧ List.Forall₂ R l bs := by
  induction l with
  | nil => exact ⟨[], rfl, .nil⟩
  | cons a l ih =>
    obtain ⟨b, hb, hR⟩ := h a (by simp)
    obtain ⟨bs, hbs, hF⟩ := ih (fun a ha => h a (List.mem_cons_of_mem _ ha))
    refine ⟨b :: bs, ?_, .cons hR hF⟩
    rw [List.mapM_cons, hb, hbs]; rfl

theorem table_spec {c : GCell} (hc : Built c) (hk : (c.positions.map siteKey).Nodup) {ops : List Spec.Op}
    (maps : ∀ g ∈ ops, ∀ x ∈ c.positions, ∃ y ∈ c.positions, sameKey (g.image x) y)
    (inj : ∀ g ∈ ops, ∀ x ∈ c.positions, ∀ y ∈ c.positions, sameKey (g.image x) (g.image y) → x = y) :
    ∃ rows, c.symmetryPermutation ops = .ok rows ∧ List.Forall₂ (RowOf c) ops rows := by
  apply mapM_forall₂
  intro g hg
  obtain ⟨p, h1, h2, h3⟩ := row_spec hc hk (maps g hg) (inj g hg)
  exact ⟨p, h1, h2, h3⟩

theorem forall₂_mem_left {α β} {R : α → β → Prop} {l : List α} {m : List β} (h : List.Forall₂ R l m) {a : α}
    (ha : a ∈ l) : ∃ b ∈ m, R a b := by
  induction h with
  | nil => simp at ha
  | cons h _ ih =>
    rcases List.mem_cons.1 ha with rfl | ha
    · exact ⟨_, by simp, h⟩
    · obtain ⟨b, hb, hR⟩ := ih ha; exact ⟨b, List.mem_cons_of_mem _ hb, hR⟩

theorem forall₂_mem_right {α β} {R : α → β → Prop} {l : List α} {m : List β} (h : List.Forall₂ R l m) {b : β}
    (hb : b ∈ m) : ∃ a ∈ l, R a b := by
  induction h with
  | nil => simp at hb
  | cons h _ ih =>
    rcases List.mem_cons.1 hb with rfl | hb
    · exact ⟨_, by simp, h⟩
    · obtain ⟨a, ha, hR⟩ := ih hb; exact ⟨a, List.mem_cons_of_mem _ ha, hR⟩

theorem RowOf.ext {c : GCell} {g : Spec.Op} {p : List ℕ} (h : RowOf c g p) {q : List ℕ}
    (hq : IsPerm c.positions.length q)
    (hpq : ∀ (i j : ℕ) x y, c.positions[i]? = some x → c.positions[j]? = some y → q[i]? = some j → sameKey (g.image y) x) :
    q = p := by
  apply List.ext_getElem?
  intro i
  by_cases hi : i < c.positions.length
  · have hiq : i < q.length := by rw [hq.length]; exact hi
    have hj : q[i] < c.positions.length := hq.lt _ (List.getElem_mem hiq)
    have e := List.getElem?_eq_getElem hiq
    rw [e]
    symm
    exact (h.2 i _ (List.getElem?_eq_getElem hi) _ _ (List.getElem?_eq_getElem hj)).2
      (hpq i _ _ _ (List.getElem?_eq_getElem hi) (List.getElem?_eq_getElem hj) e)
  · rw [List.getElem?_eq_none (by rw [hq.length]; omega), List.getElem?_eq_none (by rw [h.1.length]; omega)]

/-- the table built from a group of operations is a permutation group -/
theorem table_group {c : GCell} {ops : List Spec.Op} (h : Spec.SymContract sameKey c.positions ops)
    {rows : List (List ℕ)} (hr : List.Forall₂ (RowOf c) ops rows) : PermGroup c.positions.length rows := by
  have getp : ∀ {i : ℕ} {x}, c.positions[i]? = some x → x ∈ c.positions := fun h => List.mem_of_getElem? h
  refine ⟨?_, ?_, ?_, ?_⟩
  · intro p hp
    obtain ⟨g, _, hR⟩ := forall₂_mem_right hr hp
    exact hR.1
  · obtain ⟨g, hg, hx⟩ := h.one
    obtain ⟨p, hp, hR⟩ := forall₂_mem_left hr hg
    have : List.range c.positions.length = p := by
      apply hR.ext (List.Perm.refl _)
      intro i j x y hi hj hij
      have : i = j := by
        rw [List.getElem?_range] at hij
        · simpa using hij
        · exact (List.getElem?_eq_some_iff.1 hi).1
      subst this
      rw [hi] at hj; injection hj with hj; subst hj
      exact hx x (getp hi)
    rw [this]; exact hp
  · intro p hp q hq
    obtain ⟨f, hf, hRf⟩ := forall₂_mem_right hr hp
    obtain ⟨g, hg, hRg⟩ := forall₂_mem_right hr hq
    -- `gather p q` at `k` is `p[q[k]]`: first `f` (row `p`), then `g` (row `q`)
    obtain ⟨k, hk, hh⟩ := h.mul g hg f hf
    obtain ⟨r, hr', hRk⟩ := forall₂_mem_left hr hk
    have hlt : ∀ i ∈ q, i < p.length := by rw [hRf.1.length]; exact hRg.1.lt
    have : gather p q = r := by
      apply hRk.ext (gather_isPerm hRf.1 hRg.1)
      intro i j x y hi hj hij
      rw [gather_getElem? hlt] at hij
      cases hqi : q[i]? with
      | none => rw [hqi] at hij; simp at hij
      | some m =>
        rw [hqi] at hij
        simp only [Option.bind_some] at hij
        have hm : m < c.positions.length := hRg.1.lt _ (List.mem_of_getElem? hqi)
        have em := List.getElem?_eq_getElem hm
        have h1 := (hRg.2 i x hi m _ em).1 hqi
        have h2 := (hRf.2 m _ em j y hj).1 hij
        exact hh y (getp hj) _ (getp em) x (getp hi) h2 h1
    rw [this]; exact hr'
  · intro p hp
    obtain ⟨f, hf, hRf⟩ := forall₂_mem_right hr hp
    obtain ⟨g, hg, hh⟩ := h.inv f hf
    obtain ⟨q, hq, hRg⟩ := forall₂_mem_left hr hg
    refine ⟨q, hq, ?_⟩
    have hlt : ∀ i ∈ q, i < p.length := by rw [hRf.1.length]; exact hRg.1.lt
    apply List.ext_getElem?
    intro i
    rw [gather_getElem? hlt]
    by_cases hi : i < c.positions.length
    · have hiq : i < q.length := by rw [hRg.1.length]; exact hi
      have hj : q[i] < c.positions.length := hRg.1.lt _ (List.getElem_mem hiq)
      have ei := List.getElem?_eq_getElem hi
      have ej := List.getElem?_eq_getElem hj
      rw [List.getElem?_eq_getElem hiq, Option.bind_some, List.getElem?_range hi]
      -- `q[i] = j` : g x_j = x_i ; need p[j] = i : f x_i = x_j
      have h1 := (hRg.2 i _ ei _ _ ej).1 (List.getElem?_eq_getElem hiq)
      refine (hRf.2 _ _ ej i _ ei).2 ?_
      -- f x_i = some site y; then g y = x_i = g x_j hence y = x_j
      obtain ⟨y, hy, hfy⟩ := h.maps f hf _ (getp ei)
      have h2 := hh _ (getp ei) y hy hfy
      have h3 := h.inj g hg y hy _ (getp ej) (h2.trans h1.symm)
      rwa [h3] at hfy
    · rw [List.getElem?_eq_none (by rw [hRg.1.length]; omega), List.getElem?_eq_none (by simp; omega)]; rfl

end Verif
