import Verif.Lemmas.Dedup
import Mathlib.Algebra.BigOperators.Group.Finset.Basic
import Mathlib.Algebra.BigOperators.Ring.Finset
import Mathlib.Algebra.Order.BigOperators.Group.Finset
import Mathlib.Data.Set.Finite.Basic

/-! # Counting representatives: Burnside's lemma for a table of permutations -/

namespace Verif

theorem gather_left_inj {n : ℕ} {q p p' : List ℕ} (hq : IsPerm n q) (hp : IsPerm n p) (hp' : IsPerm n p')
    (h : gather q p = gather q p') : p = p' := by
  have hl := hq.length
  have h1 : ∀ i ∈ p, i < q.length := by rw [hl]; exact hp.lt
  have h2 : ∀ i ∈ p', i < q.length := by rw [hl]; exact hp'.lt
  apply List.ext_getElem?
  intro k
  have hk := congrArg (fun l => l[k]?) h
  simp only [gather_getElem? h1, gather_getElem? h2] at hk
  cases hpk : p[k]? with
  | none =>
    have := List.getElem?_eq_none_iff.1 hpk
    rw [eq_comm, List.getElem?_eq_none_iff, hp'.length, ← hp.length]; exact this
  | some i =>
    have hkl := (List.getElem?_eq_some_iff.1 hpk).1
    have hkl' : k < p'.length := by rw [hp'.length, ← hp.length]; exact hkl
    have hp'k := List.getElem?_eq_getElem hkl'
    rw [hpk, hp'k] at hk
    simp only [Option.bind_some] at hk
    rw [hp'k]
    have hi := h1 i (List.mem_of_getElem? hpk)
    rw [(List.getElem?_inj hi hq.nodup).1 hk]

section
variable {α : Type} [DecidableEq α] {n : ℕ} {P : List (List ℕ)}

/-- as many rows fix `a` as carry `r` to `a`, when `r` can be carried to `a` -/
theorem card_stab (hP : PermGroup n P) {r a : List α} (hr : r.length = n) (h : Rel P r a) :
    (P.toFinset.filter fun p => gather a p = a).card = (P.toFinset.filter fun p => gather r p = a).card := by
  have ha := h.length_eq hP.perm hr
  have key : ∀ (x y : List α), x.length = n → y.length = n → Rel P x y → 
      (P.toFinset.filter fun p => gather y p = a).card ≤ (P.toFinset.filter fun p => gather x p = a).card := by
    rintro x y hx hy ⟨q, hq, rfl⟩
    refine Finset.card_le_card_of_injOn (fun p => gather q p) ?_ ?_
    · intro p hp
      simp only [Finset.coe_filter, List.mem_toFinset, Set.mem_ofPred_eq] at hp ⊢
      refine ⟨hP.mul q hq p hp.1, ?_⟩
      rw [← gather_gather (by rw [hx]; exact (hP.perm q hq).lt) (by rw [(hP.perm q hq).length]; exact (hP.perm p hp.1).lt)]
      exact hp.2
    · intro p hp p' hp' he
      simp only [Finset.coe_filter, List.mem_toFinset, Set.mem_ofPred_eq] at hp hp'
      exact gather_left_inj (hP.perm q hq) (hP.perm p hp.1) (hP.perm p' hp'.1) he
  exact le_antisymm (key r a hr ha h) (key a r ha hr (h.symm hP hr))

/-- **Burnside's lemma.** `T` lists one representative of every class of `D`. -/
theorem burnside (hP : PermGroup n P) (D : Finset (List α)) (hlen : ∀ a ∈ D, a.length = n)
    (hcl : ∀ a ∈ D, ∀ p ∈ P, gather a p ∈ D) (T : List (List α)) (h1 : ∀ r ∈ T, r ∈ D) (h2 : ∀ d ∈ D, ∃ r ∈ T, Rel P r d)
    (h3 : T.Pairwise fun a b => ¬ Rel P a b ∧ ¬ Rel P b a) :
    T.length * P.toFinset.card = ∑ p ∈ P.toFinset, (D.filter fun a => gather a p = a).card := by
  have hnd : T.Nodup := h3.imp_of_mem fun {a b} ha _ h he => h.1 (he ▸ Rel.refl hP (hlen a (h1 a ha)))
  have huniq : ∀ r ∈ T, ∀ r' ∈ T, Rel P r r' → r = r' := by
    intro r hr r' hr' h
    by_contra hne
    have hs : Std.Symm fun a b : List α => ¬ Rel P a b ∧ ¬ Rel P b a := ⟨fun _ _ h => ⟨h.2, h.1⟩⟩
    exact (h3.forall hr hr' hne).1 h
  have e1 : ∑ p ∈ P.toFinset, (D.filter fun a => gather a p = a).card = ∑ a ∈ D, (P.toFinset.filter fun p => gather a p = a).card := by
    simp only [Finset.card_filter]
    exact Finset.sum_comm
  have e2 : ∀ a ∈ D, (P.toFinset.filter fun p => gather a p = a).card =
      ∑ r ∈ T.toFinset, (P.toFinset.filter fun p => gather r p = a).card := by
    intro a ha
    obtain ⟨r, hr, hra⟩ := h2 a ha
    rw [Finset.sum_eq_single r]
    · exact card_stab hP (hlen r (h1 r hr)) hra
    · intro r' hr' hne
      rw [Finset.card_eq_zero, Finset.filter_eq_empty_iff]
      intro p hp he
      have hr'T := List.mem_toFinset.1 hr'
      have hr'a : Rel P r' a := ⟨p, List.mem_toFinset.1 hp, he⟩
      exact hne (huniq r' hr'T r hr (hr'a.trans hP (hlen r' (h1 r' hr'T)) (hra.symm hP (hlen r (h1 r hr)))))
    · intro h
      exact absurd (List.mem_toFinset.2 hr) h
  have e3 : ∀ r ∈ T.toFinset, ∑ a ∈ D, (P.toFinset.filter fun p => gather r p = a).card = P.toFinset.card := by
    intro r hr
    symm
    refine Finset.card_eq_sum_card_fiberwise ?_
    intro p hp
    exact hcl r (h1 r (List.mem_toFinset.1 hr)) p (List.mem_toFinset.1 hp)
  rw [e1, Finset.sum_congr rfl e2, Finset.sum_comm, Finset.sum_congr rfl e3, Finset.sum_const, nsmul_eq_mul, Nat.cast_id,
    List.toFinset_card_of_nodup hnd]

end

end Verif
