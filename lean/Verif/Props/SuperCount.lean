import Verif.Props.SuperEq
import Verif.Props.HnfCount
import Mathlib.Algebra.BigOperators.Group.Finset.Basic
import Mathlib.Algebra.BigOperators.Ring.Finset
import Mathlib.Algebra.Order.BigOperators.Group.Finset
import Mathlib.Data.Set.Card

/-! # C96: how many superlattices there are up to symmetry -/

namespace Verif

open Spec

section
variable {R X : Type} [DecidableEq X]

/-- **Burnside's lemma** for a finite set of operations closed under products. `T` lists one representative of every class of `D`. -/
theorem burnside_act (G : Finset R) (act : R → X → X) (mul : R → R → R) (hm : ∀ r ∈ G, ∀ s ∈ G, mul r s ∈ G)
    (hact : ∀ r ∈ G, ∀ s ∈ G, ∀ x, act (mul r s) x = act r (act s x))
    (hinj : ∀ s ∈ G, ∀ r ∈ G, ∀ r' ∈ G, mul r s = mul r' s → r = r') (hone : ∃ e ∈ G, ∀ x, act e x = x)
    (hinv : ∀ r ∈ G, ∃ s ∈ G, ∀ x, act s (act r x) = x) (D : Finset X) (hcl : ∀ a ∈ D, ∀ r ∈ G, act r a ∈ D) (T : List X)
    (h1 : ∀ t ∈ T, t ∈ D) (h2 : ∀ d ∈ D, ∃ t ∈ T, ∃ r ∈ G, act r t = d) (h3 : T.Pairwise fun a b => (∀ r ∈ G, act r a ≠ b) ∧ ∀ r ∈ G, act r b ≠ a) :
    T.length * G.card = ∑ r ∈ G, (D.filter fun a => act r a = a).card := by
  have stab : ∀ x a, (∃ q ∈ G, act q x = a) → (G.filter fun r => act r a = a).card = (G.filter fun r => act r x = a).card := by
    rintro x a ⟨q, hq, hqa⟩
    have key : ∀ (x y : X), (∃ q ∈ G, act q x = y) → (G.filter fun p => act p y = a).card ≤ (G.filter fun p => act p x = a).card := by
      rintro x y ⟨q, hq, rfl⟩
      refine Finset.card_le_card_of_injOn (fun p => mul p q) ?_ ?_
      · intro p hp
        simp only [Finset.coe_filter, Set.mem_ofPred_eq] at hp ⊢
        exact ⟨hm p hp.1 q hq, by rw [hact p hp.1 q hq]; exact hp.2⟩
      · intro p hp p' hp' he
        simp only [Finset.coe_filter, Set.mem_ofPred_eq] at hp hp'
        exact hinj q hq p hp.1 p' hp'.1 he
    obtain ⟨s, hs, hsq⟩ := hinv q hq
    exact le_antisymm (key x a ⟨q, hq, hqa⟩) (key a x ⟨s, hs, by rw [← hqa]; exact hsq x⟩)
  have hnd : T.Nodup := h3.imp fun {a b} h he => by
    obtain ⟨e, he', h'⟩ := hone
    exact h.1 e he' (by rw [h', he])
  have huniq : ∀ r ∈ T, ∀ r' ∈ T, (∃ g ∈ G, act g r = r') → r = r' := by
    rintro r hr r' hr' ⟨g, hg, h⟩
    by_contra hne
    have hs : Std.Symm fun a b : X => (∀ r ∈ G, act r a ≠ b) ∧ ∀ r ∈ G, act r b ≠ a := ⟨fun _ _ h => ⟨h.2, h.1⟩⟩
    exact (h3.forall hr hr' hne).1 g hg h
  have e1 : ∑ r ∈ G, (D.filter fun a => act r a = a).card = ∑ a ∈ D, (G.filter fun r => act r a = a).card := by
    simp only [Finset.card_filter]
    exact Finset.sum_comm
  have e2 : ∀ a ∈ D, (G.filter fun r => act r a = a).card = ∑ t ∈ T.toFinset, (G.filter fun r => act r t = a).card := by
    intro a ha
    obtain ⟨t, ht, g, hg, hga⟩ := h2 a ha
    rw [Finset.sum_eq_single t]
    · exact stab t a ⟨g, hg, hga⟩
    · intro t' ht' hne
      rw [Finset.card_eq_zero, Finset.filter_eq_empty_iff]
      intro p hp he
      obtain ⟨s, hs, hsg⟩ := hinv g hg
      refine hne (huniq t' (List.mem_toFinset.1 ht') t ht ⟨mul s p, hm s hs p hp, ?_⟩)
      rw [hact s hs p hp, he, ← hga, hsg]
    · intro h
      exact absurd (List.mem_toFinset.2 ht) h
  have e3 : ∀ t ∈ T.toFinset, ∑ a ∈ D, (G.filter fun r => act r t = a).card = G.card := by
    intro t ht
    symm
    refine Finset.card_eq_sum_card_fiberwise ?_
    intro p hp
    exact hcl t (h1 t (List.mem_toFinset.1 ht)) p hp
  rw [e1, Finset.sum_congr rfl e2, Finset.sum_comm, Finset.sum_congr rfl e3, Finset.sum_const, nsmul_eq_mul, Nat.cast_id,
    List.toFinset_card_of_nodup hnd]

end

theorem rot_inj {r s : M3 ℤ} (h : ∀ v, rot r v = rot s v) : r = s := by
  have h1 := h (1, 0, 0)
  have h2 := h (0, 1, 0)
  have h3 := h (0, 0, 1)
  obtain ⟨⟨a, b, c⟩, ⟨d, e, f⟩, g, i, j⟩ := r
  obtain ⟨⟨a', b', c'⟩, ⟨d', e', f'⟩, g', i', j'⟩ := s
  simp only [rot, AddMonoidHom.coe_mk, ZeroHom.coe_mk, mul_one, mul_zero, add_zero, zero_add, Prod.mk.injEq] at h1 h2 h3
  simp [h1, h2, h3]

/-- the inverse is also a right inverse -/
theorem PointGroup.inv_right {rots : List (M3 ℤ)} (hG : PointGroup rots) {r : M3 ℤ} (hr : r ∈ rots) :
    ∃ s ∈ rots, (∀ v, rot s (rot r v) = v) ∧ ∀ v, rot r (rot s v) = v := by
  obtain ⟨s, hs, h⟩ := hG.inv r hr
  obtain ⟨t, ht, h'⟩ := hG.inv s hs
  refine ⟨s, hs, h, fun v => ?_⟩
  have : rot r (rot s v) = rot t (rot s (rot r (rot s v))) := (h' _).symm
  rw [this, h, h']

theorem rot_bijective {rots : List (M3 ℤ)} (hG : PointGroup rots) {r : M3 ℤ} (hr : r ∈ rots) : Function.Bijective (rot r) := by
  obtain ⟨s, _, h1, h2⟩ := PointGroup.inv_right hG hr
  exact ⟨fun a b h => by rw [← h1 a, ← h1 b, h], fun v => ⟨rot s v, h2 v⟩⟩

open Classical in
/-- Burnside for a set of sublattices that the rotations permute -/
theorem sublattice_count {rots : List (M3 ℤ)} (hG : PointGroup rots) (Q : AddSubgroup (V3 ℤ) → Prop) (hQ : ∀ L, Q L → ∀ r ∈ rots, Q (L.map (rot r)))
    (hfin : {L | Q L}.Finite) (out : List (AddSubgroup (V3 ℤ))) (h1 : ∀ L ∈ out, Q L)
    (h2 : ∀ L, Q L → ∃ (i : ℕ) (A : AddSubgroup (V3 ℤ)), out[i]? = some A ∧ SameUpToRotation rots A L ∧
      ∀ (j : ℕ) (B : AddSubgroup (V3 ℤ)), out[j]? = some B → SameUpToRotation rots B L → j = i) :
    out.length * rots.toFinset.card = ∑ r ∈ rots.toFinset, {L | Q L ∧ L.map (rot r) = L}.ncard := by
  have hex : ∀ r s : M3 ℤ, ∃ t, r ∈ rots → s ∈ rots → t ∈ rots ∧ ∀ v, rot t v = rot r (rot s v) := by
    intro r s
    by_cases hr : r ∈ rots
    · by_cases hs : s ∈ rots
      · obtain ⟨t, ht, h⟩ := hG.mul r hr s hs
        exact ⟨t, fun _ _ => ⟨ht, h⟩⟩
      · exact ⟨r, fun _ h => absurd h hs⟩
    · exact ⟨r, fun h => absurd h hr⟩
  choose mul hmul using hex
  have hb := burnside_act rots.toFinset (fun r (A : AddSubgroup (V3 ℤ)) => A.map (rot r)) mul
    (fun r hr s hs => List.mem_toFinset.2 (hmul r s (List.mem_toFinset.1 hr) (List.mem_toFinset.1 hs)).1)
    (fun r hr s hs A => (rot_map_map (hmul r s (List.mem_toFinset.1 hr) (List.mem_toFinset.1 hs)).2 A).symm)
    (fun s hs r hr r' hr' he => by
      have hs' := List.mem_toFinset.1 hs
      obtain ⟨i, _, _, hi⟩ := PointGroup.inv_right hG hs'
      apply rot_inj
      intro v
      rw [← hi v, ← (hmul r s (List.mem_toFinset.1 hr) hs').2, ← (hmul r' s (List.mem_toFinset.1 hr') hs').2, he])
    (by
      obtain ⟨e, he, h⟩ := hG.one
      refine ⟨e, List.mem_toFinset.2 he, fun A => ?_⟩
      have : rot e = AddMonoidHom.id _ := by ext v : 1; exact h v
      rw [this, AddSubgroup.map_id])
    (fun r hr => by
      obtain ⟨s, hs, h⟩ := hG.inv r (List.mem_toFinset.1 hr)
      refine ⟨s, List.mem_toFinset.2 hs, fun A => ?_⟩
      rw [AddSubgroup.map_map]
      have : (rot s).comp (rot r) = AddMonoidHom.id _ := by ext v : 1; exact h v
      rw [this, AddSubgroup.map_id])
    hfin.toFinset
    (fun A hA r hr => hfin.mem_toFinset.2 (hQ A (hfin.mem_toFinset.1 hA) r (List.mem_toFinset.1 hr)))
    out (fun t ht => hfin.mem_toFinset.2 (h1 t ht))
    (fun d hd => by
      obtain ⟨i, A, hi, ⟨r, hr, e⟩, _⟩ := h2 d (hfin.mem_toFinset.1 hd)
      exact ⟨A, List.mem_of_getElem? hi, r, List.mem_toFinset.2 hr, e⟩)
    (by
      rw [List.pairwise_iff_getElem]
      intro i j hi hj hij
      have key : ∀ r ∈ rots, out[i].map (rot r) ≠ out[j] := by
        intro r hr he
        obtain ⟨k, A, _, _, hu⟩ := h2 out[j] (h1 _ (List.getElem_mem hj))
        have e1 := hu i out[i] (List.getElem?_eq_getElem hi) ⟨r, hr, he⟩
        have e2 := hu j out[j] (List.getElem?_eq_getElem hj) (sameUpToRotation_refl hG _)
        omega
      refine ⟨fun r hr => key r (List.mem_toFinset.1 hr), fun r hr he => ?_⟩
      obtain ⟨s, hs, e⟩ := SameUpToRotation.symm hG (A := out[j]) (B := out[i]) ⟨r, List.mem_toFinset.1 hr, he⟩
      exact key s hs e)
  rw [hb]
  refine Finset.sum_congr rfl fun r _ => ?_
  rw [← Set.ncard_coe_finset]
  congr 1
  ext L
  simp [hfin.mem_toFinset]

theorem index_finite {n : ℕ} (hn : 0 < n) : {L : AddSubgroup (V3 ℤ) | L.index = n}.Finite := by
  obtain ⟨l, _, _, h3⟩ := C29_every_superlattice_once List.dedup setOrder_dedup exChain [] n hn
  refine (List.finite_toSet (l.map fun s : SLCell => rowLattice s.latCoeff)).subset ?_
  intro L hL
  obtain ⟨i, s, hi, hs, _⟩ := h3 L hL
  exact List.mem_map.2 ⟨s, List.mem_of_getElem? hi, hs⟩

open Classical in
/-- **C96.** The number of superlattices that `hnfs_from_n` yields, times the number of rotations, is the number of pairs of a rotation and a
sublattice of index `n` it maps to itself. -/
theorem C96_count (setList : List ℕ → List ℕ) (hs : SetOrder setList) (itemFirst : Bool) (unit : GCell)
    (rots : List (M3 ℤ)) (hG : PointGroup rots) (n : ℕ) (h0 : 0 < n) (hn : n < 2000) :
    ∃ out, hnfsFromN setList itemFirst unit rots n = .ok out ∧
      out.length * rots.toFinset.card = ∑ r ∈ rots.toFinset, {L : AddSubgroup (V3 ℤ) | L.index = n ∧ L.map (rot r) = L}.ncard := by
  obtain ⟨out, h1, h2, h3⟩ := C31_transversal setList hs itemFirst unit rots hG n h0 hn
  refine ⟨out, h1, ?_⟩
  rw [← List.length_map (f := fun s : SLCell => rowLattice s.latCoeff)]
  refine sublattice_count hG (fun L => L.index = n) (fun L hL r hr => ?_) (index_finite h0) _ ?_ ?_
  · rw [AddSubgroup.index_map_of_bijective (rot_bijective hG hr)]; exact hL
  · intro L hL
    obtain ⟨s, hs, rfl⟩ := List.mem_map.1 hL
    exact (h2 s hs).1
  · intro L hL
    obtain ⟨i, s, hi, hsr, hu⟩ := h3 L hL
    refine ⟨i, _, by rw [List.getElem?_map, hi]; rfl, hsr, fun j B hB hBL => ?_⟩
    rw [List.getElem?_map, Option.map_eq_some_iff] at hB
    obtain ⟨t, ht, rfl⟩ := hB
    exact hu j t ht hBL

open Classical in
/-- **C96, two dimensions.** The same for `hnfs_from_n_2D`, if the rotations map the third axis to itself or its opposite. -/
theorem C96_count_2d (setList : List ℕ → List ℕ) (hs : SetOrder setList) (itemFirst : Bool) (unit : GCell)
    (rots : List (M3 ℤ)) (hG : PointGroup rots) (hax : ∀ r ∈ rots, rot r (0, 0, 1) = (0, 0, 1) ∨ rot r (0, 0, 1) = (0, 0, -1))
    (n : ℕ) (h0 : 0 < n) (hn : n < 2000) :
    ∃ out, hnfsFromN2D setList itemFirst unit rots n = .ok out ∧
      out.length * rots.toFinset.card =
        ∑ r ∈ rots.toFinset, {L : AddSubgroup (V3 ℤ) | (L.index = n ∧ (0, 0, 1) ∈ L) ∧ L.map (rot r) = L}.ncard := by
  obtain ⟨out, h1, h2, h3⟩ := C31_transversal_2d setList hs itemFirst unit rots hG n h0 hn
  refine ⟨out, h1, ?_⟩
  rw [← List.length_map (f := fun s : SLCell => rowLattice s.latCoeff)]
  refine sublattice_count hG (fun L => L.index = n ∧ (0, 0, 1) ∈ L) (fun L hL r hr => ⟨?_, ?_⟩) ((index_finite h0).subset fun L hL => hL.1) _ ?_ ?_
  · rw [AddSubgroup.index_map_of_bijective (rot_bijective hG hr)]; exact hL.1
  · rcases hax r hr with h | h
    · exact AddSubgroup.mem_map.2 ⟨(0, 0, 1), hL.2, h⟩
    · refine AddSubgroup.mem_map.2 ⟨-(0, 0, 1), neg_mem hL.2, ?_⟩
      rw [map_neg, h]; rfl
  · intro L hL
    obtain ⟨s, hs, rfl⟩ := List.mem_map.1 hL
    exact h2 s hs
  · intro L hL
    obtain ⟨i, s, hi, hsr, hu⟩ := h3 L hL.1 hL.2
    refine ⟨i, _, by rw [List.getElem?_map, hi]; rfl, hsr, fun j B hB hBL => ?_⟩
    rw [List.getElem?_map, Option.map_eq_some_iff] at hB
    obtain ⟨t, ht, rfl⟩ := hB
    exact hu j t ht hBL

open Classical in
/-- **C96, lowest symmetry.** If the crystal has no rotations but the identity and the inversion, then all superlattices are
inequivalent: there are `Σ d σ(d)`, `d ∣ n`. -/
theorem C96_triclinic (setList : List ℕ → List ℕ) (hs : SetOrder setList) (itemFirst : Bool) (unit : GCell) (rots : List (M3 ℤ))
    (hG : PointGroup rots) (hr : ∀ r ∈ rots, (∀ v, rot r v = v) ∨ ∀ v, rot r v = -v) (n : ℕ) (h0 : 0 < n) (hn : n < 2000) :
    ∃ out, hnfsFromN setList itemFirst unit rots n = .ok out ∧ out.length = ∑ d ∈ n.divisors, d * ∑ f ∈ d.divisors, f := by
  obtain ⟨out, h1, h2⟩ := C96_count setList hs itemFirst unit rots hG n h0 hn
  refine ⟨out, h1, ?_⟩
  have hfix : ∀ r ∈ rots, ∀ L : AddSubgroup (V3 ℤ), L.map (rot r) = L := by
    intro r hr' L
    rcases hr r hr' with h | h
    · have : rot r = AddMonoidHom.id _ := by ext v : 1; exact h v
      rw [this, AddSubgroup.map_id]
    · ext v
      rw [AddSubgroup.mem_map]
      constructor
      · rintro ⟨u, hu, rfl⟩
        rw [h]
        exact neg_mem hu
      · intro hv
        exact ⟨-v, neg_mem hv, by rw [h, neg_neg]⟩
  have e : ∀ r ∈ rots.toFinset, {L : AddSubgroup (V3 ℤ) | L.index = n ∧ L.map (rot r) = L}.ncard = ∑ d ∈ n.divisors, d * ∑ f ∈ d.divisors, f := by
    intro r hr'
    rw [← C84_subgroups n h0]
    have : {L : AddSubgroup (V3 ℤ) | L.index = n ∧ L.map (rot r) = L} = {L | L.index = n} := by
      ext L
      exact ⟨fun h => h.1, fun h => ⟨h, hfix r (List.mem_toFinset.1 hr') L⟩⟩
    rw [this]
    exact (Nat.card_coe_set_eq _).symm
  rw [Finset.sum_congr rfl e, Finset.sum_const, nsmul_eq_mul, Nat.cast_id, mul_comm] at h2
  obtain ⟨i, hi, _⟩ := hG.one
  exact Nat.eq_of_mul_eq_mul_left (Finset.card_pos.2 ⟨i, List.mem_toFinset.2 hi⟩) h2

/-! ## the hypotheses are met -/

/-- four-fold axis, index 2: 7 + 3 + 7 + 3 fixed sublattices give (7 + 3 + 7 + 3) / 4 = 5 classes -/
example : (hnfsFromN List.dedup true ⟨identM, [(0, 0, 0)], [29], [29], 1⟩ exC4 2).map List.length = .ok 5 ∧ exC4.toFinset.card = 4 := by
  decide +kernel

example : ∀ r ∈ exC4, rot r (0, 0, 1) = (0, 0, 1) ∨ rot r (0, 0, 1) = (0, 0, -1) := by
  intro r hr
  simp only [exC4, List.mem_cons, List.not_mem_nil, or_false] at hr
  left
  rcases hr with rfl | rfl | rfl | rfl <;> simp [rot]

theorem exInversion_group : PointGroup [((1, 0, 0), (0, 1, 0), (0, 0, 1)), ((-1, 0, 0), (0, -1, 0), (0, 0, -1))] where
  unimodular := by unfold Unimodular; decide
  one := ⟨((1, 0, 0), (0, 1, 0), (0, 0, 1)), by simp, fun v => by simp [rot]⟩
  mul := by
    intro r hr s hs
    simp only [List.mem_cons, List.not_mem_nil, or_false] at hr hs
    rcases hr with rfl | rfl <;> rcases hs with rfl | rfl <;>
      first
      | (refine ⟨((1, 0, 0), (0, 1, 0), (0, 0, 1)), by simp, fun v => ?_⟩; simp [rot]; done)
      | (refine ⟨((-1, 0, 0), (0, -1, 0), (0, 0, -1)), by simp, fun v => ?_⟩; simp [rot])
  inv := by
    intro r hr
    simp only [List.mem_cons, List.not_mem_nil, or_false] at hr
    rcases hr with rfl | rfl
    · exact ⟨((1, 0, 0), (0, 1, 0), (0, 0, 1)), by simp, fun v => by simp [rot]⟩
    · exact ⟨((-1, 0, 0), (0, -1, 0), (0, 0, -1)), by simp, fun v => by simp [rot]⟩

/-- 35 superlattices of index 4, 91 of index 6 in a triclinic crystal -/
example : (∑ d ∈ Nat.divisors 4, d * ∑ f ∈ Nat.divisors d, f) = 35 ∧ (∑ d ∈ Nat.divisors 6, d * ∑ f ∈ Nat.divisors d, f) = 91 := by
  decide +kernel

end Verif
