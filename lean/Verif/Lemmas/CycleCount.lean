import Verif.Lemmas.Perm
import Mathlib.Algebra.Polynomial.Coeff
import Mathlib.Algebra.BigOperators.Group.Finset.Basic
import Mathlib.Data.List.Chain

/-! # Sets that a permutation leaves alone are unions of its cycles -/

namespace Verif

open Polynomial

/-- all unions of some of the given lists -/
def unions : List (List ℕ) → Finset (Finset ℕ)
  | [] => {∅}
  | c :: cs => unions cs ∪ (unions cs).image (c.toFinset ∪ ·)

theorem mem_unions (cs : List (List ℕ)) (hn : cs.flatten.Nodup) (S : Finset ℕ) :
    S ∈ unions cs ↔ S ⊆ cs.flatten.toFinset ∧ ∀ c ∈ cs, c.toFinset ⊆ S ∨ Disjoint c.toFinset S := by
  induction cs generalizing S with
  | nil => simp [unions]
  | cons c cs ih =>
    rw [List.flatten_cons, List.nodup_append] at hn
    obtain ⟨hc, hcs, hd⟩ := hn
    have hdis : ∀ S, S ⊆ cs.flatten.toFinset → Disjoint c.toFinset S := by
      intro S hS
      rw [Finset.disjoint_left]
      intro i hi hiS
      exact hd i (List.mem_toFinset.1 hi) i (List.mem_toFinset.1 (hS hiS)) rfl
    have hsub : ∀ d ∈ cs, ∀ i ∈ d, i ∈ cs.flatten := fun d hd i hi => List.mem_flatten.2 ⟨d, hd, hi⟩
    unfold unions
    rw [Finset.mem_union, Finset.mem_image]
    constructor
    · rintro (h | ⟨S, h, rfl⟩)
      · obtain ⟨h1, h2⟩ := (ih hcs S).1 h
        refine ⟨fun i hi => by have := h1 hi; simp only [List.flatten_cons, List.toFinset_append, Finset.mem_union]; exact Or.inr this, ?_⟩
        intro d hd
        rcases List.mem_cons.1 hd with rfl | hd
        · exact Or.inr (hdis S h1)
        · exact h2 d hd
      · obtain ⟨h1, h2⟩ := (ih hcs S).1 h
        refine ⟨?_, ?_⟩
        · rw [List.flatten_cons, List.toFinset_append]
          exact Finset.union_subset_union_right h1
        intro d hd'
        rcases List.mem_cons.1 hd' with rfl | hd'
        · exact Or.inl Finset.subset_union_left
        · rcases h2 d hd' with h3 | h3
          · exact Or.inl (h3.trans Finset.subset_union_right)
          · refine Or.inr (Finset.disjoint_union_right.2 ⟨?_, h3⟩)
            rw [Finset.disjoint_left]
            intro i hi hic
            exact hd i (List.mem_toFinset.1 hic) i (hsub d hd' i (List.mem_toFinset.1 hi)) rfl
    · rintro ⟨h1, h2⟩
      rw [List.flatten_cons, List.toFinset_append] at h1
      rcases h2 c (by simp) with h3 | h3
      · refine Or.inr ⟨S \ c.toFinset, (ih hcs _).2 ⟨?_, ?_⟩, Finset.union_sdiff_of_subset h3⟩
        · intro i hi
          rw [Finset.mem_sdiff] at hi
          exact (Finset.mem_union.1 (h1 hi.1)).resolve_left hi.2
        · intro d hd'
          have hdc : Disjoint d.toFinset c.toFinset := by
            rw [Finset.disjoint_left]
            intro i hi hic
            exact hd i (List.mem_toFinset.1 hic) i (hsub d hd' i (List.mem_toFinset.1 hi)) rfl
          rcases h2 d (by simp [hd']) with h4 | h4
          · exact Or.inl (Finset.subset_sdiff.2 ⟨h4, hdc⟩)
          · exact Or.inr (h4.mono_right Finset.sdiff_subset)
      · refine Or.inl ((ih hcs S).2 ⟨?_, fun d hd => h2 d (by simp [hd])⟩)
        intro i hi
        exact (Finset.mem_union.1 (h1 hi)).resolve_left fun hic => Finset.disjoint_left.1 h3 hic hi

/-- the sizes of the unions are counted by the product of `1 + X ^ length` -/
theorem unions_poly (cs : List (List ℕ)) (hn : cs.flatten.Nodup) (hne : ∀ c ∈ cs, c ≠ []) :
    ∑ S ∈ unions cs, (X : ℕ[X]) ^ S.card = (cs.map fun c => 1 + X ^ c.length).prod := by
  induction cs with
  | nil => simp [unions]
  | cons c cs ih =>
    have hm := mem_unions cs
    rw [List.flatten_cons, List.nodup_append] at hn
    obtain ⟨hc, hcs, hd⟩ := hn
    have hdis : ∀ S ∈ unions cs, Disjoint c.toFinset S := by
      intro S hS
      rw [Finset.disjoint_left]
      intro i hi hiS
      exact hd i (List.mem_toFinset.1 hi) i (List.mem_toFinset.1 (((hm hcs S).1 hS).1 hiS)) rfl
    have hd2 : Disjoint (unions cs) ((unions cs).image (c.toFinset ∪ ·)) := by
      rw [Finset.disjoint_left]
      intro S hS hS'
      obtain ⟨T, hT, rfl⟩ := Finset.mem_image.1 hS'
      obtain ⟨i, hi⟩ := List.exists_mem_of_ne_nil c (hne c (by simp))
      have hi' := List.mem_toFinset.2 hi
      exact Finset.disjoint_left.1 (hdis _ hS) hi' (Finset.mem_union_left _ hi')
    have hinj : Set.InjOn (c.toFinset ∪ ·) (unions cs : Set (Finset ℕ)) := by
      intro S hS T hT h
      have h' : c.toFinset ∪ S = c.toFinset ∪ T := h
      rw [← Finset.union_sdiff_cancel_left (hdis S hS), h', Finset.union_sdiff_cancel_left (hdis T hT)]
    unfold unions
    rw [Finset.sum_union hd2, Finset.sum_image hinj, List.map_cons, List.prod_cons, ← ih hcs (fun d hd => hne d (by simp [hd])), add_mul, one_mul,
      Finset.mul_sum]
    congr 1
    refine Finset.sum_congr rfl fun S hS => ?_
    rw [Finset.card_union_of_disjoint (hdis S hS), List.toFinset_card_of_nodup hc, pow_add]

theorem unions_card (cs : List (List ℕ)) (hn : cs.flatten.Nodup) (hne : ∀ c ∈ cs, c ≠ []) (k : ℕ) :
    ((unions cs).filter fun S => S.card = k).card = ((cs.map fun c : List ℕ => 1 + (X : ℕ[X]) ^ c.length).prod).coeff k := by
  rw [← unions_poly cs hn hne, finsetSum_coeff, Finset.card_filter]
  refine Finset.sum_congr rfl fun S _ => ?_
  rw [coeff_X_pow]
  simp only [eq_comm]

/-- `cs` are the cycles of `p` -/
structure Cycles (n : ℕ) (p : List ℕ) (cs : List (List ℕ)) : Prop where
  nodup : cs.flatten.Nodup
  cover : ∀ i, i ∈ cs.flatten ↔ i < n
  ne : ∀ c ∈ cs, c ≠ []
  chain : ∀ c ∈ cs, c.IsChain fun a b => p[a]? = some b
  closed : ∀ c ∈ cs, ∀ i ∈ c, ∃ j ∈ c, p[i]? = some j

/-- a set is kept by a permutation iff it is a union of cycles -/
theorem kept_iff {n : ℕ} {p : List ℕ} {cs : List (List ℕ)} (h : Cycles n p cs) (S : Finset ℕ) (hS : S ⊆ Finset.range n) :
    S ∈ unions cs ↔ ∀ i j, p[i]? = some j → i < n → (j ∈ S ↔ i ∈ S) := by
  rw [mem_unions cs h.nodup]
  constructor
  · rintro ⟨_, h2⟩ i j hij hi
    obtain ⟨c, hc, hic⟩ := List.mem_flatten.1 ((h.cover i).2 hi)
    obtain ⟨j', hj', hij'⟩ := h.closed c hc i hic
    rw [hij] at hij'
    obtain rfl := Option.some.inj hij'
    rcases h2 c hc with h3 | h3
    · exact ⟨fun _ => h3 (List.mem_toFinset.2 hic), fun _ => h3 (List.mem_toFinset.2 hj')⟩
    · exact ⟨fun hh => absurd hh (Finset.disjoint_left.1 h3 (List.mem_toFinset.2 hj')),
        fun hh => absurd hh (Finset.disjoint_left.1 h3 (List.mem_toFinset.2 hic))⟩
  · intro hk
    refine ⟨fun i hi => List.mem_toFinset.2 ((h.cover i).2 (Finset.mem_range.1 (hS hi))), fun c hc => ?_⟩
    have hch := h.chain c hc
    have hlt : ∀ i ∈ c, i < n := fun i hi => (h.cover i).1 (List.mem_flatten.2 ⟨c, hc, hi⟩)
    have key : ∀ c : List ℕ, c.IsChain (fun a b => p[a]? = some b) → (∀ i ∈ c, i < n) → (∀ i ∈ c, i ∈ S) ∨ (∀ i ∈ c, i ∉ S) := by
      intro c hch hlt
      induction c with
      | nil => exact Or.inl (by simp)
      | cons a c ih =>
        cases c with
        | nil => by_cases ha : a ∈ S <;> simp [ha]
        | cons b c =>
          rw [List.isChain_cons_cons] at hch
          have hab := hk a b hch.1 (hlt a (by simp))
          rcases ih hch.2 (fun i hi => hlt i (List.mem_cons_of_mem _ hi)) with h1 | h1
          · left
            intro i hi
            rcases List.mem_cons.1 hi with rfl | hi
            · exact hab.1 (h1 b (by simp))
            · exact h1 i hi
          · right
            intro i hi
            rcases List.mem_cons.1 hi with rfl | hi
            · exact fun hh => h1 b (by simp) (hab.2 hh)
            · exact h1 i hi
    rcases key c hch hlt with h1 | h1
    · exact Or.inl fun i hi => h1 i (List.mem_toFinset.1 hi)
    · exact Or.inr (Finset.disjoint_left.2 fun i hi => h1 i (List.mem_toFinset.1 hi))

/-- the decoration with `z` on the sites in `S` and `6` elsewhere -/
def dec2 (n : ℕ) (y z : ℤ) (S : Finset ℕ) : List ℤ := (List.range n).map fun i => if i ∈ S then z else y

theorem dec2_getElem? (n : ℕ) (y z : ℤ) (S : Finset ℕ) {i : ℕ} (hi : i < n) : (dec2 n y z S)[i]? = some (if i ∈ S then z else y) := by
  unfold dec2
  rw [List.getElem?_map, List.getElem?_range hi]; rfl

theorem dec2_length (n : ℕ) (y z : ℤ) (S : Finset ℕ) : (dec2 n y z S).length = n := by simp [dec2]

theorem dec2_count (n : ℕ) {y z : ℤ} (hz : z ≠ y) {S : Finset ℕ} (hS : S ⊆ Finset.range n) : (dec2 n y z S).count z = S.card := by
  unfold dec2
  rw [List.count_eq_countP, List.countP_map, List.countP_eq_length_filter, ← List.toFinset_card_of_nodup (List.nodup_range.filter _)]
  congr 1
  ext i
  simp only [List.mem_toFinset, List.mem_filter, List.mem_range, Function.comp]
  constructor
  · rintro ⟨_, h⟩
    by_contra hi
    rw [if_neg hi] at h
    exact hz (beq_iff_eq.1 h).symm
  · intro hi
    exact ⟨Finset.mem_range.1 (hS hi), by rw [if_pos hi]; simp⟩

theorem dec2_inj {n : ℕ} {y z : ℤ} (hz : z ≠ y) {S T : Finset ℕ} (hS : S ⊆ Finset.range n) (hT : T ⊆ Finset.range n)
    (h : dec2 n y z S = dec2 n y z T) : S = T := by
  have key : ∀ i, i < n → (i ∈ S ↔ i ∈ T) := by
    intro i hi
    have := congrArg (fun l => l[i]?) h
    simp only [dec2_getElem? n y z _ hi, Option.some.injEq] at this
    by_cases h1 : i ∈ S <;> by_cases h2 : i ∈ T <;> simp [h1, h2] at this ⊢
    · exact hz this
    · exact hz this.symm
  ext i
  exact ⟨fun hi => (key i (Finset.mem_range.1 (hS hi))).1 hi, fun hi => (key i (Finset.mem_range.1 (hT hi))).2 hi⟩

theorem dec2_surj {n : ℕ} {y z : ℤ} {m : List ℤ} (hl : m.length = n) (hv : ∀ v ∈ m, v = y ∨ v = z) :
    ∃ S, S ⊆ Finset.range n ∧ dec2 n y z S = m := by
  refine ⟨(Finset.range n).filter fun i => m[i]? = some z, Finset.filter_subset _ _, ?_⟩
  apply List.ext_getElem?
  intro i
  by_cases hi : i < n
  · rw [dec2_getElem? n y z _ hi]
    have hm := List.getElem?_eq_getElem (by omega : i < m.length)
    have hmem := List.getElem_mem (by omega : i < m.length)
    by_cases h : m[i]? = some z
    · rw [if_pos (by simp [hi, h]), h]
    · rw [if_neg (by simp [h]), hm]
      rcases hv _ hmem with h1 | h1
      · rw [h1]
      · exact absurd (by rw [hm, h1]) h
  · rw [List.getElem?_eq_none (by rw [dec2_length]; omega), List.getElem?_eq_none (by omega)]

theorem gather_dec2 {n : ℕ} {y z : ℤ} (hz : z ≠ y) {p : List ℕ} (hp : IsPerm n p) {S : Finset ℕ} :
    gather (dec2 n y z S) p = dec2 n y z S ↔ ∀ i j, p[i]? = some j → i < n → (j ∈ S ↔ i ∈ S) := by
  have hlt : ∀ i ∈ p, i < (dec2 n y z S).length := by rw [dec2_length]; exact hp.lt
  constructor
  · intro h i j hij hi
    have hj : j < n := hp.lt j (List.mem_of_getElem? hij)
    have h1 := gather_getElem? hlt i
    rw [h, hij, Option.bind_some, dec2_getElem? n y z S hi, dec2_getElem? n y z S hj, Option.some.injEq] at h1
    by_cases h2 : i ∈ S <;> by_cases h3 : j ∈ S <;> simp [h2, h3] at h1 ⊢
    · exact hz h1
    · exact hz h1.symm
  · intro h
    apply List.ext_getElem?
    intro i
    rw [gather_getElem? hlt]
    by_cases hi : i < n
    · have hij := List.getElem?_eq_getElem (by rw [hp.length]; exact hi : i < p.length)
      have hj : p[i]'(by rw [hp.length]; exact hi) < n := hp.lt _ (List.getElem_mem _)
      rw [hij, Option.bind_some, dec2_getElem? n y z S hi, dec2_getElem? n y z S hj]
      simp only [h i _ hij hi]
    · rw [List.getElem?_eq_none (by rw [hp.length]; omega), List.getElem?_eq_none (by rw [dec2_length]; omega)]
      rfl

/-- **Number of two-element decorations fixed by a permutation**, from its cycles -/
theorem fixed_card {n : ℕ} {y z : ℤ} (hz : z ≠ y) {p : List ℕ} (hp : IsPerm n p) {cs : List (List ℕ)} (hc : Cycles n p cs) (k : ℕ)
    (D : Finset (List ℤ)) (hD : ∀ m, m ∈ D ↔ m.length = n ∧ (∀ v ∈ m, v = y ∨ v = z) ∧ m.count z = k) :
    (D.filter fun m => gather m p = m).card = ((cs.map fun c : List ℕ => 1 + (X : ℕ[X]) ^ c.length).prod).coeff k := by
  rw [← unions_card cs hc.nodup hc.ne k]
  have hsub : ∀ S ∈ unions cs, S ⊆ Finset.range n := by
    intro S hS i hi
    have := ((mem_unions cs hc.nodup S).1 hS).1 hi
    exact Finset.mem_range.2 ((hc.cover i).1 (List.mem_toFinset.1 this))
  symm
  refine Finset.card_bij (fun S _ => dec2 n y z S) ?_ ?_ ?_
  · intro S hS
    obtain ⟨h1, h2⟩ := Finset.mem_filter.1 hS
    refine Finset.mem_filter.2 ⟨(hD _).2 ⟨dec2_length n y z S, ?_, by rw [dec2_count n hz (hsub S h1), h2]⟩, ?_⟩
    · intro v hv
      unfold dec2 at hv
      obtain ⟨i, _, rfl⟩ := List.mem_map.1 hv
      split
      · exact Or.inr rfl
      · exact Or.inl rfl
    · exact (gather_dec2 hz hp).2 ((kept_iff hc S (hsub S h1)).1 h1)
  · intro S hS T hT h
    exact dec2_inj hz (hsub S (Finset.mem_filter.1 hS).1) (hsub T (Finset.mem_filter.1 hT).1) h
  · intro m hm
    obtain ⟨h1, h2⟩ := Finset.mem_filter.1 hm
    obtain ⟨hl, hv, hk⟩ := (hD m).1 h1
    obtain ⟨S, hS, rfl⟩ := dec2_surj hl hv
    exact ⟨S, Finset.mem_filter.2 ⟨(kept_iff hc S hS).2 ((gather_dec2 hz hp).1 h2), by rw [← hk, dec2_count n hz hS]⟩, rfl⟩

end Verif
