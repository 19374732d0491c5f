import Mathlib.Algebra.BigOperators.Ring.Finset
import Mathlib.Algebra.Order.BigOperators.Ring.Finset
import Mathlib.Data.Finset.Powerset
import Mathlib.Data.Fintype.Card
import Mathlib.LinearAlgebra.Dimension.StrongRankCondition
import Mathlib.LinearAlgebra.Matrix.ToLin
import Mathlib.Tactic.Linarith
import Mathlib.Tactic.Ring

/-! # Orbits on subsets: there are not fewer on larger subsets, up to half of the set (Livingstone and Wagner) -/

namespace Verif

variable {ι : Type} [DecidableEq ι]

/-- sum over the subsets with one element less -/
def upOp (f : Finset ι → ℚ) (B : Finset ι) : ℚ := ∑ b ∈ B, f (B.erase b)

/-- sum over the subsets of `T` with one element more -/
def downOp (T : Finset ι) (f : Finset ι → ℚ) (C : Finset ι) : ℚ := ∑ x ∈ T \ C, f (insert x C)

/-- `D U − U D` multiplies a subset of size `k` by `|T| − 2 k` -/
theorem down_up (T : Finset ι) (f : Finset ι → ℚ) {A : Finset ι} (hA : A ⊆ T) :
    downOp T (upOp f) A = upOp (downOp T f) A + ((T.card : ℚ) - 2 * A.card) * f A := by
  have h1 : downOp T (upOp f) A = ∑ x ∈ T \ A, f A + ∑ x ∈ T \ A, ∑ b ∈ A, f (insert x (A.erase b)) := by
    unfold downOp upOp
    rw [← Finset.sum_add_distrib]
    refine Finset.sum_congr rfl fun x hx => ?_
    have hxA : x ∉ A := (Finset.mem_sdiff.1 hx).2
    rw [Finset.sum_insert hxA, Finset.erase_insert hxA]
    congr 1
    refine Finset.sum_congr rfl fun b hb => ?_
    rw [Finset.erase_insert_of_ne (by rintro rfl; exact hxA hb)]
  have h2 : upOp (downOp T f) A = ∑ b ∈ A, f A + ∑ b ∈ A, ∑ x ∈ T \ A, f (insert x (A.erase b)) := by
    unfold downOp upOp
    rw [← Finset.sum_add_distrib]
    refine Finset.sum_congr rfl fun b hb => ?_
    have : T \ A.erase b = insert b (T \ A) := by
      ext y
      simp only [Finset.mem_sdiff, Finset.mem_erase, Finset.mem_insert]
      by_cases hy : y = b
      · subst hy; simp [hA hb]
      · simp [hy]
    show ∑ x ∈ T \ A.erase b, f (insert x (A.erase b)) = _
    rw [this, Finset.sum_insert (by simp [hb]), Finset.insert_erase hb]
  rw [h1, h2, Finset.sum_comm, Finset.sum_const, Finset.sum_const, Finset.card_sdiff_of_subset hA, nsmul_eq_mul, nsmul_eq_mul,
    Nat.cast_sub (Finset.card_le_card hA)]
  ring

/-- `U` and `D` are adjoint -/
theorem up_adjoint (T : Finset ι) (f h : Finset ι → ℚ) :
    ∑ A ∈ T.powerset, f A * upOp h A = ∑ C ∈ T.powerset, downOp T f C * h C := by
  unfold upOp downOp
  simp only [Finset.mul_sum, Finset.sum_mul]
  rw [Finset.sum_sigma', Finset.sum_sigma']
  refine Finset.sum_bij' (fun p _ => ⟨p.1.erase p.2, p.2⟩) (fun p _ => ⟨insert p.2 p.1, p.2⟩) ?_ ?_ ?_ ?_ ?_
  · rintro ⟨A, b⟩ hp
    simp only [Finset.mem_sigma, Finset.mem_powerset, Finset.mem_sdiff, Finset.mem_erase, ne_eq, not_true_eq_false, false_and, not_false_eq_true, and_true] at hp ⊢
    exact ⟨(Finset.erase_subset _ _).trans hp.1, hp.1 hp.2⟩
  · rintro ⟨C, x⟩ hp
    simp only [Finset.mem_sigma, Finset.mem_powerset, Finset.mem_sdiff] at hp ⊢
    exact ⟨Finset.insert_subset hp.2.1 hp.1, Finset.mem_insert_self _ _⟩
  · rintro ⟨A, b⟩ hp
    simp only [Finset.mem_sigma] at hp
    simp [Finset.insert_erase hp.2]
  · rintro ⟨C, x⟩ hp
    simp only [Finset.mem_sigma, Finset.mem_sdiff] at hp
    simp [Finset.erase_insert hp.2.2]
  · rintro ⟨A, b⟩ hp
    simp only [Finset.mem_sigma] at hp
    simp only [Finset.insert_erase hp.2]

/-- below half of the set, a function of the subsets of size `k` is determined by its sums over the subsets below each subset of size `k + 1` -/
theorem up_injective {T : Finset ι} {k : ℕ} (hk : 2 * k < T.card) {f : Finset ι → ℚ} (hf : ∀ A, A.card ≠ k → f A = 0)
    (hU : ∀ B, B ⊆ T → B.card = k + 1 → upOp f B = 0) : ∀ A, A ⊆ T → f A = 0 := by
  have hU' : ∀ B ∈ T.powerset, upOp f B = 0 := by
    intro B hB
    by_cases hc : B.card = k + 1
    · exact hU B (Finset.mem_powerset.1 hB) hc
    · refine Finset.sum_eq_zero fun b hb => hf _ ?_
      rw [Finset.card_erase_of_mem hb]
      have := Finset.card_pos.2 ⟨b, hb⟩
      omega
  have e : ∑ A ∈ T.powerset, downOp T (upOp f) A * f A = 0 := by
    rw [← up_adjoint T (upOp f) f]
    exact Finset.sum_eq_zero fun A hA => by rw [hU' A hA, zero_mul]
  have e2 : ∑ A ∈ T.powerset, downOp T (upOp f) A * f A =
      ∑ A ∈ T.powerset, downOp T f A * downOp T f A + ((T.card : ℚ) - 2 * k) * ∑ A ∈ T.powerset, f A * f A := by
    rw [← up_adjoint T f (downOp T f), Finset.mul_sum, ← Finset.sum_add_distrib]
    refine Finset.sum_congr rfl fun A hA => ?_
    rw [down_up T f (Finset.mem_powerset.1 hA)]
    by_cases hc : A.card = k
    · rw [hc]; ring
    · rw [hf A hc]; ring
  rw [e] at e2
  have p1 : 0 ≤ ∑ A ∈ T.powerset, downOp T f A * downOp T f A := Finset.sum_nonneg fun A _ => mul_self_nonneg _
  have p2 : 0 ≤ ∑ A ∈ T.powerset, f A * f A := Finset.sum_nonneg fun A _ => mul_self_nonneg _
  have p3 : (0 : ℚ) < (T.card : ℚ) - 2 * k := by
    have : ((2 * k : ℕ) : ℚ) < T.card := by exact_mod_cast hk
    push_cast at this
    linarith
  have p4 : ∑ A ∈ T.powerset, f A * f A = 0 := by
    rcases p2.eq_or_lt with h | h
    · exact h.symm
    · have := mul_pos p3 h
      linarith
  intro A hA
  have := (Finset.sum_eq_zero_iff_of_nonneg fun A _ => mul_self_nonneg (f A)).1 p4 A (Finset.mem_powerset.2 hA)
  exact mul_self_eq_zero.1 this

/-- A group `G` of permutations that keep `T`. -/
structure KeepsSet (T : Finset ι) (G : Set (Equiv.Perm ι)) : Prop where
  one : 1 ∈ G
  mul : ∀ σ ∈ G, ∀ τ ∈ G, σ * τ ∈ G
  inv : ∀ σ ∈ G, σ⁻¹ ∈ G
  keeps : ∀ σ ∈ G, ∀ x ∈ T, σ x ∈ T

theorem upOp_map (σ : Equiv.Perm ι) {f : Finset ι → ℚ} (hf : ∀ A, f (A.map σ.toEmbedding) = f A) (B : Finset ι) :
    upOp f (B.map σ.toEmbedding) = upOp f B := by
  unfold upOp
  rw [Finset.sum_map]
  refine Finset.sum_congr rfl fun b _ => ?_
  rw [← Finset.map_erase, hf]

/-- the subsets `R` of size `k` are pairwise not related by `G`; every subset of size `k + 1` is related to one of `Q`; then there are at least as many in `Q` -/
theorem orbits_le {T : Finset ι} {G : Set (Equiv.Perm ι)} (hG : KeepsSet T G) {k : ℕ} (hk : 2 * k < T.card) {R Q : Finset (Finset ι)}
    (hR : ∀ A ∈ R, A ⊆ T ∧ A.card = k) (hR' : ∀ A ∈ R, ∀ A' ∈ R, ∀ σ ∈ G, A.map σ.toEmbedding = A' → A = A')
    (hQ : ∀ B, B ⊆ T → B.card = k + 1 → ∃ B' ∈ Q, ∃ σ ∈ G, B'.map σ.toEmbedding = B) : R.card ≤ Q.card := by
  classical
  let F : (R → ℚ) → Finset ι → ℚ := fun c A => ∑ r : R, if ∃ σ ∈ G, r.1.map σ.toEmbedding = A then c r else 0
  let L : (R → ℚ) →ₗ[ℚ] (Q → ℚ) :=
    { toFun := fun c B => upOp (F c) B.1
      map_add' := by
        intro c d
        funext B
        simp only [upOp, F, Pi.add_apply, ← Finset.sum_add_distrib]
        refine Finset.sum_congr rfl fun b _ => Finset.sum_congr rfl fun r _ => ?_
        split <;> simp
      map_smul' := by
        intro a c
        funext B
        simp only [upOp, F, Pi.smul_apply, smul_eq_mul, RingHom.id_apply, Finset.mul_sum, mul_ite, mul_zero] }
  have hL : Function.Injective L := by
    rw [← LinearMap.ker_eq_bot, LinearMap.ker_eq_bot']
    intro c hc
    have hmap : ∀ (σ τ : Equiv.Perm ι) (A : Finset ι), (A.map σ.toEmbedding).map τ.toEmbedding = A.map (τ * σ).toEmbedding := by
      intro σ τ A; rw [Finset.map_map]; rfl
    have hinv : ∀ σ ∈ G, ∀ A, F c (A.map σ.toEmbedding) = F c A := by
      intro σ hσ A
      refine Finset.sum_congr rfl fun r _ => ?_
      refine if_congr ⟨?_, ?_⟩ rfl rfl
      · rintro ⟨τ, hτ, h⟩
        refine ⟨σ⁻¹ * τ, hG.mul _ (hG.inv _ hσ) _ hτ, ?_⟩
        rw [← hmap, h, hmap, inv_mul_cancel]
        exact Finset.map_refl
      · rintro ⟨τ, hτ, h⟩
        exact ⟨σ * τ, hG.mul _ hσ _ hτ, by rw [← hmap, h]⟩
    have hsupp : ∀ A, A.card ≠ k → F c A = 0 := by
      intro A hA
      refine Finset.sum_eq_zero fun r _ => if_neg ?_
      rintro ⟨σ, _, rfl⟩
      rw [Finset.card_map] at hA
      exact hA (hR _ r.2).2
    have hzero := up_injective hk hsupp fun B hB hBc => by
      obtain ⟨B', hB', σ, hσ, rfl⟩ := hQ B hB hBc
      rw [upOp_map σ (hinv σ hσ)]
      exact congrFun hc ⟨B', hB'⟩
    funext r
    have := hzero r.1 (hR _ r.2).1
    simp only [F] at this
    rw [Finset.sum_eq_single r] at this
    · rw [if_pos ⟨1, hG.one, Finset.map_refl⟩] at this
      exact this
    · intro r' _ hne
      refine if_neg ?_
      rintro ⟨σ, hσ, h⟩
      exact hne (Subtype.ext (hR' _ r'.2 _ r.2 σ hσ h))
    · intro h; exact absurd (Finset.mem_univ _) h
  have := card_le_of_injective ℚ L hL
  simpa using this

omit [DecidableEq ι] in
theorem KeepsSet.map_sub {T : Finset ι} {G : Set (Equiv.Perm ι)} (hG : KeepsSet T G) {σ : Equiv.Perm ι} (hσ : σ ∈ G) {A : Finset ι} (hA : A ⊆ T) :
    A.map σ.toEmbedding ⊆ T := by
  intro y hy
  obtain ⟨x, hx, rfl⟩ := Finset.mem_map.1 hy
  exact hG.keeps σ hσ x (hA hx)

omit [DecidableEq ι] in
theorem KeepsSet.map_eq {T : Finset ι} {G : Set (Equiv.Perm ι)} (hG : KeepsSet T G) {σ : Equiv.Perm ι} (hσ : σ ∈ G) : T.map σ.toEmbedding = T :=
  Finset.eq_of_subset_of_card_le (hG.map_sub hσ Finset.Subset.rfl) (by rw [Finset.card_map])

/-- the same with the complements: those of inequivalent subsets are inequivalent -/
theorem orbits_compl {T : Finset ι} {G : Set (Equiv.Perm ι)} (hG : KeepsSet T G) {k : ℕ} {R Q : Finset (Finset ι)}
    (hR : ∀ A ∈ R, A ⊆ T ∧ A.card = k) (hR' : ∀ A ∈ R, ∀ A' ∈ R, ∀ σ ∈ G, A.map σ.toEmbedding = A' → A = A')
    (hQ : ∀ B, B ⊆ T → B.card = T.card - k → ∃ B' ∈ Q, ∃ σ ∈ G, B'.map σ.toEmbedding = B) : R.card ≤ Q.card := by
  have h : ∀ A ∈ R, ∃ B' ∈ Q, ∃ σ ∈ G, B'.map σ.toEmbedding = T \ A := fun A hA =>
    hQ _ Finset.sdiff_subset (by rw [Finset.card_sdiff_of_subset (hR A hA).1, (hR A hA).2])
  choose! q hq σ hσ e using h
  refine Finset.card_le_card_of_injOn q hq fun A hA A' hA' hqq => ?_
  have hA := Finset.mem_coe.1 hA
  have hA' := Finset.mem_coe.1 hA'
  have h1 : (T \ A).map (σ A' * (σ A)⁻¹).toEmbedding = T \ A' := by
    rw [← e A hA, ← e A' hA', ← hqq, Finset.map_map]
    congr 1
    ext x
    simp
  have hτ := hG.mul _ (hσ A' hA') _ (hG.inv _ (hσ A hA))
  rw [Finset.map_sdiff, hG.map_eq hτ] at h1
  refine hR' A hA A' hA' _ hτ ?_
  have h2 := congrArg (T \ ·) h1
  simpa only [Finset.sdiff_sdiff_eq_self (hG.map_sub hτ (hR A hA).1), Finset.sdiff_sdiff_eq_self (hR A' hA').1] using h2

end Verif
