import Verif.Spec.Polya
import Verif.Lemmas.Burnside
import Verif.Lemmas.BuckyCycles
import Verif.Props.Bucky
import Mathlib.Algebra.Polynomial.Expand
import Mathlib.Algebra.Polynomial.Coeff

/-! # C83: how many decorated molecules there are -/

namespace Verif

open Polynomial

/-- the polynomial of a cycle type -/
noncomputable def typePoly (ns : List ℕ) : ℕ[X] := (ns.map fun n => 1 + (X : ℕ[X]) ^ n).prod

theorem coeff_blocks (n m k : ℕ) (hm : 0 < m) : ((1 + (X : ℕ[X]) ^ m) ^ n).coeff k = Spec.blocks n m k := by
  have : (1 + (X : ℕ[X]) ^ m) ^ n = expand ℕ m ((1 + X) ^ n) := by simp
  rw [this, coeff_expand hm, Spec.blocks]
  split
  · rw [coeff_one_add_X_pow]; simp
  · rfl

theorem coeff_mixed (s n k : ℕ) : (((1 + (X : ℕ[X])) ^ s * (1 + X ^ 2) ^ n)).coeff k = Spec.mixed s n k := by
  rw [coeff_mul, Finset.Nat.sum_antidiagonal_eq_sum_range_succ_mk]
  unfold Spec.mixed
  refine Finset.sum_congr rfl fun a _ => ?_
  rw [coeff_blocks n 2 _ (by omega), coeff_one_add_X_pow]; simp

theorem typePoly_replicate (n m : ℕ) : typePoly (List.replicate n m) = (1 + X ^ m) ^ n := by
  unfold typePoly; rw [List.map_replicate, List.prod_replicate]

theorem typePoly_mixed (s n : ℕ) : typePoly (List.replicate s 1 ++ List.replicate n 2) = (1 + X) ^ s * (1 + X ^ 2) ^ n := by
  unfold typePoly
  rw [List.map_append, List.prod_append, List.map_replicate, List.prod_replicate, List.map_replicate, List.prod_replicate, pow_one]

/-- decorations fixed by the rows of the table, added over all rows -/
theorem bucky_fixed_sum {z : ℤ} (hz : z ≠ 6) (k : ℕ) (D : Finset (List ℤ))
    (hD : ∀ m, m ∈ D ↔ m.length = 60 ∧ (∀ v ∈ m, v = 6 ∨ v = z) ∧ m.count z = k) :
    ∑ p ∈ buckyPermTable.toFinset, (D.filter fun a => gather a p = a).card = Spec.icosahedral k := by
  rw [List.sum_toFinset _ C59_group.2.1, bucky_codes, List.map_map]
  have hl : buckyCodes.length ≤ buckyCycleData.length := by decide +kernel
  have hl' : buckyCycleData.length ≤ buckyCodes.length := by decide +kernel
  have h1 : buckyCodes = (buckyCodes.zip buckyCycleData).map Prod.fst := (List.map_fst_zip hl).symm
  have h2 : (buckyCodes.zip buckyCycleData).map Prod.snd = buckyCycleData := List.map_snd_zip hl'
  have hc := cycle_check
  rw [List.all_eq_true] at hc
  have h3 : buckyCodes.map ((fun p => (D.filter fun a => gather a p = a).card) ∘ decRow) =
      (buckyCycleData.map (·.2.2)).map fun t => (typePoly (buckyType t)).coeff k := by
    rw [h1, List.map_map]
    conv_rhs => rw [← h2, List.map_map, List.map_map]
    refine List.map_congr_left fun x hx => ?_
    have hx' := cyclesIn_cycles (hc x hx)
    have hp : decRow x.1 ∈ buckyPermTable := by
      rw [bucky_codes, List.mem_map]; exact ⟨x.1, (List.of_mem_zip (a := x.1) (b := x.2) hx).1, rfl⟩
    simp only [Function.comp]
    rw [fixed_card hz (bucky_group.perm _ hp) hx' k D hD, ← cyclesIn_lengths, typePoly, List.map_map]
    rfl
  rw [h3, ((List.isPerm_iff.1 cycle_types).map _).sum_eq]
  simp only [List.map_append, List.map_replicate, List.sum_append, List.sum_replicate, nsmul_eq_mul, Nat.cast_id, buckyType,
    typePoly_replicate, typePoly_mixed]
  rw [coeff_blocks 12 5 k (by omega), coeff_blocks 20 3 k (by omega), coeff_blocks 30 2 k (by omega), coeff_blocks 6 10 k (by omega),
    coeff_blocks 10 6 k (by omega), coeff_mixed, pow_one, coeff_one_add_X_pow, one_mul]
  simp [Spec.icosahedral]

/-- **C83.** Starting from the pure carbon molecule, the generator number `k + 1` of `all_speckle_gen` yields, when the hash does not
collide, as many structures as the icosahedral group has classes of decorations with `k + 1` atoms `sp`. -/
theorem C83_numbers (hash : List ℤ → ℕ) (sp : Specie) (hz : sp.Z ≠ 6) (nMax : ℕ) :
    ∃ b ls, Bucky.new (List.replicate 60 6) = .ok b ∧ b.allSpeckleGen hash nMax sp = .ok ([List.replicate 60 6] :: ls) ∧ ls.length = nMax ∧
      ∀ (k : ℕ) l, ls[k]? = some l →
        (∀ j ≤ k, Set.InjOn hash {m : List ℤ | m.length = 60 ∧ (∀ v ∈ m, v = 6 ∨ v = sp.Z) ∧ m.count sp.Z = j + 1}) →
        120 * l.length = Spec.icosahedral (k + 1) := by
  have hlen : ∀ k, ∀ m ∈ MoreSpeckles (List.replicate 60 6) sp.Z k, m.length = 60 := fun k m hm => ((more_carbon hz k m).1 hm).1
  have himg : ∀ k, ∀ d ∈ MoreSpeckles (List.replicate 60 6) sp.Z k, ∀ p ∈ buckyPermTable,
      gather d p ∈ {m : List ℤ | m.length = 60 ∧ (∀ v ∈ m, v = 6 ∨ v = sp.Z) ∧ m.count sp.Z = k} := by
    rintro k d hd p hp
    obtain ⟨h1, h2, h3⟩ := (more_carbon hz k d).1 hd
    have hlt : ∀ i ∈ p, i < d.length := by rw [h1]; exact (bucky_group.perm p hp).lt
    refine ⟨by rw [gather_length hlt]; exact (bucky_group.perm p hp).length_eq.trans List.length_range, ?_, ?_⟩
    rotate_left
    · rw [(gather_perm (by rw [h1]; exact bucky_group.perm p hp)).count_eq, h3]
    intro v hv
    obtain ⟨i, hi⟩ := List.mem_iff_getElem?.1 hv
    rw [gather_getElem? hlt] at hi
    obtain ⟨a, _, hi⟩ := Option.bind_eq_some_iff.1 hi
    exact h2 v (List.mem_of_getElem? hi)
  obtain ⟨b, ls, hb, h1, h2, h3⟩ := C61_representatives hash (List.replicate 60 6) (by simp) nMax sp
  refine ⟨b, ls, hb, h1, ?_, ?_⟩
  · rw [h2, List.count_replicate, if_neg (by simpa using Ne.symm hz)]; omega
  intro k l hl hinj
  have hT := h3 k l hl (fun j hj => (hinj j hj).mono (by
    rintro m ⟨d, hd, hm⟩
    obtain ⟨p, hp, rfl⟩ := (image_rel (hlen _ d hd)).1 hm
    exact himg (j + 1) d hd p hp))
  obtain ⟨_, _, hmem⟩ := C74_gen_speckle sp hz (k + 1)
  have hD : ∀ m, m ∈ (buckyGenSpeckle sp (k + 1)).toFinset ↔ m.length = 60 ∧ (∀ v ∈ m, v = 6 ∨ v = sp.Z) ∧ m.count sp.Z = k + 1 := fun m => by
    rw [List.mem_toFinset, hmem]
  have hD' : ∀ m, m ∈ (buckyGenSpeckle sp (k + 1)).toFinset ↔ m ∈ MoreSpeckles (List.replicate 60 6) sp.Z (k + 1) := fun m => by
    rw [hD, more_carbon hz]
  have hB := burnside bucky_group (buckyGenSpeckle sp (k + 1)).toFinset (fun a ha => ((hD a).1 ha).1)
    (fun a ha p hp => (hD _).2 (himg (k + 1) a ((hD' a).1 ha) p hp)) l (fun r hr => (hD' r).2 (hT.1 r hr))
    (fun d hd => by
      obtain ⟨r, hr, hrd⟩ := hT.2.1 d ((hD' d).1 hd)
      exact ⟨r, hr, (image_rel (hlen _ r (hT.1 r hr))).1 hrd⟩)
    (hT.2.2.imp_of_mem fun {a c} ha hc hac => by
      rw [image_rel (hlen _ a (hT.1 a ha)), image_rel (hlen _ c (hT.1 c hc))] at hac
      exact hac)
  rw [bucky_fixed_sum hz (k + 1) _ hD, List.toFinset_card_of_nodup C59_group.2.1, C59_group.1] at hB
  omega

/-! ## Non-vacuity and known numbers of isomers -/

/-- the numbers of isomers C₅₉X, C₅₈X₂, …, and of C₃₀X₃₀ -/
example : Spec.icosahedral 1 = 120 * 1 ∧ Spec.icosahedral 2 = 120 * 23 ∧ Spec.icosahedral 3 = 120 * 303 ∧
    Spec.icosahedral 4 = 120 * 4190 ∧ Spec.icosahedral 5 = 120 * 45718 ∧ Spec.icosahedral 6 = 120 * 418470 ∧
    Spec.icosahedral 30 = 120 * 985538239868528 := by
  decide +kernel

/-- with boron and a collision-free hash the second generator yields 23 structures -/
example : ∃ b l2 ls, Bucky.new (List.replicate 60 6) = .ok b ∧
    b.allSpeckleGen Encodable.encode 3 ⟨"B", 5⟩ = .ok ([List.replicate 60 6] :: ls) ∧ ls[1]? = some l2 ∧ l2.length = 23 := by
  obtain ⟨b, ls, h1, h2, h3, h4⟩ := C83_numbers Encodable.encode ⟨"B", 5⟩ (by decide) 3
  have hl : ls[1]? = some (ls[1]'(by omega)) := List.getElem?_eq_getElem _
  refine ⟨b, _, ls, h1, h2, hl, ?_⟩
  have := h4 1 _ hl (fun _ _ => fun _ _ _ _ h => Encodable.encode_injective h)
  have h23 : Spec.icosahedral 2 = 120 * 23 := by decide +kernel
  rw [h23] at this
  omega

end Verif
