import Verif.Lemmas.Hnf
import Mathlib.Tactic.FieldSimp

/-! # 3×3 matrices, row lattices and determinants -/

namespace Verif

open Spec

section ring
variable {α : Type _} [CommRing α]

theorem det_matMul (a b : M3 α) : det (matMul a b) = det a * det b := by
  simp only [det, matMul, vecMul]; ring

theorem matMul_assoc (a b c : M3 α) : matMul (matMul a b) c = matMul a (matMul b c) := by
  simp only [matMul, vecMul]; ext <;> simp only <;> ring

theorem vecMul_matMul (v : V3 α) (a b : M3 α) : vecMul (vecMul v a) b = vecMul v (matMul a b) := by
  simp only [matMul, vecMul]; ext <;> simp only <;> ring

theorem matMul_adj (m : M3 α) : matMul m (adj m) = smulM (det m) identM := by
  simp only [det, matMul, vecMul, adj, smulM, identM, V3.map]; ext <;> simp only <;> ring

theorem adj_matMul (m : M3 α) : matMul (adj m) m = smulM (det m) identM := by
  simp only [det, matMul, vecMul, adj, smulM, identM, V3.map]; ext <;> simp only <;> ring

theorem det_adj (m : M3 α) : det (adj m) = det m ^ 2 := by
  simp only [det, adj]; ring

theorem det_transpose (m : M3 α) : det (transpose m) = det m := by
  simp only [det, transpose]; ring

theorem det_smulM (c : α) (m : M3 α) : det (smulM c m) = c ^ 3 * det m := by
  simp only [det, smulM, V3.map]; ring

theorem smulM_matMul (c : α) (a b : M3 α) : matMul (smulM c a) b = smulM c (matMul a b) := by
  simp only [matMul, vecMul, smulM, V3.map]; ext <;> simp only <;> ring

theorem matMul_smulM (c : α) (a b : M3 α) : matMul a (smulM c b) = smulM c (matMul a b) := by
  simp only [matMul, vecMul, smulM, V3.map]; ext <;> simp only <;> ring

theorem matMul_identM (a : M3 α) : matMul a identM = a := by
  simp only [matMul, vecMul, identM]; ext <;> simp

theorem identM_matMul (a : M3 α) : matMul identM a = a := by
  simp only [matMul, vecMul, identM]; ext <;> simp

theorem vecMul_identM (v : V3 α) : vecMul v identM = v := by
  simp only [vecMul, identM]; ext <;> simp

theorem smulM_smulM (c d : α) (m : M3 α) : smulM c (smulM d m) = smulM (c * d) m := by
  simp only [smulM, V3.map]; ext <;> simp only <;> ring

theorem smulM_one (m : M3 α) : smulM 1 m = m := by
  simp only [smulM, V3.map]; ext <;> simp

theorem vecMul_add (u v : V3 α) (m : M3 α) : vecMul (u + v) m = vecMul u m + vecMul v m := by
  ext <;> simp [vecMul] <;> ring

end ring

theorem castM_matMul (a b : M3 ℤ) : castM (matMul a b) = matMul (castM a) (castM b) := by
  simp only [matMul, vecMul, castM, castV, V3.map]; ext <;> push_cast <;> rfl

theorem castV_vecMul (v : V3 ℤ) (b : M3 ℤ) : castV (vecMul v b) = vecMul (castV v) (castM b) := by
  simp only [vecMul, castM, castV, V3.map]; ext <;> push_cast <;> rfl

theorem castM_adj (a : M3 ℤ) : castM (adj a) = adj (castM a) := by
  simp only [adj, castM, castV, V3.map]; ext <;> push_cast <;> rfl

theorem castM_det (a : M3 ℤ) : ((det a : ℤ) : ℚ) = det (castM a) := by
  simp only [det, castM, castV, V3.map]; push_cast; rfl

theorem castV_inj {u v : V3 ℤ} (h : castV u = castV v) : u = v := by
  simp only [castV, V3.map, Prod.mk.injEq, Int.cast_inj] at h
  ext
  · exact h.1
  · exact h.2.1
  · exact h.2.2

theorem castM_inj {u v : M3 ℤ} (h : castM u = castM v) : u = v := by
  simp only [castM, V3.map, Prod.mk.injEq] at h
  exact Prod.ext (castV_inj h.1) (Prod.ext (castV_inj h.2.1) (castV_inj h.2.2))

theorem castV_add (u v : V3 ℤ) : castV (u + v) = castV u + castV v := by
  simp [castV, V3.map]

theorem det_tri (a b d c e f : ℤ) : det (tri a b d c e f) = a * c * f := by
  simp [det, mul_assoc]

/-- inclusion of row lattices means a matrix equation -/
theorem rowLattice_le (a b : M3 ℤ) : rowLattice a ≤ rowLattice b ↔ ∃ k, a = matMul k b := by
  constructor
  · intro h
    have hm : ∀ x ∈ ({a.1, a.2.1, a.2.2} : Set (V3 ℤ)), x ∈ rowLattice b := fun x hx => h (AddSubgroup.subset_closure hx)
    obtain ⟨k1, h1⟩ := (mem_rowLattice b _).1 (hm a.1 (by simp))
    obtain ⟨k2, h2⟩ := (mem_rowLattice b _).1 (hm a.2.1 (by simp))
    obtain ⟨k3, h3⟩ := (mem_rowLattice b _).1 (hm a.2.2 (by simp))
    exact ⟨(k1, k2, k3), Prod.ext h1 (Prod.ext h2 h3)⟩
  · rintro ⟨k, rfl⟩ v hv
    obtain ⟨j, rfl⟩ := (mem_rowLattice _ _).1 hv
    exact (mem_rowLattice _ _).2 ⟨vecMul j k, (vecMul_matMul j k b).symm⟩

theorem smul_mem_rowLattice (m : M3 ℤ) (v : V3 ℤ) : (det m • v) ∈ rowLattice m := by
  refine (mem_rowLattice _ _).2 ⟨vecMul v (adj m), ?_⟩
  rw [vecMul_matMul, adj_matMul]
  simp only [vecMul, smulM, identM, V3.map]
  ext <;> simp [mul_comm]

theorem rowLattice_index (m : M3 ℤ) : (rowLattice m).index = (det m).natAbs := by
  by_cases h : det m = 0
  · -- infinite index
    rw [h]
    by_contra hne
    obtain ⟨a, b, d, c, e, f, ha, hc, hf, _, _, _, hL⟩ := exists_hnf (rowLattice m) hne
    obtain ⟨k, hk⟩ := (rowLattice_le (tri a b d c e f) m).1 (le_of_eq hL.symm)
    have := congrArg det hk
    rw [det_matMul, h, mul_zero, det_tri] at this
    have : 0 < a * c * f := by positivity
    omega
  · set n := |det m|
    have hn : 0 < n := abs_pos.2 h
    have hle : rowLattice (tri n 0 0 n 0 n) ≤ rowLattice m := by
      intro v hv
      obtain ⟨k1, k2, k3, h1, h2, h3⟩ := mem_tri.1 hv
      have := smul_mem_rowLattice m (k1, k2, k3)
      have hv : v = n • ((k1, k2, k3) : V3 ℤ) := by
        ext <;> simp [h1, h2, h3, mul_comm]
      rw [hv]
      rcases abs_choice (det m) with h | h
      · rw [show n = det m from h]; exact this
      · rw [show n = -det m from h, neg_smul]; exact neg_mem this
    have hfin : (rowLattice m).index ≠ 0 := by
      have hd := AddSubgroup.index_dvd_of_le hle
      rw [tri_index hn hn hn] at hd
      intro h0
      rw [h0, zero_dvd_iff] at hd
      have : 0 < n * n * n := by positivity
      omega
    obtain ⟨a, b, d, c, e, f, ha, hc, hf, _, _, _, hL⟩ := exists_hnf (rowLattice m) hfin
    obtain ⟨k, hk⟩ := (rowLattice_le (tri a b d c e f) m).1 (le_of_eq hL.symm)
    obtain ⟨j, hj⟩ := (rowLattice_le m (tri a b d c e f)).1 (le_of_eq hL)
    have d1 := congrArg det hk
    have d2 := congrArg det hj
    rw [det_matMul] at d1 d2
    have habs : (det m).natAbs = (det (tri a b d c e f)).natAbs := by
      apply Nat.dvd_antisymm
      · exact Int.natAbs_dvd_natAbs.2 ⟨det k, by rw [d1, mul_comm]⟩
      · exact Int.natAbs_dvd_natAbs.2 ⟨det j, by rw [d2, mul_comm]⟩
    rw [hL, tri_index ha hc hf, habs, det_tri]
    have : 0 < a * c * f := by positivity
    omega

/-- inverse of an integer matrix, over the rationals -/
theorem inv_castM {m : M3 ℤ} (h : det m ≠ 0) : inv (castM m) = .ok (smulM (1 / ((det m : ℤ) : ℚ)) (castM (adj m))) := by
  have : det (castM m) ≠ 0 := by rw [← castM_det]; exact_mod_cast h
  simp only [inv, if_neg this, castM_adj, castM_det]

end Verif
