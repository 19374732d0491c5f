import Verif.Lemmas.Mat
import Verif.Lemmas.Round

/-! # The equality test of superlattices -/

namespace Verif

open Spec

theorem mod1_eq_zero {x : ℚ} : mod1 x = 0 ↔ ∃ z : ℤ, x = z := by
  unfold mod1
  constructor
  · intro h; exact ⟨⌊x⌋, by linarith⟩
  · rintro ⟨z, rfl⟩; simp

theorem around_int (k : ℕ) (z : ℤ) : around k (z : ℚ) = z := by
  unfold around
  have : (z : ℚ) * 10 ^ k = ((z * 10 ^ k : ℤ) : ℚ) := by push_cast; ring
  rw [this, rint_intCast]
  push_cast
  rw [mul_div_assoc, div_self (by positivity), mul_one]

/-- three decimals suffice to detect integrality of fractions with denominator below 2000 -/
theorem isInt_around {k N : ℤ} (h0 : N ≠ 0) (hN : |N| < 2000) : mod1 (around 3 ((k : ℚ) / N)) = 0 ↔ N ∣ k := by
  have hNq : (N : ℚ) ≠ 0 := by exact_mod_cast h0
  rw [mod1_eq_zero]
  constructor
  · rintro ⟨z, hz⟩
    have h1 := around_close 3 ((k : ℚ) / N)
    rw [hz] at h1
    have h2 : |(k : ℚ) - N * z| < 1 := by
      have e : (k : ℚ) - N * z = N * (k / N - z) := by field_simp
      rw [e, abs_mul]
      have hNq' : |(N : ℚ)| < 2000 := by exact_mod_cast hN
      have hpos : 0 < |(N : ℚ)| := abs_pos.2 hNq
      calc |(N : ℚ)| * |(k : ℚ) / N - z| ≤ |(N : ℚ)| * (1 / (2 * 10 ^ 3)) := mul_le_mul_of_nonneg_left h1 hpos.le
        _ < 1 := by linarith
    have h3 : |k - N * z| < 1 := by exact_mod_cast h2
    have h4 : k - N * z = 0 := by rw [Int.abs_lt_one_iff] at h3; exact h3
    exact ⟨z, by linarith⟩
  · rintro ⟨z, rfl⟩
    refine ⟨z, ?_⟩
    have : ((N * z : ℤ) : ℚ) / N = ((z : ℤ) : ℚ) := by push_cast; field_simp
    rw [this, around_int]

theorem isIntAround_iff {N : ℤ} (h0 : N ≠ 0) (hN : |N| < 2000) (m : M3 ℤ) :
    isIntAround (smulM (1 / (N : ℚ)) (castM m)) = true ↔ ∃ k, m = smulM N k := by
  have e : ∀ x : ℤ, (1 / (N : ℚ)) * (x : ℚ) = (x : ℚ) / N := fun x => by ring
  simp only [isIntAround, smulM, castM, castV, V3.map, V3.toList, List.cons_append, List.nil_append, List.all_cons,
    List.all_nil, Bool.and_eq_true, beq_iff_eq, e, isInt_around h0 hN, and_true]
  constructor
  · rintro ⟨⟨a, ha⟩, ⟨b, hb⟩, ⟨c, hc⟩, ⟨d, hd⟩, ⟨x, hx⟩, ⟨f, hf⟩, ⟨g, hg⟩, ⟨h, hh⟩, ⟨i, hi⟩⟩
    refine ⟨((a, b, c), (d, x, f), (g, h, i)), ?_⟩
    ext <;> simp only <;> assumption
  · rintro ⟨k, rfl⟩
    simp

theorem unimodular_det {r : M3 ℤ} : Unimodular r ↔ det r = 1 ∨ det r = -1 := Iff.rfl

theorem smulM_cancel {n : ℤ} (hn : n ≠ 0) {a b : M3 ℤ} (h : smulM n a = smulM n b) : a = b := by
  simp only [smulM, V3.map, Prod.mk.injEq, mul_eq_mul_left_iff, hn, or_false] at h
  obtain ⟨⟨h1, h2, h3⟩, ⟨h4, h5, h6⟩, h7, h8, h9⟩ := h
  ext <;> assumption

theorem smulM_identM_matMul (n : ℤ) (a : M3 ℤ) : matMul a (smulM n identM) = smulM n a := by
  rw [matMul_smulM, matMul_identM]

theorem test_matrix {r h1 h2 : M3 ℤ} (hr : Unimodular r) (hn : det h1 ≠ 0) :
    (∃ k, matMul (matMul h2 (adj (transpose r))) (adj h1) = smulM (det (transpose r) * det h1) k) ↔
      ∃ k, h2 = matMul k (matMul h1 (transpose r)) := by
  have hd : det (transpose r) ≠ 0 := by
    rw [det_transpose]; rcases unimodular_det.1 hr with h | h <;> rw [h] <;> norm_num
  set δ := det (transpose r) with hδ
  constructor
  · rintro ⟨k, hk⟩
    refine ⟨k, ?_⟩
    have h3 := congrArg (fun m => matMul m h1) hk
    simp only [matMul_assoc, adj_matMul, smulM_matMul, matMul_smulM, matMul_identM] at h3
    rw [mul_comm, ← smulM_smulM] at h3
    have h4 := smulM_cancel hn h3
    have h5 := congrArg (fun m => matMul m (transpose r)) h4
    simp only [matMul_assoc, adj_matMul, smulM_matMul, matMul_smulM, matMul_identM] at h5
    exact smulM_cancel hd h5
  · rintro ⟨k, hk⟩
    refine ⟨k, ?_⟩
    rw [hk]
    simp only [matMul_assoc]
    have : matMul (transpose r) (matMul (adj (transpose r)) (adj h1)) = smulM δ (adj h1) := by
      rw [← matMul_assoc, matMul_adj, smulM_matMul, identM_matMul]
    rw [this, matMul_smulM, matMul_adj, smulM_smulM, matMul_smulM, matMul_identM]

theorem rot_eq (r : M3 ℤ) (v : V3 ℤ) : rot r v = vecMul v (transpose r) := by
  simp only [rot, vecMul, transpose, AddMonoidHom.coe_mk, ZeroHom.coe_mk]
  ext <;> simp only <;> ring

theorem map_rot_rowLattice (r h : M3 ℤ) : (rowLattice h).map (rot r) = rowLattice (matMul h (transpose r)) := by
  ext v
  rw [AddSubgroup.mem_map, mem_rowLattice]
  constructor
  · rintro ⟨w, hw, rfl⟩
    obtain ⟨k, rfl⟩ := (mem_rowLattice _ _).1 hw
    exact ⟨k, by rw [rot_eq, vecMul_matMul]⟩
  · rintro ⟨k, rfl⟩
    exact ⟨vecMul k h, (mem_rowLattice _ _).2 ⟨k, rfl⟩, by rw [rot_eq, vecMul_matMul]⟩

theorem eq_of_le_index {A B : AddSubgroup (V3 ℤ)} (h : A ≤ B) (hi : A.index = B.index) (h0 : B.index ≠ 0) : A = B := by
  have := AddSubgroup.relIndex_mul_index h
  rw [hi] at this
  have h1 : A.relIndex B = 1 := by
    have : A.relIndex B * B.index = 1 * B.index := by rw [this, one_mul]
    exact Nat.eq_of_mul_eq_mul_right (Nat.pos_of_ne_zero h0) this
  exact le_antisymm h (AddSubgroup.relIndex_eq_one.1 h1)

theorem isIntAround_of_int {N : ℤ} (h0 : N ≠ 0) (k : M3 ℤ) : isIntAround (smulM (1 / (N : ℚ)) (castM (smulM N k))) = true := by
  have hN : (N : ℚ) ≠ 0 := by exact_mod_cast h0
  have e : smulM (1 / (N : ℚ)) (castM (smulM N k)) = castM k := by
    simp only [smulM, castM, castV, V3.map]
    ext <;> push_cast <;> field_simp
  rw [e]
  have h : ∀ x : ℤ, mod1 (around 3 (x : ℚ)) = 0 := fun x => by rw [around_int]; exact mod1_eq_zero.2 ⟨x, rfl⟩
  simp [isIntAround, castM, castV, V3.map, V3.toList, h]

theorem test_eq (r h1 h2 : M3 ℤ) :
    matMul (matMul (castM h2) (smulM (1 / ((det (transpose r) : ℤ) : ℚ)) (castM (adj (transpose r)))))
      (smulM (1 / ((det h1 : ℤ) : ℚ)) (castM (adj h1))) =
      smulM (1 / ((det (transpose r) * det h1 : ℤ) : ℚ)) (castM (matMul (matMul h2 (adj (transpose r))) (adj h1))) := by
  rw [matMul_smulM, matMul_smulM, smulM_matMul, smulM_smulM, castM_matMul, castM_matMul]
  congr 1
  push_cast
  rw [one_div_mul_one_div, mul_comm]

/-- the test accepts every true equivalence, whatever the index -/
theorem slEq_test_complete {r h1 h2 : M3 ℤ} (hr : Unimodular r) (hd1 : det h1 ≠ 0) :
    ∃ ri si, inv (castM (transpose r)) = .ok ri ∧ inv (castM h1) = .ok si ∧
      ((rowLattice h1).map (rot r) = rowLattice h2 → isIntAround (matMul (matMul (castM h2) ri) si) = true) := by
  have hdr : det (transpose r) = 1 ∨ det (transpose r) = -1 := by rw [det_transpose]; exact unimodular_det.1 hr
  have hdr0 : det (transpose r) ≠ 0 := by omega
  refine ⟨_, _, inv_castM hdr0, inv_castM hd1, fun h => ?_⟩
  rw [map_rot_rowLattice] at h
  obtain ⟨k, hk⟩ := (test_matrix hr hd1).2 ((rowLattice_le _ _).1 h.ge)
  rw [test_eq, hk]
  exact isIntAround_of_int (mul_ne_zero hdr0 hd1) k

/-- one rotation of the equality test -/
theorem slEq_test {r h1 h2 : M3 ℤ} {n : ℕ} (hr : Unimodular r) (i1 : (rowLattice h1).index = n)
    (i2 : (rowLattice h2).index = n) (h0 : 0 < n) (hn : n < 2000) :
    ∃ ri si, inv (castM (transpose r)) = .ok ri ∧ inv (castM h1) = .ok si ∧
      (isIntAround (matMul (matMul (castM h2) ri) si) = true ↔ (rowLattice h1).map (rot r) = rowLattice h2) := by
  rw [rowLattice_index] at i1
  have hd1 : det h1 ≠ 0 := by omega
  have hdr : det (transpose r) = 1 ∨ det (transpose r) = -1 := by rw [det_transpose]; exact unimodular_det.1 hr
  have hdr0 : det (transpose r) ≠ 0 := by omega
  refine ⟨_, _, inv_castM hdr0, inv_castM hd1, ?_⟩
  have e : matMul (matMul (castM h2) (smulM (1 / ((det (transpose r) : ℤ) : ℚ)) (castM (adj (transpose r)))))
      (smulM (1 / ((det h1 : ℤ) : ℚ)) (castM (adj h1))) =
      smulM (1 / ((det (transpose r) * det h1 : ℤ) : ℚ)) (castM (matMul (matMul h2 (adj (transpose r))) (adj h1))) := by
    rw [matMul_smulM, matMul_smulM, smulM_matMul, smulM_smulM, castM_matMul, castM_matMul]
    congr 1
    push_cast
    rw [one_div_mul_one_div, mul_comm]
  rw [e, isIntAround_iff (mul_ne_zero hdr0 hd1) (by
    rw [abs_mul]
    have : |det (transpose r)| = 1 := by rcases hdr with h | h <;> rw [h] <;> rfl
    rw [this, one_mul]; rw [Int.abs_eq_natAbs]; omega), test_matrix hr hd1, map_rot_rowLattice, ← rowLattice_le]
  have i3 : (rowLattice (matMul h1 (transpose r))).index = n := by
    rw [rowLattice_index, det_matMul, Int.natAbs_mul, i1]
    rcases hdr with h | h <;> rw [h] <;> simp
  constructor
  · intro h
    exact (eq_of_le_index h (by rw [i2, i3]) (by omega)).symm
  · intro h
    rw [h]

end Verif
