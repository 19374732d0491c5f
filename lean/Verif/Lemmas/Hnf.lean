import Verif.Model.Grid
import Verif.Spec.Lattice
import Mathlib.GroupTheory.QuotientGroup.Defs
import Mathlib.Algebra.Group.Subgroup.ZPowers.Basic
import Mathlib.Algebra.EuclideanDomain.Int
import Mathlib.Tactic.Linarith
import Mathlib.Tactic.LinearCombination
import Mathlib.SetTheory.Cardinal.Finite
import Mathlib.GroupTheory.Archimedean
import Mathlib.GroupTheory.OrderOfElement

/-! # Sublattices of ℤ³ and Hermite normal forms -/

namespace Verif

open Spec

theorem mem_rowLattice (m : M3 ℤ) (v : V3 ℤ) : v ∈ rowLattice m ↔ ∃ k : V3 ℤ, v = vecMul k m := by
  let φ : V3 ℤ →+ V3 ℤ := {
    toFun := fun k => vecMul k m
    map_zero' := by simp [vecMul]
    map_add' := fun u v => by ext <;> simp [vecMul] <;> ring }
  have h1 : rowLattice m ≤ φ.range := by
    unfold rowLattice span3
    rw [AddSubgroup.closure_le]
    rintro x (rfl | rfl | rfl)
    · exact ⟨(1, 0, 0), by simp [φ, vecMul]⟩
    · exact ⟨(0, 1, 0), by simp [φ, vecMul]⟩
    · exact ⟨(0, 0, 1), by simp [φ, vecMul]⟩
  constructor
  · intro h
    obtain ⟨k, hk⟩ := h1 h
    exact ⟨k, hk.symm⟩
  · rintro ⟨k, rfl⟩
    have e : vecMul k m = k.1 • m.1 + k.2.1 • m.2.1 + k.2.2 • m.2.2 := by
      ext <;> simp [vecMul]
    rw [e]
    have hm : ∀ x ∈ ({m.1, m.2.1, m.2.2} : Set (V3 ℤ)), x ∈ rowLattice m := fun x hx => AddSubgroup.subset_closure hx
    exact add_mem (add_mem (zsmul_mem (hm _ (by simp)) _) (zsmul_mem (hm _ (by simp)) _)) (zsmul_mem (hm _ (by simp)) _)

/-- upper triangular matrix -/
abbrev tri (a b d c e f : ℤ) : M3 ℤ := ((a, b, d), (0, c, e), (0, 0, f))

theorem mem_tri {a b d c e f : ℤ} {v : V3 ℤ} : v ∈ rowLattice (tri a b d c e f) ↔
    ∃ k1 k2 k3 : ℤ, v.1 = k1 * a ∧ v.2.1 = k1 * b + k2 * c ∧ v.2.2 = k1 * d + k2 * e + k3 * f := by
  rw [mem_rowLattice]
  constructor
  · rintro ⟨⟨k1, k2, k3⟩, rfl⟩
    exact ⟨k1, k2, k3, by simp [vecMul], by simp [vecMul], by simp [vecMul]⟩
  · rintro ⟨k1, k2, k3, h1, h2, h3⟩
    refine ⟨(k1, k2, k3), ?_⟩
    ext <;> simp [vecMul, h1, h2, h3]

theorem eq_zero_of_mul_lt {k a : ℤ} (ha : 0 < a) (h1 : -a < k * a) (h2 : k * a < a) : k = 0 := by
  have h3 : -1 < k := by
    by_contra h
    have : k ≤ -1 := by omega
    nlinarith
  have h4 : k < 1 := by
    by_contra h
    have : 1 ≤ k := by omega
    nlinarith
  omega

/-- coset representatives of a triangular lattice: a box -/
theorem tri_index {a b d c e f : ℤ} (ha : 0 < a) (hc : 0 < c) (hf : 0 < f) :
    (rowLattice (tri a b d c e f)).index = (a * c * f).toNat := by
  set L := rowLattice (tri a b d c e f) with hL
  let φ : Fin a.toNat × Fin c.toNat × Fin f.toNat → V3 ℤ ⧸ L :=
    fun t => QuotientAddGroup.mk (((t.1 : ℕ) : ℤ), ((t.2.1 : ℕ) : ℤ), ((t.2.2 : ℕ) : ℤ))
  have hbij : Function.Bijective φ := by
    constructor
    · rintro ⟨x, y, z⟩ ⟨x', y', z'⟩ h
      have hm := QuotientAddGroup.eq.1 h
      obtain ⟨k1, k2, k3, h1, h2, h3⟩ := mem_tri.1 hm
      simp only [Prod.fst_add, Prod.snd_add, Prod.fst_neg, Prod.snd_neg] at h1 h2 h3
      have bx := x.2; have by' := y.2; have bz := z.2
      have bx' := x'.2; have by'' := y'.2; have bz' := z'.2
      have k10 : k1 = 0 := eq_zero_of_mul_lt ha (by omega) (by omega)
      subst k10
      have k20 : k2 = 0 := eq_zero_of_mul_lt hc (by omega) (by omega)
      subst k20
      have k30 : k3 = 0 := eq_zero_of_mul_lt hf (by omega) (by omega)
      subst k30
      have e1 : x = x' := by ext; omega
      have e2 : y = y' := by ext; omega
      have e3 : z = z' := by ext; omega
      rw [e1, e2, e3]
    · intro q
      induction q using QuotientAddGroup.induction_on with
      | H v =>
      obtain ⟨x, y, z⟩ := v
      set q1 := x / a
      set q2 := (y - q1 * b) / c
      set w := z - q1 * d - q2 * e
      have b1 := Int.emod_nonneg x ha.ne'
      have b1' := Int.emod_lt_of_pos x ha
      have b2 := Int.emod_nonneg (y - q1 * b) hc.ne'
      have b2' := Int.emod_lt_of_pos (y - q1 * b) hc
      have b3 := Int.emod_nonneg w hf.ne'
      have b3' := Int.emod_lt_of_pos w hf
      have d1 := Int.mul_ediv_add_emod x a
      have d2 := Int.mul_ediv_add_emod (y - q1 * b) c
      have d3 := Int.mul_ediv_add_emod w f
      refine ⟨(⟨(x % a).toNat, by omega⟩, ⟨((y - q1 * b) % c).toNat, by omega⟩, ⟨(w % f).toNat, by omega⟩), ?_⟩
      refine QuotientAddGroup.eq.2 (mem_tri.2 ⟨q1, q2, w / f, ?_, ?_, ?_⟩)
      · simp only [Prod.fst_add, Prod.fst_neg, Int.toNat_of_nonneg b1]
        linear_combination -d1
      · simp only [Prod.fst_add, Prod.fst_neg, Prod.snd_add, Prod.snd_neg, Int.toNat_of_nonneg b2]
        linear_combination -d2
      · simp only [Prod.snd_add, Prod.snd_neg, Int.toNat_of_nonneg b3]
        have : w = z - q1 * d - q2 * e := rfl
        linear_combination -d3 - this
  unfold AddSubgroup.index
  rw [← Nat.card_eq_of_bijective φ hbij]
  simp only [Nat.card_prod, Nat.card_fin]
  rw [Int.toNat_mul (by positivity) hf.le, Int.toNat_mul ha.le hc.le, mul_assoc]

/-- normal forms are determined by the lattice -/
theorem tri_unique {a b d c e f a' b' d' c' e' f' : ℤ} (ha : 0 < a) (hc : 0 < c) (hf : 0 < f)
    (ha' : 0 < a') (hc' : 0 < c') (hf' : 0 < f') (hb : 0 ≤ b ∧ b < c) (hd : 0 ≤ d ∧ d < f) (he : 0 ≤ e ∧ e < f)
    (hb' : 0 ≤ b' ∧ b' < c') (hd' : 0 ≤ d' ∧ d' < f') (he' : 0 ≤ e' ∧ e' < f')
    (h : rowLattice (tri a b d c e f) = rowLattice (tri a' b' d' c' e' f')) :
    a = a' ∧ b = b' ∧ d = d' ∧ c = c' ∧ e = e' ∧ f = f' := by
  have key : ∀ {a b d c e f a' b' d' c' e' f' : ℤ}, 0 < a → 0 < c → 0 < f → 0 < a' → 0 < c' → 0 < f' →
      rowLattice (tri a b d c e f) = rowLattice (tri a' b' d' c' e' f') →
      a' ∣ a ∧ c' ∣ c ∧ f' ∣ f := by
    intro a b d c e f a' b' d' c' e' f' ha hc hf ha' hc' hf' h
    have m1 : ((a, b, d) : V3 ℤ) ∈ rowLattice (tri a' b' d' c' e' f') := by
      rw [← h, mem_tri]; exact ⟨1, 0, 0, by simp, by simp, by simp⟩
    have m2 : ((0, c, e) : V3 ℤ) ∈ rowLattice (tri a' b' d' c' e' f') := by
      rw [← h, mem_tri]; exact ⟨0, 1, 0, by simp, by simp, by simp⟩
    have m3 : ((0, 0, f) : V3 ℤ) ∈ rowLattice (tri a' b' d' c' e' f') := by
      rw [← h, mem_tri]; exact ⟨0, 0, 1, by simp, by simp, by simp⟩
    obtain ⟨k1, k2, k3, h1, _, _⟩ := mem_tri.1 m1
    obtain ⟨j1, j2, j3, g1, g2, _⟩ := mem_tri.1 m2
    obtain ⟨i1, i2, i3, f1, f2, f3⟩ := mem_tri.1 m3
    simp only at h1 g1 g2 f1 f2 f3
    have j0 : j1 = 0 := by
      rcases mul_eq_zero.1 g1.symm with h | h
      · exact h
      · omega
    have i0 : i1 = 0 := by
      rcases mul_eq_zero.1 f1.symm with h | h
      · exact h
      · omega
    subst j0 i0
    have i0 : i2 = 0 := by
      rw [zero_mul, zero_add] at f2
      rcases mul_eq_zero.1 f2.symm with h | h
      · exact h
      · omega
    subst i0
    exact ⟨⟨k1, by linarith⟩, ⟨j2, by linarith⟩, ⟨i3, by linarith⟩⟩
  obtain ⟨p1, p2, p3⟩ := key ha hc hf ha' hc' hf' h
  obtain ⟨q1, q2, q3⟩ := key ha' hc' hf' ha hc hf h.symm
  have ea : a = a' := Int.dvd_antisymm ha.le ha'.le q1 p1
  have ec : c = c' := Int.dvd_antisymm hc.le hc'.le q2 p2
  have ef : f = f' := Int.dvd_antisymm hf.le hf'.le q3 p3
  subst ea ec ef
  have m1 : ((a, b, d) : V3 ℤ) ∈ rowLattice (tri a b' d' c e' f) := by
    rw [← h, mem_tri]; exact ⟨1, 0, 0, by simp, by simp, by simp⟩
  have m2 : ((0, c, e) : V3 ℤ) ∈ rowLattice (tri a b' d' c e' f) := by
    rw [← h, mem_tri]; exact ⟨0, 1, 0, by simp, by simp, by simp⟩
  obtain ⟨j1, j2, j3, g1, g2, g3⟩ := mem_tri.1 m2
  simp only at g1 g2 g3
  have j0 : j1 = 0 := by
    rcases mul_eq_zero.1 g1.symm with h | h
    · exact h
    · omega
  subst j0
  have j0 : j2 = 1 := by
    rw [zero_mul, zero_add] at g2
    have : (j2 - 1) * c = 0 := by linear_combination -g2
    rcases mul_eq_zero.1 this with h | h <;> omega
  subst j0
  have j0 : j3 = 0 := eq_zero_of_mul_lt hf (by linarith) (by linarith)
  subst j0
  have ee : e = e' := by linarith
  subst ee
  obtain ⟨k1, k2, k3, h1, h2, h3⟩ := mem_tri.1 m1
  simp only at h1 h2 h3
  have k0 : k1 = 1 := by
    have : (k1 - 1) * a = 0 := by linear_combination -h1
    rcases mul_eq_zero.1 this with h | h <;> omega
  subst k0
  have k0 : k2 = 0 := eq_zero_of_mul_lt hc (by linarith) (by linarith)
  subst k0
  have k0 : k3 = 0 := eq_zero_of_mul_lt hf (by linarith) (by linarith)
  subst k0
  exact ⟨rfl, by linarith, by linarith, rfl, rfl, rfl⟩

/-- a non-trivial subgroup of ℤ has a positive generator -/
theorem pos_generator (H : AddSubgroup ℤ) (h : ∃ n ∈ H, n ≠ 0) :
    ∃ g : ℤ, 0 < g ∧ ∀ x, x ∈ H ↔ g ∣ x := by
  obtain ⟨g, hg⟩ := Int.subgroup_cyclic H
  have hmem : ∀ x, x ∈ H ↔ g ∣ x := by
    intro x
    rw [hg, AddSubgroup.mem_closure_singleton]
    constructor
    · rintro ⟨n, rfl⟩; exact ⟨n, by simp [mul_comm]⟩
    · rintro ⟨n, rfl⟩; exact ⟨n, by simp [mul_comm]⟩
  have hg0 : g ≠ 0 := by
    rintro rfl
    obtain ⟨n, hn, hn0⟩ := h
    exact hn0 (by simpa using (hmem n).1 hn)
  refine ⟨|g|, abs_pos.2 hg0, fun x => ?_⟩
  rw [hmem, abs_dvd]

/-- every sublattice of finite index has a Hermite normal form -/
theorem exists_hnf (L : AddSubgroup (V3 ℤ)) (hL : L.index ≠ 0) :
    ∃ a b d c e f : ℤ, 0 < a ∧ 0 < c ∧ 0 < f ∧ (0 ≤ b ∧ b < c) ∧ (0 ≤ d ∧ d < f) ∧ (0 ≤ e ∧ e < f) ∧
      L = rowLattice (tri a b d c e f) := by
  set n := L.index
  have hn : ∀ v : V3 ℤ, n • v ∈ L := fun v => AddSubgroup.nsmul_index_mem L v
  let ι3 : ℤ →+ V3 ℤ := { toFun := fun z => (0, 0, z), map_zero' := rfl, map_add' := fun u v => by ext <;> simp }
  let ι2 : ℤ × ℤ →+ V3 ℤ := { toFun := fun z => (0, z.1, z.2), map_zero' := rfl, map_add' := fun u v => by ext <;> simp }
  let F := L.comap ι3
  let C := (L.comap ι2).map (AddMonoidHom.fst ℤ ℤ)
  let A := L.map (AddMonoidHom.fst ℤ (ℤ × ℤ))
  obtain ⟨f, hf, hF⟩ := pos_generator F ⟨n, by
    show ((0, 0, (n : ℤ)) : V3 ℤ) ∈ L
    have := hn (0, 0, 1)
    simpa using this, by simpa using hL⟩
  obtain ⟨c, hc, hC⟩ := pos_generator C ⟨n, by
    refine ⟨(n, 0), ?_, rfl⟩
    show ((0, (n : ℤ), 0) : V3 ℤ) ∈ L
    have := hn (0, 1, 0)
    simpa using this, by simpa using hL⟩
  obtain ⟨a, ha, hA⟩ := pos_generator A ⟨n, by
    refine ⟨((n : ℤ), 0, 0), ?_, rfl⟩
    have := hn (1, 0, 0)
    simpa using this, by simpa using hL⟩
  -- generators of the three layers
  have hFm : ∀ z, ((0, 0, z) : V3 ℤ) ∈ L ↔ f ∣ z := hF
  obtain ⟨⟨y2, z2⟩, hy2, hy2c⟩ : c ∈ C := (hC c).2 (dvd_refl c)
  obtain rfl : y2 = c := hy2c
  have hrow2 : ((0, y2, z2) : V3 ℤ) ∈ L := hy2
  obtain ⟨⟨x1, y1, z1⟩, hx1, hx1a⟩ : a ∈ A := (hA a).2 (dvd_refl a)
  obtain rfl : x1 = a := hx1a
  have hrow1 : ((x1, y1, z1) : V3 ℤ) ∈ L := hx1
  -- reduce
  set e := z2 % f
  have he : ((0, y2, e) : V3 ℤ) ∈ L := by
    have h1 := (hFm (f * (z2 / f))).2 ⟨_, rfl⟩
    have := sub_mem hrow2 h1
    have e2 : ((0, y2, z2) : V3 ℤ) - (0, 0, f * (z2 / f)) = (0, y2, e) := by
      ext <;> simp [e]; have := Int.mul_ediv_add_emod z2 f; linarith
    rwa [e2] at this
  set b := y1 % y2
  set z1' := z1 - (y1 / y2) * e
  set d := z1' % f
  have hb1 : ((x1, b, z1') : V3 ℤ) ∈ L := by
    have h1 := sub_mem hrow1 (zsmul_mem he (y1 / y2))
    have e2 : ((x1, y1, z1) : V3 ℤ) - (y1 / y2) • ((0, y2, e) : V3 ℤ) = (x1, b, z1') := by
      ext
      · simp
      · simp [b]; have := Int.mul_ediv_add_emod y1 y2; linarith
      · simp [z1']
    rwa [e2] at h1
  have hd1 : ((x1, b, d) : V3 ℤ) ∈ L := by
    have h1 := (hFm (f * (z1' / f))).2 ⟨_, rfl⟩
    have := sub_mem hb1 h1
    have e2 : ((x1, b, z1') : V3 ℤ) - (0, 0, f * (z1' / f)) = (x1, b, d) := by
      ext <;> simp [d]; have := Int.mul_ediv_add_emod z1' f; linarith
    rwa [e2] at this
  refine ⟨x1, b, d, y2, e, f, ha, hc, hf, ⟨Int.emod_nonneg _ hc.ne', Int.emod_lt_of_pos _ hc⟩,
    ⟨Int.emod_nonneg _ hf.ne', Int.emod_lt_of_pos _ hf⟩, ⟨Int.emod_nonneg _ hf.ne', Int.emod_lt_of_pos _ hf⟩, ?_⟩
  ext ⟨x, y, z⟩
  rw [mem_tri]
  constructor
  · intro hv
    obtain ⟨k1, hk1⟩ : x1 ∣ x := (hA x).1 ⟨_, hv, rfl⟩
    have h1 := sub_mem hv (zsmul_mem hd1 k1)
    have e1 : ((x, y, z) : V3 ℤ) - k1 • ((x1, b, d) : V3 ℤ) = (0, y - k1 * b, z - k1 * d) := by
      ext <;> simp; rw [hk1]; ring
    rw [e1] at h1
    obtain ⟨k2, hk2⟩ : y2 ∣ y - k1 * b := (hC _).1 ⟨(y - k1 * b, z - k1 * d), h1, rfl⟩
    have h2 := sub_mem h1 (zsmul_mem he k2)
    have e2 : ((0, y - k1 * b, z - k1 * d) : V3 ℤ) - k2 • ((0, y2, e) : V3 ℤ) = (0, 0, z - k1 * d - k2 * e) := by
      ext <;> simp; rw [hk2]; ring
    rw [e2] at h2
    obtain ⟨k3, hk3⟩ := (hFm _).1 h2
    exact ⟨k1, k2, k3, by simp only; rw [hk1]; ring, by simp only; linarith, by simp only; linarith⟩
  · rintro ⟨k1, k2, k3, h1, h2, h3⟩
    simp only at h1 h2 h3
    have hf0 : ((0, 0, f) : V3 ℤ) ∈ L := (hFm f).2 (dvd_refl f)
    have := add_mem (add_mem (zsmul_mem hd1 k1) (zsmul_mem he k2)) (zsmul_mem hf0 k3)
    have e2 : k1 • ((x1, b, d) : V3 ℤ) + k2 • ((0, y2, e) : V3 ℤ) + k3 • ((0, 0, f) : V3 ℤ) = (x, y, z) := by
      ext <;> simp [h1, h2, h3]
    rwa [e2] at this

end Verif
