import Verif.Lemmas.Mat
import Verif.Lemmas.Cong
import Verif.Props.Cell

/-! # Interior points of a superlattice cell -/

namespace Verif

open Spec

theorem mem_intCoords (m : ℕ) (v : V3 ℤ) : v ∈ intCoords m ↔
    (0 ≤ v.1 ∧ v.1 < m) ∧ (0 ≤ v.2.1 ∧ v.2.1 < m) ∧ (0 ≤ v.2.2 ∧ v.2.2 < m) := by
  obtain ⟨x, y, z⟩ := v
  simp only [intCoords, List.mem_flatMap, List.mem_range, List.mem_map, Prod.mk.injEq]
  constructor
  · rintro ⟨a, ha, b, hb, c, hc, rfl, rfl, rfl⟩
    omega
  · rintro ⟨⟨h1, h2⟩, ⟨h3, h4⟩, h5, h6⟩
    exact ⟨x.toNat, by omega, y.toNat, by omega, z.toNat, by omega, by omega, by omega, by omega⟩

theorem nodup_intCoords (m : ℕ) : (intCoords m).Nodup := by
  unfold intCoords
  rw [List.nodup_flatMap]
  refine ⟨fun x _ => ?_, ?_⟩
  · rw [List.nodup_flatMap]
    refine ⟨fun y _ => ?_, ?_⟩
    · refine (List.nodup_map_iff_inj_on List.nodup_range).2 ?_
      intro a _ b _ h
      simpa using h
    · refine List.nodup_range.imp ?_
      intro a b hab v h1 h2
      obtain ⟨_, _, rfl⟩ := List.mem_map.1 h1
      obtain ⟨_, _, h⟩ := List.mem_map.1 h2
      simp only [Prod.mk.injEq, Nat.cast_inj] at h
      exact hab h.2.1.symm
  · refine List.nodup_range.imp ?_
    intro a b hab v h1 h2
    simp only [List.mem_flatMap, List.mem_map] at h1 h2
    obtain ⟨_, _, _, _, rfl⟩ := h1
    obtain ⟨_, _, _, _, h⟩ := h2
    simp only [Prod.mk.injEq, Nat.cast_inj] at h
    exact hab h.1.symm

/-- the tolerance test decides membership in `[0,1)` for denominators below 100000 -/
theorem inCell1_iff {w n : ℤ} (h0 : 0 < n) (hn : n < 100000) : inCell1 ((1 / (n : ℚ)) * w) = true ↔ 0 ≤ w ∧ w < n := by
  have hq : (0 : ℚ) < n := by exact_mod_cast h0
  have hq2 : (n : ℚ) < 100000 := by exact_mod_cast hn
  unfold inCell1
  rw [Bool.and_eq_true, decide_eq_true_eq, decide_eq_true_eq, one_div_mul_eq_div, le_div_iff₀ hq, div_lt_iff₀ hq]
  constructor
  · rintro ⟨h1, h2⟩
    constructor
    · by_contra h
      have : w ≤ -1 := by omega
      have : (w : ℚ) ≤ -1 := by exact_mod_cast this
      linarith
    · by_contra h
      have : n ≤ w := by omega
      have : (n : ℚ) ≤ w := by exact_mod_cast this
      linarith
  · rintro ⟨h1, h2⟩
    have h1' : (0 : ℚ) ≤ w := by exact_mod_cast h1
    have h2' : (w : ℚ) ≤ n - 1 := by
      have : w ≤ n - 1 := by omega
      exact_mod_cast this
    constructor <;> linarith

/-- integer point inside the cell spanned by the rows of `h` -/
def Inside (h : M3 ℤ) (v : V3 ℤ) : Prop :=
  (0 ≤ (vecMul v (adj h)).1 ∧ (vecMul v (adj h)).1 < det h) ∧
  (0 ≤ (vecMul v (adj h)).2.1 ∧ (vecMul v (adj h)).2.1 < det h) ∧
  (0 ≤ (vecMul v (adj h)).2.2 ∧ (vecMul v (adj h)).2.2 < det h)

theorem det_triangular {h : M3 ℤ} (ht : Triangular h) : det h = h.1.1 * h.2.1.2.1 * h.2.2.2.2 := by
  obtain ⟨h1, h2, h3, _⟩ := ht
  simp only [det, h1, h2, h3]; ring

theorem det_pos {h : M3 ℤ} (ht : Triangular h) : 0 < det h := by
  rw [det_triangular ht]
  obtain ⟨_, _, _, a, b, c, _⟩ := ht
  positivity

theorem Triangular_nonNeg {h : M3 ℤ} (ht : Triangular h) : NonNegM h := by
  obtain ⟨h1, h2, h3, h4, h5, h6, h7, h8, h9⟩ := ht
  exact ⟨h4.le, h7, h8, h1.ge, h5.le, h9, h2.ge, h3.ge, h6.le⟩

theorem le_amax (h : M3 ℤ) : h.1.1 ≤ amax h ∧ h.1.2.1 ≤ amax h ∧ h.1.2.2 ≤ amax h ∧ h.2.1.1 ≤ amax h ∧ h.2.1.2.1 ≤ amax h ∧
    h.2.1.2.2 ≤ amax h ∧ h.2.2.1 ≤ amax h ∧ h.2.2.2.1 ≤ amax h ∧ h.2.2.2.2 ≤ amax h := by
  unfold amax
  simp only [le_max_iff, le_refl, true_or, or_true, and_self]

theorem amax_pos {h : M3 ℤ} (hN : NonNegM h) (h0 : det h ≠ 0) : 0 < amax h := by
  obtain ⟨n1, n2, n3, n4, n5, n6, n7, n8, n9⟩ := hN
  obtain ⟨m1, m2, m3, m4, m5, m6, m7, m8, m9⟩ := le_amax h
  by_contra hc
  have e1 : h.1.1 = 0 := by omega
  have e2 : h.1.2.1 = 0 := by omega
  have e3 : h.1.2.2 = 0 := by omega
  exact h0 (by simp [det, e1, e2, e3])

theorem lt_of_mul_lt {n x y : ℤ} (hn : 0 < n) (h : n * x < n * y) : x < y := lt_of_mul_lt_mul_left h hn.le

theorem nonneg_of_mul {n x : ℤ} (hn : 0 < n) (h : 0 ≤ n * x) : 0 ≤ x := nonneg_of_mul_nonneg_right h hn

/-- a combination of non-negative integers not above `m` with coefficients in `[0, n)` is in `[0, 3 m n)` -/
theorem comb_range {n m w1 w2 w3 a b c : ℤ} (hm : 0 < m) (h1 : 0 ≤ w1 ∧ w1 < n) (h2 : 0 ≤ w2 ∧ w2 < n) (h3 : 0 ≤ w3 ∧ w3 < n)
    (ha : 0 ≤ a ∧ a ≤ m) (hb : 0 ≤ b ∧ b ≤ m) (hc : 0 ≤ c ∧ c ≤ m) :
    0 ≤ w1 * a + w2 * b + w3 * c ∧ w1 * a + w2 * b + w3 * c < n * (m * 3) := by
  have key : ∀ w x : ℤ, 0 ≤ w ∧ w < n → 0 ≤ x ∧ x ≤ m → 0 ≤ w * x ∧ w * x < n * m := by
    rintro w x ⟨hw, hw'⟩ ⟨hx, hx'⟩
    refine ⟨mul_nonneg hw hx, ?_⟩
    calc w * x ≤ w * m := mul_le_mul_of_nonneg_left hx' hw
      _ < n * m := mul_lt_mul_of_pos_right hw' hm
  obtain ⟨a1, a2⟩ := key _ _ h1 ha
  obtain ⟨b1, b2⟩ := key _ _ h2 hb
  obtain ⟨c1, c2⟩ := key _ _ h3 hc
  constructor <;> linarith

theorem inside_range {h : M3 ℤ} (hN : NonNegM h) (hn : 0 < det h) {v : V3 ℤ} (hv : Inside h v) : v ∈ intCoords (amax h * 3).toNat := by
  have hm := amax_pos hN hn.ne'
  obtain ⟨n1, n2, n3, n4, n5, n6, n7, n8, n9⟩ := hN
  obtain ⟨m1, m2, m3, m4, m5, m6, m7, m8, m9⟩ := le_amax h
  obtain ⟨w1, w2, w3⟩ := hv
  have key : vecMul (vecMul v (adj h)) h = vecMul v (smulM (det h) identM) := by rw [vecMul_matMul, adj_matMul]
  set w := vecMul v (adj h)
  set n := det h
  have e1 := congrArg (fun p : V3 ℤ => p.1) key
  have e2 := congrArg (fun p : V3 ℤ => p.2.1) key
  have e3 := congrArg (fun p : V3 ℤ => p.2.2) key
  simp only [vecMul, smulM, identM, V3.map] at e1 e2 e3
  rw [mem_intCoords]
  obtain ⟨b1, b1'⟩ := comb_range hm w1 w2 w3 ⟨n1, m1⟩ ⟨n4, m4⟩ ⟨n7, m7⟩
  obtain ⟨b2, b2'⟩ := comb_range hm w1 w2 w3 ⟨n2, m2⟩ ⟨n5, m5⟩ ⟨n8, m8⟩
  obtain ⟨b3, b3'⟩ := comb_range hm w1 w2 w3 ⟨n3, m3⟩ ⟨n6, m6⟩ ⟨n9, m9⟩
  have c1 := nonneg_of_mul hn (x := v.1) (by linarith)
  have c1' := lt_of_mul_lt hn (x := v.1) (y := amax h * 3) (by linarith)
  have c2 := nonneg_of_mul hn (x := v.2.1) (by linarith)
  have c2' := lt_of_mul_lt hn (x := v.2.1) (y := amax h * 3) (by linarith)
  have c3 := nonneg_of_mul hn (x := v.2.2) (by linarith)
  have c3' := lt_of_mul_lt hn (x := v.2.2) (y := amax h * 3) (by linarith)
  omega

/-- every integer vector is congruent to exactly one interior point -/
theorem inside_rep {h : M3 ℤ} (hn : 0 < det h) (v : V3 ℤ) : ∃ p k, Inside h p ∧ v = p + vecMul k h := by
  set w := vecMul v (adj h) with hw
  set k : V3 ℤ := (w.1 / det h, w.2.1 / det h, w.2.2 / det h) with hk
  refine ⟨v - vecMul k h, k, ?_, by simp⟩
  have key : vecMul (v - vecMul k h) (adj h) = (w.1 % det h, w.2.1 % det h, w.2.2 % det h) := by
    have h1 : vecMul (v - vecMul k h) (adj h) = w - vecMul k (smulM (det h) identM) := by
      rw [← matMul_adj, ← vecMul_matMul, hw]
      ext <;> simp [vecMul] <;> ring
    rw [h1]
    have d1 := Int.mul_ediv_add_emod w.1 (det h)
    have d2 := Int.mul_ediv_add_emod w.2.1 (det h)
    have d3 := Int.mul_ediv_add_emod w.2.2 (det h)
    simp only [vecMul, smulM, identM, V3.map, hk]
    ext <;> simp <;> linarith
  unfold Inside
  rw [key]
  exact ⟨⟨Int.emod_nonneg _ hn.ne', Int.emod_lt_of_pos _ hn⟩, ⟨Int.emod_nonneg _ hn.ne', Int.emod_lt_of_pos _ hn⟩,
    Int.emod_nonneg _ hn.ne', Int.emod_lt_of_pos _ hn⟩

theorem inside_unique {h : M3 ℤ} (hn : 0 < det h) {p q : V3 ℤ} (hp : Inside h p) (hq : Inside h q) {k : V3 ℤ}
    (heq : p - q = vecMul k h) : p = q := by
  have key : vecMul p (adj h) - vecMul q (adj h) = vecMul k (smulM (det h) identM) := by
    rw [← matMul_adj, ← vecMul_matMul, ← heq]
    ext <;> simp [vecMul] <;> ring
  have e1 := congrArg (fun p : V3 ℤ => p.1) key
  have e2 := congrArg (fun p : V3 ℤ => p.2.1) key
  have e3 := congrArg (fun p : V3 ℤ => p.2.2) key
  obtain ⟨⟨p1, p1'⟩, ⟨p2, p2'⟩, p3, p3'⟩ := hp
  obtain ⟨⟨q1, q1'⟩, ⟨q2, q2'⟩, q3, q3'⟩ := hq
  simp only [Prod.fst_sub, Prod.snd_sub] at e1 e2 e3
  set P := vecMul p (adj h)
  set Q := vecMul q (adj h)
  simp only [vecMul, smulM, identM, V3.map, mul_one, mul_zero, add_zero, zero_add] at e1 e2 e3
  have k1 : k.1 = 0 := eq_zero_of_mul_lt hn (by linarith) (by linarith)
  have k2 : k.2.1 = 0 := eq_zero_of_mul_lt hn (by linarith) (by linarith)
  have k3 : k.2.2 = 0 := eq_zero_of_mul_lt hn (by linarith) (by linarith)
  have : p - q = 0 := by
    rw [heq]
    ext <;> simp [vecMul, k1, k2, k3]
  exact sub_eq_zero.1 this

/-- the number of interior points is the determinant -/
theorem inside_count {h : M3 ℤ} (hn : 0 < det h) (pts : List (V3 ℤ)) (hnd : pts.Nodup) (hm : ∀ v, v ∈ pts ↔ Inside h v) :
    pts.length = (det h).toNat := by
  let φ : Fin pts.length → V3 ℤ ⧸ rowLattice h := fun i => QuotientAddGroup.mk pts[i]
  have hb : Function.Bijective φ := by
    constructor
    · intro i j hij
      have hmem := QuotientAddGroup.eq.1 hij
      obtain ⟨k, hk⟩ := (mem_rowLattice _ _).1 hmem
      have := inside_unique hn ((hm pts[j]).1 (List.getElem_mem _)) ((hm pts[i]).1 (List.getElem_mem _)) (k := k)
        (by rw [← hk]; abel)
      exact Fin.ext ((List.Nodup.getElem_inj_iff hnd).1 this.symm)
    · intro q
      induction q using QuotientAddGroup.induction_on with
      | H v =>
      obtain ⟨p, k, hp, rfl⟩ := inside_rep hn v
      obtain ⟨i, hi, rfl⟩ := List.getElem_of_mem ((hm p).2 hp)
      refine ⟨⟨i, hi⟩, QuotientAddGroup.eq.2 ((mem_rowLattice _ _).2 ⟨k, ?_⟩)⟩
      simp
  have h1 := Nat.card_eq_of_bijective φ hb
  have h2 : Nat.card (V3 ℤ ⧸ rowLattice h) = (det h).natAbs := rowLattice_index h
  rw [h2, Nat.card_fin] at h1
  omega

/-- the fractional coordinates in the enlarged cell -/
def toFrac (h : M3 ℤ) (v : V3 ℚ) : V3 ℚ := vecMul v (smulM (1 / ((det h : ℤ) : ℚ)) (castM (adj h)))

theorem toFrac_cartesian {h : M3 ℤ} (hn : det h ≠ 0) (v : V3 ℚ) : cartesian (castM h) (toFrac h v) = v := by
  have : cartesian (castM h) (toFrac h v) = vecMul (toFrac h v) (castM h) := rfl
  rw [this, toFrac, vecMul_matMul, smulM_matMul, ← castM_matMul, adj_matMul]
  have hq : ((det h : ℤ) : ℚ) ≠ 0 := by exact_mod_cast hn
  simp only [vecMul, smulM, identM, castM, castV, V3.map]
  ext <;> push_cast <;> field_simp <;> ring

theorem toFrac_int (h : M3 ℤ) (v : V3 ℤ) : toFrac h (castV v) = V3.map (fun w : ℤ => (1 / ((det h : ℤ) : ℚ)) * w) (vecMul v (adj h)) := by
  unfold toFrac
  simp only [vecMul, smulM, castM, castV, V3.map]
  ext <;> push_cast <;> ring

theorem inCell_iff {h : M3 ℤ} (h0 : 0 < det h) (hn : det h < 100000) (v : V3 ℤ) :
    inCell (toFrac h (castV v)) = true ↔ Inside h v := by
  rw [toFrac_int]
  unfold inCell Inside V3.map
  rw [Bool.and_eq_true, Bool.and_eq_true, inCell1_iff h0 hn, inCell1_iff h0 hn, inCell1_iff h0 hn, and_assoc]

theorem fracFrom_gen {h : M3 ℤ} (hN : NonNegM h) (h0 : 0 < det h) (hn : det h < 100000) :
    ∃ pts : List (V3 ℤ), fracFrom h = .ok (pts.map fun v => toFrac h (castV v)) ∧ pts.Nodup ∧
      (∀ v, v ∈ pts ↔ Inside h v) ∧ pts.length = (det h).toNat := by
  have hmax : ¬ amax h ≤ 0 := not_le.2 (amax_pos hN h0.ne')
  set pts := (intCoords (amax h * 3).toNat).filter (fun v => inCell (toFrac h (castV v))) with hpts
  have hmem : ∀ v, v ∈ pts ↔ Inside h v := by
    intro v
    rw [hpts, List.mem_filter, inCell_iff h0 hn]
    exact ⟨fun h => h.2, fun hv => ⟨inside_range hN h0 hv, hv⟩⟩
  have hnd : pts.Nodup := (nodup_intCoords _).filter _
  refine ⟨pts, ?_, hnd, hmem, inside_count h0 pts hnd hmem⟩
  unfold fracFrom
  rw [inv_castM h0.ne']
  simp only [bind, Except.bind, if_neg hmax, pure, Except.pure]
  rw [List.filter_map]
  rfl

theorem fracFrom_eq {h : M3 ℤ} (ht : Triangular h) (hn : det h < 100000) :
    ∃ pts : List (V3 ℤ), fracFrom h = .ok (pts.map fun v => toFrac h (castV v)) ∧ pts.Nodup ∧
      (∀ v, v ∈ pts ↔ Inside h v) ∧ pts.length = (det h).toNat := fracFrom_gen (Triangular_nonNeg ht) (det_pos ht) hn

theorem toFrac_unit {h : M3 ℤ} (h0 : 0 < det h) {v : V3 ℤ} (hv : Inside h v) :
    (0 ≤ (toFrac h (castV v)).1 ∧ (toFrac h (castV v)).1 < 1) ∧ (0 ≤ (toFrac h (castV v)).2.1 ∧ (toFrac h (castV v)).2.1 < 1) ∧
      (0 ≤ (toFrac h (castV v)).2.2 ∧ (toFrac h (castV v)).2.2 < 1) := by
  have key : ∀ w : ℤ, 0 ≤ w ∧ w < det h → 0 ≤ (1 / ((det h : ℤ) : ℚ)) * w ∧ (1 / ((det h : ℤ) : ℚ)) * w < 1 := by
    rintro w ⟨h1, h2⟩
    have hq : (0 : ℚ) < ((det h : ℤ) : ℚ) := by exact_mod_cast h0
    have h1' : (0 : ℚ) ≤ w := by exact_mod_cast h1
    have h2' : (w : ℚ) < ((det h : ℤ) : ℚ) := by exact_mod_cast h2
    rw [one_div_mul_eq_div]
    exact ⟨by positivity, (div_lt_one hq).2 h2'⟩
  rw [toFrac_int]
  exact ⟨key _ hv.1, key _ hv.2.1, key _ hv.2.2⟩

theorem toFrac_add (h : M3 ℤ) (u v : V3 ℚ) : toFrac h (u + v) = toFrac h u + toFrac h v := vecMul_add _ _ _

theorem toFrac_lattice {h : M3 ℤ} (hn : det h ≠ 0) (k : V3 ℤ) : toFrac h (castV (vecMul k h)) = castV k := by
  unfold toFrac
  have hq : ((det h : ℤ) : ℚ) ≠ 0 := by exact_mod_cast hn
  rw [castV_vecMul, vecMul_matMul, matMul_smulM, ← castM_matMul, matMul_adj]
  simp only [vecMul, smulM, identM, castM, castV, V3.map]
  ext <;> push_cast <;> field_simp <;> ring

theorem toFrac_inj {h : M3 ℤ} (hn : det h ≠ 0) {u v : V3 ℚ} (he : toFrac h u = toFrac h v) : u = v := by
  rw [← toFrac_cartesian hn u, he, toFrac_cartesian hn v]

/-- congruence in the enlarged cell is congruence modulo the superlattice -/
theorem cong_toFrac {h : M3 ℤ} (hn : det h ≠ 0) (u v : V3 ℚ) :
    Cong (toFrac h u) (toFrac h v) ↔ ∃ k : V3 ℤ, v = u + castV (vecMul k h) := by
  constructor
  · rintro ⟨z, hz⟩
    refine ⟨z, toFrac_inj hn ?_⟩
    rw [toFrac_add, toFrac_lattice hn, hz]; rfl
  · rintro ⟨k, rfl⟩
    exact ⟨k, by rw [toFrac_add, toFrac_lattice hn]; rfl⟩

end Verif
