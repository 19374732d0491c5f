import Verif.Props.Binary64
import Verif.Props.SuperEq
import Verif.Props.Super

/-! # C88: superlattices in double precision -/

set_option exponentiation.threshold 2000

namespace Verif

open Spec (Unimodular rowLattice rot Triangular)

/-- **C87, generators.** The occupation generator built in double precision is the exact one. -/
theorem C87_generator (c : GCell) (ops : List Spec.Op) (wy : List String) (hp : ∀ x ∈ c.positions, Spec.All3 (fun t => |t| ≤ 100) x)
    (hr : ∀ g ∈ ops, ∀ r ∈ [g.1.1, g.1.2.1, g.1.2.2], |r.1| ≤ 10 ∧ |r.2.1| ≤ 10 ∧ |r.2.2| ≤ 10)
    (ht : ∀ g ∈ ops, Spec.All3 (fun t => |t| ≤ 100) g.2)
    (hs : ∀ g ∈ ops, ∀ x ∈ c.positions, Spec.All3 (fun t => Spec.Clear (1 / 10 ^ 6) t) (g.image x) ∨
      Spec.All3 Spec.Dyadic20 g.2 ∧ Spec.All3 Spec.Dyadic20 x) :
    OGen.new64 c ops wy = OGen.new c ops wy := by
  unfold OGen.new64 OGen.new
  rw [C87_symmetry c ops hp hr ht hs]

/-! ## the integer test -/

theorem pyMod1_thousandth {m : ℤ} (hm : |(m : ℚ)| ≤ 10 ^ 9) : pyMod1 (fl64 ((m : ℚ) / 1000)) = 0 ↔ (1000 : ℤ) ∣ m := by
  have hdm : (m : ℚ) = 1000 * ((m / 1000 : ℤ) : ℚ) + ((m % 1000 : ℤ) : ℚ) := by
    exact_mod_cast (Int.mul_ediv_add_emod m 1000).symm
  have hr0 := Int.emod_nonneg m (by norm_num : (1000 : ℤ) ≠ 0)
  have hr1 := Int.emod_lt_of_pos m (by norm_num : (0 : ℤ) < 1000)
  rw [Int.dvd_iff_emod_eq_zero]
  set q := m / 1000 with hq
  set r := m % 1000 with hr
  have hr1' : (r : ℚ) ≤ 999 := by exact_mod_cast (by omega : r ≤ 999)
  have hr0' : (0 : ℚ) ≤ r := by exact_mod_cast hr0
  have hqb : |(q : ℚ)| ≤ 10 ^ 6 + 1 := by
    rw [abs_le] at *
    constructor <;> linarith
  constructor
  · intro h
    by_contra h0
    have hr2 : (1 : ℚ) ≤ r := by exact_mod_cast (by omega : 1 ≤ r)
    have e : (m : ℚ) / 1000 = q + r / 1000 := by rw [hdm]; ring
    have hb : |(m : ℚ) / 1000| ≤ 10 ^ 6 + 1 := by rw [abs_le] at *; constructor <;> linarith
    have he := fl64_err_le (by norm_num) hb
    set a := fl64 ((m : ℚ) / 1000) with hadef
    rw [e] at he
    have he' : |a - (q + r / 1000)| ≤ 2 / 10 ^ 9 := he.trans (by norm_num)
    rw [abs_le] at he'
    have hfl : ⌊a⌋ = q := by rw [Int.floor_eq_iff]; constructor <;> linarith
    have hcl : ⌈a⌉ = q + 1 := by rw [Int.ceil_eq_iff]; push_cast; constructor <;> linarith
    unfold pyMod1 fmod1 at h
    by_cases hpos : 0 ≤ a
    · have : ¬ a - q < 0 := by linarith
      rw [if_pos hpos, hfl, if_neg this] at h
      linarith
    · have : a - ((q + 1 : ℤ) : ℚ) < 0 := by push_cast; linarith
      rw [if_neg hpos, hcl, if_pos this] at h
      have hb2 : |a - ((q + 1 : ℤ) : ℚ) + 1| ≤ 1 := by push_cast; rw [abs_le]; constructor <;> linarith
      have := fl64_err_le le_rfl hb2
      rw [h] at this
      push_cast at this
      rw [abs_le] at this
      linarith
  · intro h0
    have e : (m : ℚ) / 1000 = (q : ℚ) := by rw [hdm, h0]; simp
    have hqi : |q| < 2 ^ 53 := by
      have : |(q : ℚ)| < 2 ^ 53 := lt_of_le_of_lt hqb (by norm_num)
      rw [← Int.cast_abs] at this
      exact_mod_cast this
    rw [e, fl64_int hqi]
    have : fmod1 (q : ℚ) = 0 := by simp [fmod1]
    simp [pyMod1, this]

/-- the test in double precision recognises the integers among the multiples of `1/N` -/
theorem isInt64 {N w : ℤ} (h0 : N ≠ 0) (hN : |N| < 2000) {x' : ℚ} (hx : |(w : ℚ) / N| ≤ 10 ^ 5) (hc : |x' - (w : ℚ) / N| ≤ 1 / 10 ^ 8) :
    pyMod1 (npAround3 x') = 0 ↔ ∃ k : ℤ, w = N * k := by
  have hNq : (N : ℚ) ≠ 0 := by exact_mod_cast h0
  have hb : |x' * 1000| ≤ 10 ^ 8 + 1000 := by rw [abs_le] at *; constructor <;> linarith
  have he := fl64_err_le (by norm_num) hb
  have hy : |fl64 (x' * 1000) - 1000 * ((w : ℚ) / N)| ≤ 2 / 10 ^ 5 := by
    rw [abs_le] at *
    constructor <;> linarith
  have hrs := rint_sub_le (fl64 (x' * 1000))
  have hmb : |(rint (fl64 (x' * 1000)) : ℚ)| ≤ 10 ^ 9 := by
    rw [abs_le] at *
    constructor <;> linarith
  unfold npAround3
  rw [pyMod1_thousandth hmb]
  constructor
  · rintro ⟨q, hq⟩
    rw [hq] at hrs
    push_cast at hrs
    refine ⟨q, ?_⟩
    by_contra hne
    have h1 : (1 : ℚ) ≤ |(w : ℚ) - N * q| := by
      rw [← Int.cast_mul, ← Int.cast_sub, ← Int.cast_abs]
      exact_mod_cast Int.one_le_abs (sub_ne_zero.2 hne)
    have h2 : |(N : ℚ)| ≤ 1999 := by
      rw [← Int.cast_abs]; exact_mod_cast (by omega : |N| ≤ 1999)
    have h3 : |(w : ℚ) / N - q| ≤ 5001 / 10 ^ 7 := by
      rw [abs_le] at hrs hy ⊢
      constructor <;> linarith
    have h4 : (w : ℚ) - N * q = N * ((w : ℚ) / N - q) := by field_simp
    rw [h4, abs_mul] at h1
    have h5 : |(N : ℚ)| * |(w : ℚ) / N - q| ≤ 1999 * (5001 / 10 ^ 7) :=
      mul_le_mul h2 h3 (abs_nonneg _) (by norm_num)
    norm_num at h5
    linarith
  · rintro ⟨k, rfl⟩
    refine ⟨k, ?_⟩
    apply rint_eq_of_abs_lt
    have e : (((N * k : ℤ) : ℚ)) / N = k := by push_cast; field_simp
    rw [e] at hy
    push_cast
    exact lt_of_le_of_lt hy (by norm_num)

theorem isIntAround64_iff {N : ℤ} (h0 : N ≠ 0) (hN : |N| < 2000) (m : M3 ℤ) {c : M3 ℚ}
    (hb : Spec.WithinM (10 ^ 5) (0, 0, 0) (smulM (1 / (N : ℚ)) (castM m))) (hc : Spec.WithinM (1 / 10 ^ 8) (smulM (1 / (N : ℚ)) (castM m)) c) :
    isIntAround64 c = true ↔ ∃ k, m = smulM N k := by
  have e : ∀ x : ℤ, (1 / (N : ℚ)) * (x : ℚ) = (x : ℚ) / N := fun x => by ring
  obtain ⟨⟨m1, m2, m3⟩, ⟨m4, m5, m6⟩, ⟨m7, m8, m9⟩⟩ := m
  obtain ⟨⟨c1, c2, c3⟩, ⟨c4, c5, c6⟩, ⟨c7, c8, c9⟩⟩ := c
  simp only [Spec.WithinM, Spec.Within, smulM, castM, castV, V3.map, e, Prod.fst_zero, Prod.snd_zero, sub_zero] at hb hc
  obtain ⟨⟨b1, b2, b3⟩, ⟨b4, b5, b6⟩, ⟨b7, b8, b9⟩⟩ := hb
  obtain ⟨⟨d1, d2, d3⟩, ⟨d4, d5, d6⟩, ⟨d7, d8, d9⟩⟩ := hc
  simp only [isIntAround64, V3.toList, List.cons_append, List.nil_append, List.all_cons,
    List.all_nil, Bool.and_eq_true, beq_iff_eq, and_true, isInt64 h0 hN b1 d1, isInt64 h0 hN b2 d2, isInt64 h0 hN b3 d3, isInt64 h0 hN b4 d4,
    isInt64 h0 hN b5 d5, isInt64 h0 hN b6 d6, isInt64 h0 hN b7 d7, isInt64 h0 hN b8 d8, isInt64 h0 hN b9 d9]
  constructor
  · rintro ⟨⟨a, ha⟩, ⟨b, hb⟩, ⟨c, hc⟩, ⟨d, hd⟩, ⟨x, hx⟩, ⟨f, hf⟩, ⟨g, hg⟩, ⟨h, hh⟩, ⟨i, hi⟩⟩
    refine ⟨((a, b, c), (d, x, f), (g, h, i)), ?_⟩
    simp only [smulM, V3.map]
    ext <;> simp only <;> assumption
  · rintro ⟨⟨⟨a, b, c⟩, ⟨d, x, f⟩, ⟨g, h, i⟩⟩, hk⟩
    simp only [smulM, V3.map, Prod.mk.injEq] at hk
    obtain ⟨⟨k1, k2, k3⟩, ⟨k4, k5, k6⟩, ⟨k7, k8, k9⟩⟩ := hk
    exact ⟨⟨a, k1⟩, ⟨b, k2⟩, ⟨c, k3⟩, ⟨d, k4⟩, ⟨x, k5⟩, ⟨f, k6⟩, ⟨g, k7⟩, ⟨h, k8⟩, ⟨i, k9⟩⟩

/-- **C88, equality.** If the matrices `other · (rᵀ)⁻¹ · self⁻¹` are computed to within `10⁻⁸` (and are not huge), the equality test of
two superlattices of the same index below 2000 in double precision is True exactly when a rotation maps one onto the other. -/
theorem C88_equality (s t : SLCell) (n : ℕ) (h0 : 0 < n) (hn : n < 2000)
    (hs : (rowLattice s.latCoeff).index = n) (ht : (rowLattice t.latCoeff).index = n) (hr : ∀ r ∈ s.rots, Unimodular r)
    (comp : M3 ℤ → M3 ℚ)
    (hc : ∀ r ∈ s.rots, ∀ ri si, inv (castM (transpose r)) = .ok ri → inv (castM s.latCoeff) = .ok si →
      Spec.WithinM (10 ^ 5) (0, 0, 0) (matMul (matMul (castM t.latCoeff) ri) si) ∧
      Spec.WithinM (1 / 10 ^ 8) (matMul (matMul (castM t.latCoeff) ri) si) (comp r)) :
    slEqLoop64 comp s.rots = true ↔ ∃ r ∈ s.rots, (rowLattice s.latCoeff).map (rot r) = rowLattice t.latCoeff := by
  have hd : det s.latCoeff ≠ 0 := by rw [rowLattice_index] at hs; omega
  generalize s.rots = rots at hr hc
  induction rots with
  | nil => simp [slEqLoop64]
  | cons r rs ih =>
    have ih' := ih (fun r hr' => hr r (List.mem_cons_of_mem _ hr')) (fun r hr' => hc r (List.mem_cons_of_mem _ hr'))
    obtain ⟨ri, si, t1, t2, t3⟩ := slEq_test (hr r (by simp)) hs ht h0 hn
    obtain ⟨b1, b2⟩ := hc r (by simp) ri si t1 t2
    have hdr : det (transpose r) = 1 ∨ det (transpose r) = -1 := by rw [det_transpose]; exact unimodular_det.1 (hr r (by simp))
    have hdr0 : det (transpose r) ≠ 0 := by omega
    have e1 := Except.ok.inj ((inv_castM hdr0).symm.trans t1)
    have e2 := Except.ok.inj ((inv_castM hd).symm.trans t2)
    rw [← e1, ← e2, test_eq] at b1 b2 t3
    have hN0 : det (transpose r) * det s.latCoeff ≠ 0 := mul_ne_zero hdr0 hd
    have hN : |det (transpose r) * det s.latCoeff| < 2000 := by
      rw [rowLattice_index] at hs
      rw [abs_mul]
      have : |det (transpose r)| = 1 := by rcases hdr with h | h <;> rw [h] <;> rfl
      rw [this, one_mul, Int.abs_eq_natAbs]; omega
    have key : isIntAround64 (comp r) = true ↔ (rowLattice s.latCoeff).map (rot r) = rowLattice t.latCoeff := by
      rw [isIntAround64_iff hN0 hN _ b1 b2, ← t3, isIntAround_iff hN0 hN]
    unfold slEqLoop64
    by_cases h : isIntAround64 (comp r) = true
    · rw [if_pos h]
      exact ⟨fun _ => ⟨r, by simp, key.1 h⟩, fun _ => rfl⟩
    · rw [if_neg h]
      refine Iff.trans ih' ?_
      constructor
      · rintro ⟨r', hr', h'⟩; exact ⟨r', List.mem_cons_of_mem _ hr', h'⟩
      · rintro ⟨r', hr', h'⟩
        rcases List.mem_cons.1 hr' with rfl | hr'
        · exact absurd (key.2 h') h
        · exact ⟨r', hr', h'⟩

/-! ## interior points -/

theorem inCell1_64_iff {n w : ℤ} (h0 : 0 < n) (hn : n < 90000) {x' : ℚ} (hc : |x' - 1 / (n : ℚ) * w| ≤ 1 / 10 ^ 6) :
    inCell1_64 x' = true ↔ 0 ≤ w ∧ w < n := by
  have hq : (0 : ℚ) < n := by exact_mod_cast h0
  have hn' : (n : ℚ) ≤ 89999 := by exact_mod_cast (by omega : n ≤ 89999)
  have e1 := fl64_err_le (x := -1 / 100000) le_rfl (by norm_num [abs_le])
  have e2 := fl64_err_le (x := 99999 / 100000) le_rfl (by norm_num [abs_le])
  have hstep : ∀ k : ℤ, 1 ≤ k → (1 : ℚ) / 89999 ≤ 1 / (n : ℚ) * k := by
    intro k hk
    have hk' : (1 : ℚ) ≤ k := by exact_mod_cast hk
    rw [one_div_mul_eq_div, div_le_div_iff₀ (by norm_num) hq]
    nlinarith
  have hn1 : 1 / (n : ℚ) * n = 1 := by field_simp
  rw [abs_le] at e1 e2 hc
  simp only [inCell1_64, Bool.and_eq_true, decide_eq_true_eq]
  constructor
  · rintro ⟨h1, h2⟩
    constructor
    · by_contra hw
      have := hstep (-w) (by omega)
      push_cast at this
      linarith
    · by_contra hw
      have h3 : (0 : ℚ) ≤ 1 / (n : ℚ) * (w - n) := by
        have : (n : ℚ) ≤ w := by exact_mod_cast (not_lt.1 hw)
        have : (0 : ℚ) ≤ w - n := by linarith
        positivity
      rw [mul_sub, hn1] at h3
      linarith
  · rintro ⟨h1, h2⟩
    have h1' : (0 : ℚ) ≤ 1 / (n : ℚ) * w := by
      have : (0 : ℚ) ≤ w := by exact_mod_cast h1
      positivity
    have h3 := hstep (n - w) (by omega)
    push_cast at h3
    rw [mul_sub, hn1] at h3
    constructor <;> linarith

theorem mem_scan {h : M3 ℤ} {B : ℤ} (hB : ∀ r ∈ [h.1, h.2.1, h.2.2], r.1 ≤ B ∧ r.2.1 ≤ B ∧ r.2.2 ≤ B) {v : V3 ℤ}
    (hv : v ∈ intCoords (amax h * 3).toNat) :
    (0 ≤ v.1 ∧ v.1 < 3 * B) ∧ (0 ≤ v.2.1 ∧ v.2.1 < 3 * B) ∧ (0 ≤ v.2.2 ∧ v.2.2 < 3 * B) := by
  simp only [List.mem_cons, List.not_mem_nil, or_false, forall_eq_or_imp, forall_eq] at hB
  have : amax h ≤ B := by unfold amax; omega
  rw [mem_intCoords] at hv
  omega

/-- **C88, interior points.** If the fractional coordinates of the scanned integer points (between zero and three times the largest
entry) are computed to within `10⁻⁶`, the points selected in double precision
are the interior points that exact arithmetic selects, in the same order (index below 90000). -/
theorem C88_interior (h : M3 ℤ) (ht : Triangular h) (n : ℕ) (hn : n = h.1.1 * h.2.1.2.1 * h.2.2.2.2) (hb : n < 90000) (B : ℤ)
    (hB : ∀ r ∈ [h.1, h.2.1, h.2.2], r.1 ≤ B ∧ r.2.1 ≤ B ∧ r.2.2 ≤ B) (comp : V3 ℤ → V3 ℚ)
    (hc : ∀ hi, inv (castM h) = .ok hi → ∀ v : V3 ℤ, (0 ≤ v.1 ∧ v.1 < 3 * B) ∧ (0 ≤ v.2.1 ∧ v.2.1 < 3 * B) ∧ (0 ≤ v.2.2 ∧ v.2.2 < 3 * B) →
      Spec.Within (1 / 10 ^ 6) (vecMul (castV v) hi) (comp v)) :
    ∃ pts : List (V3 ℤ), pts.length = n ∧
      (∀ v ∈ pts, (0 ≤ v.1 ∧ v.1 < 3 * B) ∧ (0 ≤ v.2.1 ∧ v.2.1 < 3 * B) ∧ (0 ≤ v.2.2 ∧ v.2.2 < 3 * B)) ∧
      fracFrom h = .ok (pts.map fun v => toFrac h (castV v)) ∧ fracFrom64 comp h = .ok (pts.map comp) := by
  have h0 := det_pos ht
  have hd : det h = n := by rw [det_triangular ht, hn]
  have hmax : ¬ amax h ≤ 0 := by have := (le_amax h).1; have := ht.2.2.2.1; omega
  have hc' := hc _ (inv_castM h0.ne')
  have hmem := fun v => mem_scan (v := v) hB
  have hsel : ∀ v ∈ intCoords (amax h * 3).toNat, inCell64 (comp v) = inCell (toFrac h (castV v)) := by
    intro v hv
    obtain ⟨c1, c2, c3⟩ := hc' v (hmem v hv)
    have hcv : vecMul (castV v) (smulM (1 / ((det h : ℤ) : ℚ)) (castM (adj h))) = toFrac h (castV v) := rfl
    rw [hcv, toFrac_int] at c1 c2 c3
    rw [Bool.eq_iff_iff, inCell_iff h0 (by rw [hd]; omega)]
    unfold inCell64
    rw [Bool.and_eq_true, Bool.and_eq_true, inCell1_64_iff h0 (by rw [hd]; omega) c1, inCell1_64_iff h0 (by rw [hd]; omega) c2,
      inCell1_64_iff h0 (by rw [hd]; omega) c3, and_assoc]
    rfl
  obtain ⟨pts', p1, p2, p3, p4⟩ := fracFrom_eq ht (by rw [hd]; omega)
  set pts := (intCoords (amax h * 3).toNat).filter (fun v => inCell (toFrac h (castV v))) with hpts
  have hfr : fracFrom h = .ok (pts.map fun v => toFrac h (castV v)) := by
    unfold fracFrom
    rw [inv_castM h0.ne']
    simp only [bind, Except.bind, if_neg hmax, pure, Except.pure]
    rw [List.filter_map]
    rfl
  refine ⟨pts, ?_, fun v hv => hmem v (List.mem_filter.1 hv).1, hfr, ?_⟩
  · have := congrArg List.length (Except.ok.inj (p1.symm.trans hfr))
    rw [List.length_map, List.length_map] at this
    rw [← this, p4, hd]; simp
  · unfold fracFrom64
    rw [if_neg hmax, List.filter_map]
    congr 2
    apply List.filter_congr
    intro v hv
    exact hsel v hv

/-- **C88, enlarged cells.** `to_general_cell` and `supercell` in double precision: if the positions in the new basis and the interior
points are computed to within `10⁻¹¹`, and no coordinate of the exact result is a close call, the computed cell lists the same atoms in
the same order, at positions faithful to the exact ones. -/
theorem C88_supercell (lattice latt : M3 ℚ) (ps : List (V3 ℚ)) (numbers : List ℤ) (h0 : ps ≠ []) (hl : ps.length = numbers.length)
    (h : M3 ℤ) (ht : Triangular h) (n : ℕ) (hn : n = h.1.1 * h.2.1.2.1 * h.2.2.2.2) (hb : n < 90000) (B : ℤ)
    (hB : ∀ r ∈ [h.1, h.2.1, h.2.2], r.1 ≤ B ∧ r.2.1 ≤ B ∧ r.2.2 ≤ B) (oUnit : List (V3 ℚ)) (comp : V3 ℤ → V3 ℚ)
    (hu : ∀ hi, inv (castM h) = .ok hi → List.Forall₂ (fun p u => Spec.Within (1 / 10 ^ 11) (vecMul p hi) u) ps oUnit)
    (hc : ∀ hi, inv (castM h) = .ok hi → ∀ v : V3 ℤ, (0 ≤ v.1 ∧ v.1 < 3 * B) ∧ (0 ≤ v.2.1 ∧ v.2.1 < 3 * B) ∧ (0 ≤ v.2.2 ∧ v.2.2 < 3 * B) →
      Spec.Within (1 / 10 ^ 11) (vecMul (castV v) hi) (comp v))
    (hs : ∀ c, enlarge lattice ps numbers h = .ok c → ∀ x ∈ c.positions, Spec.All3 (fun t => |t| ≤ 1000 ∧ Spec.Clear (1 / 10 ^ 6) t) x) :
    ∃ c c', enlarge lattice ps numbers h = .ok c ∧ enlarge64 latt oUnit numbers comp h = .ok c' ∧
      c'.numbers = c.numbers ∧ List.Forall₂ Spec.Faithful3 c.positions c'.positions := by
  have hd0 := det_pos ht
  have hu' := hu _ (inv_castM hd0.ne')
  have hc' := hc _ (inv_castM hd0.ne')
  obtain ⟨pts, l1, l4, l2, l3⟩ := C88_interior h ht n hn hb B hB comp fun hi e v hv => by
    obtain ⟨a, b, c⟩ := hc hi e v hv
    exact ⟨a.trans (by norm_num), b.trans (by norm_num), c.trans (by norm_num)⟩
  have hn0 : 0 < n := by
    have : (0 : ℤ) < h.1.1 * h.2.1.2.1 * h.2.2.2.2 := by
      have := ht.2.2.2.1; have := ht.2.2.2.2.1; have := ht.2.2.2.2.2.1; positivity
    omega
  have hrep : repeatNumbers numbers (diagProd h) = .ok (numbers.flatMap fun z => List.replicate n z) := by
    unfold repeatNumbers diagProd
    rw [← hn, if_neg (by omega)]; simp
  set pos := (ps.map fun p => vecMul p (smulM (1 / ((det h : ℤ) : ℚ)) (castM (adj h)))).flatMap fun x =>
    (pts.map fun v => toFrac h (castV v)).map fun o => x + o with hpos
  set pos' := oUnit.flatMap fun x => (pts.map comp).map fun o => V3.map fl64 (x + o) with hpos'
  have hex : enlarge lattice ps numbers h = GCell.new (matMul (castM h) lattice) pos (numbers.flatMap fun z => List.replicate n z) := by
    unfold enlarge
    rw [inv_castM hd0.ne', l2]
    simp only [bind, Except.bind, hrep]
    rw [if_neg (by simpa using h0)]
  have hou : oUnit ≠ [] := by
    rintro rfl
    exact h0 (List.length_eq_zero_iff.1 hu'.length_eq)
  have hco : enlarge64 latt oUnit numbers comp h = GCell.new64 latt pos' (numbers.flatMap fun z => List.replicate n z) := by
    unfold enlarge64
    rw [l3]
    simp only [bind, Except.bind, hrep]
    rw [if_neg hou]
  have hlen : pos.length = ps.length * n := by
    rw [hpos, List.length_flatMap]; simp [l1, Function.comp_def]
  have hpne : pos ≠ [] := by
    intro e
    rw [e, List.length_nil] at hlen
    have : 0 < ps.length * n := Nat.mul_pos (List.length_pos_iff.2 h0) hn0
    omega
  have hnl : pos.length ≤ (numbers.flatMap fun z => List.replicate n z).length := by
    rw [hlen, List.length_flatMap]; simp [hl]
  obtain ⟨qs, ns, f1, f2, hnew⟩ := new_spec (matMul (castM h) lattice) hpne hnl
  have hperm : qs.Perm pos := fancy_perm f1 (by
    have := lexsort3_perm (pos.map siteKey); rwa [List.length_map] at this)
  have hsafe : ∀ x ∈ pos, Spec.All3 (fun t => |t| ≤ 1000 ∧ Spec.Clear (1 / 10 ^ 6) t) x := fun x hx =>
    hs _ (hex.trans hnew) x (hperm.mem_iff.2 hx)
  have hclose : List.Forall₂ (fun x y : V3 ℚ => Spec.All3 (fun t => |t| ≤ 1000) x → Spec.Within (1 / 10 ^ 10) x y) pos pos' := by
    rw [hpos, hpos', List.flatMap_map]
    refine List.rel_flatMap (R := fun p u => Spec.Within (1 / 10 ^ 11) (vecMul p (smulM (1 / ((det h : ℤ) : ℚ)) (castM (adj h)))) u) hu' ?_
    intro p u hpu
    beta_reduce
    rw [List.map_map, List.map_map, List.forall₂_map_left_iff, List.forall₂_map_right_iff, List.forall₂_same]
    intro v hvp
    have hv := hc' v (l4 v hvp)
    have hcv : vecMul (castV v) (smulM (1 / ((det h : ℤ) : ℚ)) (castM (adj h))) = toFrac h (castV v) := rfl
    rw [hcv] at hv
    intro hbd
    simp only [Function.comp]
    have key : ∀ a b a' b' : ℚ, |a' - a| ≤ 1 / 10 ^ 11 → |b' - b| ≤ 1 / 10 ^ 11 → |a + b| ≤ 1000 → |fl64 (a' + b') - (a + b)| ≤ 1 / 10 ^ 10 := by
      intro a b a' b' k1 k2 k3
      have hbb : |a' + b'| ≤ 1001 := by rw [abs_le] at *; constructor <;> linarith
      have := fl64_err_le (by norm_num) hbb
      rw [abs_le] at *
      constructor <;> linarith
    exact ⟨key _ _ _ _ hpu.1 hv.1 hbd.1, key _ _ _ _ hpu.2.1 hv.2.1 hbd.2.1, key _ _ _ _ hpu.2.2 hv.2.2 hbd.2.2⟩
  have hfaith : List.Forall₂ Spec.Faithful3 pos pos' := by
    have := (List.forall₂_and_left (p := fun x => Spec.All3 (fun t => |t| ≤ 1000 ∧ Spec.Clear (1 / 10 ^ 6) t) x) pos pos').2 ⟨hsafe, hclose⟩
    refine this.imp ?_
    rintro x y ⟨⟨s1, s2, s3⟩, hw⟩
    obtain ⟨w1, w2, w3⟩ := hw ⟨s1.1, s2.1, s3.1⟩
    exact ⟨⟨s1.1.trans (by norm_num), .inl ⟨w1, s1.2⟩⟩, ⟨s2.1.trans (by norm_num), .inl ⟨w2, s2.2⟩⟩,
      ⟨s3.1.trans (by norm_num), .inl ⟨w3, s3.2⟩⟩⟩
  obtain ⟨c, c', k1, k2, _, _, k5, _, k7⟩ := C87_cell (matMul (castM h) lattice) latt pos pos' _ hpne hnl hfaith
  exact ⟨c, c', hex.trans k1, hco.trans k2, k5, k7⟩

/-! ## the hypotheses are met -/

/-- the three interior points of a tripled cell, with the inverse matrix and the products rounded: `1/3` and `2/3` are not exact -/
def exThird : V3 ℤ → V3 ℚ := fun v => ((v.1 : ℚ), (v.2.1 : ℚ), fl64 ((v.2.2 : ℚ) * fl64 (1 / 3)))

theorem exThird_close (v : V3 ℤ) (h0 : 0 ≤ v.2.2) (h1 : v.2.2 < 9) :
    Spec.Within (1 / 10 ^ 11) (vecMul (castV v) ((1, 0, 0), (0, 1, 0), (0, 0, 1 / 3))) (exThird v) := by
  obtain ⟨a, b, c⟩ := v
  have : ∀ k ∈ List.range 9, |fl64 (((k : ℤ) : ℚ) * fl64 (1 / 3)) - ((k : ℤ) : ℚ) * (1 / 3)| ≤ 1 / 10 ^ 11 := by decide +kernel
  have h := this c.toNat (List.mem_range.2 (by simp only at h1; omega))
  rw [Int.toNat_of_nonneg h0] at h
  simpa [Spec.Within, vecMul, castV, V3.map, exThird] using h

theorem clear_third (k : ℤ) : Spec.Clear (1 / 10 ^ 6) ((k : ℚ) / 3) := by
  intro m
  have h : (1 : ℚ) / 6 ≤ |1000 * ((k : ℚ) / 3) - (m + 1 / 2)| := by
    have e : 1000 * ((k : ℚ) / 3) - (m + 1 / 2) = ((2000 * k - 6 * m - 3 : ℤ) : ℚ) / 6 := by push_cast; ring
    rw [e, abs_div, ← Int.cast_abs]
    have : (1 : ℤ) ≤ |2000 * k - 6 * m - 3| := Int.one_le_abs (by omega)
    have : (1 : ℚ) ≤ (|2000 * k - 6 * m - 3| : ℤ) := by exact_mod_cast this
    rw [abs_of_pos (by norm_num : (0 : ℚ) < 6)]
    linarith
  exact lt_of_lt_of_le (by norm_num) h

/-- tripling a cell along its axis: the computed cell has the computed, not the exact, thirds as positions -/
example : ∃ c c', enlarge ((3, 0, 0), (0, 3, 0), (0, 0, 3)) [(0, 0, 0)] [29] ((1, 0, 0), (0, 1, 0), (0, 0, 3)) = .ok c ∧
    enlarge64 ((3, 0, 0), (0, 3, 0), (0, 0, 9)) [(0, 0, 0)] [29] exThird ((1, 0, 0), (0, 1, 0), (0, 0, 3)) = .ok c' ∧
      c'.numbers = c.numbers ∧ List.Forall₂ Spec.Faithful3 c.positions c'.positions := by
  have hi : inv (castM ((1, 0, 0), (0, 1, 0), (0, 0, 3))) = .ok ((1, 0, 0), (0, 1, 0), (0, 0, 1 / 3)) := by decide +kernel
  refine C88_supercell _ _ _ _ (by decide) (by decide) _ (by unfold Triangular; decide) 3 (by decide) (by norm_num) 3 (by decide) _ _ ?_ ?_ ?_
  · intro hi' e
    rw [hi] at e
    obtain rfl := Except.ok.inj e
    refine .cons ?_ .nil
    simp [Spec.Within, vecMul]
  · intro hi' e v hv
    rw [hi] at e
    obtain rfl := Except.ok.inj e
    exact exThird_close v hv.2.2.1 hv.2.2.2
  · intro c hc x hx
    have hd : enlarge ((3, 0, 0), (0, 3, 0), (0, 0, 3)) [(0, 0, 0)] [29] ((1, 0, 0), (0, 1, 0), (0, 0, 3)) =
        .ok ⟨((3, 0, 0), (0, 3, 0), (0, 0, 9)), [(0, 0, 0), (0, 0, 1 / 3), (0, 0, 2 / 3)], [29, 29, 29], [29, 29, 29], 3⟩ := by
      decide +kernel
    obtain rfl := Except.ok.inj (hc.symm.trans hd)
    have k0 : |(0 : ℚ)| ≤ 1000 ∧ Spec.Clear (1 / 10 ^ 6) 0 := ⟨by norm_num, by simpa using clear_third 0⟩
    have k1 : |(1 / 3 : ℚ)| ≤ 1000 ∧ Spec.Clear (1 / 10 ^ 6) (1 / 3) := ⟨by norm_num [abs_le], by simpa using clear_third 1⟩
    have k2 : |(2 / 3 : ℚ)| ≤ 1000 ∧ Spec.Clear (1 / 10 ^ 6) (2 / 3) := ⟨by norm_num [abs_le], by simpa using clear_third 2⟩
    simp only [List.mem_cons, List.not_mem_nil, or_false] at hx
    rcases hx with rfl | rfl | rfl
    · exact ⟨k0, k0, k0⟩
    · exact ⟨k0, k0, k1⟩
    · exact ⟨k0, k0, k2⟩

example : (enlarge64 ((3, 0, 0), (0, 3, 0), (0, 0, 9)) [(0, 0, 0)] [29] exThird ((1, 0, 0), (0, 1, 0), (0, 0, 3))).map (·.positions) =
    .ok [(0, 0, 0), (0, 0, fl64 (1 / 3)), (0, 0, fl64 (2 / 3))] ∧ fl64 (1 / 3) ≠ 1 / 3 := by decide +kernel

/-- two superlattices of index three that a rotation exchanges, with computed matrices off by rounding -/
example : slEqLoop64 (fun r => if r = identM then ((fl64 (1 / 3), 0, 0), (0, 3, 0), (0, 0, 1)) else ((0, 1 - 1 / 2 ^ 53, 0), (1, 0, 0), (0, 0, 1)))
    [identM, ((0, 1, 0), (1, 0, 0), (0, 0, 1))] = true := by decide +kernel

example : ∃ r ∈ [identM, ((0, 1, 0), (1, 0, 0), (0, 0, 1))],
    (rowLattice ((3, 0, 0), (0, 1, 0), (0, 0, 1))).map (rot r) = rowLattice ((1, 0, 0), (0, 3, 0), (0, 0, 1)) := by
  let s : SLCell := ⟨identM, [(0, 0, 0)], [29], ((3, 0, 0), (0, 1, 0), (0, 0, 1)), [identM, ((0, 1, 0), (1, 0, 0), (0, 0, 1))]⟩
  let t : SLCell := ⟨identM, [(0, 0, 0)], [29], ((1, 0, 0), (0, 3, 0), (0, 0, 1)), [identM, ((0, 1, 0), (1, 0, 0), (0, 0, 1))]⟩
  let comp : M3 ℤ → M3 ℚ := fun r =>
    if r = identM then ((fl64 (1 / 3), 0, 0), (0, 3, 0), (0, 0, 1)) else ((0, 1 - 1 / 2 ^ 53, 0), (1, 0, 0), (0, 0, 1))
  refine (C88_equality s t 3 (by decide) (by decide) ?_ ?_ ?_ comp ?_).1 (by decide +kernel)
  · rw [rowLattice_index]; decide
  · rw [rowLattice_index]; decide
  · intro r hr
    rw [unimodular_det]
    revert r; decide
  · intro r hr ri si h1 h2
    have hs : inv (castM s.latCoeff) = .ok ((1 / 3, 0, 0), (0, 1, 0), (0, 0, 1)) := by decide +kernel
    obtain rfl := Except.ok.inj (hs.symm.trans h2)
    have hr' : r = identM ∨ r = ((0, 1, 0), (1, 0, 0), (0, 0, 1)) := by simpa [s] using hr
    rcases hr' with rfl | rfl
    · have hri : inv (castM (transpose (identM : M3 ℤ))) = .ok ((1, 0, 0), (0, 1, 0), (0, 0, 1)) := by decide +kernel
      obtain rfl := Except.ok.inj (hri.symm.trans h1)
      unfold Spec.WithinM Spec.Within
      decide +kernel
    · have hri : inv (castM (transpose (((0, 1, 0), (1, 0, 0), (0, 0, 1)) : M3 ℤ))) = .ok ((0, 1, 0), (1, 0, 0), (0, 0, 1)) := by decide +kernel
      obtain rfl := Except.ok.inj (hri.symm.trans h1)
      unfold Spec.WithinM Spec.Within
      decide +kernel

/-- a computed inverse that is off by a rounding error: thirds -/
example : isIntAround64 ((fl64 (1 / 3) * 3, 0, 0), (0, 1, 0), (0, 0, 1)) = true ∧
    isIntAround64 ((fl64 (1 / 3), 0, 0), (0, 1, 0), (0, 0, 1)) = false := by decide +kernel

end Verif
