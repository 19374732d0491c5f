import Verif.Props.SuperEq

/-! # C30, C31 beyond index 1999

The comparison of superlattices rounds to three decimals. Below index 2000 this does no harm (C30, C31); here: from index 2000 on it
always does. -/

namespace Verif
open Spec

theorem rint_small {x : ℚ} (h1 : -(1 / 2) ≤ x) (h2 : x ≤ 1 / 2) : rint x = 0 := by
  have e1 : rint (1 / 2) = 0 := by decide +kernel
  have e2 : rint (-(1 / 2)) = 0 := by decide +kernel
  exact le_antisymm (e1 ▸ rint_mono h2) (e2 ▸ rint_mono h1)

theorem mod1_around_small {x : ℚ} (h1 : -(1 / 2000) ≤ x) (h2 : x ≤ 1 / 2000) : mod1 (around 3 x) = 0 := by
  have : rint (x * 10 ^ 3) = 0 := rint_small (by linarith) (by linarith)
  simp [around, this, mod1]

theorem mod1_around_nat (z : ℤ) : mod1 (around 3 (z : ℚ)) = 0 := by rw [around_int]; simp [mod1]

theorem rot_id {r : M3 ℤ} (h : ∀ v, rot r v = v) : r = identM := by
  obtain ⟨⟨a, b, c⟩, ⟨d, e, f⟩, g, i, j⟩ := r
  have h1 := h (1, 0, 0)
  have h2 := h (0, 1, 0)
  have h3 := h (0, 0, 1)
  simp only [rot, AddMonoidHom.coe_mk, ZeroHom.coe_mk, mul_one, mul_zero, add_zero, zero_add, Prod.mk.injEq] at h1 h2 h3
  obtain ⟨rfl, rfl, rfl⟩ := h1
  obtain ⟨rfl, rfl, rfl⟩ := h2
  obtain ⟨rfl, rfl, rfl⟩ := h3
  rfl

theorem trivialGroup : PointGroup [identM] where
  unimodular := by
    intro r hr
    rw [List.mem_singleton.1 hr]
    exact unimodular_det.2 (.inl (by decide))
  one := ⟨identM, by simp, fun v => by simp [rot, identM]⟩
  mul := by
    intro r hr s hs
    rw [List.mem_singleton.1 hr, List.mem_singleton.1 hs]
    exact ⟨identM, by simp, fun v => by simp [rot, identM]⟩
  inv := by
    intro r hr
    rw [List.mem_singleton.1 hr]
    exact ⟨identM, by simp, fun v => by simp [rot, identM]⟩

/-- the test passes for the identity, so the loop over a point group ends with True -/
theorem eq_of_identity {s t : SLCell} (hG : PointGroup s.rots) (hd : det s.latCoeff ≠ 0)
    (h : ∀ ri si, inv (castM (transpose identM)) = .ok ri → inv (castM s.latCoeff) = .ok si →
      isIntAround (matMul (matMul (castM t.latCoeff) ri) si) = true) : s.eq t = .ok true := by
  obtain ⟨r0, hr0, hid⟩ := hG.one
  rw [rot_id hid] at hr0
  have hu := hG.unimodular
  unfold SLCell.eq
  generalize s.rots = rots at hr0 hu
  induction rots with
  | nil => simp at hr0
  | cons r rs ih =>
    obtain ⟨ri, si, t1, t2, -⟩ := slEq_test_complete (h2 := t.latCoeff) (hu r (by simp)) hd
    unfold slEqLoop
    simp only [t1, t2, bind, Except.bind]
    rcases List.mem_cons.1 hr0 with rfl | hr0
    · rw [if_pos (h ri si t1 t2)]; rfl
    · split
      · rfl
      · exact ih hr0 fun r hr => hu r (List.mem_cons_of_mem _ hr)

theorem confused_3d {n : ℕ} (hn : 2000 ≤ n) {x y : ℤ} (hxy : -1 ≤ y - x ∧ y - x ≤ 1) {s t : SLCell} (hG : PointGroup s.rots)
    (hs : s.latCoeff = tri 1 0 x 1 0 n) (ht : t.latCoeff = tri 1 0 y 1 0 n) : s.eq t = .ok true := by
  have hn0 : (n : ℚ) ≠ 0 := by positivity
  have hnq : (2000 : ℚ) ≤ n := by exact_mod_cast hn
  refine eq_of_identity hG (by rw [hs, det_tri]; simp; omega) fun ri si h1 h2 => ?_
  rw [ht]
  rw [hs] at h2
  rw [inv_castM (by decide)] at h1
  rw [inv_castM (by rw [det_tri]; simp; omega), det_tri] at h2
  injection h1 with h1
  injection h2 with h2
  subst h1 h2
  have e : matMul (matMul (castM (tri 1 0 y 1 0 n)) (smulM (1 / ((det (transpose identM) : ℤ) : ℚ)) (castM (adj (transpose identM)))))
      (smulM (1 / (((1 * 1 * (n : ℤ) : ℤ)) : ℚ)) (castM (adj (tri 1 0 x 1 0 n)))) =
      ((1, 0, (y - x : ℚ) / n), (0, 1, 0), (0, 0, 1)) := by
    simp [matMul, castM, castV, V3.map, vecMul, smulM, adj, transpose, identM, det]
    refine ⟨⟨?_, ?_⟩, ?_, ?_⟩ <;> field_simp <;> ring
  rw [e]
  have z0 := mod1_around_nat 0
  have z1 := mod1_around_nat 1
  have zx : mod1 (around 3 ((y - x : ℚ) / n)) = 0 := by
    have b1 : (-1 : ℚ) ≤ y - x := by exact_mod_cast hxy.1
    have b2 : (y - x : ℚ) ≤ 1 := by exact_mod_cast hxy.2
    refine mod1_around_small ?_ ?_
    · rw [le_div_iff₀ (by positivity)]; linarith
    · rw [div_le_iff₀ (by positivity)]; linarith
  simp only [Int.cast_zero, Int.cast_one] at z0 z1
  simp [isIntAround, V3.toList, z0, z1, zx]

theorem confused_2d {n : ℕ} (hn : 2000 ≤ n) {x y : ℤ} (hxy : -1 ≤ y - x ∧ y - x ≤ 1) {s t : SLCell} (hG : PointGroup s.rots)
    (hs : s.latCoeff = tri 1 x 0 n 0 1) (ht : t.latCoeff = tri 1 y 0 n 0 1) : s.eq t = .ok true := by
  have hn0 : (n : ℚ) ≠ 0 := by positivity
  have hnq : (2000 : ℚ) ≤ n := by exact_mod_cast hn
  refine eq_of_identity hG (by rw [hs, det_tri]; simp; omega) fun ri si h1 h2 => ?_
  rw [ht]
  rw [hs] at h2
  rw [inv_castM (by decide)] at h1
  rw [inv_castM (by rw [det_tri]; simp; omega), det_tri] at h2
  injection h1 with h1
  injection h2 with h2
  subst h1 h2
  have e : matMul (matMul (castM (tri 1 y 0 n 0 1)) (smulM (1 / ((det (transpose identM) : ℤ) : ℚ)) (castM (adj (transpose identM)))))
      (smulM (1 / (((1 * (n : ℤ) * 1 : ℤ)) : ℚ)) (castM (adj (tri 1 x 0 n 0 1)))) =
      ((1, (y - x : ℚ) / n, 0), (0, 1, 0), (0, 0, 1)) := by
    simp [matMul, castM, castV, V3.map, vecMul, smulM, adj, transpose, identM, det]
    refine ⟨⟨?_, ?_⟩, ?_, ?_⟩ <;> field_simp <;> ring
  rw [e]
  have z0 := mod1_around_nat 0
  have z1 := mod1_around_nat 1
  have zx : mod1 (around 3 ((y - x : ℚ) / n)) = 0 := by
    have b1 : (-1 : ℚ) ≤ y - x := by exact_mod_cast hxy.1
    have b2 : (y - x : ℚ) ≤ 1 := by exact_mod_cast hxy.2
    refine mod1_around_small ?_ ?_
    · rw [le_div_iff₀ (by positivity)]; linarith
    · rw [div_le_iff₀ (by positivity)]; linarith
  simp only [Int.cast_zero, Int.cast_one] at z0 z1
  simp [isIntAround, V3.toList, z0, z1, zx]

/-- C30 fails at every index from 2000 on: two different sublattices are reported equal although the only rotation is the identity.
Together with `C30_equality_partial`: the test is right for all pairs of index `n` exactly if `n < 2000`. -/
theorem C30_false_from_2000 (n : ℕ) (hn : 2000 ≤ n) : ∃ s t : SLCell, s.rots = [identM] ∧ t.rots = [identM] ∧
    (rowLattice s.latCoeff).index = n ∧ (rowLattice t.latCoeff).index = n ∧
    s.eq t = .ok true ∧ ¬ ∃ r ∈ s.rots, (rowLattice s.latCoeff).map (rot r) = rowLattice t.latCoeff := by
  refine ⟨⟨identM, [(0, 0, 0)], [29], tri 1 0 0 1 0 n, [identM]⟩, ⟨identM, [(0, 0, 0)], [29], tri 1 0 1 1 0 n, [identM]⟩,
    rfl, rfl, ?_, ?_, confused_3d hn (x := 0) (y := 1) (by decide) trivialGroup rfl rfl, ?_⟩
  · rw [rowLattice_index, det_tri]; simp
  · rw [rowLattice_index, det_tri]; simp
  · rintro ⟨r, hr, h⟩
    rw [List.mem_singleton.1 hr] at h
    have hm : ((1, 0, 0) : V3 ℤ) ∈ rowLattice (tri 1 0 1 1 0 n) := by
      rw [← h]
      refine AddSubgroup.mem_map.2 ⟨(1, 0, 0), mem_tri.2 ⟨1, 0, 0, by simp, by simp, by simp⟩, ?_⟩
      simp [rot, identM]
    obtain ⟨k1, k2, k3, e1, e2, e3⟩ := mem_tri.1 hm
    simp only at e1 e2 e3
    have : k3 * (n : ℤ) = -1 := by linarith
    have hd : (n : ℤ) ∣ 1 := ⟨-k3, by linarith⟩
    have := Int.le_of_dvd one_pos hd
    omega

/-! ## the generators -/

/-- the test between an earlier and a later superlattice, in the operand order of the interpreter -/
def slTest (itemFirst : Bool) (x h : SLCell) : Py Bool := if itemFirst then x.eq h else h.eq x

theorem eq_ok {rots : List (M3 ℤ)} (hG : PointGroup rots) {n : ℕ} (h0 : 0 < n) {s t : SLCell} (hs : SLGood rots n s) :
    ∃ b, s.eq t = .ok b := by
  obtain ⟨b, h, -⟩ := C30_no_false_negative_partial s t (by rw [hs.2]; omega) (by rw [hs.1]; exact hG.unimodular)
  exact ⟨b, h⟩

theorem slMem_ok {rots : List (M3 ℤ)} (hG : PointGroup rots) {n : ℕ} (h0 : 0 < n) (itemFirst : Bool) {h : SLCell}
    (hh : SLGood rots n h) (acc : List SLCell) (ha : ∀ x ∈ acc, SLGood rots n x) :
    ∃ b, slMem itemFirst h acc = .ok b ∧ (b = false → ∀ x ∈ acc, slTest itemFirst x h = .ok false) := by
  induction acc with
  | nil => exact ⟨false, rfl, by simp⟩
  | cons x acc ih =>
    obtain ⟨b, e1, e2⟩ := ih (fun x hx => ha x (List.mem_cons_of_mem _ hx))
    have key : ∃ b0, slTest itemFirst x h = .ok b0 := by
      unfold slTest
      split
      · exact eq_ok hG h0 (ha x (by simp))
      · exact eq_ok hG h0 hh
    obtain ⟨b0, f1⟩ := key
    unfold slMem
    change ∃ b, (do if ← slTest itemFirst x h then return true else slMem itemFirst h acc) = .ok b ∧ _
    rw [f1]
    simp only [bind, Except.bind]
    cases b0 with
    | true => exact ⟨true, rfl, by simp⟩
    | false =>
      refine ⟨b, by simpa using e1, fun hb y hy => ?_⟩
      rcases List.mem_cons.1 hy with rfl | hy
      · exact f1
      · exact e2 hb y hy

theorem nodupLoop_ok {rots : List (M3 ℤ)} (hG : PointGroup rots) {n : ℕ} (h0 : 0 < n) (itemFirst : Bool) (l acc : List SLCell)
    (hl : ∀ x ∈ l, SLGood rots n x) (ha : ∀ x ∈ acc, SLGood rots n x) :
    ∃ out, nodupLoop itemFirst l acc = .ok out ∧ out.Sublist (acc ++ l) ∧
      (acc.Pairwise (fun x y => slTest itemFirst x y = .ok false) → out.Pairwise (fun x y => slTest itemFirst x y = .ok false)) := by
  induction l generalizing acc with
  | nil => exact ⟨acc, rfl, by simp, id⟩
  | cons h l ih =>
    obtain ⟨b, e1, e2⟩ := slMem_ok hG h0 itemFirst (hl h (by simp)) acc ha
    unfold nodupLoop
    rw [e1]
    simp only [bind, Except.bind]
    cases b with
    | true =>
      obtain ⟨out, f1, f2, f3⟩ := ih acc (fun x hx => hl x (List.mem_cons_of_mem _ hx)) ha
      exact ⟨out, by simpa using f1, f2.trans (List.Sublist.append_left (List.sublist_cons_self h l) acc), f3⟩
    | false =>
      obtain ⟨out, f1, f2, f3⟩ := ih (acc ++ [h]) (fun x hx => hl x (List.mem_cons_of_mem _ hx)) (by
        intro x hx
        rcases List.mem_append.1 hx with hx | hx
        · exact ha x hx
        · rw [List.mem_singleton.1 hx]; exact hl h (by simp))
      refine ⟨out, by simpa using f1, by simpa using f2, fun hp => f3 ?_⟩
      rw [List.pairwise_append]
      refine ⟨hp, by simp, fun x hx y hy => ?_⟩
      rw [List.mem_singleton.1 hy]
      exact e2 rfl x hx

theorem not_both {itemFirst : Bool} {out : List SLCell} (hp : out.Pairwise (fun x y => slTest itemFirst x y = .ok false)) {s t : SLCell}
    (hs : s ∈ out) (ht : t ∈ out) (hne : s ≠ t) (h1 : s.eq t = .ok true) (h2 : t.eq s = .ok true) : False := by
  have h : ∀ x y : SLCell, (x = s ∧ y = t) ∨ (x = t ∧ y = s) → slTest itemFirst x y = .ok true := by
    rintro x y (⟨rfl, rfl⟩ | ⟨rfl, rfl⟩) <;> unfold slTest <;> split <;> assumption
  obtain ⟨i, hi, rfl⟩ := List.getElem_of_mem hs
  obtain ⟨j, hj, rfl⟩ := List.getElem_of_mem ht
  have hpw := List.pairwise_iff_getElem.1 hp
  rcases lt_trichotomy i j with hlt | heq | hgt
  · have := hpw i j hi hj hlt
    rw [h _ _ (.inl ⟨rfl, rfl⟩)] at this
    simp at this
  · subst heq; exact hne rfl
  · have := hpw j i hj hi hgt
    rw [h _ _ (.inr ⟨rfl, rfl⟩)] at this
    simp at this

theorem sameUpToIdentity {A B : AddSubgroup (V3 ℤ)} : SameUpToRotation [identM] A B ↔ A = B := by
  unfold SameUpToRotation
  have : rot identM = AddMonoidHom.id _ := by ext v : 1; simp [rot, identM]
  simp [this]

/-- **C31 fails at every index from 2000 on**: whatever the point group, the list of superlattices lacks `{z ≡ 0 mod n}` or
`{z ≡ x mod n}`, and without symmetry (only the identity) a superlattice that is equivalent to no other is lost. Together with
`C31_transversal`: the list is complete for all cells exactly if `n < 2000`. -/
theorem C31_false_from_2000 (setList : List ℕ → List ℕ) (hs : SetOrder setList) (itemFirst : Bool) (unit : GCell) (n : ℕ)
    (hn : 2000 ≤ n) :
    (∀ rots, PointGroup rots → ∃ out, hnfsFromN setList itemFirst unit rots n = .ok out ∧
      ¬ ((∃ s ∈ out, rowLattice s.latCoeff = rowLattice (tri 1 0 0 1 0 n)) ∧
        ∃ t ∈ out, rowLattice t.latCoeff = rowLattice (tri 1 0 1 1 0 n))) ∧
    ∃ out, hnfsFromN setList itemFirst unit [identM] n = .ok out ∧
      ∃ L : AddSubgroup (V3 ℤ), L.index = n ∧ ∀ s ∈ out, ¬ SameUpToRotation [identM] (rowLattice s.latCoeff) L := by
  have main : ∀ rots, PointGroup rots → ∃ out, hnfsFromN setList itemFirst unit rots n = .ok out ∧
      ¬ ((∃ s ∈ out, rowLattice s.latCoeff = rowLattice (tri 1 0 0 1 0 n)) ∧
        ∃ t ∈ out, rowLattice t.latCoeff = rowLattice (tri 1 0 1 1 0 n)) := by
    intro rots hG
    obtain ⟨l, l1, -, l3, l4⟩ := C28_hnf_exact setList hs unit rots n (by omega)
    obtain ⟨out, f1, f2, f3⟩ := nodupLoop_ok hG (n := n) (by omega) itemFirst l []
      (fun s hs => ⟨(l4 s hs).2.2.2, isHnf_index ((l3 _).1 (List.mem_map_of_mem hs))⟩) (by simp)
    rw [List.nil_append] at f2
    refine ⟨out, by unfold hnfsFromN; rw [l1]; exact f1, ?_⟩
    rintro ⟨⟨s, s1, s2⟩, t, t1, t2⟩
    have hnf : ∀ x : ℤ, 0 ≤ x → x ≤ 1 → IsHnf n (tri 1 0 x 1 0 n) := fun x h0 h1 =>
      ⟨1, 0, x, 1, 0, n, rfl, by omega, by omega, by omega, by ring, by omega, by omega, by omega⟩
    have es := isHnf_unique ((l3 _).1 (List.mem_map_of_mem (f2.subset s1))) (hnf 0 (by omega) (by omega)) s2
    have et := isHnf_unique ((l3 _).1 (List.mem_map_of_mem (f2.subset t1))) (hnf 1 (by omega) (by omega)) t2
    have rs := (l4 s (f2.subset s1)).2.2.2
    have rt := (l4 t (f2.subset t1)).2.2.2
    refine not_both (f3 List.Pairwise.nil) s1 t1 (fun h => ?_) (confused_3d hn (by decide) (rs ▸ hG) es et)
      (confused_3d hn (by decide) (rt ▸ hG) et es)
    rw [h, et] at es
    simp at es
  refine ⟨main, ?_⟩
  obtain ⟨out, h1, h2⟩ := main [identM] trivialGroup
  refine ⟨out, h1, ?_⟩
  by_contra hc
  push Not at hc
  refine h2 ⟨?_, ?_⟩
  · obtain ⟨s, s1, s2⟩ := hc (rowLattice (tri 1 0 0 1 0 n)) (by rw [rowLattice_index, det_tri]; simp)
    exact ⟨s, s1, sameUpToIdentity.1 s2⟩
  · obtain ⟨s, s1, s2⟩ := hc (rowLattice (tri 1 0 1 1 0 n)) (by rw [rowLattice_index, det_tri]; simp)
    exact ⟨s, s1, sameUpToIdentity.1 s2⟩

/-- the same for layers (2D generator) -/
theorem C31_false_from_2000_2d (setList : List ℕ → List ℕ) (hs : SetOrder setList) (itemFirst : Bool) (unit : GCell) (n : ℕ)
    (hn : 2000 ≤ n) :
    (∀ rots, PointGroup rots → ∃ out, hnfsFromN2D setList itemFirst unit rots n = .ok out ∧
      ¬ ((∃ s ∈ out, rowLattice s.latCoeff = rowLattice (tri 1 0 0 n 0 1)) ∧
        ∃ t ∈ out, rowLattice t.latCoeff = rowLattice (tri 1 1 0 n 0 1))) ∧
    ∃ out, hnfsFromN2D setList itemFirst unit [identM] n = .ok out ∧
      ∃ L : AddSubgroup (V3 ℤ), L.index = n ∧ ((0, 0, 1) : V3 ℤ) ∈ L ∧
        ∀ s ∈ out, ¬ SameUpToRotation [identM] (rowLattice s.latCoeff) L := by
  have main : ∀ rots, PointGroup rots → ∃ out, hnfsFromN2D setList itemFirst unit rots n = .ok out ∧
      ¬ ((∃ s ∈ out, rowLattice s.latCoeff = rowLattice (tri 1 0 0 n 0 1)) ∧
        ∃ t ∈ out, rowLattice t.latCoeff = rowLattice (tri 1 1 0 n 0 1)) := by
    intro rots hG
    obtain ⟨ms, m1, -, m3⟩ := hnfMats2D_exact setList hs n (by omega)
    have l1 : hnfsFromNDups2D setList unit rots n = .ok (ms.map (SLCell.new unit rots)) := by
      unfold hnfsFromNDups2D; rw [m1]; rfl
    have l3 : ∀ s ∈ ms.map (SLCell.new unit rots), IsHnf n s.latCoeff ∧ s.rots = rots := by
      intro s hs
      obtain ⟨m, hm, rfl⟩ := List.mem_map.1 hs
      exact ⟨((m3 m).1 hm).1, rfl⟩
    obtain ⟨out, f1, f2, f3⟩ := nodupLoop_ok hG (n := n) (by omega) itemFirst (ms.map (SLCell.new unit rots)) []
      (fun s hs => ⟨(l3 s hs).2, isHnf_index (l3 s hs).1⟩) (by simp)
    rw [List.nil_append] at f2
    refine ⟨out, by unfold hnfsFromN2D; rw [l1]; exact f1, ?_⟩
    rintro ⟨⟨s, s1, s2⟩, t, t1, t2⟩
    have hnf : ∀ x : ℤ, 0 ≤ x → x ≤ 1 → IsHnf n (tri 1 x 0 n 0 1) := fun x h0 h1 =>
      ⟨1, x, 0, n, 0, 1, rfl, by omega, by omega, by omega, by ring, by omega, by omega, by omega⟩
    have es := isHnf_unique (l3 s (f2.subset s1)).1 (hnf 0 (by omega) (by omega)) s2
    have et := isHnf_unique (l3 t (f2.subset t1)).1 (hnf 1 (by omega) (by omega)) t2
    have rs := (l3 s (f2.subset s1)).2
    have rt := (l3 t (f2.subset t1)).2
    refine not_both (f3 List.Pairwise.nil) s1 t1 (fun h => ?_) (confused_2d hn (by decide) (rs ▸ hG) es et)
      (confused_2d hn (by decide) (rt ▸ hG) et es)
    rw [h, et] at es
    simp at es
  refine ⟨main, ?_⟩
  obtain ⟨out, h1, h2⟩ := main [identM] trivialGroup
  refine ⟨out, h1, ?_⟩
  by_contra hc
  push Not at hc
  have hz : ∀ x : ℤ, ((0, 0, 1) : V3 ℤ) ∈ rowLattice (tri 1 x 0 n 0 1) := fun x =>
    mem_tri.2 ⟨0, 0, 1, by simp, by simp, by simp⟩
  refine h2 ⟨?_, ?_⟩
  · obtain ⟨s, s1, s2⟩ := hc _ (by rw [rowLattice_index, det_tri]; simp) (hz 0)
    exact ⟨s, s1, sameUpToIdentity.1 s2⟩
  · obtain ⟨s, s1, s2⟩ := hc _ (by rw [rowLattice_index, det_tri]; simp) (hz 1)
    exact ⟨s, s1, sameUpToIdentity.1 s2⟩

end Verif
