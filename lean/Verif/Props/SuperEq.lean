import Verif.Lemmas.SuperEq
import Verif.Props.Hnf

/-! # C30, C31: equality of superlattices and non-duplicate enumeration -/

namespace Verif

open Spec

theorem slEqLoop_spec {h1 h2 : M3 ℤ} {n : ℕ} (i1 : (rowLattice h1).index = n)
    (i2 : (rowLattice h2).index = n) (h0 : 0 < n) (hn : n < 2000) (rots : List (M3 ℤ)) (hr : ∀ r ∈ rots, Unimodular r) :
    ∃ b, slEqLoop h1 h2 rots = .ok b ∧ (b = true ↔ ∃ r ∈ rots, (rowLattice h1).map (rot r) = rowLattice h2) := by
  induction rots with
  | nil => exact ⟨false, rfl, by simp⟩
  | cons r rs ih =>
    obtain ⟨b, e1, e2⟩ := ih (fun r hr' => hr r (List.mem_cons_of_mem _ hr'))
    obtain ⟨ri, si, t1, t2, t3⟩ := slEq_test (hr r (by simp)) i1 i2 h0 hn
    unfold slEqLoop
    simp only [t1, t2, bind, Except.bind]
    by_cases h : isIntAround (matMul (matMul (castM h2) ri) si) = true
    · rw [if_pos h]
      exact ⟨true, rfl, by simp [t3.1 h]⟩
    · rw [if_neg h]
      refine ⟨b, e1, ?_⟩
      rw [e2]
      simp only [List.mem_cons, exists_eq_or_imp]
      rw [or_iff_right (fun h' => h (t3.2 h'))]

/-- C30 (for index below 2000): `H1 == H2` iff some rotation maps one sublattice onto the other.
Missing from the full statement: indices `n ≥ 2000`, for which the code is wrong, see `C30_false_at_2000`. -/
theorem C30_equality_partial (s t : SLCell) (n : ℕ) (h0 : 0 < n) (hn : n < 2000)
    (hs : (rowLattice s.latCoeff).index = n) (ht : (rowLattice t.latCoeff).index = n)
    (hr : ∀ r ∈ s.rots, Unimodular r) :
    ∃ b, s.eq t = .ok b ∧ (b = true ↔ ∃ r ∈ s.rots, (rowLattice s.latCoeff).map (rot r) = rowLattice t.latCoeff) :=
  slEqLoop_spec hs ht h0 hn s.rots hr

/-- C30, the half that holds for every index: superlattices related by a rotation are always reported equal (and the test
never raises). -/
theorem C30_no_false_negative_partial (s t : SLCell) (hs : (rowLattice s.latCoeff).index ≠ 0)
    (hr : ∀ r ∈ s.rots, Unimodular r) :
    ∃ b, s.eq t = .ok b ∧ ((∃ r ∈ s.rots, (rowLattice s.latCoeff).map (rot r) = rowLattice t.latCoeff) → b = true) := by
  have hd : det s.latCoeff ≠ 0 := by rw [rowLattice_index] at hs; omega
  unfold SLCell.eq
  generalize s.rots = rots at hr
  induction rots with
  | nil => exact ⟨false, rfl, by simp⟩
  | cons r rs ih =>
    obtain ⟨b, e1, e2⟩ := ih (fun r hr' => hr r (List.mem_cons_of_mem _ hr'))
    obtain ⟨ri, si, t1, t2, t3⟩ := slEq_test_complete (h2 := t.latCoeff) (hr r (by simp)) hd
    unfold slEqLoop
    simp only [t1, t2, bind, Except.bind]
    by_cases h : isIntAround (matMul (matMul (castM t.latCoeff) ri) si) = true
    · rw [if_pos h]
      exact ⟨true, rfl, fun _ => rfl⟩
    · rw [if_neg h]
      refine ⟨b, e1, fun hx => e2 ?_⟩
      simp only [List.mem_cons, exists_eq_or_imp] at hx
      exact hx.resolve_left (fun h' => h (t3 h'))

/-- C30 fails at index 2000: two different sublattices are reported equal although the only rotation is the identity. -/
theorem C30_false_at_2000 : ∃ s t : SLCell, s.rots = [identM] ∧ t.rots = [identM] ∧
    (rowLattice s.latCoeff).index = 2000 ∧ (rowLattice t.latCoeff).index = 2000 ∧
    s.eq t = .ok true ∧ ¬ ∃ r ∈ s.rots, (rowLattice s.latCoeff).map (rot r) = rowLattice t.latCoeff := by
  refine ⟨⟨identM, [(0, 0, 0)], [29], tri 1 0 0 1 0 2000, [identM]⟩, ⟨identM, [(0, 0, 0)], [29], tri 1 0 1 1 0 2000, [identM]⟩,
    rfl, rfl, ?_, ?_, by decide +kernel, ?_⟩
  · rw [rowLattice_index, det_tri]; rfl
  · rw [rowLattice_index, det_tri]; rfl
  · rintro ⟨r, hr, h⟩
    rw [List.mem_singleton.1 hr] at h
    have hm : ((1, 0, 0) : V3 ℤ) ∈ rowLattice (tri 1 0 1 1 0 2000) := by
      rw [← h]
      refine AddSubgroup.mem_map.2 ⟨(1, 0, 0), mem_tri.2 ⟨1, 0, 0, by simp, by simp, by simp⟩, ?_⟩
      simp [rot, identM]
    obtain ⟨k1, k2, k3, e1, e2, e3⟩ := mem_tri.1 hm
    simp only at e1 e2 e3
    omega

/-- the relation decided by the test -/
def SameUpToRotation (rots : List (M3 ℤ)) (A B : AddSubgroup (V3 ℤ)) : Prop := ∃ r ∈ rots, A.map (rot r) = B

theorem rot_map_map {r s t : M3 ℤ} (h : ∀ v, rot t v = rot r (rot s v)) (A : AddSubgroup (V3 ℤ)) :
    (A.map (rot s)).map (rot r) = A.map (rot t) := by
  rw [AddSubgroup.map_map]
  congr 1
  ext v : 1
  exact (h v).symm

theorem sameUpToRotation_refl {rots : List (M3 ℤ)} (hG : PointGroup rots) (A : AddSubgroup (V3 ℤ)) :
    SameUpToRotation rots A A := by
  obtain ⟨r, hr, h⟩ := hG.one
  refine ⟨r, hr, ?_⟩
  have : rot r = AddMonoidHom.id _ := by ext v : 1; exact h v
  rw [this, AddSubgroup.map_id]

theorem SameUpToRotation.symm {rots : List (M3 ℤ)} (hG : PointGroup rots) {A B : AddSubgroup (V3 ℤ)}
    (h : SameUpToRotation rots A B) : SameUpToRotation rots B A := by
  obtain ⟨r, hr, rfl⟩ := h
  obtain ⟨s, hs, h⟩ := hG.inv r hr
  refine ⟨s, hs, ?_⟩
  rw [AddSubgroup.map_map]
  have : (rot s).comp (rot r) = AddMonoidHom.id _ := by ext v : 1; exact h v
  rw [this, AddSubgroup.map_id]

theorem SameUpToRotation.trans {rots : List (M3 ℤ)} (hG : PointGroup rots) {A B C : AddSubgroup (V3 ℤ)}
    (h : SameUpToRotation rots A B) (h' : SameUpToRotation rots B C) : SameUpToRotation rots A C := by
  obtain ⟨r, hr, rfl⟩ := h
  obtain ⟨s, hs, rfl⟩ := h'
  obtain ⟨t, ht, h⟩ := hG.mul s hs r hr
  exact ⟨t, ht, (rot_map_map h A).symm⟩

/-- lists of superlattices of the same unit cell and index -/
def SLGood (rots : List (M3 ℤ)) (n : ℕ) (s : SLCell) : Prop := s.rots = rots ∧ (rowLattice s.latCoeff).index = n

theorem slMem_spec {rots : List (M3 ℤ)} (hG : PointGroup rots) {n : ℕ} (h0 : 0 < n) (hn : n < 2000) (itemFirst : Bool)
    {h : SLCell} (hh : SLGood rots n h) (acc : List SLCell) (ha : ∀ x ∈ acc, SLGood rots n x) :
    ∃ b, slMem itemFirst h acc = .ok b ∧
      (b = true ↔ ∃ x ∈ acc, SameUpToRotation rots (rowLattice x.latCoeff) (rowLattice h.latCoeff)) := by
  induction acc with
  | nil => exact ⟨false, rfl, by simp⟩
  | cons x acc ih =>
    obtain ⟨b, e1, e2⟩ := ih (fun x hx => ha x (List.mem_cons_of_mem _ hx))
    have hx := ha x (by simp)
    have key : ∃ b0, (if itemFirst then x.eq h else h.eq x) = .ok b0 ∧
        (b0 = true ↔ SameUpToRotation rots (rowLattice x.latCoeff) (rowLattice h.latCoeff)) := by
      by_cases hi : itemFirst = true
      · rw [if_pos hi]
        have := C30_equality_partial x h n h0 hn hx.2 hh.2 (by rw [hx.1]; exact hG.unimodular)
        rw [hx.1] at this
        exact this
      · rw [if_neg hi]
        obtain ⟨b0, f1, f2⟩ := C30_equality_partial h x n h0 hn hh.2 hx.2 (by rw [hh.1]; exact hG.unimodular)
        rw [hh.1] at f2
        exact ⟨b0, f1, f2.trans ⟨fun h => SameUpToRotation.symm hG h, fun h => SameUpToRotation.symm hG h⟩⟩
    obtain ⟨b0, f1, f2⟩ := key
    unfold slMem
    rw [f1]
    simp only [bind, Except.bind]
    by_cases hb : b0 = true
    · rw [if_pos hb]
      exact ⟨true, rfl, by simp [f2.1 hb]⟩
    · rw [if_neg hb]
      refine ⟨b, e1, ?_⟩
      rw [e2]
      simp only [List.mem_cons, exists_eq_or_imp]
      rw [or_iff_right (fun h' => hb (f2.2 h'))]

theorem nodupLoop_spec {rots : List (M3 ℤ)} (hG : PointGroup rots) {n : ℕ} (h0 : 0 < n) (hn : n < 2000) (itemFirst : Bool)
    (l acc : List SLCell) (hl : ∀ x ∈ l, SLGood rots n x) (ha : ∀ x ∈ acc, SLGood rots n x) :
    ∃ out, nodupLoop itemFirst l acc = .ok out ∧ out.Sublist (acc ++ l) ∧
      (∀ x ∈ acc ++ l, ∃ y ∈ out, SameUpToRotation rots (rowLattice y.latCoeff) (rowLattice x.latCoeff)) ∧
      (acc.Pairwise (fun x y => ¬ SameUpToRotation rots (rowLattice x.latCoeff) (rowLattice y.latCoeff)) →
        out.Pairwise (fun x y => ¬ SameUpToRotation rots (rowLattice x.latCoeff) (rowLattice y.latCoeff))) := by
  induction l generalizing acc with
  | nil => exact ⟨acc, rfl, by simp, fun x hx => ⟨x, by simpa using hx, sameUpToRotation_refl hG _⟩, id⟩
  | cons h l ih =>
    have hh := hl h (by simp)
    obtain ⟨b, e1, e2⟩ := slMem_spec hG h0 hn itemFirst hh acc ha
    unfold nodupLoop
    rw [e1]
    simp only [bind, Except.bind]
    by_cases hb : b = true
    · rw [if_pos hb]
      obtain ⟨out, f1, f2, f3, f4⟩ := ih acc (fun x hx => hl x (List.mem_cons_of_mem _ hx)) ha
      refine ⟨out, f1, f2.trans (List.Sublist.append_left (List.sublist_cons_self h l) acc), ?_, f4⟩
      intro x hx
      rcases List.mem_append.1 hx with hx | hx
      · exact f3 x (List.mem_append_left _ hx)
      · rcases List.mem_cons.1 hx with rfl | hx
        · obtain ⟨y, hy, hyx⟩ := e2.1 hb
          obtain ⟨z, hz, hzy⟩ := f3 y (List.mem_append_left _ hy)
          exact ⟨z, hz, SameUpToRotation.trans hG hzy hyx⟩
        · exact f3 x (List.mem_append_right _ hx)
    · rw [if_neg hb]
      obtain ⟨out, f1, f2, f3, f4⟩ := ih (acc ++ [h]) (fun x hx => hl x (List.mem_cons_of_mem _ hx)) (by
        intro x hx
        rcases List.mem_append.1 hx with hx | hx
        · exact ha x hx
        · rw [List.mem_singleton.1 hx]; exact hh)
      have hassoc : acc ++ [h] ++ l = acc ++ h :: l := by simp
      rw [hassoc] at f2 f3
      refine ⟨out, f1, f2, f3, fun hp => f4 ?_⟩
      rw [List.pairwise_append]
      refine ⟨hp, by simp, ?_⟩
      intro x hx y hy
      rw [List.mem_singleton.1 hy]
      intro hxy
      exact hb (e2.2 ⟨x, hx, hxy⟩)

theorem pairwise_unique {rots : List (M3 ℤ)} (hG : PointGroup rots) {out : List SLCell}
    (hp : out.Pairwise (fun x y => ¬ SameUpToRotation rots (rowLattice x.latCoeff) (rowLattice y.latCoeff)))
    {i j : ℕ} {x y : SLCell} (hi : out[i]? = some x) (hj : out[j]? = some y)
    (hxy : SameUpToRotation rots (rowLattice x.latCoeff) (rowLattice y.latCoeff)) : i = j := by
  obtain ⟨hi', rfl⟩ := List.getElem?_eq_some_iff.1 hi
  obtain ⟨hj', rfl⟩ := List.getElem?_eq_some_iff.1 hj
  have hpw := List.pairwise_iff_getElem.1 hp
  rcases lt_trichotomy i j with hlt | heq | hgt
  · exact absurd hxy (hpw i j hi' hj' hlt)
  · exact heq
  · exact absurd (SameUpToRotation.symm hG hxy) (hpw j i hj' hi' hgt)

/-- C31: for every sublattice `L` of index `n` exactly one list entry is related to `L` by a rotation of the point group;
all entries have index `n`. Holds for either direction in which CPython calls `__eq__` and for any set order. -/
theorem C31_transversal (setList : List ℕ → List ℕ) (hs : SetOrder setList) (itemFirst : Bool) (unit : GCell)
    (rots : List (M3 ℤ)) (hG : PointGroup rots) (n : ℕ) (h0 : 0 < n) (hn : n < 2000) :
    ∃ out, hnfsFromN setList itemFirst unit rots n = .ok out ∧
      (∀ s ∈ out, (rowLattice s.latCoeff).index = n ∧ s.rots = rots ∧ s.ub = unit.lattice ∧
        s.upositions = unit.positions ∧ s.unumbers = unit.numbers) ∧
      ∀ L : AddSubgroup (V3 ℤ), L.index = n →
        ∃ (i : ℕ) (s : SLCell), out[i]? = some s ∧ SameUpToRotation rots (rowLattice s.latCoeff) L ∧
          ∀ (j : ℕ) (t : SLCell), out[j]? = some t → SameUpToRotation rots (rowLattice t.latCoeff) L → j = i := by
  obtain ⟨l, l1, l2, l3, l4⟩ := C28_hnf_exact setList hs unit rots n h0
  have hgood : ∀ s ∈ l, SLGood rots n s := fun s hs =>
    ⟨(l4 s hs).2.2.2, isHnf_index ((l3 _).1 (List.mem_map_of_mem hs))⟩
  obtain ⟨out, f1, f2, f3, f4⟩ := nodupLoop_spec hG h0 hn itemFirst l [] hgood (by simp)
  rw [List.nil_append] at f2 f3
  refine ⟨out, ?_, ?_, ?_⟩
  · unfold hnfsFromN
    rw [l1]; exact f1
  · intro s hs
    have := l4 s (f2.subset hs)
    exact ⟨(hgood s (f2.subset hs)).2, this.2.2.2, this.1, this.2.1, this.2.2.1⟩
  · intro L hL
    obtain ⟨m, hm, rfl⟩ := isHnf_exists h0 L hL
    obtain ⟨x, hx, rfl⟩ := List.mem_map.1 ((l3 m).2 hm)
    obtain ⟨y, hy, hyx⟩ := f3 x hx
    obtain ⟨i, hi⟩ := List.mem_iff_getElem?.1 hy
    refine ⟨i, y, hi, hyx, fun j t hj ht => ?_⟩
    exact pairwise_unique hG (f4 List.Pairwise.nil) hj hi
      (SameUpToRotation.trans hG ht (SameUpToRotation.symm hG hyx))

/-- C31 for the 2D generator: the same, for the sublattices that contain `(0,0,1)`. -/
theorem C31_transversal_2d (setList : List ℕ → List ℕ) (hs : SetOrder setList) (itemFirst : Bool) (unit : GCell)
    (rots : List (M3 ℤ)) (hG : PointGroup rots) (n : ℕ) (h0 : 0 < n) (hn : n < 2000) :
    ∃ out, hnfsFromN2D setList itemFirst unit rots n = .ok out ∧
      (∀ s ∈ out, (rowLattice s.latCoeff).index = n ∧ ((0, 0, 1) : V3 ℤ) ∈ rowLattice s.latCoeff) ∧
      ∀ L : AddSubgroup (V3 ℤ), L.index = n → ((0, 0, 1) : V3 ℤ) ∈ L →
        ∃ (i : ℕ) (s : SLCell), out[i]? = some s ∧ SameUpToRotation rots (rowLattice s.latCoeff) L ∧
          ∀ (j : ℕ) (t : SLCell), out[j]? = some t → SameUpToRotation rots (rowLattice t.latCoeff) L → j = i := by
  obtain ⟨l, l1, l2, l3⟩ := C35_two_dimensional setList hs unit rots n h0
  have hrots : ∀ s ∈ l, s.rots = rots := by
    intro s hs'
    unfold hnfsFromNDups2D at l1
    cases hm : hnfMats2D setList n with
    | error e => rw [hm] at l1; cases l1
    | ok ms =>
      rw [hm] at l1
      simp only [bind, Except.bind, pure, Except.pure, Except.ok.injEq] at l1
      subst l1
      obtain ⟨m, _, rfl⟩ := List.mem_map.1 hs'
      rfl
  obtain ⟨out, f1, f2, f3, f4⟩ := nodupLoop_spec hG h0 hn itemFirst l [] (fun s hs' => ⟨hrots s hs', (l2 s hs').1⟩) (by simp)
  rw [List.nil_append] at f2 f3
  refine ⟨out, ?_, fun s hs' => l2 s (f2.subset hs'), ?_⟩
  · unfold hnfsFromN2D
    rw [l1]; exact f1
  · intro L hL h1
    obtain ⟨k, x, hx, rfl, _⟩ := l3 L hL h1
    obtain ⟨y, hy, hyx⟩ := f3 x (List.mem_of_getElem? hx)
    obtain ⟨i, hi⟩ := List.mem_iff_getElem?.1 hy
    refine ⟨i, y, hi, hyx, fun j t hj ht => ?_⟩
    exact pairwise_unique hG (f4 List.Pairwise.nil) hj hi
      (SameUpToRotation.trans hG ht (SameUpToRotation.symm hG hyx))

/-! ## example: the four-fold axis -/

/-- the rotations about the third axis -/
def exC4 : List (M3 ℤ) :=
  [((1, 0, 0), (0, 1, 0), (0, 0, 1)), ((0, -1, 0), (1, 0, 0), (0, 0, 1)), ((-1, 0, 0), (0, -1, 0), (0, 0, 1)),
   ((0, 1, 0), (-1, 0, 0), (0, 0, 1))]

theorem exC4_group : PointGroup exC4 where
  unimodular := by unfold Unimodular; decide
  one := ⟨((1, 0, 0), (0, 1, 0), (0, 0, 1)), by simp [exC4], fun v => by simp [rot]⟩
  mul := by
    intro r hr s hs
    simp only [exC4, List.mem_cons, List.not_mem_nil, or_false] at hr hs
    rcases hr with rfl | rfl | rfl | rfl <;> rcases hs with rfl | rfl | rfl | rfl <;>
      first
      | (refine ⟨((1, 0, 0), (0, 1, 0), (0, 0, 1)), by simp [exC4], fun v => ?_⟩; simp [rot]; done)
      | (refine ⟨((0, -1, 0), (1, 0, 0), (0, 0, 1)), by simp [exC4], fun v => ?_⟩; simp [rot]; done)
      | (refine ⟨((-1, 0, 0), (0, -1, 0), (0, 0, 1)), by simp [exC4], fun v => ?_⟩; simp [rot]; done)
      | (refine ⟨((0, 1, 0), (-1, 0, 0), (0, 0, 1)), by simp [exC4], fun v => ?_⟩; simp [rot])
  inv := by
    intro r hr
    simp only [exC4, List.mem_cons, List.not_mem_nil, or_false] at hr
    rcases hr with rfl | rfl | rfl | rfl <;>
      first
      | (refine ⟨((1, 0, 0), (0, 1, 0), (0, 0, 1)), by simp [exC4], fun v => ?_⟩; simp [rot]; done)
      | (refine ⟨((0, -1, 0), (1, 0, 0), (0, 0, 1)), by simp [exC4], fun v => ?_⟩; simp [rot]; done)
      | (refine ⟨((-1, 0, 0), (0, -1, 0), (0, 0, 1)), by simp [exC4], fun v => ?_⟩; simp [rot]; done)
      | (refine ⟨((0, 1, 0), (-1, 0, 0), (0, 0, 1)), by simp [exC4], fun v => ?_⟩; simp [rot])

/-- the seven sublattices of index 2 fall into five classes -/
example : (hnfsFromN List.dedup true ⟨identM, [(0, 0, 0)], [29], [29], 1⟩ exC4 2).map List.length = .ok 5 := by
  decide +kernel

end Verif
