import Verif.Spec.Steps
import Verif.Props.Canonical
import Mathlib.GroupTheory.Perm.Cycle.Type
import Mathlib.GroupTheory.Coset.Card
import Mathlib.GroupTheory.QuotientGroup.Basic
import Mathlib.Data.ZMod.QuotientGroup

/-! # C119: superlattices of superlattices -/

namespace Verif

open Spec

/-! ### intermediate lattices -/

theorem subgroup_prime {A : AddSubgroup (V3 ℤ)} {p k : ℕ} (hp : p.Prime) (hk : 0 < k) (h : A.index = p * k) :
    ∃ C : AddSubgroup (V3 ℤ), A ≤ C ∧ C.index = k := by
  have hcard : Nat.card (V3 ℤ ⧸ A) = p * k := h
  have hpos : 0 < p * k := Nat.mul_pos hp.pos hk
  haveI : Finite (V3 ℤ ⧸ A) := Nat.finite_of_card_ne_zero (by rw [hcard]; exact hpos.ne')
  haveI := Fact.mk hp
  obtain ⟨x, hx⟩ := exists_prime_addOrderOf_dvd_card' (G := V3 ℤ ⧸ A) p (by rw [hcard]; exact Dvd.intro _ rfl)
  refine ⟨(AddSubgroup.zmultiples x).comap (QuotientAddGroup.mk' A), ?_, ?_⟩
  · intro a ha
    rw [AddSubgroup.mem_comap, QuotientAddGroup.mk'_apply, (QuotientAddGroup.eq_zero_iff a).2 ha]
    exact AddSubgroup.zero_mem _
  · rw [AddSubgroup.index_comap_of_surjective _ (QuotientAddGroup.mk'_surjective A)]
    have := (AddSubgroup.zmultiples x).card_mul_index
    rw [Nat.card_zmultiples, hx, hcard] at this
    exact Nat.eq_of_mul_eq_mul_left hp.pos this

theorem subgroup_between {n : ℕ} : ∀ {m : ℕ} {A : AddSubgroup (V3 ℤ)}, 0 < m → 0 < n → A.index = m * n →
    ∃ B : AddSubgroup (V3 ℤ), A ≤ B ∧ B.index = m := by
  induction n using Nat.strong_induction_on with
  | _ n ih =>
    intro m A hm hn h
    by_cases h1 : n = 1
    · exact ⟨A, le_refl _, by rw [h, h1, mul_one]⟩
    · have hp := Nat.minFac_prime h1
      obtain ⟨k, hk⟩ := Nat.minFac_dvd n
      have hk0 : 0 < k := Nat.pos_of_ne_zero fun e => by rw [e, mul_zero] at hk; omega
      obtain ⟨C, hC1, hC2⟩ := subgroup_prime (A := A) (k := m * k) hp (Nat.mul_pos hm hk0) (by rw [h]; nlinarith [hk])
      have hlt : k < n := by
        rw [hk]
        exact (Nat.lt_mul_iff_one_lt_left hk0).2 hp.one_lt
      obtain ⟨B, hB1, hB2⟩ := ih k hlt hm hk0 hC2
      exact ⟨B, hC1.trans hB1, hB2⟩

/-- for coprime indices the intermediate lattice is determined -/
theorem between_unique {A B B' : AddSubgroup (V3 ℤ)} {m n : ℕ} (hm : 0 < m) (hco : Nat.Coprime m n) (h : A.index = m * n)
    (hB : A ≤ B) (hB' : A ≤ B') (i : B.index = m) (i' : B'.index = m) : B = B' := by
  have key : ∀ C D : AddSubgroup (V3 ℤ), A ≤ C → A ≤ D → C.index = m → D.index = m → C ≤ D := by
    intro C D hC hD iC iD x hx
    have r := AddSubgroup.relIndex_mul_index hC
    rw [iC, h, mul_comm m n] at r
    have hrel : A.relIndex C = n := Nat.eq_of_mul_eq_mul_right hm r
    have hnx : n • x ∈ A := by
      have h3 : (A.addSubgroupOf C).index • (⟨x, hx⟩ : C) ∈ A.addSubgroupOf C := AddSubgroup.nsmul_index_mem _ _
      have h4 : (A.addSubgroupOf C).index = n := hrel
      rw [h4] at h3
      exact h3
    have hmx : m • x ∈ D := by
      have := AddSubgroup.nsmul_index_mem D x
      rwa [iD] at this
    have hb := Nat.gcd_eq_gcd_ab m n
    rw [hco] at hb
    have : x = (Nat.gcdA m n) • (m • x) + (Nat.gcdB m n) • (n • x) := by
      rw [← natCast_zsmul, ← natCast_zsmul, smul_smul, smul_smul, ← add_smul]
      conv_lhs => rw [← one_smul ℤ x]
      congr 1
      push_cast at hb
      rw [hb]; ring
    rw [this]
    exact D.add_mem (D.zsmul_mem hmx _) (D.zsmul_mem (hD hnx) _)
  exact le_antisymm (key B B' hB hB' i i') (key B' B hB' hB i' i)

theorem rowLattice_matMul {k k' h : M3 ℤ} (e : rowLattice k = rowLattice k') : rowLattice (matMul k h) = rowLattice (matMul k' h) := by
  have : ∀ {k k' : M3 ℤ}, rowLattice k = rowLattice k' → rowLattice (matMul k h) ≤ rowLattice (matMul k' h) := by
    intro k k' e
    obtain ⟨j, rfl⟩ := (rowLattice_le k k').1 (le_of_eq e)
    exact (rowLattice_le _ _).2 ⟨j, by
      simp only [matMul, vecMul]
      refine Prod.ext (Prod.ext ?_ (Prod.ext ?_ ?_)) (Prod.ext (Prod.ext ?_ (Prod.ext ?_ ?_)) (Prod.ext ?_ (Prod.ext ?_ ?_))) <;> simp only <;> ring⟩
  exact le_antisymm (this e) (this e.symm)

/-! ### cells -/

/-- `c` is the cell of a superlattice of volume `n` listed for `unit` -/
def ListedCell (setList : List ℕ → List ℕ) (rots : GCell → List (M3 ℤ)) (unit : GCell) (n : ℕ) (s : SLCell) (c : GCell) : Prop :=
  ∃ l, hnfsFromNDups setList unit (rots unit) n = .ok l ∧ s ∈ l ∧ s.toGeneralCell = .ok c

section
variable {setList : List ℕ → List ℕ} {rots : GCell → List (M3 ℤ)}

theorem listed_spec (hs : SetOrder setList) {unit : GCell} (hu : Built unit) {n : ℕ} (hn : 0 < n) (hb : n < 100000) {s : SLCell} {c : GCell}
    (h : ListedCell setList rots unit n s c) :
    IsHnf n s.latCoeff ∧ Built c ∧ c.lattice = matMul (castM s.latCoeff) unit.lattice ∧
      CartCrystal c.lattice (c.positions.zip c.numbers) = CartCrystal unit.lattice (unit.positions.zip unit.numbers) ∧
      c.positions.length = unit.positions.length * n := by
  obtain ⟨l, h1, h2, h3⟩ := h
  obtain ⟨l', k1, _, k3, k4⟩ := C28_hnf_exact setList hs unit (rots unit) n hn
  rw [h1] at k1
  obtain rfl := Except.ok.inj k1
  have hH := (k3 _).1 (List.mem_map_of_mem h2)
  obtain ⟨t1, t2⟩ := isHnf_triangular hH
  obtain ⟨u1, u2, u3, _⟩ := k4 s h2
  obtain ⟨c', c1, c2, c3, _, c5, _⟩ := enlarge_spec unit.lattice unit.positions unit.numbers hu.ne_nil hu.length.symm s.latCoeff t1 n t2 hb
  have hcc : s.toGeneralCell = unit.supercell s.latCoeff := by
    unfold SLCell.toGeneralCell GCell.supercell; rw [u1, u2, u3]
  have h3' := h3
  rw [hcc] at h3'
  have : c' = c := Except.ok.inj (c1.symm.trans h3')
  subst this
  refine ⟨hH, supercell_built h3', lattice_ext fun x => ?_, c5, c3⟩
  rw [c2, cartesian_matMul]

theorem listed_exists (hs : SetOrder setList) {unit : GCell} (hu : Built unit) {n : ℕ} (hn : 0 < n) (hb : n < 100000) {h : M3 ℤ} (hh : IsHnf n h) :
    ∃ s c, ListedCell setList rots unit n s c ∧ s.latCoeff = h := by
  obtain ⟨l, k1, _, k3, k4⟩ := C28_hnf_exact setList hs unit (rots unit) n hn
  obtain ⟨s, hsl, rfl⟩ := List.mem_map.1 ((k3 h).2 hh)
  obtain ⟨u1, u2, u3, _⟩ := k4 s hsl
  obtain ⟨t1, t2⟩ := isHnf_triangular hh
  obtain ⟨c, c1, _⟩ := C33_superlattice_cell s (by rw [u2]; exact hu.ne_nil) (by rw [u2, u3]; exact hu.length.symm) t1 n t2 hb
  exact ⟨s, c, ⟨l, k1, hsl, c1⟩, rfl⟩

theorem translations_matMul (h : M3 ℤ) (L : M3 ℚ) : Translations (matMul (castM h) L) = (fun v => cartesian L (castV v)) '' (rowLattice h : Set (V3 ℤ)) := by
  ext v
  constructor
  · rintro ⟨k, rfl⟩
    refine ⟨vecMul k h, (mem_rowLattice _ _).2 ⟨k, rfl⟩, ?_⟩
    rw [cartesian_matMul]
    show cartesian L (castV (vecMul k h)) = _
    rw [castV_vecMul]; rfl
  · rintro ⟨w, hw, rfl⟩
    obtain ⟨k, rfl⟩ := (mem_rowLattice _ _).1 hw
    refine ⟨k, ?_⟩
    rw [cartesian_matMul]
    show cartesian L (castV (vecMul k h)) = _
    rw [castV_vecMul]; rfl

theorem matMul_castM (k h : M3 ℤ) (L : M3 ℚ) : matMul (castM k) (matMul (castM h) L) = matMul (castM (matMul k h)) L := by
  rw [castM_matMul]
  simp only [matMul, vecMul]
  refine Prod.ext (Prod.ext ?_ (Prod.ext ?_ ?_)) (Prod.ext (Prod.ext ?_ (Prod.ext ?_ ?_)) (Prod.ext ?_ (Prod.ext ?_ ?_))) <;> simp only <;> ring

theorem index_matMul (k h : M3 ℤ) : (rowLattice (matMul k h)).index = (rowLattice k).index * (rowLattice h).index := by
  rw [rowLattice_index, rowLattice_index, rowLattice_index, det_matMul, Int.natAbs_mul]

/-- **C119, nothing is lost.** Every cell listed for the volume `m·n` is obtained in two steps, by listing volume `m` and then volume `n` for one of
the cells: the same lattice of translations, the same crystal and the same number of atoms. -/
theorem C119_refines (hs : SetOrder setList) (unit : GCell) (hu : Built unit) (m n : ℕ) (hm : 0 < m) (hn : 0 < n) (hb : m * n < 100000)
    (s : SLCell) (c : GCell) (hc : ListedCell setList rots unit (m * n) s c) :
    ∃ s₁ c₁ s₂ c₂, ListedCell setList rots unit m s₁ c₁ ∧ ListedCell setList rots c₁ n s₂ c₂ ∧ Translations c₂.lattice = Translations c.lattice ∧
      CartCrystal c₂.lattice (c₂.positions.zip c₂.numbers) = CartCrystal c.lattice (c.positions.zip c.numbers) ∧
      c₂.positions.length = c.positions.length := by
  have hbm : m < 100000 := lt_of_le_of_lt (Nat.le_mul_of_pos_right _ hn) hb
  have hbn : n < 100000 := lt_of_le_of_lt (Nat.le_mul_of_pos_left _ hm) hb
  obtain ⟨a1, a2, a3, a4, a5⟩ := listed_spec hs hu (Nat.mul_pos hm hn) hb hc
  have hi := isHnf_index a1
  obtain ⟨B, hAB, hB⟩ := subgroup_between hm hn hi
  obtain ⟨h₁, hh₁, rfl⟩ := isHnf_exists hm B hB
  obtain ⟨k, hk⟩ := (rowLattice_le _ _).1 hAB
  have hki : (rowLattice k).index = n := by
    rw [hk, index_matMul, hB, mul_comm] at hi
    exact Nat.eq_of_mul_eq_mul_left hm hi
  obtain ⟨h₂, hh₂, e₂⟩ := isHnf_exists hn (rowLattice k) hki
  obtain ⟨s₁, c₁, l₁, rfl⟩ := listed_exists (rots := rots) hs hu hm hbm hh₁
  obtain ⟨_, b2, b3, b4, b5⟩ := listed_spec hs hu hm hbm l₁
  obtain ⟨s₂, c₂, l₂, rfl⟩ := listed_exists (rots := rots) hs b2 hn hbn hh₂
  obtain ⟨_, d2, d3, d4, d5⟩ := listed_spec hs b2 hn hbn l₂
  refine ⟨s₁, c₁, s₂, c₂, l₁, l₂, ?_, d4.trans (b4.trans a4.symm), by rw [d5, b5, a5, mul_assoc]⟩
  rw [d3, b3, a3, matMul_castM, translations_matMul, translations_matMul, hk, rowLattice_matMul e₂]

/-- **C119, nothing else.** A cell obtained in two steps is, up to the choice of basis, a cell listed for the volume `m·n`, and the lattice of
exactly one entry of that list. -/
theorem C119_only (hs : SetOrder setList) (unit : GCell) (hu : Built unit) (hv : volume unit.lattice ≠ 0) (m n : ℕ) (hm : 0 < m) (hn : 0 < n)
    (hb : m * n < 100000) (s₁ : SLCell) (c₁ : GCell) (h₁ : ListedCell setList rots unit m s₁ c₁) (s₂ : SLCell) (c₂ : GCell)
    (h₂ : ListedCell setList rots c₁ n s₂ c₂) :
    ∃ s c, (ListedCell setList rots unit (m * n) s c ∧ Translations c₂.lattice = Translations c.lattice ∧
      CartCrystal c₂.lattice (c₂.positions.zip c₂.numbers) = CartCrystal c.lattice (c.positions.zip c.numbers) ∧
      c₂.positions.length = c.positions.length) ∧
      ∀ s' c', ListedCell setList rots unit (m * n) s' c' → Translations c₂.lattice = Translations c'.lattice → s'.latCoeff = s.latCoeff ∧ c' = c := by
  have hbm : m < 100000 := lt_of_le_of_lt (Nat.le_mul_of_pos_right _ hn) hb
  have hbn : n < 100000 := lt_of_le_of_lt (Nat.le_mul_of_pos_left _ hm) hb
  obtain ⟨b1, b2, b3, b4, b5⟩ := listed_spec hs hu hm hbm h₁
  obtain ⟨d1, d2, d3, d4, d5⟩ := listed_spec hs b2 hn hbn h₂
  have hi : (rowLattice (matMul s₂.latCoeff s₁.latCoeff)).index = m * n := by
    rw [index_matMul, isHnf_index b1, isHnf_index d1, mul_comm]
  obtain ⟨h, hh, e⟩ := isHnf_exists (Nat.mul_pos hm hn) _ hi
  obtain ⟨s, c, l, rfl⟩ := listed_exists (rots := rots) hs hu (Nat.mul_pos hm hn) hb hh
  obtain ⟨a1, a2, a3, a4, a5⟩ := listed_spec hs hu (Nat.mul_pos hm hn) hb l
  have ht : Translations c₂.lattice = Translations c.lattice := by
    rw [d3, b3, a3, matMul_castM, translations_matMul, translations_matMul, e]
  refine ⟨s, c, ⟨l, ht, d4.trans (b4.trans a4.symm), by rw [d5, b5, a5, mul_assoc]⟩, fun s' c' l' ht' => ?_⟩
  obtain ⟨f1, f2, f3, f4, f5⟩ := listed_spec hs hu (Nat.mul_pos hm hn) hb l'
  rw [ht, a3, f3, translations_matMul, translations_matMul] at ht'
  have hinj : Function.Injective fun v : V3 ℤ => cartesian unit.lattice (castV v) := fun u v huv => castV_inj (cartesian_inj hv huv)
  have hrow : rowLattice s'.latCoeff = rowLattice s.latCoeff := SetLike.coe_injective (hinj.image_injective ht').symm
  have hcoef := isHnf_unique f1 a1 hrow
  refine ⟨hcoef, ?_⟩
  obtain ⟨lst, q1, q2, q3⟩ := l
  obtain ⟨lst', q1', q2', q3'⟩ := l'
  rw [q1] at q1'
  obtain rfl := Except.ok.inj q1'
  obtain ⟨l'', k1, k2, k3, k4⟩ := C28_hnf_exact setList hs unit (rots unit) (m * n) (Nat.mul_pos hm hn)
  rw [q1] at k1
  obtain rfl := Except.ok.inj k1
  obtain ⟨u1, u2, u3, _⟩ := k4 s q2
  obtain ⟨u1', u2', u3', _⟩ := k4 s' q2'
  have : s'.toGeneralCell = s.toGeneralCell := by
    unfold SLCell.toGeneralCell; rw [u1, u2, u3, u1', u2', u3', hcoef]
  rw [q3, q3'] at this
  exact Except.ok.inj this

/-- **C119, coprime volumes.** If `m` and `n` have no common factor, the two steps to a superlattice are determined by it. -/
theorem C119_coprime (hs : SetOrder setList) (unit : GCell) (hu : Built unit) (hv : volume unit.lattice ≠ 0) (m n : ℕ) (hm : 0 < m) (hn : 0 < n)
    (hco : Nat.Coprime m n) (hb : m * n < 100000) (s₁ s₁' : SLCell) (c₁ c₁' : GCell) (h₁ : ListedCell setList rots unit m s₁ c₁)
    (h₁' : ListedCell setList rots unit m s₁' c₁') (s₂ s₂' : SLCell) (c₂ c₂' : GCell)
    (h₂ : ListedCell setList rots c₁ n s₂ c₂) (h₂' : ListedCell setList rots c₁' n s₂' c₂')
    (ht : Translations c₂.lattice = Translations c₂'.lattice) : s₁.latCoeff = s₁'.latCoeff ∧ s₂.latCoeff = s₂'.latCoeff := by
  have hbm : m < 100000 := lt_of_le_of_lt (Nat.le_mul_of_pos_right _ hn) hb
  have hbn : n < 100000 := lt_of_le_of_lt (Nat.le_mul_of_pos_left _ hm) hb
  obtain ⟨b1, b2, b3, _⟩ := listed_spec hs hu hm hbm h₁
  obtain ⟨d1, _, d3, _⟩ := listed_spec hs b2 hn hbn h₂
  obtain ⟨b1', b2', b3', _⟩ := listed_spec hs hu hm hbm h₁'
  obtain ⟨d1', _, d3', _⟩ := listed_spec hs b2' hn hbn h₂'
  have hinj : Function.Injective fun v : V3 ℤ => cartesian unit.lattice (castV v) := fun u v huv => castV_inj (cartesian_inj hv huv)
  rw [d3, b3, d3', b3', matMul_castM, matMul_castM, translations_matMul, translations_matMul] at ht
  have hrow : rowLattice (matMul s₂.latCoeff s₁.latCoeff) = rowLattice (matMul s₂'.latCoeff s₁'.latCoeff) :=
    SetLike.coe_injective (hinj.image_injective ht)
  have hi : (rowLattice (matMul s₂.latCoeff s₁.latCoeff)).index = m * n := by
    rw [index_matMul, isHnf_index b1, isHnf_index d1, mul_comm]
  have e1 : s₁.latCoeff = s₁'.latCoeff := isHnf_unique b1 b1' (between_unique hm hco hi ((rowLattice_le _ _).2 ⟨_, rfl⟩)
    (hrow.le.trans ((rowLattice_le _ _).2 ⟨_, rfl⟩)) (isHnf_index b1) (isHnf_index b1'))
  refine ⟨e1, isHnf_unique d1 d1' ?_⟩
  rw [← e1] at hrow
  have h0 : det s₁.latCoeff ≠ 0 := by
    have := isHnf_index b1
    rw [rowLattice_index] at this
    intro h; rw [h] at this; simp at this; omega
  have key : ∀ k k' : M3 ℤ, rowLattice (matMul k s₁.latCoeff) = rowLattice (matMul k' s₁.latCoeff) → rowLattice k ≤ rowLattice k' := by
    intro k k' e
    obtain ⟨j, hj⟩ := (rowLattice_le _ _).1 (le_of_eq e)
    refine (rowLattice_le _ _).2 ⟨j, ?_⟩
    have h1 : matMul (matMul k s₁.latCoeff) (adj s₁.latCoeff) = matMul (matMul (matMul j k') s₁.latCoeff) (adj s₁.latCoeff) := by
      rw [hj]; congr 1
      simp only [matMul, vecMul]
      refine Prod.ext (Prod.ext ?_ (Prod.ext ?_ ?_)) (Prod.ext (Prod.ext ?_ (Prod.ext ?_ ?_)) (Prod.ext ?_ (Prod.ext ?_ ?_))) <;> simp only <;> ring
    have hc : ∀ x : M3 ℤ, matMul (matMul x s₁.latCoeff) (adj s₁.latCoeff) = smulM (det s₁.latCoeff) x := by
      intro x
      simp only [matMul, vecMul, adj, smulM, det, V3.map]
      refine Prod.ext (Prod.ext ?_ (Prod.ext ?_ ?_)) (Prod.ext (Prod.ext ?_ (Prod.ext ?_ ?_)) (Prod.ext ?_ (Prod.ext ?_ ?_))) <;> simp only <;> ring
    rw [hc, hc] at h1
    simp only [smulM, V3.map, Prod.mk.injEq, mul_eq_mul_left_iff, h0, or_false] at h1
    ext <;> tauto
  exact le_antisymm (key _ _ hrow) (key _ _ hrow.symm)

end

/-! ### examples -/

example : Built exPair ∧ volume exPair.lattice ≠ 0 :=
  ⟨⟨((4, 0, 0), (0, 4, 0), (0, 0, 4)), [(1/2, 1/2, 1/2), (0, 0, 0)], [17, 11], by decide +kernel⟩, by decide +kernel⟩
/-- volumes two and three: the superlattice of volume six with rows `(1, 1, 0)`, `(0, 6, 0)`, `(0, 0, 1)` is listed and is reached in two steps -/
example (setList : List ℕ → List ℕ) (hs : SetOrder setList) : ∃ s c s₁ c₁ s₂ c₂, ListedCell setList (fun _ => []) exPair (2 * 3) s c ∧
    s.latCoeff = ((1, 1, 0), (0, 6, 0), (0, 0, 1)) ∧ ListedCell setList (fun _ => []) exPair 2 s₁ c₁ ∧
    ListedCell setList (fun _ => []) c₁ 3 s₂ c₂ ∧ Translations c₂.lattice = Translations c.lattice := by
  have hb : Built exPair := ⟨((4, 0, 0), (0, 4, 0), (0, 0, 4)), [(1/2, 1/2, 1/2), (0, 0, 0)], [17, 11], by decide +kernel⟩
  obtain ⟨s, c, h, e⟩ := listed_exists (rots := fun _ => []) hs hb (n := 2 * 3) (by decide) (by decide)
    (h := ((1, 1, 0), (0, 6, 0), (0, 0, 1))) ⟨1, 1, 0, 6, 0, 1, rfl, by decide, by decide, by decide, by decide, by decide, by decide, by decide⟩
  obtain ⟨s₁, c₁, s₂, c₂, r1, r2, r3, _⟩ := C119_refines hs exPair hb 2 3 (by decide) (by decide) (by decide) s c h
  exact ⟨s, c, s₁, c₁, s₂, c₂, h, e, r1, r2, r3⟩
/-- not coprime: the lattice of even vectors is reached through every superlattice of volume two (and then one of volume four) -/
example : ∀ B : AddSubgroup (V3 ℤ), B.index = 2 → rowLattice ((2, 0, 0), (0, 2, 0), (0, 0, 2)) ≤ B := by
  intro B hB v hv
  obtain ⟨k, rfl⟩ := (mem_rowLattice _ _).1 hv
  have := AddSubgroup.nsmul_index_mem B k
  rw [hB] at this
  convert this using 1
  ext <;> simp [vecMul] <;> ring

end Verif
