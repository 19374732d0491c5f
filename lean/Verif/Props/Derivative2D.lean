import Verif.Props.Derivative

/-! # C101: derivative structures of layers -/

namespace Verif

open Spec

/-- the 2D superlattice of the enumeration that carries a given sublattice containing the third axis, and the parent operation that rotates one onto the other -/
theorem superlattice_of_2d (setList : List ℕ → List ℕ) (hs : SetOrder setList) (itemFirst : Bool) (unit : GCell)
    (ops : List Op) (hG : PointGroup (ops.map (·.1))) (n : ℕ) (h0 : 0 < n) (hn : n < 2000) :
    ∃ out, hnfsFromN2D setList itemFirst unit (ops.map (·.1)) n = .ok out ∧
      (∀ s ∈ out, (IsHnf n s.latCoeff ∧ s.ub = unit.lattice ∧ s.upositions = unit.positions ∧ s.unumbers = unit.numbers) ∧
        ((0, 0, 1) : V3 ℤ) ∈ rowLattice s.latCoeff) ∧
      ∀ A : AddSubgroup (V3 ℤ), A.index = n → ((0, 0, 1) : V3 ℤ) ∈ A →
        ∃ s ∈ out, ∃ op ∈ ops, (det op.1 = 1 ∨ det op.1 = -1) ∧ A.map (rot op.1) = rowLattice s.latCoeff := by
  obtain ⟨ms, m1, _, m3⟩ := hnfMats2D_exact setList hs n h0
  have hgood : ∀ s ∈ ms.map (SLCell.new unit (ops.map (·.1))), SLGood (ops.map (·.1)) n s := by
    intro s hs
    obtain ⟨m, hm, rfl⟩ := List.mem_map.1 hs
    exact ⟨rfl, isHnf_index ((m3 m).1 hm).1⟩
  obtain ⟨out, f1, f2, f3, _⟩ := nodupLoop_spec hG h0 hn itemFirst _ [] hgood (by simp)
  rw [List.nil_append] at f2 f3
  refine ⟨out, ?_, fun s hs' => ?_, fun A hA hax => ?_⟩
  · unfold hnfsFromN2D hnfsFromNDups2D
    rw [m1]; exact f1
  · obtain ⟨m, hm, rfl⟩ := List.mem_map.1 (f2.subset hs')
    exact ⟨⟨((m3 m).1 hm).1, rfl, rfl, rfl⟩, ((m3 m).1 hm).2⟩
  · obtain ⟨m, hm, rfl⟩ := isHnf_exists h0 A hA
    obtain ⟨y, hy, hyx⟩ := f3 _ (List.mem_map_of_mem ((m3 m).2 ⟨hm, hax⟩))
    obtain ⟨r, hr, hrA⟩ := SameUpToRotation.symm hG hyx
    obtain ⟨op, hop, rfl⟩ := List.mem_map.1 hr
    exact ⟨y, hy, op, hop, hG.unimodular _ hr, hrA⟩

/-- **C101** (binary). Let a crystal arise from a parent crystal by replacing some atoms by `sp`, periodically along a sublattice of index `n` of the
parent's lattice that contains the third axis. Then among the 2D superlattices listed for index `n` there is one whose cell, decorated with some number `k`
of `sp` atoms, has the crystal among its listed symmetry-inequivalent structures, up to an operation of the parent and one of the enlarged cell. -/
theorem C101_binary (setList : List ℕ → List ℕ) (hs : SetOrder setList) (itemFirst : Bool) (unit : GCell) (hu : Built unit)
    (hvol : volume unit.lattice ≠ 0) (ops : List Op) (hops : SymContract Cong unit.positions ops)
    (hel : KeepsElements Cong unit.positions ops unit.numbers) (hG : PointGroup (ops.map (·.1))) (n : ℕ) (h0 : 0 < n) (hn : n < 2000)
    (sp : Specie) (A : AddSubgroup (V3 ℤ)) (hA : A.index = n) (hax : ((0, 0, 1) : V3 ℤ) ∈ A) (D : V3 ℚ → ℤ) (hper : PeriodicOn unit.positions A D)
    (hD : ∀ x ∈ AtomSites unit.positions, D x = sp.Z ∨ (x, D x) ∈ Crystal (unit.positions.zip unit.numbers)) :
    ∃ out, hnfsFromN2D setList itemFirst unit (ops.map (·.1)) n = .ok out ∧ ∃ s ∈ out, ∃ c, s.toGeneralCell = .ok c ∧ ∃ k ≤ c.positions.length,
      ∀ (hash : List ℤ → ℕ) (ops' : List Op) (wy : List String) (g : OGen), OGen.new c ops' wy = .ok g → (c.positions.map siteKey).Nodup →
        SymContract Cong c.positions ops' → (∀ op ∈ ops', Unimodular op.1) →
        Set.InjOn hash {m | m.length = c.positions.length ∧ ∃ d ∈ {d | ∃ S : Finset ℕ, S ⊆ Finset.range c.numbers.length ∧ S.card = k ∧
          Subst c.numbers S sp.Z d}, GeomEquiv siteKey c.positions ops' d m} →
        ∃ strus, g.genNodupUnitary hash k sp = .ok strus ∧ ∃ b ∈ strus, ∃ op ∈ ops, ∃ op' ∈ ops',
          CartCrystal b.lattice (b.positions.zip b.numbers) =
            Moved c.lattice op' (Moved unit.lattice op (Decorated unit.lattice unit.positions D)) := by
  obtain ⟨out, o1, o2, o3⟩ := superlattice_of_2d setList hs itemFirst unit ops hG n h0 hn
  obtain ⟨s, hs', op, hop, hdet, hrot⟩ := o3 A hA hax
  exact ⟨out, o1, s, hs', derivative_binary_of unit hu hvol ops hops hel n hn (o2 s hs').1 sp A hop hdet hrot D hper hD⟩

/-- **C101** (ternary). The same for crystals in which every atom is of its parent element, `sp1` or `sp2`. -/
theorem C101_ternary (setList : List ℕ → List ℕ) (hs : SetOrder setList) (itemFirst : Bool) (unit : GCell) (hu : Built unit)
    (hvol : volume unit.lattice ≠ 0) (ops : List Op) (hops : SymContract Cong unit.positions ops)
    (hel : KeepsElements Cong unit.positions ops unit.numbers) (hG : PointGroup (ops.map (·.1))) (n : ℕ) (h0 : 0 < n) (hn : n < 2000)
    (sp1 sp2 : Specie) (A : AddSubgroup (V3 ℤ)) (hA : A.index = n) (hax : ((0, 0, 1) : V3 ℤ) ∈ A) (D : V3 ℚ → ℤ) (hper : PeriodicOn unit.positions A D)
    (hD : ∀ x ∈ AtomSites unit.positions, D x = sp1.Z ∨ D x = sp2.Z ∨ (x, D x) ∈ Crystal (unit.positions.zip unit.numbers)) :
    ∃ out, hnfsFromN2D setList itemFirst unit (ops.map (·.1)) n = .ok out ∧ ∃ s ∈ out, ∃ c, s.toGeneralCell = .ok c ∧
      ∃ k1 k2, k1 + k2 ≤ c.positions.length ∧
      ∀ (hash : List ℤ → ℕ) (ops' : List Op) (wy : List String) (g : OGen), OGen.new c ops' wy = .ok g → (c.positions.map siteKey).Nodup →
        SymContract Cong c.positions ops' → (∀ op ∈ ops', Unimodular op.1) →
        Set.InjOn hash {m | m.length = c.positions.length ∧ ∃ d ∈ {d | ∃ S T : Finset ℕ, S ⊆ Finset.range c.numbers.length ∧
          T ⊆ Finset.range c.numbers.length ∧ Disjoint S T ∧ S.card = k1 ∧ T.card = k2 ∧ Subst2 c.numbers S sp1.Z T sp2.Z d},
          GeomEquiv siteKey c.positions ops' d m} →
        ∃ strus, g.genNodupTrinary hash sp1 k1 sp2 k2 = .ok strus ∧ ∃ b ∈ strus, ∃ op ∈ ops, ∃ op' ∈ ops',
          CartCrystal b.lattice (b.positions.zip b.numbers) =
            Moved c.lattice op' (Moved unit.lattice op (Decorated unit.lattice unit.positions D)) := by
  obtain ⟨out, o1, o2, o3⟩ := superlattice_of_2d setList hs itemFirst unit ops hG n h0 hn
  obtain ⟨s, hs', op, hop, hdet, hrot⟩ := o3 A hA hax
  exact ⟨out, o1, s, hs', derivative_ternary_of unit hu hvol ops hops hel n hn (o2 s hs').1 sp1 sp2 A hop hdet hrot D hper hD⟩

/-- **C101** (nothing else). Every structure listed for a 2D superlattice of index `n` is a crystal that arises from the parent crystal by replacing some atoms
by `sp`, periodically along that superlattice, which contains the third axis. -/
theorem C101_only_derivatives (setList : List ℕ → List ℕ) (hs : SetOrder setList) (itemFirst : Bool) (unit : GCell) (hu : Built unit)
    (hcong : unit.positions.Pairwise fun p q => ¬ Cong p q) (ops : List Op) (hG : PointGroup (ops.map (·.1))) (n : ℕ) (h0 : 0 < n) (hn : n < 2000)
    (sp : Specie) :
    ∃ out, hnfsFromN2D setList itemFirst unit (ops.map (·.1)) n = .ok out ∧ ∀ s ∈ out, ((0, 0, 1) : V3 ℤ) ∈ rowLattice s.latCoeff ∧ (rowLattice s.latCoeff).index = n ∧
      ∃ c, s.toGeneralCell = .ok c ∧
      ∀ (hash : List ℤ → ℕ) (ops' : List Op) (wy : List String) (g : OGen) (k : ℕ) (strus : List GCell), OGen.new c ops' wy = .ok g →
        g.genNodupUnitary hash k sp = .ok strus → ∀ b ∈ strus, ∃ D, PeriodicOn unit.positions (rowLattice s.latCoeff) D ∧
          CartCrystal b.lattice (b.positions.zip b.numbers) = Decorated unit.lattice unit.positions D ∧
          ∀ x ∈ AtomSites unit.positions, D x = sp.Z ∨ (x, D x) ∈ Crystal (unit.positions.zip unit.numbers) := by
  obtain ⟨out, o1, o2, _⟩ := superlattice_of_2d setList hs itemFirst unit ops hG n h0 hn
  exact ⟨out, o1, fun s hs' => ⟨(o2 s hs').2, derivative_only_of unit hu hcong n hn (o2 s hs').1 sp⟩⟩

/-- **C101** (in the plane). The cell of every listed 2D superlattice has the third lattice vector of the parent, and its other two lattice vectors are integer
combinations of the first two of the parent: layers are neither stacked nor tilted. -/
theorem C101_in_plane (setList : List ℕ → List ℕ) (hs : SetOrder setList) (itemFirst : Bool) (unit : GCell) (hu : Built unit)
    (ops : List Op) (hG : PointGroup (ops.map (·.1))) (n : ℕ) (h0 : 0 < n) (hn : n < 2000) :
    ∃ out, hnfsFromN2D setList itemFirst unit (ops.map (·.1)) n = .ok out ∧ ∀ s ∈ out, ∃ c, s.toGeneralCell = .ok c ∧
      c.lattice.2.2 = unit.lattice.2.2 ∧ ∃ a b d : ℕ, a * d = n ∧ b < d ∧
        c.lattice.1 = (a : ℚ) • unit.lattice.1 + (b : ℚ) • unit.lattice.2.1 ∧ c.lattice.2.1 = (d : ℚ) • unit.lattice.2.1 := by
  obtain ⟨out, o1, o2, _⟩ := superlattice_of_2d setList hs itemFirst unit ops hG n h0 hn
  refine ⟨out, o1, fun s hs' => ?_⟩
  obtain ⟨⟨u1, u2, u3, u4⟩, u5⟩ := o2 s hs'
  obtain ⟨t1, t2⟩ := isHnf_triangular u1
  obtain ⟨c, c1, c2, _⟩ := enlarge_spec unit.lattice unit.positions unit.numbers hu.ne_nil hu.length.symm _ t1 n t2 (by omega)
  obtain ⟨a, b, d, ha, hd, had, hb, hm⟩ := (isHnf_2d u1).1 u5
  refine ⟨c, by unfold SLCell.toGeneralCell; rw [u2, u3, u4]; exact c1, ?_, a, b, d, had, hb, ?_, ?_⟩
  · have := congrFun c2 (0, 0, 1)
    rw [hm] at this
    simpa [cartesian, castM, castV, vecMul, V3.map, hnfMat] using this
  · have := congrFun c2 (1, 0, 0)
    rw [hm] at this
    simp [cartesian, castM, castV, V3.map, hnfMat] at this
    exact this
  · have := congrFun c2 (0, 1, 0)
    rw [hm] at this
    simp [cartesian, castM, castV, V3.map, hnfMat] at this
    exact this

/-- the hypotheses of C101 hold for the striped crystal: it is periodic along the sublattice generated by the first, twice the second and the third
axis, of index 2 -/
example (setList : List ℕ → List ℕ) (hs : SetOrder setList) :
    ∃ out, hnfsFromN2D setList true exPrim (exPrimOps.map (·.1)) 2 = .ok out ∧ ∃ s ∈ out, ∃ c, s.toGeneralCell = .ok c ∧ ∃ k ≤ c.positions.length,
      ∀ (hash : List ℤ → ℕ) (ops' : List Op) (wy : List String) (g : OGen), OGen.new c ops' wy = .ok g → (c.positions.map siteKey).Nodup →
        SymContract Cong c.positions ops' → (∀ op ∈ ops', Unimodular op.1) →
        Set.InjOn hash {m | m.length = c.positions.length ∧ ∃ d ∈ {d | ∃ S : Finset ℕ, S ⊆ Finset.range c.numbers.length ∧ S.card = k ∧
          Subst c.numbers S exAu.Z d}, GeomEquiv siteKey c.positions ops' d m} →
        ∃ strus, g.genNodupUnitary hash k exAu = .ok strus ∧ ∃ b ∈ strus, ∃ op ∈ exPrimOps, ∃ op' ∈ ops',
          CartCrystal b.lattice (b.positions.zip b.numbers) =
            Moved c.lattice op' (Moved exPrim.lattice op (Decorated exPrim.lattice exPrim.positions exLayers)) := by
  refine C101_binary setList hs true exPrim ⟨identM, [(0, 0, 0)], [29], by decide +kernel⟩ (by decide +kernel) exPrimOps exPrimOps_contract ?_ ?_ 2
    (by norm_num) (by norm_num) exAu (rowLattice ((1, 0, 0), (0, 2, 0), (0, 0, 1))) ?_ ?_ exLayers ?_ ?_
  · intro op _ i j x y hx hy _
    have hi : i < 1 := (List.getElem?_eq_some_iff.1 hx).1
    have hj : j < 1 := (List.getElem?_eq_some_iff.1 hy).1
    rw [Nat.lt_one_iff.1 hi, Nat.lt_one_iff.1 hj]
  · have : exPrimOps.map (·.1) = exC4 := by decide +kernel
    rw [this]; exact exC4_group
  · rw [rowLattice_index]; decide
  · exact (mem_rowLattice _ _).2 ⟨(0, 0, 1), by decide⟩
  · intro x _ v hv
    obtain ⟨k, rfl⟩ := (mem_rowLattice _ _).1 hv
    have : (∃ z : ℤ, (x + (((vecMul k ((1, 0, 0), (0, 2, 0), (0, 0, 1))).1 : ℚ), ((vecMul k ((1, 0, 0), (0, 2, 0), (0, 0, 1))).2.1 : ℚ),
        ((vecMul k ((1, 0, 0), (0, 2, 0), (0, 0, 1))).2.2 : ℚ))).2.1 = 2 * z) ↔ ∃ z : ℤ, x.2.1 = 2 * z := by
      simp only [vecMul, Prod.snd_add, Prod.fst_add]
      constructor
      · rintro ⟨z, hz⟩; refine ⟨z - k.2.1, ?_⟩; push_cast at hz ⊢; linarith
      · rintro ⟨z, hz⟩; refine ⟨z + k.2.1, ?_⟩; push_cast at hz ⊢; linarith
    classical
    exact if_congr this rfl rfl
  · rintro x ⟨p, hp, hpx⟩
    unfold exLayers
    split
    · exact .inl rfl
    · exact .inr ⟨(p, 29), by rw [List.mem_singleton.1 hp]; exact List.mem_singleton.2 rfl, hpx, rfl⟩

end Verif
