import Verif.Lemmas.Motion
import Verif.Props.SuperCount
import Verif.Props.Crystals
import Verif.Props.Derivative2D

/-! # C105: no derivative structure is listed twice -/

namespace Verif

open Spec

theorem crystal_enlarged {ps : List (V3 ℚ)} {ns : List ℤ} (hc : ps.Pairwise fun p q => ¬ Cong p q) {h : M3 ℤ} (h0 : det h ≠ 0) {c : GCell}
    (hb : Built c) (c5 : ∀ s ∈ c.positions.zip c.numbers, (cartesian (castM h) s.1, s.2) ∈ Crystal (ps.zip ns))
    (c6 : ∀ x ∈ AtomSites ps, ∃ q ∈ c.positions, ∃ k, x = cartesian (castM h) q + castV (vecMul k h)) (x : V3 ℚ) (z : ℤ) :
    (x, z) ∈ Crystal (c.positions.zip c.numbers) ↔ (cartesian (castM h) x, z) ∈ Crystal (ps.zip ns) := by
  constructor
  · rintro ⟨t, ht, ⟨k, hk⟩, hz⟩
    have hk' : x = t.1 + castV k := hk
    rw [hk', cartesian_translate, show z = t.2 from hz]
    exact crystal_add (c5 t ht) _
  · rintro ⟨u, hu, huc, huz⟩
    obtain ⟨q, hq, k, e⟩ := c6 _ ⟨u.1, (List.of_mem_zip hu).1, huc⟩
    have hx : x = q + castV k := cart_inj_castM h0 (e.trans (cartesian_translate h q k).symm)
    obtain ⟨i, hi⟩ := List.mem_iff_getElem?.1 hq
    have hlc := hb.length
    have hil := (List.getElem?_eq_some_iff.1 hi).1
    have e2 : c.numbers[i]? = some c.numbers[i] := List.getElem?_eq_getElem (by omega)
    have hmem : (q, c.numbers[i]) ∈ c.positions.zip c.numbers := List.mem_iff_getElem?.2 ⟨i, List.getElem?_zip_eq_some.2 ⟨hi, e2⟩⟩
    refine ⟨_, hmem, ⟨k, hx⟩, ?_⟩
    obtain ⟨t, ht, htc, hte⟩ := c5 _ hmem
    have huc' : Cong u.1 (cartesian (castM h) x) := huc
    have h1 : Cong t.1 u.1 := htc.trans (Cong.trans ⟨vecMul k h, e⟩ huc'.symm)
    obtain ⟨j, hj⟩ := List.mem_iff_getElem?.1 ht
    obtain ⟨l, hl⟩ := List.mem_iff_getElem?.1 hu
    obtain ⟨j1, j2⟩ := List.getElem?_zip_eq_some.1 hj
    obtain ⟨l1, l2⟩ := List.getElem?_zip_eq_some.1 hl
    have := cong_unique hc j1 l1 h1
    subst this
    rw [j2] at l2
    injection l2 with l2
    exact huz.trans (l2.symm.trans hte.symm)

theorem crystal_moved {L : M3 ℚ} (hv : volume L ≠ 0) {g : Op} {s t : List (V3 ℚ × ℤ)} (h : Moved L g (CartCrystal L s) = CartCrystal L t) :
    g.imageSet (Crystal s) = Crystal t := by
  have hC : ∀ (l : List (V3 ℚ × ℤ)) (x : V3 ℚ) (z : ℤ), (cartesian L x, z) ∈ CartCrystal L l ↔ (x, z) ∈ Crystal l := by
    intro l x z
    constructor
    · rintro ⟨u, hu, k, he⟩
      obtain ⟨e1, e2⟩ := Prod.mk.inj he
      exact ⟨u, hu, ⟨k, cartesian_inj hv e1⟩, e2⟩
    · rintro ⟨u, hu, ⟨k, e1⟩, e2⟩
      exact ⟨u, hu, k, Prod.ext (congrArg (cartesian L) e1) e2⟩
  ext ⟨y, z⟩
  rw [← hC, ← h, moved_mem hv]
  constructor
  · rintro ⟨⟨x, w⟩, hx, he⟩
    obtain ⟨rfl, rfl⟩ := Prod.mk.inj he
    exact ⟨x, (hC _ _ _).2 hx, rfl⟩
  · rintro ⟨x, hx, rfl⟩
    exact ⟨(x, z), (hC _ _ _).1 hx, rfl⟩

/-- a motion that carries a decoration with exact periods `A` onto one with periods `A'` of the same index carries `A` onto `A'` -/
theorem period_of_moved {B : M3 ℚ} (hv : volume B ≠ 0) {pos : List (V3 ℚ)} {nums : List ℤ} {ops : List Op} (hG : SpaceGroup (pos.zip nums) ops)
    (hops : SymContract Cong pos ops) {g : Op} (hg : g ∈ ops) {v : V3 ℤ} {D E : V3 ℚ → ℤ}
    (h : Moved B (g.shift v) (Decorated B pos D) = Decorated B pos E) {A A' : AddSubgroup (V3 ℤ)} (hA : ExactlyPeriodic pos A D)
    (hA' : PeriodicOn pos A' E) (hi : A'.index = A.index) (h0 : A.index ≠ 0) : A.map (rot g.1) = A' := by
  have hE : ∀ x ∈ AtomSites pos, E (g.image x + castV v) = D x := by
    intro x hx
    have h1 : (cartesian B (g.image x + castV v), D x) ∈ Decorated B pos E := by
      rw [← h]
      exact (moved_mem hv).2 ⟨x, ⟨x, hx, rfl⟩, shift_image g v x⟩
    obtain ⟨y, _, he⟩ := h1
    obtain ⟨e1, e2⟩ := Prod.mk.inj he
    rw [cartesian_inj hv e1, e2]
  have hbij := rot_bijective hG.pointGroup (List.mem_map_of_mem (f := (·.1)) hg)
  have hle : A' ≤ A.map (rot g.1) := by
    intro a ha
    obtain ⟨u, rfl⟩ := hbij.2 a
    refine ⟨u, (hA u).2 fun x hx => ?_, rfl⟩
    have h1 := atomSites_add hx u
    have h2 := atomSites_add (atomSites_maps hops hg hx) v
    have h3 := hA' _ h2 _ ha
    rw [intVec_eq, ← hE _ h1, ← hE x hx, image_add, add_right_comm]
    exact h3
  refine (eq_of_le_index hle ?_ ?_).symm
  · rw [AddSubgroup.index_map_of_bijective hbij, hi]
  · rw [AddSubgroup.index_map_of_bijective hbij]; exact h0

theorem geom_perm_numbers {c : GCell} (hb : Built c) (hk : (c.positions.map siteKey).Nodup) {ops : List Op} (hops : SymContract Cong c.positions ops)
    {a b : List ℤ} (ha : a.length = c.positions.length) (hbl : b.length = c.positions.length) (h : GeomEquiv siteKey c.positions ops a b) : b.Perm a := by
  obtain ⟨rows, _, h2, h3⟩ := ogen_new (wy := []) hb hk (contract_of_exact hk hops).1
  obtain ⟨p, hp, rfl⟩ := (rel_iff_geom hk (contract_of_exact hk hops).1 h2 a b ha hbl).2 h
  exact gather_perm (by rw [ha]; exact h3.perm p hp)

/-- what the superlattice stage provides for one superlattice -/
theorem enlarged_setup (unit : GCell) (hu : Built unit) (hvol : volume unit.lattice ≠ 0) (hcong : unit.positions.Pairwise fun p q => ¬ Cong p q)
    {ops : List Op} (hG : SpaceGroup (unit.positions.zip unit.numbers) ops) {n : ℕ} (h0 : 0 < n) (hn : n < 2000) {s : SLCell}
    (u : IsHnf n s.latCoeff ∧ s.ub = unit.lattice ∧ s.upositions = unit.positions ∧ s.unumbers = unit.numbers)
    {ops' : List Op} (hI : Inherited ops s.latCoeff ops') :
    ∃ c, s.toGeneralCell = .ok c ∧ enlarge unit.lattice unit.positions unit.numbers s.latCoeff = .ok c ∧ Built c ∧ volume c.lattice ≠ 0 ∧
      c.positions.length = n * unit.positions.length ∧
      (∀ x, cartesian c.lattice x = cartesian unit.lattice (cartesian (castM s.latCoeff) x)) ∧
      SymContract Cong c.positions ops' ∧ SpaceGroup (c.positions.zip c.numbers) ops' ∧ (∀ z ∈ c.numbers, z ∈ unit.numbers) ∧
      ∀ m : List ℤ, m.length = c.positions.length →
        ∃ E, PeriodicOn unit.positions (rowLattice s.latCoeff) E ∧ CartCrystal c.lattice (c.positions.zip m) = Decorated unit.lattice unit.positions E := by
  obtain ⟨u1, u2, u3, u4⟩ := u
  obtain ⟨t1, t2⟩ := isHnf_triangular u1
  have hd := det_pos t1
  obtain ⟨c, c1, c2, c3, c4, c5, c6⟩ := enlarge_atomSites (B := unit.lattice) hu.ne_nil hu.length.symm t1 t2 (by omega)
  obtain ⟨c', d1, _, d3, _, _, _, d7⟩ := enlarge_spec unit.lattice unit.positions unit.numbers hu.ne_nil hu.length.symm _ t1 n t2 (by omega)
  rw [c1] at d1
  injection d1 with d1
  subst d1
  have hlc := c2.length
  have hSG := hI.spaceGroup hd.ne' hG (crystal_enlarged hcong hd.ne' c2 c5 c6)
  have hpair : ∀ (i : ℕ) q, c.positions[i]? = some q → ∃ z, c.numbers[i]? = some z ∧ (q, z) ∈ c.positions.zip c.numbers := by
    intro i q e1
    have hi := (List.getElem?_eq_some_iff.1 e1).1
    have e2 : c.numbers[i]? = some c.numbers[i] := List.getElem?_eq_getElem (by omega)
    exact ⟨_, e2, List.mem_iff_getElem?.2 ⟨i, List.getElem?_zip_eq_some.2 ⟨e1, e2⟩⟩⟩
  have hin : ∀ q ∈ c.positions, cartesian (castM s.latCoeff) q ∈ AtomSites unit.positions := by
    intro q hq
    obtain ⟨i, hi⟩ := List.mem_iff_getElem?.1 hq
    obtain ⟨z, _, e3⟩ := hpair i q hi
    obtain ⟨t, ht, htc, _⟩ := c5 _ e3
    exact ⟨t.1, (List.of_mem_zip ht).1, htc⟩
  refine ⟨c, by unfold SLCell.toGeneralCell; rw [u2, u3, u4]; exact c1, c1, c2, ?_, by rw [d3, mul_comm], c3, (hSG.contract hlc.symm (d7 hcong)).1, hSG, ?_, ?_⟩
  · rw [c4]
    exact mul_ne_zero (by exact_mod_cast h0.ne') hvol
  · intro z hz
    obtain ⟨i, hi⟩ := List.mem_iff_getElem?.1 hz
    have hil := (List.getElem?_eq_some_iff.1 hi).1
    obtain ⟨z', e2, hz'⟩ := hpair i _ (List.getElem?_eq_getElem (by omega))
    rw [hi] at e2
    injection e2 with e2
    subst e2
    obtain ⟨t, ht, _, hte⟩ := c5 _ hz'
    have hte' : z = t.2 := hte
    rw [hte']
    exact (List.of_mem_zip ht).2
  · intro m hm
    obtain ⟨E, E1, E2, _⟩ := crystal_eq_decorated (B := unit.lattice) hd c3 hin c6 (d7 hcong) m hm
    exact ⟨E, E1, E2⟩

/-- exactly one list entry is the lattice `A` up to a rotation of the operations -/
def RepresentedOnce (ops : List Op) (out : List SLCell) (A : AddSubgroup (V3 ℤ)) : Prop :=
  ∃ (i : ℕ) (s : SLCell), out[i]? = some s ∧ SameUpToRotation (ops.map (·.1)) (rowLattice s.latCoeff) A ∧
    ∀ (j : ℕ) (t : SLCell), out[j]? = some t → SameUpToRotation (ops.map (·.1)) (rowLattice t.latCoeff) A → j = i

/-- every site of the parent holds some element -/
theorem site_element {unit : GCell} (hu : Built unit) {x : V3 ℚ} (hx : x ∈ AtomSites unit.positions) :
    ∃ z, (x, z) ∈ Crystal (unit.positions.zip unit.numbers) := by
  obtain ⟨p, hp, hpx⟩ := hx
  obtain ⟨i, hi⟩ := List.mem_iff_getElem?.1 hp
  have hil := (List.getElem?_eq_some_iff.1 hi).1
  have hl := hu.length
  have e2 : unit.numbers[i]? = some unit.numbers[i] := List.getElem?_eq_getElem (by omega)
  exact ⟨_, (p, _), List.mem_iff_getElem?.2 ⟨i, List.getElem?_zip_eq_some.2 ⟨hi, e2⟩⟩, hpx, rfl⟩

/-- the part of C105 shared by all generators: `lst s k` are the structures listed for the superlattice `s` and composition `k` -/
theorem once_core {κ : Type} (unit : GCell) (hu : Built unit)
    (hvol : volume unit.lattice ≠ 0) (hcong : unit.positions.Pairwise fun p q => ¬ Cong p q)
    (ops : List Op) (hG : SpaceGroup (unit.positions.zip unit.numbers) ops) (n : ℕ) (h0 : 0 < n) (hn : n < 2000) (P : ℤ → ℤ → Prop)
    (opsOf : M3 ℤ → List Op) (dom : GCell → κ → Set (List ℤ)) (lst : SLCell → κ → List GCell) {out : List SLCell}
    (o2 : ∀ s ∈ out, IsHnf n s.latCoeff ∧ s.ub = unit.lattice ∧ s.upositions = unit.positions ∧ s.unumbers = unit.numbers)
    (hI : ∀ s ∈ out, Inherited ops s.latCoeff (opsOf s.latCoeff))
    (hk : ∀ s ∈ out, ∀ c, s.toGeneralCell = .ok c → (c.positions.map siteKey).Nodup)
    (hlst : ∀ s ∈ out, ∀ c, s.toGeneralCell = .ok c → ∀ k, (∀ d ∈ lst s k, d.lattice = c.lattice ∧ d.positions = c.positions) ∧
      Transversal (GeomEquiv siteKey c.positions (opsOf s.latCoeff)) (dom c k) ((lst s k).map (·.numbers)))
    (hlen : ∀ c k, ∀ a ∈ dom c k, a.length = c.numbers.length)
    (hdisj : ∀ s ∈ out, ∀ c, s.toGeneralCell = .ok c → ∀ k k', ∀ a ∈ dom c k, ∀ b ∈ dom c k', a.Perm b → k = k')
    (hdom : ∀ c, ∀ a : List ℤ, a.length = c.numbers.length → (∀ (i : ℕ) z w, c.numbers[i]? = some z → a[i]? = some w → P z w) → ∃ k, a ∈ dom c k)
    (A : AddSubgroup (V3 ℤ)) (hA : A.index = n) (q3 : RepresentedOnce ops out A) (D : V3 ℚ → ℤ) (hper : ExactlyPeriodic unit.positions A D)
    (hD : ∀ x ∈ AtomSites unit.positions, ∃ z, (x, z) ∈ Crystal (unit.positions.zip unit.numbers) ∧ P z (D x)) :
    ∃ (i : ℕ) (k : κ) (p : ℕ), ∀ (i' : ℕ) (k' : κ) (p' : ℕ), (∃ (s : SLCell) (b : GCell), out[i']? = some s ∧ (lst s k')[p']? = some b ∧
      SameDerivative unit.lattice ops (Decorated unit.lattice unit.positions D) (CartCrystal b.lattice (b.positions.zip b.numbers))) ↔
        i' = i ∧ k' = k ∧ p' = p := by
  obtain ⟨hops, hel⟩ := hG.contract hu.length.symm hcong
  have hPG := hG.pointGroup
  -- what every listed structure equivalent to `D` looks like
  have hshape : ∀ s ∈ out, ∀ k, ∀ b ∈ lst s k, ∀ g ∈ ops, ∀ v, Moved unit.lattice (g.shift v) (Decorated unit.lattice unit.positions D) =
      CartCrystal b.lattice (b.positions.zip b.numbers) → A.map (rot g.1) = rowLattice s.latCoeff := by
    intro s hs' k b hb g hg v hm
    obtain ⟨c, c1, _, c3, _, _, _, _, _, _, c9⟩ := enlarged_setup unit hu hvol hcong hG h0 hn (o2 s hs') (hI s hs')
    obtain ⟨l1, l2⟩ := hlst s hs' c c1 k
    have hbd := l2.1 _ (List.mem_map_of_mem hb)
    have hbl : b.numbers.length = c.positions.length := by rw [hlen c k _ hbd, c3.length]
    obtain ⟨E, E1, E2⟩ := c9 _ hbl
    rw [(l1 b hb).1, (l1 b hb).2, E2] at hm
    exact period_of_moved hvol hG hops hg hm hper E1 (by rw [isHnf_index (o2 s hs').1, hA]) (by rw [hA]; exact h0.ne')
  -- existence
  obtain ⟨i, s, hi, hsA, huniq⟩ := q3
  have hs' := List.mem_of_getElem? hi
  obtain ⟨r, hr, hrA⟩ := SameUpToRotation.symm hPG hsA
  obtain ⟨op, hop, rfl⟩ := List.mem_map.1 hr
  have hperA : PeriodicOn unit.positions A D := fun x hx v hv => (hper v).1 hv x hx
  obtain ⟨u1, u2, u3, u4⟩ := o2 s hs'
  obtain ⟨t1, t2⟩ := isHnf_triangular u1
  have hd := det_pos t1
  obtain ⟨c, c1, c2, c3, c4, _, c5, c6, c7, _, c9⟩ := enlarged_setup unit hu hvol hcong hG h0 hn (o2 s hs') (hI s hs')
  obtain ⟨c', e1, _, _, a, a1, a2, a3⟩ := derivative_core unit hu.ne_nil hu.length.symm hvol hops hel hop (hG.det hop) t1 t2 (by omega) hrA hperA
  rw [c2] at e1
  injection e1 with e1
  subst e1
  have hlc := c3.length
  have hkc := hk s hs' c c1
  obtain ⟨rows, _, hrows, hP⟩ := ogen_new (wy := []) c3 hkc (contract_of_exact hkc c6).1
  obtain ⟨k, hak⟩ := hdom c a (by omega) (fun j z w hz hw => by
    obtain ⟨x, hx, hw', hz'⟩ := a3 j z w hz hw
    obtain ⟨z', hz1, hz2⟩ := hD x hx
    rw [hw', ← hz' _ hz1]
    exact hz2)
  obtain ⟨l1, l2⟩ := hlst s hs' c c1 k
  obtain ⟨m, hm, hma⟩ := l2.2.1 a hak
  obtain ⟨b, hb, rfl⟩ := List.mem_map.1 hm
  have hbl : b.numbers.length = c.positions.length := by rw [hlen c k _ (l2.1 _ hm), hlc]
  obtain ⟨p, hp⟩ := List.mem_iff_getElem?.1 hb
  have hsk := (contract_of_exact hkc c6).1
  have hrel : ∀ x y : List ℤ, x.length = c.positions.length → y.length = c.positions.length →
      GeomEquiv siteKey c.positions (opsOf s.latCoeff) x y → GeomEquiv siteKey c.positions (opsOf s.latCoeff) y x := by
    intro x y hx hy hxy
    exact (rel_iff_geom hkc hsk hrows y x hy hx).1 (Rel.symm hP hx ((rel_iff_geom hkc hsk hrows x y hx hy).2 hxy))
  obtain ⟨f, hf, himg⟩ := (geom_iff_crystal hkc c6 (fun g hg => c7.det hg) a b.numbers).1 (hrel _ _ hbl a1 hma)
  have hfm := moved_crystal c4 himg
  obtain ⟨g, hg, v, _, ef⟩ := (hI s hs').sound f hf
  have hfz : Moved c.lattice (f.shift 0) (CartCrystal c.lattice (c.positions.zip a)) =
      Moved unit.lattice (g.shift v) (CartCrystal c.lattice (c.positions.zip a)) :=
    moved_inherited hd.ne' c5 (fun x => by rw [castV_zero, add_zero]; exact ef x) _
  rw [moved_shift _ _ _ (c7.det hf), hfm] at hfz
  have hex : SameDerivative unit.lattice ops (Decorated unit.lattice unit.positions D) (CartCrystal b.lattice (b.positions.zip b.numbers)) := by
    rw [(l1 b hb).1, (l1 b hb).2]
    refine SameDerivative.trans' hvol hG (Y := CartCrystal c.lattice (c.positions.zip a)) ⟨op, hop, 0, ?_⟩ ⟨g, hg, v, hfz.symm⟩
    rw [← a2]
    have : op.shift 0 = op := by
      unfold Op.shift
      rw [intVec_eq, castV_zero, add_zero]
    rw [this]
  refine ⟨i, k, p, fun i' k' p' => ⟨?_, ?_⟩⟩
  · rintro ⟨s2, b2, hi2, hp2, g2, hg2, v2, hm2⟩
    obtain ⟨g1, hg1, v1, hm1⟩ := hex
    have r1 := hshape s hs' k b hb g1 hg1 v1 hm1
    have r2 := hshape s2 (List.mem_of_getElem? hi2) k' b2 (List.mem_of_getElem? hp2) g2 hg2 v2 hm2
    have hii := huniq i' s2 hi2 (SameUpToRotation.symm hPG ⟨_, List.mem_map_of_mem hg2, r2⟩)
    subst hii
    rw [hi] at hi2
    injection hi2 with hi2
    subst hi2
    have hb2 := List.mem_of_getElem? hp2
    obtain ⟨l1', l2'⟩ := hlst s hs' c c1 k'
    have hbd2 := l2'.1 _ (List.mem_map_of_mem hb2)
    have hbl2 : b2.numbers.length = c.positions.length := by rw [hlen c k' _ hbd2, hlc]
    obtain ⟨w, hw, y, hxy, hrot⟩ := motion_ratio hG hg1 hg2 v1 v2
    have hmb := moved_trans hvol hxy (Decorated unit.lattice unit.positions D)
    rw [hm1, hm2, (l1 b hb).1, (l1 b hb).2, (l1' b2 hb2).1, (l1' b2 hb2).2] at hmb
    have hstab : (rowLattice s.latCoeff).map (rot w.1) = rowLattice s.latCoeff := by
      rw [← r1, rot_map_map hrot, r2, r1]
    obtain ⟨f', hf', w', ef'⟩ := (hI s hs').complete w hw y hstab
    rw [← moved_inherited hd.ne' c5 ef', moved_shift _ _ _ (c7.det hf')] at hmb
    have hge := (geom_iff_crystal hkc c6 (fun g hg => c7.det hg) b.numbers b2.numbers).2 ⟨f', hf', crystal_moved c4 hmb⟩
    have hkk := hdisj s hs' c c1 k k' _ (l2.1 _ hm) _ hbd2 (geom_perm_numbers c3 hkc c6 hbl hbl2 hge).symm
    subst hkk
    refine ⟨rfl, rfl, ?_⟩
    have hpw := List.pairwise_iff_getElem.1 (List.pairwise_map.1 l2.2.2)
    obtain ⟨hp', ep⟩ := List.getElem?_eq_some_iff.1 hp
    obtain ⟨hp2', ep2⟩ := List.getElem?_eq_some_iff.1 hp2
    rcases lt_trichotomy p' p with hlt | heq | hgt
    · exact absurd (by rw [ep, ep2]; exact hge) (hpw p' p hp2' hp' hlt).2
    · exact heq
    · exact absurd (by rw [ep, ep2]; exact hge) (hpw p p' hp' hp2' hgt).1
  · rintro ⟨rfl, rfl, rfl⟩
    exact ⟨s, b, hi, hp, hex⟩

theorem count_of_sites {m : List ℤ} {S : Finset ℕ} {z : ℤ} (h : ∀ i : ℕ, m[i]? = some z ↔ i ∈ S) : m.count z = S.card := by
  have h1 : m = (List.range m.length).map fun i => (m[i]?).getD 0 := by
    apply List.ext_getElem?
    intro i
    rw [List.getElem?_map]
    by_cases hi : i < m.length
    · rw [List.getElem?_eq_getElem hi, List.getElem?_eq_getElem (by simpa using hi)]; simp [hi]
    · rw [List.getElem?_eq_none (by omega), List.getElem?_eq_none (by simp; omega)]; rfl
  conv_lhs => rw [h1]
  rw [count_map_range]
  congr 1
  ext i
  rw [Finset.mem_filter, Finset.mem_range, ← h]
  constructor
  · rintro ⟨hi, e⟩
    rw [List.getElem?_eq_getElem hi] at e ⊢
    exact congrArg some e
  · intro e
    exact ⟨(List.getElem?_eq_some_iff.1 e).1, by rw [e]; rfl⟩

theorem subst_sites {base m : List ℤ} {S : Finset ℕ} {z : ℤ} (h : Subst base S z m) (hS : S ⊆ Finset.range base.length) (hz : z ∉ base) (i : ℕ) :
    m[i]? = some z ↔ i ∈ S := by
  by_cases hi : i < base.length
  · rw [h.2 i hi]
    by_cases hiS : i ∈ S
    · simp [hiS]
    · rw [if_neg hiS]
      exact ⟨fun e => absurd (List.mem_of_getElem? e) hz, fun e => absurd e hiS⟩
  · rw [List.getElem?_eq_none (by rw [h.1]; omega)]
    exact ⟨fun e => by simp at e, fun e => absurd (Finset.mem_range.1 (hS e)) hi⟩

theorem subst2_sites {base m : List ℤ} {S T : Finset ℕ} {z w : ℤ} (h : Subst2 base S z T w m) (hS : S ⊆ Finset.range base.length)
    (hT : T ⊆ Finset.range base.length) (hST : Disjoint S T) (hz : z ∉ base) (hw : w ∉ base) (hzw : z ≠ w) (i : ℕ) :
    (m[i]? = some z ↔ i ∈ S) ∧ (m[i]? = some w ↔ i ∈ T) := by
  by_cases hi : i < base.length
  · rw [h.2 i hi]
    by_cases hiS : i ∈ S
    · have : i ∉ T := fun hT => Finset.disjoint_left.1 hST hiS hT
      simp [hiS, this, hzw]
    · rw [if_neg hiS]
      by_cases hiT : i ∈ T
      · simp [hiS, hiT, hzw.symm]
      · rw [if_neg hiT]
        exact ⟨⟨fun e => absurd (List.mem_of_getElem? e) hz, fun e => absurd e hiS⟩,
          fun e => absurd (List.mem_of_getElem? e) hw, fun e => absurd e hiT⟩
  · rw [List.getElem?_eq_none (by rw [h.1]; omega)]
    exact ⟨⟨fun e => by simp at e, fun e => absurd (Finset.mem_range.1 (hS e)) hi⟩,
      fun e => by simp at e, fun e => absurd (Finset.mem_range.1 (hT e)) hi⟩

theorem subst2_elements {base m : List ℤ} {S T : Finset ℕ} {z w : ℤ} (h : Subst2 base S z T w m) : ∀ x ∈ m, x ∈ base ∨ x = z ∨ x = w := by
  intro x hx
  obtain ⟨i, hi⟩ := List.mem_iff_getElem?.1 hx
  have hil := (List.getElem?_eq_some_iff.1 hi).1
  rw [h.2 i (by rw [← h.1]; exact hil)] at hi
  split at hi
  · injection hi with hi; exact .inr (.inl hi.symm)
  · split at hi
    · injection hi with hi; exact .inr (.inr hi.symm)
    · exact .inl (List.mem_of_getElem? hi)

theorem subst_subst2 {base m : List ℤ} {S : Finset ℕ} {z : ℤ} (h : Subst base S z m) : Subst2 base S z ∅ z m :=
  ⟨h.1, fun i hi => by rw [h.2 i hi]; simp⟩

/-- enlarging the parent along one superlattice and listing the decorations with `k` atoms replaced by `sp`
(`to_general_cell`, ababe/stru/grid.py:48-77, `OccupyGenerator`, ababe/stru/sogen.py:33-40, and `gen_nodup_unitary`,
ababe/stru/sogen.py:63-75, one after the other) -/
def superUnitary (hash : List ℤ → ℕ) (sp : Specie) (ops : List Op) (wy : List String) (s : SLCell) (k : ℕ) : Py (List GCell) := do
  let c ← s.toGeneralCell
  let g ← OGen.new c ops wy
  g.genNodupUnitary hash k sp

/-- the same with `k` of the `ele` atoms replaced by `sp` (`gen_nodup_of_ele`, ababe/stru/sogen.py:93-109) -/
def superOfEle (hash : List ℤ → ℕ) (ele sp : Specie) (ops : List Op) (wy : List String) (s : SLCell) (k : ℕ) : Py (List GCell) := do
  let c ← s.toGeneralCell
  let g ← OGen.new c ops wy
  g.genNodupOfEle hash ele k sp

/-- the same with `k.1` atoms replaced by `sp1` and `k.2` by `sp2` (`gen_nodup_trinary_alloy`, ababe/stru/sogen.py:129-131) -/
def superTrinary (hash : List ℤ → ℕ) (sp1 sp2 : Specie) (ops : List Op) (wy : List String) (s : SLCell) (k : ℕ × ℕ) : Py (List GCell) := do
  let c ← s.toGeneralCell
  let g ← OGen.new c ops wy
  g.genNodupTrinary hash sp1 k.1 sp2 k.2

/-- the part of `C105_binary` that does not depend on the enumeration of the superlattices -/
theorem once_binary_of (unit : GCell) (hu : Built unit)
    (hvol : volume unit.lattice ≠ 0) (hcong : unit.positions.Pairwise fun p q => ¬ Cong p q)
    (ops : List Op) (hG : SpaceGroup (unit.positions.zip unit.numbers) ops) (n : ℕ) (h0 : 0 < n) (hn : n < 2000)
    (sp : Specie) (hsp : sp.Z ∉ unit.numbers) (hash : List ℤ → ℕ)
    (hhash : Set.InjOn hash {m | m.length = n * unit.positions.length ∧ ∀ z ∈ m, z ∈ unit.numbers ∨ z = sp.Z})
    (opsOf : M3 ℤ → List Op) (wyOf : M3 ℤ → List String) {out : List SLCell}
    (o2 : ∀ s ∈ out, IsHnf n s.latCoeff ∧ s.ub = unit.lattice ∧ s.upositions = unit.positions ∧ s.unumbers = unit.numbers)
    (hI : ∀ s ∈ out, Inherited ops s.latCoeff (opsOf s.latCoeff)) (hk : ∀ s ∈ out, ∀ c, s.toGeneralCell = .ok c → (c.positions.map siteKey).Nodup)
    (A : AddSubgroup (V3 ℤ)) (hA : A.index = n) (q3 : RepresentedOnce ops out A) (D : V3 ℚ → ℤ) (hper : ExactlyPeriodic unit.positions A D)
    (hD : ∀ x ∈ AtomSites unit.positions, D x = sp.Z ∨ (x, D x) ∈ Crystal (unit.positions.zip unit.numbers)) :
      ∃ i k p : ℕ, ∀ i' k' p' : ℕ,
      (∃ (s : SLCell) (strus : List GCell) (b : GCell), out[i']? = some s ∧
        superUnitary hash sp (opsOf s.latCoeff) (wyOf s.latCoeff) s k' = .ok strus ∧ strus[p']? = some b ∧
        SameDerivative unit.lattice ops (Decorated unit.lattice unit.positions D) (CartCrystal b.lattice (b.positions.zip b.numbers))) ↔
      i' = i ∧ k' = k ∧ p' = p := by
  let dom : GCell → ℕ → Set (List ℤ) := fun c k => {m | ∃ S : Finset ℕ, S ⊆ Finset.range c.numbers.length ∧ S.card = k ∧ Subst c.numbers S sp.Z m}
  have hrun : ∀ s ∈ out, ∀ c, s.toGeneralCell = .ok c → ∀ k, ∃ strus, superUnitary hash sp (opsOf s.latCoeff) (wyOf s.latCoeff) s k = .ok strus ∧
      (∀ d ∈ strus, d.lattice = c.lattice ∧ d.positions = c.positions) ∧
      Transversal (GeomEquiv siteKey c.positions (opsOf s.latCoeff)) (dom c k) (strus.map (·.numbers)) := by
    intro s hs' c hc k
    obtain ⟨c', c1, _, c3, _, clen, _, c6, _, c8, _⟩ := enlarged_setup unit hu hvol hcong hG h0 hn (o2 s hs') (hI s hs')
    rw [hc] at c1
    injection c1 with c1
    subst c1
    have hkc := hk s hs' c hc
    have hsk := (contract_of_exact hkc c6).1
    obtain ⟨rows, g1, _, _⟩ := ogen_new (wy := wyOf s.latCoeff) c3 hkc hsk
    obtain ⟨strus, e1, e2, e3⟩ := C21_nodup_unitary hash c _ _ _ ⟨c3, hkc, hsk, g1⟩ k sp (dom c k) rfl (hhash.mono (by
      rintro m ⟨hm, d, ⟨S, hS, hSk, hd⟩, hge⟩
      refine ⟨hm.trans clen, fun z hz => ?_⟩
      have hp := geom_perm_numbers c3 hkc c6 (by rw [hd.1, c3.length]) hm hge
      rcases subst2_elements (subst_subst2 hd) z (hp.subset hz) with h | h | h
      · exact .inl (c8 z h)
      · exact .inr h
      · exact .inr h))
    refine ⟨strus, ?_, e2, e3⟩
    unfold superUnitary
    rw [hc]
    show (do let g ← OGen.new c (opsOf s.latCoeff) (wyOf s.latCoeff); g.genNodupUnitary hash k sp) = _
    rw [g1]
    exact e1
  have hcell : ∀ s ∈ out, ∃ c, s.toGeneralCell = .ok c ∧ ∀ z ∈ c.numbers, z ∈ unit.numbers := by
    intro s hs'
    obtain ⟨c, c1, _, _, _, _, _, _, _, c8, _⟩ := enlarged_setup unit hu hvol hcong hG h0 hn (o2 s hs') (hI s hs')
    exact ⟨c, c1, c8⟩
  let lst : SLCell → ℕ → List GCell := fun s k =>
    match superUnitary hash sp (opsOf s.latCoeff) (wyOf s.latCoeff) s k with
    | .ok l => l
    | .error _ => []
  have hlst : ∀ s k strus, superUnitary hash sp (opsOf s.latCoeff) (wyOf s.latCoeff) s k = .ok strus → lst s k = strus := by
    intro s k strus h
    show (match superUnitary hash sp (opsOf s.latCoeff) (wyOf s.latCoeff) s k with | .ok l => l | .error _ => []) = strus
    rw [h]
  obtain ⟨i, k, p, h⟩ := once_core unit hu hvol hcong ops hG n h0 hn (fun z w => w = sp.Z ∨ w = z) opsOf dom lst o2 hI hk
    (fun s hs' c hc k => by
      obtain ⟨strus, e1, e2, e3⟩ := hrun s hs' c hc k
      rw [hlst s k strus e1]
      exact ⟨e2, e3⟩)
    (fun c k a ⟨S, _, _, ha⟩ => ha.1)
    (by
      rintro s hs' c hc k k' a ⟨S, hS, hSk, ha⟩ b ⟨T, hT, hTk, hb⟩ hab
      obtain ⟨c', c1, c8⟩ := hcell s hs'
      rw [hc] at c1
      injection c1 with c1
      subst c1
      have hz : sp.Z ∉ c.numbers := fun h => hsp (c8 _ h)
      rw [← hSk, ← hTk, ← count_of_sites (subst_sites ha hS hz), ← count_of_sites (subst_sites hb hT hz)]
      exact hab.count_eq _)
    (by
      intro c a hal hadm
      refine ⟨_, (Finset.range c.numbers.length).filter fun i => a[i]? = some sp.Z, Finset.filter_subset _ _, rfl, hal, fun i hi => ?_⟩
      by_cases h : a[i]? = some sp.Z
      · rw [if_pos (Finset.mem_filter.2 ⟨Finset.mem_range.2 hi, h⟩), h]
      · rw [if_neg (fun hm : i ∈ (Finset.range c.numbers.length).filter (fun i => a[i]? = some sp.Z) => h (Finset.mem_filter.1 hm).2)]
        have ez := List.getElem?_eq_getElem hi
        have ew : a[i]? = some a[i] := List.getElem?_eq_getElem (by omega)
        rcases hadm i _ _ ez ew with hw | hw
        · exact absurd (by rw [ew, hw]) h
        · rw [ew, ez, hw])
    A hA q3 D hper (fun x hx => by
      rcases hD x hx with h | h
      · obtain ⟨z, hz⟩ := site_element hu hx
        exact ⟨z, hz, .inl h⟩
      · exact ⟨D x, h, .inr rfl⟩)
  refine ⟨i, k, p, fun i' k' p' => (h i' k' p').symm.trans ?_ |>.symm⟩
  constructor
  · rintro ⟨s, b, hi, hb, hm⟩
    obtain ⟨c, c1, _⟩ := hcell s (List.mem_of_getElem? hi)
    obtain ⟨strus, e1, _, _⟩ := hrun s (List.mem_of_getElem? hi) c c1 k'
    rw [hlst s k' strus e1] at hb
    exact ⟨s, strus, b, hi, e1, hb, hm⟩
  · rintro ⟨s, strus, b, hi, e1, hb, hm⟩
    exact ⟨s, b, hi, by rw [hlst s k' strus e1]; exact hb, hm⟩

/-- **C105** (binary). Let a crystal arise from the parent crystal by replacing some atoms by `sp`, and let its translations among the parent's
be exactly a lattice `A` of index `n`. Then exactly one superlattice listed for index `n`, exactly one number `k` of replaced atoms and exactly one
entry of the list of decorations give a crystal that is the given one up to motions of the parent. -/
theorem C105_binary (setList : List ℕ → List ℕ) (hs : SetOrder setList) (itemFirst : Bool) (unit : GCell) (hu : Built unit)
    (hvol : volume unit.lattice ≠ 0) (hcong : unit.positions.Pairwise fun p q => ¬ Cong p q)
    (ops : List Op) (hG : SpaceGroup (unit.positions.zip unit.numbers) ops) (n : ℕ) (h0 : 0 < n) (hn : n < 2000)
    (sp : Specie) (hsp : sp.Z ∉ unit.numbers) (hash : List ℤ → ℕ)
    (hhash : Set.InjOn hash {m | m.length = n * unit.positions.length ∧ ∀ z ∈ m, z ∈ unit.numbers ∨ z = sp.Z})
    (opsOf : M3 ℤ → List Op) (wyOf : M3 ℤ → List String) :
    ∃ out, hnfsFromN setList itemFirst unit (ops.map (·.1)) n = .ok out ∧
      ((∀ s ∈ out, Inherited ops s.latCoeff (opsOf s.latCoeff)) → (∀ s ∈ out, ∀ c, s.toGeneralCell = .ok c → (c.positions.map siteKey).Nodup) →
      ∀ A : AddSubgroup (V3 ℤ), A.index = n → ∀ D : V3 ℚ → ℤ, ExactlyPeriodic unit.positions A D →
      (∀ x ∈ AtomSites unit.positions, D x = sp.Z ∨ (x, D x) ∈ Crystal (unit.positions.zip unit.numbers)) →
      ∃ i k p : ℕ, ∀ i' k' p' : ℕ,
        (∃ (s : SLCell) (strus : List GCell) (b : GCell), out[i']? = some s ∧
          superUnitary hash sp (opsOf s.latCoeff) (wyOf s.latCoeff) s k' = .ok strus ∧ strus[p']? = some b ∧
          SameDerivative unit.lattice ops (Decorated unit.lattice unit.positions D) (CartCrystal b.lattice (b.positions.zip b.numbers))) ↔
        i' = i ∧ k' = k ∧ p' = p) := by
  obtain ⟨out, o1, o2, _⟩ := superlattice_of setList hs itemFirst unit ops hG.pointGroup n h0 hn
  obtain ⟨out', q1, _, q3⟩ := C31_transversal setList hs itemFirst unit (ops.map (·.1)) hG.pointGroup n h0 hn
  rw [o1] at q1
  injection q1 with q1
  subst q1
  exact ⟨out, o1, fun hI hk A hA => once_binary_of unit hu hvol hcong ops hG n h0 hn sp hsp hash hhash opsOf wyOf o2 hI hk A hA (q3 A hA)⟩

/-- **C105** (binary, 2D superlattices). The same for the 2D enumeration and crystals whose translations include the third axis. -/
theorem C105_binary_2d (setList : List ℕ → List ℕ) (hs : SetOrder setList) (itemFirst : Bool) (unit : GCell) (hu : Built unit)
    (hvol : volume unit.lattice ≠ 0) (hcong : unit.positions.Pairwise fun p q => ¬ Cong p q)
    (ops : List Op) (hG : SpaceGroup (unit.positions.zip unit.numbers) ops) (n : ℕ) (h0 : 0 < n) (hn : n < 2000)
    (sp : Specie) (hsp : sp.Z ∉ unit.numbers) (hash : List ℤ → ℕ)
    (hhash : Set.InjOn hash {m | m.length = n * unit.positions.length ∧ ∀ z ∈ m, z ∈ unit.numbers ∨ z = sp.Z})
    (opsOf : M3 ℤ → List Op) (wyOf : M3 ℤ → List String) :
    ∃ out, hnfsFromN2D setList itemFirst unit (ops.map (·.1)) n = .ok out ∧
      ((∀ s ∈ out, Inherited ops s.latCoeff (opsOf s.latCoeff)) → (∀ s ∈ out, ∀ c, s.toGeneralCell = .ok c → (c.positions.map siteKey).Nodup) →
      ∀ A : AddSubgroup (V3 ℤ), A.index = n → ((0, 0, 1) : V3 ℤ) ∈ A → ∀ D : V3 ℚ → ℤ, ExactlyPeriodic unit.positions A D →
      (∀ x ∈ AtomSites unit.positions, D x = sp.Z ∨ (x, D x) ∈ Crystal (unit.positions.zip unit.numbers)) →
      ∃ i k p : ℕ, ∀ i' k' p' : ℕ,
        (∃ (s : SLCell) (strus : List GCell) (b : GCell), out[i']? = some s ∧
          superUnitary hash sp (opsOf s.latCoeff) (wyOf s.latCoeff) s k' = .ok strus ∧ strus[p']? = some b ∧
          SameDerivative unit.lattice ops (Decorated unit.lattice unit.positions D) (CartCrystal b.lattice (b.positions.zip b.numbers))) ↔
        i' = i ∧ k' = k ∧ p' = p) := by
  obtain ⟨out, o1, o2, _⟩ := superlattice_of_2d setList hs itemFirst unit ops hG.pointGroup n h0 hn
  obtain ⟨out', q1, _, q3⟩ := C31_transversal_2d setList hs itemFirst unit (ops.map (·.1)) hG.pointGroup n h0 hn
  rw [o1] at q1
  injection q1 with q1
  subst q1
  exact ⟨out, o1, fun hI hk A hA hax => once_binary_of unit hu hvol hcong ops hG n h0 hn sp hsp hash hhash opsOf wyOf (fun s hs' => (o2 s hs').1) hI hk A hA (q3 A hA hax)⟩

/-- the part of `C105_of_ele` that does not depend on the enumeration of the superlattices -/
theorem once_of_ele_of (unit : GCell) (hu : Built unit)
    (hvol : volume unit.lattice ≠ 0) (hcong : unit.positions.Pairwise fun p q => ¬ Cong p q)
    (ops : List Op) (hG : SpaceGroup (unit.positions.zip unit.numbers) ops) (n : ℕ) (h0 : 0 < n) (hn : n < 2000)
    (ele sp : Specie) (hsp : sp.Z ∉ unit.numbers) (hash : List ℤ → ℕ)
    (hhash : Set.InjOn hash {m | m.length = n * unit.positions.length ∧ ∀ z ∈ m, z ∈ unit.numbers ∨ z = sp.Z})
    (opsOf : M3 ℤ → List Op) (wyOf : M3 ℤ → List String) {out : List SLCell}
    (o2 : ∀ s ∈ out, IsHnf n s.latCoeff ∧ s.ub = unit.lattice ∧ s.upositions = unit.positions ∧ s.unumbers = unit.numbers)
    (hI : ∀ s ∈ out, Inherited ops s.latCoeff (opsOf s.latCoeff)) (hk : ∀ s ∈ out, ∀ c, s.toGeneralCell = .ok c → (c.positions.map siteKey).Nodup)
    (A : AddSubgroup (V3 ℤ)) (hA : A.index = n) (q3 : RepresentedOnce ops out A) (D : V3 ℚ → ℤ) (hper : ExactlyPeriodic unit.positions A D)
    (hD : ∀ x ∈ AtomSites unit.positions, (D x = sp.Z ∧ (x, ele.Z) ∈ Crystal (unit.positions.zip unit.numbers)) ∨ (x, D x) ∈ Crystal (unit.positions.zip unit.numbers)) :
      ∃ i k p : ℕ, ∀ i' k' p' : ℕ,
      (∃ (s : SLCell) (strus : List GCell) (b : GCell), out[i']? = some s ∧
        superOfEle hash ele sp (opsOf s.latCoeff) (wyOf s.latCoeff) s k' = .ok strus ∧ strus[p']? = some b ∧
        SameDerivative unit.lattice ops (Decorated unit.lattice unit.positions D) (CartCrystal b.lattice (b.positions.zip b.numbers))) ↔
      i' = i ∧ k' = k ∧ p' = p := by
  let dom : GCell → ℕ → Set (List ℤ) := fun c k => {m | ∃ S : Finset ℕ, (∀ i ∈ S, c.numbers[i]? = some ele.Z) ∧ S.card = k ∧ Subst c.numbers S sp.Z m}
  have hrun : ∀ s ∈ out, ∀ c, s.toGeneralCell = .ok c → ∀ k, ∃ strus, superOfEle hash ele sp (opsOf s.latCoeff) (wyOf s.latCoeff) s k = .ok strus ∧
      (∀ d ∈ strus, d.lattice = c.lattice ∧ d.positions = c.positions) ∧
      Transversal (GeomEquiv siteKey c.positions (opsOf s.latCoeff)) (dom c k) (strus.map (·.numbers)) := by
    intro s hs' c hc k
    obtain ⟨c', c1, _, c3, _, clen, _, c6, _, c8, _⟩ := enlarged_setup unit hu hvol hcong hG h0 hn (o2 s hs') (hI s hs')
    rw [hc] at c1
    injection c1 with c1
    subst c1
    have hkc := hk s hs' c hc
    have hsk := (contract_of_exact hkc c6).1
    obtain ⟨rows, g1, _, _⟩ := ogen_new (wy := wyOf s.latCoeff) c3 hkc hsk
    obtain ⟨strus, e1, e2, e3⟩ := C21_nodup_of_ele hash c _ _ _ ⟨c3, hkc, hsk, g1⟩ ele k sp (dom c k) rfl (hhash.mono (by
      rintro m ⟨hm, d, ⟨S, hS, hSk, hd⟩, hge⟩
      refine ⟨hm.trans clen, fun z hz => ?_⟩
      have hp := geom_perm_numbers c3 hkc c6 (by rw [hd.1, c3.length]) hm hge
      rcases subst2_elements (subst_subst2 hd) z (hp.subset hz) with h | h | h
      · exact .inl (c8 z h)
      · exact .inr h
      · exact .inr h))
    refine ⟨strus, ?_, e2, e3⟩
    unfold superOfEle
    rw [hc]
    show (do let g ← OGen.new c (opsOf s.latCoeff) (wyOf s.latCoeff); g.genNodupOfEle hash ele k sp) = _
    rw [g1]
    exact e1
  have hcell : ∀ s ∈ out, ∃ c, s.toGeneralCell = .ok c ∧ ∀ z ∈ c.numbers, z ∈ unit.numbers := by
    intro s hs'
    obtain ⟨c, c1, _, _, _, _, _, _, _, c8, _⟩ := enlarged_setup unit hu hvol hcong hG h0 hn (o2 s hs') (hI s hs')
    exact ⟨c, c1, c8⟩
  let lst : SLCell → ℕ → List GCell := fun s k =>
    match superOfEle hash ele sp (opsOf s.latCoeff) (wyOf s.latCoeff) s k with
    | .ok l => l
    | .error _ => []
  have hlst : ∀ s k strus, superOfEle hash ele sp (opsOf s.latCoeff) (wyOf s.latCoeff) s k = .ok strus → lst s k = strus := by
    intro s k strus h
    show (match superOfEle hash ele sp (opsOf s.latCoeff) (wyOf s.latCoeff) s k with | .ok l => l | .error _ => []) = strus
    rw [h]
  obtain ⟨i, k, p, h⟩ := once_core unit hu hvol hcong ops hG n h0 hn (fun z w => (w = sp.Z ∧ z = ele.Z) ∨ w = z) opsOf dom lst o2 hI hk
    (fun s hs' c hc k => by
      obtain ⟨strus, e1, e2, e3⟩ := hrun s hs' c hc k
      rw [hlst s k strus e1]
      exact ⟨e2, e3⟩)
    (fun c k a ⟨S, _, _, ha⟩ => ha.1)
    (by
      rintro s hs' c hc k k' a ⟨S, hS, hSk, ha⟩ b ⟨T, hT, hTk, hb⟩ hab
      obtain ⟨c', c1, c8⟩ := hcell s hs'
      rw [hc] at c1
      injection c1 with c1
      subst c1
      have hz : sp.Z ∉ c.numbers := fun h => hsp (c8 _ h)
      have hsub : ∀ {U : Finset ℕ}, (∀ i ∈ U, c.numbers[i]? = some ele.Z) → U ⊆ Finset.range c.numbers.length :=
        fun hU i hi => Finset.mem_range.2 (List.getElem?_eq_some_iff.1 (hU i hi)).1
      rw [← hSk, ← hTk, ← count_of_sites (subst_sites ha (hsub hS) hz), ← count_of_sites (subst_sites hb (hsub hT) hz)]
      exact hab.count_eq _)
    (by
      intro c a hal hadm
      refine ⟨_, (Finset.range c.numbers.length).filter fun i => a[i]? = some sp.Z ∧ c.numbers[i]? = some ele.Z,
        fun i hi => (Finset.mem_filter.1 hi).2.2, rfl, hal, fun i hi => ?_⟩
      by_cases h : a[i]? = some sp.Z ∧ c.numbers[i]? = some ele.Z
      · rw [if_pos (Finset.mem_filter.2 ⟨Finset.mem_range.2 hi, h⟩), h.1]
      · rw [if_neg (fun hm : i ∈ (Finset.range c.numbers.length).filter (fun i => a[i]? = some sp.Z ∧ c.numbers[i]? = some ele.Z) => h (Finset.mem_filter.1 hm).2)]
        have ez := List.getElem?_eq_getElem hi
        have ew : a[i]? = some a[i] := List.getElem?_eq_getElem (by omega)
        rcases hadm i _ _ ez ew with hw | hw
        · exact absurd ⟨by rw [ew, hw.1], by rw [ez, hw.2]⟩ h
        · rw [ew, ez, hw])
    A hA q3 D hper (fun x hx => by
      rcases hD x hx with h | h
      · exact ⟨ele.Z, h.2, .inl ⟨h.1, rfl⟩⟩
      · exact ⟨D x, h, .inr rfl⟩)
  refine ⟨i, k, p, fun i' k' p' => (h i' k' p').symm.trans ?_ |>.symm⟩
  constructor
  · rintro ⟨s, b, hi, hb, hm⟩
    obtain ⟨c, c1, _⟩ := hcell s (List.mem_of_getElem? hi)
    obtain ⟨strus, e1, _, _⟩ := hrun s (List.mem_of_getElem? hi) c c1 k'
    rw [hlst s k' strus e1] at hb
    exact ⟨s, strus, b, hi, e1, hb, hm⟩
  · rintro ⟨s, strus, b, hi, e1, hb, hm⟩
    exact ⟨s, b, hi, by rw [hlst s k' strus e1]; exact hb, hm⟩

/-- **C105** (one element). Let a crystal arise from the parent crystal by replacing some of the `ele` atoms by `sp`, and let its translations among the parent's
be exactly a lattice `A` of index `n`. Then exactly one superlattice listed for index `n`, exactly one number `k` of replaced atoms and exactly one
entry of the list of decorations give a crystal that is the given one up to motions of the parent. -/
theorem C105_of_ele (setList : List ℕ → List ℕ) (hs : SetOrder setList) (itemFirst : Bool) (unit : GCell) (hu : Built unit)
    (hvol : volume unit.lattice ≠ 0) (hcong : unit.positions.Pairwise fun p q => ¬ Cong p q)
    (ops : List Op) (hG : SpaceGroup (unit.positions.zip unit.numbers) ops) (n : ℕ) (h0 : 0 < n) (hn : n < 2000)
    (ele sp : Specie) (hsp : sp.Z ∉ unit.numbers) (hash : List ℤ → ℕ)
    (hhash : Set.InjOn hash {m | m.length = n * unit.positions.length ∧ ∀ z ∈ m, z ∈ unit.numbers ∨ z = sp.Z})
    (opsOf : M3 ℤ → List Op) (wyOf : M3 ℤ → List String) :
    ∃ out, hnfsFromN setList itemFirst unit (ops.map (·.1)) n = .ok out ∧
      ((∀ s ∈ out, Inherited ops s.latCoeff (opsOf s.latCoeff)) → (∀ s ∈ out, ∀ c, s.toGeneralCell = .ok c → (c.positions.map siteKey).Nodup) →
      ∀ A : AddSubgroup (V3 ℤ), A.index = n → ∀ D : V3 ℚ → ℤ, ExactlyPeriodic unit.positions A D →
      (∀ x ∈ AtomSites unit.positions, (D x = sp.Z ∧ (x, ele.Z) ∈ Crystal (unit.positions.zip unit.numbers)) ∨ (x, D x) ∈ Crystal (unit.positions.zip unit.numbers)) →
      ∃ i k p : ℕ, ∀ i' k' p' : ℕ,
        (∃ (s : SLCell) (strus : List GCell) (b : GCell), out[i']? = some s ∧
          superOfEle hash ele sp (opsOf s.latCoeff) (wyOf s.latCoeff) s k' = .ok strus ∧ strus[p']? = some b ∧
          SameDerivative unit.lattice ops (Decorated unit.lattice unit.positions D) (CartCrystal b.lattice (b.positions.zip b.numbers))) ↔
        i' = i ∧ k' = k ∧ p' = p) := by
  obtain ⟨out, o1, o2, _⟩ := superlattice_of setList hs itemFirst unit ops hG.pointGroup n h0 hn
  obtain ⟨out', q1, _, q3⟩ := C31_transversal setList hs itemFirst unit (ops.map (·.1)) hG.pointGroup n h0 hn
  rw [o1] at q1
  injection q1 with q1
  subst q1
  exact ⟨out, o1, fun hI hk A hA => once_of_ele_of unit hu hvol hcong ops hG n h0 hn ele sp hsp hash hhash opsOf wyOf o2 hI hk A hA (q3 A hA)⟩

/-- **C105** (one element, 2D superlattices). The same for the 2D enumeration and crystals whose translations include the third axis. -/
theorem C105_of_ele_2d (setList : List ℕ → List ℕ) (hs : SetOrder setList) (itemFirst : Bool) (unit : GCell) (hu : Built unit)
    (hvol : volume unit.lattice ≠ 0) (hcong : unit.positions.Pairwise fun p q => ¬ Cong p q)
    (ops : List Op) (hG : SpaceGroup (unit.positions.zip unit.numbers) ops) (n : ℕ) (h0 : 0 < n) (hn : n < 2000)
    (ele sp : Specie) (hsp : sp.Z ∉ unit.numbers) (hash : List ℤ → ℕ)
    (hhash : Set.InjOn hash {m | m.length = n * unit.positions.length ∧ ∀ z ∈ m, z ∈ unit.numbers ∨ z = sp.Z})
    (opsOf : M3 ℤ → List Op) (wyOf : M3 ℤ → List String) :
    ∃ out, hnfsFromN2D setList itemFirst unit (ops.map (·.1)) n = .ok out ∧
      ((∀ s ∈ out, Inherited ops s.latCoeff (opsOf s.latCoeff)) → (∀ s ∈ out, ∀ c, s.toGeneralCell = .ok c → (c.positions.map siteKey).Nodup) →
      ∀ A : AddSubgroup (V3 ℤ), A.index = n → ((0, 0, 1) : V3 ℤ) ∈ A → ∀ D : V3 ℚ → ℤ, ExactlyPeriodic unit.positions A D →
      (∀ x ∈ AtomSites unit.positions, (D x = sp.Z ∧ (x, ele.Z) ∈ Crystal (unit.positions.zip unit.numbers)) ∨ (x, D x) ∈ Crystal (unit.positions.zip unit.numbers)) →
      ∃ i k p : ℕ, ∀ i' k' p' : ℕ,
        (∃ (s : SLCell) (strus : List GCell) (b : GCell), out[i']? = some s ∧
          superOfEle hash ele sp (opsOf s.latCoeff) (wyOf s.latCoeff) s k' = .ok strus ∧ strus[p']? = some b ∧
          SameDerivative unit.lattice ops (Decorated unit.lattice unit.positions D) (CartCrystal b.lattice (b.positions.zip b.numbers))) ↔
        i' = i ∧ k' = k ∧ p' = p) := by
  obtain ⟨out, o1, o2, _⟩ := superlattice_of_2d setList hs itemFirst unit ops hG.pointGroup n h0 hn
  obtain ⟨out', q1, _, q3⟩ := C31_transversal_2d setList hs itemFirst unit (ops.map (·.1)) hG.pointGroup n h0 hn
  rw [o1] at q1
  injection q1 with q1
  subst q1
  exact ⟨out, o1, fun hI hk A hA hax => once_of_ele_of unit hu hvol hcong ops hG n h0 hn ele sp hsp hash hhash opsOf wyOf (fun s hs' => (o2 s hs').1) hI hk A hA (q3 A hA hax)⟩

/-- the part of `C105_ternary` that does not depend on the enumeration of the superlattices -/
theorem once_ternary_of (unit : GCell) (hu : Built unit)
    (hvol : volume unit.lattice ≠ 0) (hcong : unit.positions.Pairwise fun p q => ¬ Cong p q)
    (ops : List Op) (hG : SpaceGroup (unit.positions.zip unit.numbers) ops) (n : ℕ) (h0 : 0 < n) (hn : n < 2000)
    (sp1 sp2 : Specie) (hsp1 : sp1.Z ∉ unit.numbers) (hsp2 : sp2.Z ∉ unit.numbers) (h12 : sp1.Z ≠ sp2.Z) (hash : List ℤ → ℕ)
    (hhash : Set.InjOn hash {m | m.length = n * unit.positions.length ∧ ∀ z ∈ m, z ∈ unit.numbers ∨ z = sp1.Z ∨ z = sp2.Z})
    (opsOf : M3 ℤ → List Op) (wyOf : M3 ℤ → List String) {out : List SLCell}
    (o2 : ∀ s ∈ out, IsHnf n s.latCoeff ∧ s.ub = unit.lattice ∧ s.upositions = unit.positions ∧ s.unumbers = unit.numbers)
    (hI : ∀ s ∈ out, Inherited ops s.latCoeff (opsOf s.latCoeff)) (hk : ∀ s ∈ out, ∀ c, s.toGeneralCell = .ok c → (c.positions.map siteKey).Nodup)
    (A : AddSubgroup (V3 ℤ)) (hA : A.index = n) (q3 : RepresentedOnce ops out A) (D : V3 ℚ → ℤ) (hper : ExactlyPeriodic unit.positions A D)
    (hD : ∀ x ∈ AtomSites unit.positions, (D x = sp1.Z ∨ D x = sp2.Z) ∨ (x, D x) ∈ Crystal (unit.positions.zip unit.numbers)) :
      ∃ (i : ℕ) (k : ℕ × ℕ) (p : ℕ), ∀ (i' : ℕ) (k' : ℕ × ℕ) (p' : ℕ),
      (∃ (s : SLCell) (strus : List GCell) (b : GCell), out[i']? = some s ∧
        superTrinary hash sp1 sp2 (opsOf s.latCoeff) (wyOf s.latCoeff) s k' = .ok strus ∧ strus[p']? = some b ∧
        SameDerivative unit.lattice ops (Decorated unit.lattice unit.positions D) (CartCrystal b.lattice (b.positions.zip b.numbers))) ↔
      i' = i ∧ k' = k ∧ p' = p := by
  let dom : GCell → ℕ × ℕ → Set (List ℤ) := fun c k => {m | ∃ S T : Finset ℕ, S ⊆ Finset.range c.numbers.length ∧ T ⊆ Finset.range c.numbers.length ∧
    Disjoint S T ∧ S.card = k.1 ∧ T.card = k.2 ∧ Subst2 c.numbers S sp1.Z T sp2.Z m}
  have hrun : ∀ s ∈ out, ∀ c, s.toGeneralCell = .ok c → ∀ k, ∃ strus, superTrinary hash sp1 sp2 (opsOf s.latCoeff) (wyOf s.latCoeff) s k = .ok strus ∧
      (∀ d ∈ strus, d.lattice = c.lattice ∧ d.positions = c.positions) ∧
      Transversal (GeomEquiv siteKey c.positions (opsOf s.latCoeff)) (dom c k) (strus.map (·.numbers)) := by
    intro s hs' c hc k
    obtain ⟨c', c1, _, c3, _, clen, _, c6, _, c8, _⟩ := enlarged_setup unit hu hvol hcong hG h0 hn (o2 s hs') (hI s hs')
    rw [hc] at c1
    injection c1 with c1
    subst c1
    have hkc := hk s hs' c hc
    have hsk := (contract_of_exact hkc c6).1
    obtain ⟨rows, g1, _, _⟩ := ogen_new (wy := wyOf s.latCoeff) c3 hkc hsk
    obtain ⟨strus, e1, e2, e3⟩ := C21_nodup_trinary hash c _ _ _ ⟨c3, hkc, hsk, g1⟩ sp1 k.1 sp2 k.2 (dom c k) rfl (hhash.mono (by
      rintro m ⟨hm, d, ⟨S, T, _, _, _, _, _, hd⟩, hge⟩
      refine ⟨hm.trans clen, fun z hz => ?_⟩
      have hp := geom_perm_numbers c3 hkc c6 (by rw [hd.1, c3.length]) hm hge
      rcases subst2_elements hd z (hp.subset hz) with h | h
      · exact .inl (c8 z h)
      · exact .inr h))
    refine ⟨strus, ?_, e2, e3⟩
    unfold superTrinary
    rw [hc]
    show (do let g ← OGen.new c (opsOf s.latCoeff) (wyOf s.latCoeff); g.genNodupTrinary hash sp1 k.1 sp2 k.2) = _
    rw [g1]
    exact e1
  have hcell : ∀ s ∈ out, ∃ c, s.toGeneralCell = .ok c ∧ ∀ z ∈ c.numbers, z ∈ unit.numbers := by
    intro s hs'
    obtain ⟨c, c1, _, _, _, _, _, _, _, c8, _⟩ := enlarged_setup unit hu hvol hcong hG h0 hn (o2 s hs') (hI s hs')
    exact ⟨c, c1, c8⟩
  let lst : SLCell → ℕ × ℕ → List GCell := fun s k =>
    match superTrinary hash sp1 sp2 (opsOf s.latCoeff) (wyOf s.latCoeff) s k with
    | .ok l => l
    | .error _ => []
  have hlst : ∀ s k strus, superTrinary hash sp1 sp2 (opsOf s.latCoeff) (wyOf s.latCoeff) s k = .ok strus → lst s k = strus := by
    intro s k strus h
    show (match superTrinary hash sp1 sp2 (opsOf s.latCoeff) (wyOf s.latCoeff) s k with | .ok l => l | .error _ => []) = strus
    rw [h]
  obtain ⟨i, k, p, h⟩ := once_core unit hu hvol hcong ops hG n h0 hn (fun z w => (w = sp1.Z ∨ w = sp2.Z) ∨ w = z) opsOf dom lst o2 hI hk
    (fun s hs' c hc k => by
      obtain ⟨strus, e1, e2, e3⟩ := hrun s hs' c hc k
      rw [hlst s k strus e1]
      exact ⟨e2, e3⟩)
    (fun c k a ⟨S, T, _, _, _, _, _, ha⟩ => ha.1)
    (by
      rintro s hs' c hc k k' a ⟨S, T, hS, hT, hST, hSk, hTk, ha⟩ b ⟨S', T', hS', hT', hST', hSk', hTk', hb⟩ hab
      obtain ⟨c', c1, c8⟩ := hcell s hs'
      rw [hc] at c1
      injection c1 with c1
      subst c1
      have hz : sp1.Z ∉ c.numbers := fun h => hsp1 (c8 _ h)
      have hw : sp2.Z ∉ c.numbers := fun h => hsp2 (c8 _ h)
      have sa := subst2_sites ha hS hT hST hz hw h12
      have sb := subst2_sites hb hS' hT' hST' hz hw h12
      refine Prod.ext ?_ ?_
      · rw [← hSk, ← hSk', ← count_of_sites (fun i => (sa i).1), ← count_of_sites (fun i => (sb i).1)]
        exact hab.count_eq _
      · rw [← hTk, ← hTk', ← count_of_sites (fun i => (sa i).2), ← count_of_sites (fun i => (sb i).2)]
        exact hab.count_eq _)
    (by
      intro c a hal hadm
      refine ⟨(_, _), (Finset.range c.numbers.length).filter fun i => a[i]? = some sp1.Z,
        (Finset.range c.numbers.length).filter fun i => a[i]? = some sp2.Z, Finset.filter_subset _ _, Finset.filter_subset _ _, ?_, rfl, rfl, hal, fun i hi => ?_⟩
      · rw [Finset.disjoint_left]
        intro i h1 h2
        have e1 := (Finset.mem_filter.1 h1).2
        rw [(Finset.mem_filter.1 h2).2] at e1
        injection e1 with e1
        exact h12 e1.symm
      by_cases h : a[i]? = some sp1.Z
      · rw [if_pos (Finset.mem_filter.2 ⟨Finset.mem_range.2 hi, h⟩), h]
      · rw [if_neg (fun hm : i ∈ (Finset.range c.numbers.length).filter (fun i => a[i]? = some sp1.Z) => h (Finset.mem_filter.1 hm).2)]
        by_cases h2 : a[i]? = some sp2.Z
        · rw [if_pos (Finset.mem_filter.2 ⟨Finset.mem_range.2 hi, h2⟩), h2]
        · rw [if_neg (fun hm : i ∈ (Finset.range c.numbers.length).filter (fun i => a[i]? = some sp2.Z) => h2 (Finset.mem_filter.1 hm).2)]
          have ez := List.getElem?_eq_getElem hi
          have ew : a[i]? = some a[i] := List.getElem?_eq_getElem (by omega)
          rcases hadm i _ _ ez ew with (hw | hw) | hw
          · exact absurd (by rw [ew, hw]) h
          · exact absurd (by rw [ew, hw]) h2
          · rw [ew, ez, hw])
    A hA q3 D hper (fun x hx => by
      rcases hD x hx with h | h
      · obtain ⟨z, hz⟩ := site_element hu hx
        exact ⟨z, hz, .inl h⟩
      · exact ⟨D x, h, .inr rfl⟩)
  refine ⟨i, k, p, fun i' k' p' => (h i' k' p').symm.trans ?_ |>.symm⟩
  constructor
  · rintro ⟨s, b, hi, hb, hm⟩
    obtain ⟨c, c1, _⟩ := hcell s (List.mem_of_getElem? hi)
    obtain ⟨strus, e1, _, _⟩ := hrun s (List.mem_of_getElem? hi) c c1 k'
    rw [hlst s k' strus e1] at hb
    exact ⟨s, strus, b, hi, e1, hb, hm⟩
  · rintro ⟨s, strus, b, hi, e1, hb, hm⟩
    exact ⟨s, b, hi, by rw [hlst s k' strus e1]; exact hb, hm⟩

/-- **C105** (ternary). The same for crystals in which every atom is of its parent element, `sp1` or `sp2`. -/
theorem C105_ternary (setList : List ℕ → List ℕ) (hs : SetOrder setList) (itemFirst : Bool) (unit : GCell) (hu : Built unit)
    (hvol : volume unit.lattice ≠ 0) (hcong : unit.positions.Pairwise fun p q => ¬ Cong p q)
    (ops : List Op) (hG : SpaceGroup (unit.positions.zip unit.numbers) ops) (n : ℕ) (h0 : 0 < n) (hn : n < 2000)
    (sp1 sp2 : Specie) (hsp1 : sp1.Z ∉ unit.numbers) (hsp2 : sp2.Z ∉ unit.numbers) (h12 : sp1.Z ≠ sp2.Z) (hash : List ℤ → ℕ)
    (hhash : Set.InjOn hash {m | m.length = n * unit.positions.length ∧ ∀ z ∈ m, z ∈ unit.numbers ∨ z = sp1.Z ∨ z = sp2.Z})
    (opsOf : M3 ℤ → List Op) (wyOf : M3 ℤ → List String) :
    ∃ out, hnfsFromN setList itemFirst unit (ops.map (·.1)) n = .ok out ∧
      ((∀ s ∈ out, Inherited ops s.latCoeff (opsOf s.latCoeff)) → (∀ s ∈ out, ∀ c, s.toGeneralCell = .ok c → (c.positions.map siteKey).Nodup) →
      ∀ A : AddSubgroup (V3 ℤ), A.index = n → ∀ D : V3 ℚ → ℤ, ExactlyPeriodic unit.positions A D →
      (∀ x ∈ AtomSites unit.positions, (D x = sp1.Z ∨ D x = sp2.Z) ∨ (x, D x) ∈ Crystal (unit.positions.zip unit.numbers)) →
      ∃ (i : ℕ) (k : ℕ × ℕ) (p : ℕ), ∀ (i' : ℕ) (k' : ℕ × ℕ) (p' : ℕ),
        (∃ (s : SLCell) (strus : List GCell) (b : GCell), out[i']? = some s ∧
          superTrinary hash sp1 sp2 (opsOf s.latCoeff) (wyOf s.latCoeff) s k' = .ok strus ∧ strus[p']? = some b ∧
          SameDerivative unit.lattice ops (Decorated unit.lattice unit.positions D) (CartCrystal b.lattice (b.positions.zip b.numbers))) ↔
        i' = i ∧ k' = k ∧ p' = p) := by
  obtain ⟨out, o1, o2, _⟩ := superlattice_of setList hs itemFirst unit ops hG.pointGroup n h0 hn
  obtain ⟨out', q1, _, q3⟩ := C31_transversal setList hs itemFirst unit (ops.map (·.1)) hG.pointGroup n h0 hn
  rw [o1] at q1
  injection q1 with q1
  subst q1
  exact ⟨out, o1, fun hI hk A hA => once_ternary_of unit hu hvol hcong ops hG n h0 hn sp1 sp2 hsp1 hsp2 h12 hash hhash opsOf wyOf o2 hI hk A hA (q3 A hA)⟩

/-- **C105** (ternary, 2D superlattices). -/
theorem C105_ternary_2d (setList : List ℕ → List ℕ) (hs : SetOrder setList) (itemFirst : Bool) (unit : GCell) (hu : Built unit)
    (hvol : volume unit.lattice ≠ 0) (hcong : unit.positions.Pairwise fun p q => ¬ Cong p q)
    (ops : List Op) (hG : SpaceGroup (unit.positions.zip unit.numbers) ops) (n : ℕ) (h0 : 0 < n) (hn : n < 2000)
    (sp1 sp2 : Specie) (hsp1 : sp1.Z ∉ unit.numbers) (hsp2 : sp2.Z ∉ unit.numbers) (h12 : sp1.Z ≠ sp2.Z) (hash : List ℤ → ℕ)
    (hhash : Set.InjOn hash {m | m.length = n * unit.positions.length ∧ ∀ z ∈ m, z ∈ unit.numbers ∨ z = sp1.Z ∨ z = sp2.Z})
    (opsOf : M3 ℤ → List Op) (wyOf : M3 ℤ → List String) :
    ∃ out, hnfsFromN2D setList itemFirst unit (ops.map (·.1)) n = .ok out ∧
      ((∀ s ∈ out, Inherited ops s.latCoeff (opsOf s.latCoeff)) → (∀ s ∈ out, ∀ c, s.toGeneralCell = .ok c → (c.positions.map siteKey).Nodup) →
      ∀ A : AddSubgroup (V3 ℤ), A.index = n → ((0, 0, 1) : V3 ℤ) ∈ A → ∀ D : V3 ℚ → ℤ, ExactlyPeriodic unit.positions A D →
      (∀ x ∈ AtomSites unit.positions, (D x = sp1.Z ∨ D x = sp2.Z) ∨ (x, D x) ∈ Crystal (unit.positions.zip unit.numbers)) →
      ∃ (i : ℕ) (k : ℕ × ℕ) (p : ℕ), ∀ (i' : ℕ) (k' : ℕ × ℕ) (p' : ℕ),
        (∃ (s : SLCell) (strus : List GCell) (b : GCell), out[i']? = some s ∧
          superTrinary hash sp1 sp2 (opsOf s.latCoeff) (wyOf s.latCoeff) s k' = .ok strus ∧ strus[p']? = some b ∧
          SameDerivative unit.lattice ops (Decorated unit.lattice unit.positions D) (CartCrystal b.lattice (b.positions.zip b.numbers))) ↔
        i' = i ∧ k' = k ∧ p' = p) := by
  obtain ⟨out, o1, o2, _⟩ := superlattice_of_2d setList hs itemFirst unit ops hG.pointGroup n h0 hn
  obtain ⟨out', q1, _, q3⟩ := C31_transversal_2d setList hs itemFirst unit (ops.map (·.1)) hG.pointGroup n h0 hn
  rw [o1] at q1
  injection q1 with q1
  subst q1
  exact ⟨out, o1, fun hI hk A hA hax => once_ternary_of unit hu hvol hcong ops hG n h0 hn sp1 sp2 hsp1 hsp2 h12 hash hhash opsOf wyOf (fun s hs' => (o2 s hs').1) hI hk A hA (q3 A hA hax)⟩

/-! ## example: alternating layers in a primitive cubic crystal, with a four-fold axis -/

theorem vecMul_ext {a b : M3 ℤ} (h : ∀ v, vecMul v a = vecMul v b) : a = b := by
  have h1 := h (1, 0, 0)
  have h2 := h (0, 1, 0)
  have h3 := h (0, 0, 1)
  obtain ⟨⟨a1, a2, a3⟩, ⟨b1, b2, b3⟩, ⟨c1, c2, c3⟩⟩ := a
  obtain ⟨⟨d1, d2, d3⟩, ⟨e1, e2, e3⟩, ⟨f1, f2, f3⟩⟩ := b
  simp [vecMul] at h1 h2 h3
  simp [h1, h2, h3]

theorem pointGroup_spaceGroup {rots : List (M3 ℤ)} (hG : PointGroup rots) {sites : List (V3 ℚ × ℤ)}
    (hk : ∀ r ∈ rots, ∀ s ∈ Crystal sites, (Op.image (r, 0) s.1, s.2) ∈ Crystal sites) : SpaceGroup sites (rots.map fun r => (r, 0)) := by
  have hmul : ∀ {r s t : M3 ℤ}, (∀ v, rot t v = rot r (rot s v)) → ∀ x, Op.image (r, 0) (Op.image (s, 0) x) = Op.image (t, 0) x := by
    intro r s t h x
    have h1 : matMul (transpose s) (transpose r) = transpose t := vecMul_ext fun v => by
      rw [← vecMul_matMul, ← rot_eq, ← rot_eq, ← rot_eq, h]
    rw [image_eq, image_eq, image_eq, add_zero, add_zero, add_zero, vecMul_matMul, ← castM_matMul, h1]
  have hid : ∀ {r : M3 ℤ}, (∀ v, rot r v = v) → ∀ x, Op.image (r, 0) x = x := by
    intro r h x
    have h1 : transpose r = identM := vecMul_ext fun v => by rw [← rot_eq, h, vecMul_identM]
    have h2 : castM (identM : M3 ℤ) = identM := by decide +kernel
    rw [image_eq, add_zero, h1, h2, vecMul_identM]
  refine ⟨?_, ?_, ?_, ?_⟩
  · obtain ⟨r, hr, h⟩ := hG.one
    exact ⟨_, List.mem_map_of_mem hr, 0, fun x => by rw [hid h, intVec_eq, castV_zero, add_zero]⟩
  · intro f hf g hg
    obtain ⟨r, hr, rfl⟩ := List.mem_map.1 hf
    obtain ⟨s, hs, rfl⟩ := List.mem_map.1 hg
    obtain ⟨t, ht, h⟩ := hG.mul r hr s hs
    exact ⟨_, List.mem_map_of_mem ht, 0, fun x => by rw [hmul h, intVec_eq, castV_zero, add_zero]⟩
  · intro f hf
    obtain ⟨r, hr, rfl⟩ := List.mem_map.1 hf
    obtain ⟨s, hs, h⟩ := hG.inv r hr
    refine ⟨_, List.mem_map_of_mem hs, 0, fun x => ?_⟩
    rw [hmul (t := identM) (fun v => by rw [h, rot_eq]; exact vecMul_identM v), hid (fun v => by rw [rot_eq]; exact vecMul_identM v), intVec_eq,
      castV_zero, add_zero]
  · intro g hg s hs
    obtain ⟨r, hr, rfl⟩ := List.mem_map.1 hg
    exact hk r hr s hs

theorem exPrim_spaceGroup : SpaceGroup (exPrim.positions.zip exPrim.numbers) exPrimOps := by
  refine pointGroup_spaceGroup exC4_group ?_
  rintro r _ ⟨x, z⟩ ⟨t, ht, ⟨k, hk⟩, hz⟩
  refine ⟨t, ht, ⟨rot r k, ?_⟩, hz⟩
  have ht' : t = ((0, 0, 0), 29) := List.mem_singleton.1 ht
  have hx : x = 0 + castV k := by rw [ht'] at hk; exact hk
  show Op.image (r, 0) x = t.1 + castV (rot r k)
  rw [hx, image_add, ht']
  have : Op.image (r, 0) 0 = 0 := by simp [Op.image]
  rw [this]
  rfl

theorem half_far {a b : ℚ} {i j : ℤ} (ha : 2 * a = i) (hb : 2 * b = j) (h : ∀ z : ℤ, b ≠ a + z) : FarMod1 a b := by
  intro z
  have h1 : (i - j - 2 * z : ℤ) ≠ 0 := by
    intro h0
    apply h (-z)
    have h2 : ((i - j - 2 * z : ℤ) : ℚ) = 0 := by rw [h0]; rfl
    push_cast at h2 ⊢
    rw [← ha, ← hb] at h2
    linarith
  have h3 : (1 : ℚ) ≤ |((i - j - 2 * z : ℤ) : ℚ)| := by
    rw [← Int.cast_abs]
    exact_mod_cast Int.one_le_abs h1
  have h4 : |((i - j - 2 * z : ℤ) : ℚ)| = 2 * |a - b - z| := by
    have h5 : (2 : ℚ) * |a - b - z| = |2 * (a - b - z)| := by rw [abs_mul, abs_two]
    rw [h5]
    congr 1
    push_cast
    rw [← ha, ← hb]
    ring
  rw [h4] at h3
  linarith

theorem exPrim_keys {s : SLCell}
    (u : IsHnf 2 s.latCoeff ∧ s.ub = exPrim.lattice ∧ s.upositions = exPrim.positions ∧ s.unumbers = exPrim.numbers) (c : GCell)
    (hc : s.toGeneralCell = .ok c) : (c.positions.map siteKey).Nodup := by
  obtain ⟨u1, u2, u3, u4⟩ := u
  obtain ⟨t1, t2⟩ := isHnf_triangular u1
  have hd := det_pos t1
  have hd2 : det s.latCoeff = 2 := by rw [det_triangular t1, ← t2]; rfl
  have hb : Built exPrim := ⟨identM, [(0, 0, 0)], [29], by decide +kernel⟩
  obtain ⟨c', c1, c2, c3, c4, c5, c6⟩ := enlarge_atomSites (B := exPrim.lattice) hb.ne_nil hb.length.symm t1 t2 (by norm_num)
  obtain ⟨c'', d1, _, d3, _, _, _, d7⟩ := enlarge_spec exPrim.lattice exPrim.positions exPrim.numbers hb.ne_nil hb.length.symm _ t1 2 t2 (by norm_num)
  unfold SLCell.toGeneralCell at hc
  rw [u2, u3, u4, c1] at hc
  rw [c1] at d1
  injection d1 with d1
  injection hc with hc
  subst d1 hc
  have hint : ∀ q ∈ c'.positions, ∃ z : V3 ℤ, 2 * q.1 = z.1 ∧ 2 * q.2.1 = z.2.1 ∧ 2 * q.2.2 = z.2.2 := by
    intro q hq
    obtain ⟨i, hi⟩ := List.mem_iff_getElem?.1 hq
    have hil := (List.getElem?_eq_some_iff.1 hi).1
    have hlc := c2.length
    have e2 : c'.numbers[i]? = some c'.numbers[i] := List.getElem?_eq_getElem (by omega)
    obtain ⟨t, ht, ⟨z, hz⟩, _⟩ := c5 (q, c'.numbers[i]) (List.mem_iff_getElem?.2 ⟨i, List.getElem?_zip_eq_some.2 ⟨hi, e2⟩⟩)
    have ht' : t = ((0, 0, 0), 29) := List.mem_singleton.1 ht
    have hq' : cartesian (castM s.latCoeff) q = castV z := by
      have hz' : cartesian (castM s.latCoeff) q = t.1 + castV z := hz
      rw [hz', ht']
      exact zero_add (castV z)
    have hqf : q = toFrac s.latCoeff (castV z) := cart_inj_castM hd.ne' (by rw [toFrac_cartesian hd.ne', hq'])
    refine ⟨vecMul z (adj s.latCoeff), ?_⟩
    rw [hqf, toFrac, hd2]
    simp only [vecMul, smulM, castM, castV, V3.map]
    push_cast
    refine ⟨?_, ?_, ?_⟩ <;> ring
  have hsep : Separated c'.positions := by
    refine (List.Pairwise.and_mem.1 (d7 (List.pairwise_singleton _ _))).imp ?_
    rintro p q ⟨hp, hq, hpq⟩
    obtain ⟨y, y1, y2, y3⟩ := hint p hp
    obtain ⟨z, z1, z2, z3⟩ := hint q hq
    by_contra hno
    simp only [not_or] at hno
    obtain ⟨n1, n2, n3⟩ := hno
    have f1 : ∃ k : ℤ, q.1 = p.1 + k := by by_contra h; exact n1 (half_far y1 z1 (fun k e => h ⟨k, e⟩))
    have f2 : ∃ k : ℤ, q.2.1 = p.2.1 + k := by by_contra h; exact n2 (half_far y2 z2 (fun k e => h ⟨k, e⟩))
    have f3 : ∃ k : ℤ, q.2.2 = p.2.2 + k := by by_contra h; exact n3 (half_far y3 z3 (fun k e => h ⟨k, e⟩))
    obtain ⟨k1, e1⟩ := f1
    obtain ⟨k2, e2⟩ := f2
    obtain ⟨k3, e3⟩ := f3
    exact hpq ⟨(k1, k2, k3), Prod.ext e1 (Prod.ext e2 e3)⟩
  exact separated_keys hsep

/-- the translations that keep the layered crystal are those with an even second component -/
theorem exLayers_periodic : ExactlyPeriodic exPrim.positions (rowLattice ((1, 0, 0), (0, 2, 0), (0, 0, 1))) exLayers := by
  classical
  intro v
  have hiff : ∀ (x : V3 ℚ) (v : V3 ℤ), v.2.1 % 2 = 0 → ((∃ z : ℤ, (x + intVec v).2.1 = 2 * z) ↔ ∃ z : ℤ, x.2.1 = 2 * z) := by
    intro x v hv
    obtain ⟨w, hw⟩ := Int.dvd_of_emod_eq_zero hv
    have e : (x + intVec v).2.1 = x.2.1 + 2 * (w : ℚ) := by
      show x.2.1 + ((v.2.1 : ℤ) : ℚ) = _
      rw [hw]; push_cast; ring
    rw [e]
    constructor
    · rintro ⟨z, hz⟩; exact ⟨z - w, by push_cast; linarith⟩
    · rintro ⟨z, hz⟩; exact ⟨z + w, by push_cast; linarith⟩
  constructor
  · intro hv x _
    obtain ⟨k, rfl⟩ := (mem_rowLattice _ _).1 hv
    exact if_congr (hiff x _ (by simp [vecMul])) rfl rfl
  · intro h
    have h1 := h (0, 0, 0) ⟨(0, 0, 0), List.mem_singleton.2 rfl, Cong.refl _⟩
    have h0 : exLayers (0, 0, 0) = 79 := if_pos ⟨0, by norm_num⟩
    rw [h0] at h1
    have h2 : ∃ z : ℤ, ((0, 0, 0) + intVec v : V3 ℚ).2.1 = 2 * z := by
      by_contra hno
      have : exLayers ((0, 0, 0) + intVec v) = 29 := if_neg hno
      rw [this] at h1
      norm_num at h1
    obtain ⟨z, hz⟩ := h2
    have hz' : (0 : ℚ) + ((v.2.1 : ℤ) : ℚ) = 2 * z := hz
    have hz2 : v.2.1 = 2 * z := by rw [zero_add] at hz'; exact_mod_cast hz'
    refine (mem_rowLattice _ _).2 ⟨(v.1, z, v.2.2), ?_⟩
    refine Prod.ext ?_ (Prod.ext ?_ ?_) <;> simp [vecMul, hz2, mul_comm]

/-- all hypotheses of C105 hold for the layered crystal, with the inherited operations that always exist: it is listed exactly once -/
example (setList : List ℕ → List ℕ) (hs : SetOrder setList) : ∃ opsOf : M3 ℤ → List Op,
    ∃ out, hnfsFromN setList true exPrim (exPrimOps.map (·.1)) 2 = .ok out ∧ ∃ i k p : ℕ, ∀ i' k' p' : ℕ,
      (∃ (s : SLCell) (strus : List GCell) (b : GCell), out[i']? = some s ∧
        superUnitary exHash exAu (opsOf s.latCoeff) [] s k' = .ok strus ∧ strus[p']? = some b ∧
        SameDerivative exPrim.lattice exPrimOps (Decorated exPrim.lattice exPrim.positions exLayers)
          (CartCrystal b.lattice (b.positions.zip b.numbers))) ↔
      i' = i ∧ k' = k ∧ p' = p := by
  classical
  have hex : ∀ h : M3 ℤ, ∃ l, IsHnf 2 h → Inherited exPrimOps h l := by
    intro h
    by_cases hh : IsHnf 2 h
    · obtain ⟨t1, t2⟩ := isHnf_triangular hh
      obtain ⟨l, hl⟩ := inherited_exists exPrimOps t1 (by rw [det_triangular t1, ← t2]; norm_num)
      exact ⟨l, fun _ => hl⟩
    · exact ⟨[], fun h' => absurd h' hh⟩
  choose opsOf hops using hex
  have hb : Built exPrim := ⟨identM, [(0, 0, 0)], [29], by decide +kernel⟩
  obtain ⟨out, o1, o2⟩ := C105_binary setList hs true exPrim hb (by decide +kernel) (List.pairwise_singleton _ _) exPrimOps exPrim_spaceGroup 2
    (by norm_num) (by norm_num) exAu (by decide +kernel) exHash (exHash_inj _) opsOf (fun _ => [])
  obtain ⟨out', q1, q2, _⟩ := superlattice_of setList hs true exPrim exPrimOps exPrim_spaceGroup.pointGroup 2 (by norm_num) (by norm_num)
  rw [o1] at q1
  injection q1 with q1
  subst q1
  refine ⟨opsOf, out, o1, o2 (fun s hs' => hops _ (q2 s hs').1) (fun s hs' => exPrim_keys (q2 s hs'))
    (rowLattice ((1, 0, 0), (0, 2, 0), (0, 0, 1))) ?_ exLayers ?_ ?_⟩
  · rw [rowLattice_index]; decide
  · exact exLayers_periodic
  · rintro x ⟨p, hp, hpx⟩
    unfold exLayers
    split
    · exact .inl rfl
    · exact .inr ⟨(p, 29), by rw [List.mem_singleton.1 hp]; exact List.mem_singleton.2 rfl, hpx, rfl⟩

/-- the same when only copper atoms may be replaced, with the inherited operations that always exist: it is listed exactly once -/
example (setList : List ℕ → List ℕ) (hs : SetOrder setList) : ∃ opsOf : M3 ℤ → List Op,
    ∃ out, hnfsFromN setList true exPrim (exPrimOps.map (·.1)) 2 = .ok out ∧ ∃ i k p : ℕ, ∀ i' k' p' : ℕ,
      (∃ (s : SLCell) (strus : List GCell) (b : GCell), out[i']? = some s ∧
        superOfEle exHash exCu exAu (opsOf s.latCoeff) [] s k' = .ok strus ∧ strus[p']? = some b ∧
        SameDerivative exPrim.lattice exPrimOps (Decorated exPrim.lattice exPrim.positions exLayers)
          (CartCrystal b.lattice (b.positions.zip b.numbers))) ↔
      i' = i ∧ k' = k ∧ p' = p := by
  classical
  have hex : ∀ h : M3 ℤ, ∃ l, IsHnf 2 h → Inherited exPrimOps h l := by
    intro h
    by_cases hh : IsHnf 2 h
    · obtain ⟨t1, t2⟩ := isHnf_triangular hh
      obtain ⟨l, hl⟩ := inherited_exists exPrimOps t1 (by rw [det_triangular t1, ← t2]; norm_num)
      exact ⟨l, fun _ => hl⟩
    · exact ⟨[], fun h' => absurd h' hh⟩
  choose opsOf hops using hex
  have hb : Built exPrim := ⟨identM, [(0, 0, 0)], [29], by decide +kernel⟩
  obtain ⟨out, o1, o2⟩ := C105_of_ele setList hs true exPrim hb (by decide +kernel) (List.pairwise_singleton _ _) exPrimOps exPrim_spaceGroup 2
    (by norm_num) (by norm_num) exCu exAu (by decide +kernel) exHash (exHash_inj _) opsOf (fun _ => [])
  obtain ⟨out', q1, q2, _⟩ := superlattice_of setList hs true exPrim exPrimOps exPrim_spaceGroup.pointGroup 2 (by norm_num) (by norm_num)
  rw [o1] at q1
  injection q1 with q1
  subst q1
  refine ⟨opsOf, out, o1, o2 (fun s hs' => hops _ (q2 s hs').1) (fun s hs' => exPrim_keys (q2 s hs'))
    (rowLattice ((1, 0, 0), (0, 2, 0), (0, 0, 1))) ?_ exLayers ?_ ?_⟩
  · rw [rowLattice_index]; decide
  · exact exLayers_periodic
  · rintro x ⟨p, hp, hpx⟩
    unfold exLayers
    split
    · exact .inl ⟨rfl, (p, 29), by rw [List.mem_singleton.1 hp]; exact List.mem_singleton.2 rfl, hpx, rfl⟩
    · exact .inr ⟨(p, 29), by rw [List.mem_singleton.1 hp]; exact List.mem_singleton.2 rfl, hpx, rfl⟩

end Verif
