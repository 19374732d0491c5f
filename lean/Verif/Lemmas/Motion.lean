import Verif.Spec.Motion
import Verif.Props.Derivative

/-! # Motions of a crystal: products, inverses, and the operations of an enlarged cell -/

namespace Verif

open Spec

theorem intVec_eq (v : V3 ℤ) : intVec v = castV v := rfl
theorem intMat_eq (m : M3 ℤ) : intMat m = castM m := rfl

theorem castV_zero : castV (0 : V3 ℤ) = 0 := by ext <;> simp [castV, V3.map]
theorem castV_neg (v : V3 ℤ) : castV (-v) = -castV v := by ext <;> simp [castV, V3.map]

theorem shift_image (g : Op) (v : V3 ℤ) (x : V3 ℚ) : (g.shift v).image x = g.image x + castV v := by
  refine Prod.ext ?_ (Prod.ext ?_ ?_) <;>
  · simp only [Op.image, Op.shift, intVec, castV, V3.map, Prod.fst_add, Prod.snd_add]
    ring

theorem castM_volume (h : M3 ℤ) : volume (castM h) = ((det h : ℤ) : ℚ) := by rw [castM_det]; rfl

/-- a map of the form operation and lattice translation -/
def IsMotion (ops : List Op) (φ : V3 ℚ → V3 ℚ) : Prop := ∃ g ∈ ops, ∃ v, ∀ x, φ x = g.image x + castV v

theorem IsMotion.comp {sites : List (V3 ℚ × ℤ)} {ops : List Op} (hG : SpaceGroup sites ops) {φ ψ : V3 ℚ → V3 ℚ}
    (hφ : IsMotion ops φ) (hψ : IsMotion ops ψ) : IsMotion ops (φ ∘ ψ) := by
  obtain ⟨f, hf, v, ef⟩ := hφ
  obtain ⟨g, hg, w, eg⟩ := hψ
  obtain ⟨h, hh, u, eh⟩ := hG.mul f hf g hg
  refine ⟨h, hh, u + rot f.1 w + v, fun x => ?_⟩
  rw [Function.comp_apply, ef, eg, image_add, eh, castV_add, castV_add, intVec_eq]
  abel

theorem IsMotion.left_inv {sites : List (V3 ℚ × ℤ)} {ops : List Op} (hG : SpaceGroup sites ops) {φ : V3 ℚ → V3 ℚ}
    (hφ : IsMotion ops φ) : ∃ ψ, IsMotion ops ψ ∧ ∀ x, ψ (φ x) = x := by
  obtain ⟨f, hf, v, ef⟩ := hφ
  obtain ⟨g, hg, u, eg⟩ := hG.inv f hf
  refine ⟨fun y => g.image y + castV (-(u + rot g.1 v)), ⟨g, hg, _, fun _ => rfl⟩, fun x => ?_⟩
  show g.image (φ x) + _ = x
  rw [ef, image_add, eg, intVec_eq, castV_neg, castV_add]
  abel

theorem IsMotion.inv {sites : List (V3 ℚ × ℤ)} {ops : List Op} (hG : SpaceGroup sites ops) {φ : V3 ℚ → V3 ℚ}
    (hφ : IsMotion ops φ) : ∃ ψ, IsMotion ops ψ ∧ (∀ x, ψ (φ x) = x) ∧ ∀ x, φ (ψ x) = x := by
  obtain ⟨ψ, h1, h2⟩ := hφ.left_inv hG
  obtain ⟨χ, h3, h4⟩ := h1.left_inv hG
  refine ⟨ψ, h1, h2, fun x => ?_⟩
  have : ∀ y, χ y = φ y := fun y => by rw [← h4 (φ y), h2 y]
  rw [← this, h4]

theorem rot_comp_of {f g h : Op} {u : V3 ℤ} (e : ∀ x, f.image (g.image x) = h.image x + castV u) (v : V3 ℤ) :
    rot h.1 v = rot f.1 (rot g.1 v) := by
  have h1 := e (0 + castV v)
  rw [image_add, image_add, e 0, image_add] at h1
  refine castV_inj ?_
  have h2 : h.image 0 + castV u + castV (rot f.1 (rot g.1 v)) = h.image 0 + castV u + castV (rot h.1 v) := by rw [h1]; abel
  exact (add_left_cancel h2).symm

theorem rot_one_of {g : Op} {u : V3 ℤ} (e : ∀ x, g.image x = x + castV u) (v : V3 ℤ) : rot g.1 v = v := by
  have h1 := e (0 + castV v)
  rw [image_add, e 0] at h1
  refine castV_inj ?_
  have h2 : (0 : V3 ℚ) + castV u + castV (rot g.1 v) = 0 + castV u + castV v := by rw [h1]; abel
  exact add_left_cancel h2

theorem rot_inv_of {f g : Op} {u : V3 ℤ} (e : ∀ x, g.image (f.image x) = x + castV u) (v : V3 ℤ) : rot g.1 (rot f.1 v) = v := by
  have h1 := e (0 + castV v)
  rw [image_add, image_add, e 0] at h1
  refine castV_inj ?_
  have h2 : (0 : V3 ℚ) + castV u + castV (rot g.1 (rot f.1 v)) = 0 + castV u + castV v := by rw [h1]; abel
  exact add_left_cancel h2

theorem det_of_inv {r s : M3 ℤ} (h : ∀ v, rot s (rot r v) = v) : det r = 1 ∨ det r = -1 := by
  have h1 : ∀ v, vecMul v (matMul (transpose r) (transpose s)) = v := fun v => by
    rw [← vecMul_matMul, ← rot_eq, ← rot_eq, h]
  have h2 : matMul (transpose r) (transpose s) = identM := by
    have a := h1 (1, 0, 0)
    have b := h1 (0, 1, 0)
    have c := h1 (0, 0, 1)
    generalize matMul (transpose r) (transpose s) = m at a b c
    obtain ⟨⟨a1, a2, a3⟩, ⟨b1, b2, b3⟩, ⟨c1, c2, c3⟩⟩ := m
    simp [vecMul] at a b c
    simp [identM, a, b, c]
  have h3 := congrArg det h2
  rw [det_matMul, det_transpose, det_transpose] at h3
  have h4 : det (identM : M3 ℤ) = 1 := by decide
  rw [h4] at h3
  exact Int.eq_one_or_neg_one_of_mul_eq_one h3

theorem Spec.SpaceGroup.pointGroup {sites : List (V3 ℚ × ℤ)} {ops : List Op} (hG : SpaceGroup sites ops) : PointGroup (ops.map (·.1)) where
  unimodular := by
    intro r hr
    obtain ⟨f, hf, rfl⟩ := List.mem_map.1 hr
    obtain ⟨g, _, u, e⟩ := hG.inv f hf
    exact det_of_inv (rot_inv_of e)
  one := by
    obtain ⟨g, hg, u, e⟩ := hG.one
    exact ⟨_, List.mem_map_of_mem hg, rot_one_of e⟩
  mul := by
    intro r hr s hs
    obtain ⟨f, hf, rfl⟩ := List.mem_map.1 hr
    obtain ⟨g, hg, rfl⟩ := List.mem_map.1 hs
    obtain ⟨h, hh, u, e⟩ := hG.mul f hf g hg
    exact ⟨_, List.mem_map_of_mem hh, rot_comp_of e⟩
  inv := by
    intro r hr
    obtain ⟨f, hf, rfl⟩ := List.mem_map.1 hr
    obtain ⟨g, hg, u, e⟩ := hG.inv f hf
    exact ⟨_, List.mem_map_of_mem hg, rot_inv_of e⟩

theorem Spec.SpaceGroup.det {sites : List (V3 ℚ × ℤ)} {ops : List Op} (hG : SpaceGroup sites ops) {g : Op} (hg : g ∈ ops) :
    det g.1 = 1 ∨ det g.1 = -1 := hG.pointGroup.unimodular _ (List.mem_map_of_mem hg)

theorem cong_unique {pos : List (V3 ℚ)} (hc : pos.Pairwise fun p q => ¬ Cong p q) {i j : ℕ} {x y : V3 ℚ} (hi : pos[i]? = some x)
    (hj : pos[j]? = some y) (h : Cong x y) : i = j := by
  obtain ⟨hi', rfl⟩ := List.getElem?_eq_some_iff.1 hi
  obtain ⟨hj', rfl⟩ := List.getElem?_eq_some_iff.1 hj
  have hpw := List.pairwise_iff_getElem.1 hc
  rcases lt_trichotomy i j with hlt | heq | hgt
  · exact absurd h (hpw i j hi' hj' hlt)
  · exact heq
  · exact absurd h.symm (hpw j i hj' hi' hgt)

theorem Spec.SpaceGroup.contract {pos : List (V3 ℚ)} {nums : List ℤ} (hl : pos.length = nums.length)
    (hc : pos.Pairwise fun p q => ¬ Cong p q) {ops : List Op} (hG : SpaceGroup (pos.zip nums) ops) :
    SymContract Cong pos ops ∧ KeepsElements Cong pos ops nums := by
  have hzip : ∀ (i : ℕ) x, pos[i]? = some x → ∃ z, nums[i]? = some z ∧ (x, z) ∈ pos.zip nums := by
    intro i x e1
    have hi := (List.getElem?_eq_some_iff.1 e1).1
    have e2 : nums[i]? = some nums[i] := List.getElem?_eq_getElem (by omega)
    exact ⟨_, e2, List.mem_iff_getElem?.2 ⟨i, List.getElem?_zip_eq_some.2 ⟨e1, e2⟩⟩⟩
  have huniq : ∀ x ∈ pos, ∀ y ∈ pos, Cong x y → x = y := by
    intro x hx y hy h
    obtain ⟨i, hi⟩ := List.mem_iff_getElem?.1 hx
    obtain ⟨j, hj⟩ := List.mem_iff_getElem?.1 hy
    have := cong_unique hc hi hj h
    subst this
    rw [hi] at hj
    injection hj
  have hsub : ∀ {x y : V3 ℚ} {u : V3 ℤ}, y = x + castV u → Cong x y := fun h => ⟨_, h⟩
  refine ⟨⟨?_, ?_, ?_, ?_, ?_⟩, ?_⟩
  · intro g hg x hx
    obtain ⟨i, hi⟩ := List.mem_iff_getElem?.1 hx
    obtain ⟨z, _, hz⟩ := hzip i x hi
    obtain ⟨t, ht, htc, _⟩ := hG.keeps g hg (x, z) ⟨(x, z), hz, Cong.refl _, rfl⟩
    exact ⟨t.1, (List.of_mem_zip ht).1, htc.symm⟩
  · intro g hg x hx y hy h
    obtain ⟨f, _, u, e⟩ := hG.inv g hg
    have h1 := image_cong f h
    rw [e, e] at h1
    exact huniq x hx y hy ((hsub rfl).trans (h1.trans (hsub (u := u) rfl).symm))
  · obtain ⟨g, hg, u, e⟩ := hG.one
    exact ⟨g, hg, fun x _ => (hsub (e x)).symm⟩
  · intro f hf g hg
    obtain ⟨h, hh, u, e⟩ := hG.mul f hf g hg
    exact ⟨h, hh, fun x _ y _ z _ h1 h2 => (hsub (e x)).trans ((image_cong f h1).trans h2)⟩
  · intro f hf
    obtain ⟨g, hg, u, e⟩ := hG.inv f hf
    exact ⟨g, hg, fun x _ y _ h1 => (image_cong g h1).symm.trans (hsub (e x)).symm⟩
  · intro g hg i j x y hx hy h
    obtain ⟨z, e1, hz⟩ := hzip i x hx
    obtain ⟨t, ht, htc, hte⟩ := hG.keeps g hg (x, z) ⟨(x, z), hz, Cong.refl _, rfl⟩
    obtain ⟨k, hk⟩ := List.mem_iff_getElem?.1 ht
    obtain ⟨k1, k2⟩ := List.getElem?_zip_eq_some.1 hk
    have := cong_unique hc k1 hy (htc.trans h)
    subst this
    rw [e1, k2]
    exact congrArg some hte

/-! ## Moving crystals -/

theorem moved_mem {L : M3 ℚ} (hv : volume L ≠ 0) {g : Op} {X : Set (V3 ℚ × ℤ)} {y : V3 ℚ} {z : ℤ} :
    (cartesian L y, z) ∈ Moved L g X ↔ ∃ x, (cartesian L x, z) ∈ X ∧ g.image x = y := by
  constructor
  · rintro ⟨x, w, hx, he⟩
    obtain ⟨e1, rfl⟩ := Prod.mk.inj he
    exact ⟨x, hx, (cartesian_inj hv e1).symm⟩
  · rintro ⟨x, hx, rfl⟩
    exact ⟨x, z, hx, rfl⟩

theorem moved_trans {L : M3 ℚ} (hv : volume L ≠ 0) {f g h : Op} (e : ∀ x, f.image (g.image x) = h.image x) (X : Set (V3 ℚ × ℤ)) :
    Moved L f (Moved L g X) = Moved L h X := by
  ext s
  constructor
  · rintro ⟨y, z, hy, rfl⟩
    obtain ⟨x, hx, rfl⟩ := (moved_mem hv).1 hy
    exact ⟨x, z, hx, by rw [e]⟩
  · rintro ⟨x, z, hx, rfl⟩
    exact ⟨g.image x, z, ⟨x, z, hx, rfl⟩, by rw [e]⟩

theorem SameDerivative.trans' {L : M3 ℚ} (hv : volume L ≠ 0) {sites : List (V3 ℚ × ℤ)} {ops : List Op} (hG : SpaceGroup sites ops)
    {X Y Z : Set (V3 ℚ × ℤ)} (h1 : SameDerivative L ops X Y) (h2 : SameDerivative L ops Y Z) : SameDerivative L ops X Z := by
  obtain ⟨g, hg, v, rfl⟩ := h1
  obtain ⟨f, hf, w, rfl⟩ := h2
  obtain ⟨h, hh, u, e⟩ := IsMotion.comp hG (φ := (f.shift w).image) (ψ := (g.shift v).image) ⟨f, hf, w, shift_image f w⟩ ⟨g, hg, v, shift_image g v⟩
  refine ⟨h, hh, u, (moved_trans hv (fun x => ?_) X).symm⟩
  exact (e x).trans (shift_image h u x).symm

theorem inv_moved {L : M3 ℚ} (hv : volume L ≠ 0) {sites : List (V3 ℚ × ℤ)} {ops : List Op} (hG : SpaceGroup sites ops)
    {X : Set (V3 ℚ × ℤ)} (hX : ∀ s ∈ X, ∃ x, s.1 = cartesian L x) {g : Op} (hg : g ∈ ops) (v : V3 ℤ) :
    SameDerivative L ops (Moved L (g.shift v) X) X := by
  obtain ⟨ψ, ⟨f, hf, w, ef⟩, h2, _⟩ := IsMotion.inv hG (φ := (g.shift v).image) ⟨g, hg, v, shift_image g v⟩
  refine ⟨f, hf, w, ?_⟩
  have e : ∀ x, (f.shift w).image ((g.shift v).image x) = x := fun x => by rw [shift_image f, ← ef, h2]
  ext s
  constructor
  · rintro ⟨y, z, hy, rfl⟩
    obtain ⟨x, hx, rfl⟩ := (moved_mem hv).1 hy
    rw [e]; exact hx
  · intro hs
    obtain ⟨x, hx⟩ := hX s hs
    obtain ⟨y, z⟩ := s
    simp only at hx
    subst hx
    exact (moved_mem hv).2 ⟨(g.shift v).image x, ⟨x, z, hs, rfl⟩, e x⟩

theorem decorated_cart {L : M3 ℚ} {pos : List (V3 ℚ)} {D : V3 ℚ → ℤ} : ∀ s ∈ Decorated L pos D, ∃ x, s.1 = cartesian L x := by
  rintro _ ⟨x, _, rfl⟩
  exact ⟨x, rfl⟩

theorem cartCrystal_cart {L : M3 ℚ} {l : List (V3 ℚ × ℤ)} : ∀ s ∈ CartCrystal L l, ∃ x, s.1 = cartesian L x := by
  rintro _ ⟨t, _, k, rfl⟩
  exact ⟨_, rfl⟩

/-- moving by an operation of the enlarged cell and by the motion of the parent it stands for is the same -/
theorem moved_inherited {B L : M3 ℚ} {h : M3 ℤ} (h0 : det h ≠ 0) (hcart : ∀ x, cartesian L x = cartesian B (cartesian (castM h) x))
    {f g : Op} {v w : V3 ℤ} (e : ∀ x, cartesian (castM h) (f.image x + castV w) = (g.shift v).image (cartesian (castM h) x))
    (X : Set (V3 ℚ × ℤ)) : Moved L (f.shift w) X = Moved B (g.shift v) X := by
  ext s
  constructor
  · rintro ⟨x, z, hx, rfl⟩
    refine ⟨cartesian (castM h) x, z, by rw [← hcart]; exact hx, ?_⟩
    rw [← e, hcart, shift_image]
  · rintro ⟨y, z, hy, rfl⟩
    refine ⟨toFrac h y, z, by rw [hcart, toFrac_cartesian h0]; exact hy, ?_⟩
    rw [hcart, shift_image f, e, toFrac_cartesian h0]

theorem moved_shift {L : M3 ℚ} (f : Op) (w : V3 ℤ) (l : List (V3 ℚ × ℤ)) (hdet : det f.1 = 1 ∨ det f.1 = -1) :
    Moved L (f.shift w) (CartCrystal L l) = Moved L f (CartCrystal L l) := by
  have hX : ∀ {x x' : V3 ℚ} {z : ℤ}, (cartesian L x, z) ∈ CartCrystal L l → Cong x x' → (cartesian L x', z) ∈ CartCrystal L l := by
    rintro x x' z ⟨t, ht, k, he⟩ ⟨j, rfl⟩
    obtain ⟨e1, rfl⟩ := Prod.mk.inj he
    refine ⟨t, ht, k + j, Prod.ext ?_ rfl⟩
    show cartesian L (x + castV j) = cartesian L (t.1 + castV (k + j))
    rw [cartesian_add, e1, castV_add, ← add_assoc, cartesian_add L (t.1 + castV k)]
    rfl
  ext s
  constructor
  · rintro ⟨x, z, hx, rfl⟩
    obtain ⟨x', h1, h2⟩ := image_surj_cong f hdet (x := x) (y := f.image x + castV w) ⟨w, rfl⟩
    exact ⟨x', z, hX hx h1, by rw [h2, shift_image]⟩
  · rintro ⟨x, z, hx, rfl⟩
    obtain ⟨x', h1, h2⟩ := image_surj_cong f hdet (x := x) (y := f.image x + castV (-w)) ⟨-w, rfl⟩
    refine ⟨x', z, hX hx h1, ?_⟩
    rw [shift_image, h2, castV_neg, neg_add_cancel_right]

/-! ## The operations of an enlarged cell -/

theorem cart_inj_castM {h : M3 ℤ} (h0 : det h ≠ 0) {x y : V3 ℚ} (e : cartesian (castM h) x = cartesian (castM h) y) : x = y :=
  cartesian_inj (by rw [castM_volume]; exact_mod_cast h0) e

theorem stab_comp {r s t : M3 ℤ} {A : AddSubgroup (V3 ℤ)} (hr : A.map (rot r) = A) (hs : A.map (rot s) = A) (h : ∀ v, rot t v = rot r (rot s v)) :
    A.map (rot t) = A := by rw [← rot_map_map h, hs, hr]

theorem stab_id {r : M3 ℤ} {A : AddSubgroup (V3 ℤ)} (h : ∀ v, rot r v = v) : A.map (rot r) = A := by
  have : rot r = AddMonoidHom.id _ := by ext v : 1; exact h v
  rw [this, AddSubgroup.map_id]

theorem stab_inv {r s : M3 ℤ} {A : AddSubgroup (V3 ℤ)} (hr : A.map (rot r) = A) (h : ∀ v, rot s (rot r v) = v) : A.map (rot s) = A := by
  conv_lhs => rw [← hr]
  rw [AddSubgroup.map_map]
  have : (rot s).comp (rot r) = AddMonoidHom.id _ := by ext v : 1; exact h v
  rw [this, AddSubgroup.map_id]

theorem crystal_add {sites : List (V3 ℚ × ℤ)} {x : V3 ℚ} {z : ℤ} (h : (x, z) ∈ Crystal sites) (v : V3 ℤ) : (x + castV v, z) ∈ Crystal sites := by
  obtain ⟨t, ht, htc, hte⟩ := h
  exact ⟨t, ht, htc.trans ⟨v, rfl⟩, hte⟩

/-- the inherited operations are the symmetry group of the enlarged cell -/
theorem Spec.Inherited.spaceGroup {sites sites' : List (V3 ℚ × ℤ)} {ops ops' : List Op} {h : M3 ℤ} (h0 : det h ≠ 0) (hG : SpaceGroup sites ops)
    (hI : Inherited ops h ops') (hs : ∀ x z, (x, z) ∈ Crystal sites' ↔ (cartesian (castM h) x, z) ∈ Crystal sites) : SpaceGroup sites' ops' where
  one := by
    obtain ⟨g, hg, v, e⟩ := hG.one
    obtain ⟨f, hf, w, ef⟩ := hI.complete g hg (-v) (stab_id (rot_one_of e))
    refine ⟨f, hf, -w, fun x => ?_⟩
    have : f.image x + castV w = x := cart_inj_castM h0 (by
      have := ef x
      rw [shift_image, e, intVec_eq, intVec_eq, castV_neg, add_neg_cancel_right] at this
      exact this)
    rw [intVec_eq, castV_neg, ← this, add_neg_cancel_right, this]
  mul := by
    intro f1 hf1 f2 hf2
    obtain ⟨g1, hg1, v1, s1, e1⟩ := hI.sound f1 hf1
    obtain ⟨g2, hg2, v2, s2, e2⟩ := hI.sound f2 hf2
    obtain ⟨g, hg, u, e⟩ := hG.mul g1 hg1 g2 hg2
    obtain ⟨f, hf, w, ef⟩ := hI.complete g hg (u + rot g1.1 v2 + v1) (stab_comp s1 s2 (rot_comp_of e))
    refine ⟨f, hf, w, fun x => cart_inj_castM h0 ?_⟩
    have h1 : cartesian (castM h) (f1.image (f2.image x)) = (g1.shift v1).image ((g2.shift v2).image (cartesian (castM h) x)) :=
      (e1 _).trans (congrArg _ (e2 x))
    rw [h1]
    refine Eq.trans ?_ (ef x).symm
    rw [shift_image, shift_image, shift_image, image_add, e, castV_add, castV_add, intVec_eq]
    show _ = g.image (cartesian (castM h) x) + (castV u + castV (rot g1.1 v2) + castV v1)
    abel
  inv := by
    intro f1 hf1
    obtain ⟨g1, hg1, v1, s1, e1⟩ := hI.sound f1 hf1
    obtain ⟨g, hg, u, e⟩ := hG.inv g1 hg1
    obtain ⟨f, hf, w, ef⟩ := hI.complete g hg (-(u + rot g.1 v1)) (stab_inv s1 (rot_inv_of e))
    refine ⟨f, hf, -w, fun x => ?_⟩
    have : f.image (f1.image x) + castV w = x := cart_inj_castM h0 (by
      have h1 := ef (f1.image x)
      have h2 : cartesian (castM h) (f1.image x) = (g1.shift v1).image (cartesian (castM h) x) := e1 x
      rw [intMat_eq, intVec_eq, h2, shift_image, shift_image, image_add, e, castV_neg, castV_add, intVec_eq] at h1
      rw [h1]
      abel)
    rw [intVec_eq, castV_neg, eq_add_neg_iff_add_eq, this]
  keeps := by
    rintro f hf ⟨x, z⟩ hx
    obtain ⟨g, hg, v, _, e⟩ := hI.sound f hf
    have h1 := hG.keeps g hg _ ((hs x z).1 hx)
    refine (hs _ _).2 ?_
    have h2 : cartesian (castM h) (f.image x) = (g.shift v).image (cartesian (castM h) x) := e x
    rw [h2, shift_image]
    exact crystal_add h1 v

theorem image_eq (g : Op) (x : V3 ℚ) : g.image x = vecMul x (castM (transpose g.1)) + g.2 := by
  refine Prod.ext ?_ (Prod.ext ?_ ?_) <;>
  · simp only [Op.image, vecMul, castM, castV, V3.map, transpose, Prod.fst_add, Prod.snd_add]
    ring

theorem transpose_transpose (m : M3 ℤ) : transpose (transpose m) = m := rfl

/-- every superlattice has its inherited operations -/
theorem inherited_exists (ops : List Op) {h : M3 ℤ} (ht : Triangular h) (hb : det h < 100000) : ∃ ops', Inherited ops h ops' := by
  have h0 := det_pos ht
  obtain ⟨pts, _, _, hp, _⟩ := fracFrom_eq ht hb
  have key : ∀ g : Op, ∃ l : List Op, (∀ f ∈ l, ∃ v, (rowLattice h).map (rot g.1) = rowLattice h ∧
      ∀ x, cartesian (intMat h) (f.image x) = (g.shift v).image (cartesian (intMat h) x)) ∧
      ((rowLattice h).map (rot g.1) = rowLattice h → ∀ v, ∃ f ∈ l, ∃ w, ∀ x,
        cartesian (intMat h) (f.image x + intVec w) = (g.shift v).image (cartesian (intMat h) x)) := by
    intro g
    by_cases hst : (rowLattice h).map (rot g.1) = rowLattice h
    · have h1 := hst
      rw [map_rot_rowLattice] at h1
      obtain ⟨k, hk⟩ := (rowLattice_le _ _).1 h1.le
      have hf : ∀ (p : V3 ℤ) x, cartesian (castM h) (Op.image (transpose k, toFrac h (g.2 + castV p)) x) = (g.shift p).image (cartesian (castM h) x) := by
        intro p x
        rw [image_eq, cartesian_add, toFrac_cartesian h0.ne', shift_image, image_eq]
        have : cartesian (castM h) (vecMul x (castM (transpose (transpose k)))) = vecMul (cartesian (castM h) x) (castM (transpose g.1)) := by
          show vecMul (vecMul x (castM k)) (castM h) = vecMul (vecMul x (castM h)) (castM (transpose g.1))
          rw [vecMul_matMul, vecMul_matMul, ← castM_matMul, ← castM_matMul, hk]
        rw [this]
        abel
      refine ⟨pts.map fun p => (transpose k, toFrac h (g.2 + castV p)), ?_, fun _ v => ?_⟩
      · intro f hf'
        obtain ⟨p, _, rfl⟩ := List.mem_map.1 hf'
        exact ⟨p, hst, hf p⟩
      · obtain ⟨p, m, hpi, rfl⟩ := inside_rep h0 v
        refine ⟨_, List.mem_map_of_mem ((hp p).2 hpi), m, fun x => ?_⟩
        rw [intMat_eq, intVec_eq, cartesian_translate, hf, shift_image, shift_image, castV_add, add_assoc]
    · exact ⟨[], by simp, fun h' => absurd h' hst⟩
  choose l hl1 hl2 using key
  refine ⟨ops.flatMap l, ?_, ?_⟩
  · intro f hf
    obtain ⟨g, hg, hfg⟩ := List.mem_flatMap.1 hf
    exact ⟨g, hg, hl1 g f hfg⟩
  · intro g hg v hst
    obtain ⟨f, hf, w⟩ := hl2 g hst v
    exact ⟨f, List.mem_flatMap.2 ⟨g, hg, hf⟩, w⟩

/-- the motion that carries one image of a crystal onto another -/
theorem motion_ratio {sites : List (V3 ℚ × ℤ)} {ops : List Op} (hG : SpaceGroup sites ops) {g1 g2 : Op} (h1 : g1 ∈ ops) (h2 : g2 ∈ ops) (v1 v2 : V3 ℤ) :
    ∃ h ∈ ops, ∃ v, (∀ x, (h.shift v).image ((g1.shift v1).image x) = (g2.shift v2).image x) ∧ ∀ a, rot g2.1 a = rot h.1 (rot g1.1 a) := by
  obtain ⟨f, hf, u, ef⟩ := hG.inv g1 h1
  obtain ⟨h, hh, u', eh⟩ := hG.mul g2 h2 f hf
  have e : ∀ x, h.image (g1.image x) = g2.image x + castV (rot g2.1 u + -u') := by
    intro x
    have := eh (g1.image x)
    rw [ef, intVec_eq, image_add, intVec_eq] at this
    rw [castV_add, castV_neg, ← add_assoc, this, add_neg_cancel_right]
  refine ⟨h, hh, v2 + -(rot g2.1 u + -u') + -rot h.1 v1, fun x => ?_, rot_comp_of e⟩
  rw [shift_image, shift_image, shift_image, image_add, e]
  simp only [castV_add, castV_neg]
  abel

end Verif
