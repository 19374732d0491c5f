import Verif.Spec.Derivative
import Verif.Props.Dedup
import Verif.Props.Super
import Verif.Props.SuperEq
import Verif.Props.Levels
import Verif.Lemmas.Lazy
import Verif.Lemmas.Apps
import Verif.Spec.Count

/-! # C89: superlattices and decorations together list every derivative structure -/

namespace Verif

open Spec

theorem castV_def (v : V3 ℤ) : ((v.1 : ℚ), (v.2.1 : ℚ), (v.2.2 : ℚ)) = castV v := rfl

theorem image_add (g : Op) (x : V3 ℚ) (v : V3 ℤ) : g.image (x + castV v) = g.image x + castV (rot g.1 v) := by
  refine Prod.ext ?_ (Prod.ext ?_ ?_) <;>
  · simp only [Op.image, rot, castV, V3.map, Prod.fst_add, Prod.snd_add, AddMonoidHom.coe_mk, ZeroHom.coe_mk]
    push_cast
    ring

theorem image_inj (g : Op) (hd : det g.1 ≠ 0) {x y : V3 ℚ} (h : g.image x = g.image y) : x = y := by
  obtain ⟨⟨⟨r11, r12, r13⟩, ⟨r21, r22, r23⟩, ⟨r31, r32, r33⟩⟩, t⟩ := g
  obtain ⟨x1, x2, x3⟩ := x
  obtain ⟨y1, y2, y3⟩ := y
  simp only [Op.image, Prod.mk.injEq] at h
  obtain ⟨h1, h2, h3⟩ := h
  have hd' : ((det ((r11, r12, r13), (r21, r22, r23), (r31, r32, r33)) : ℤ) : ℚ) ≠ 0 := by exact_mod_cast hd
  simp only [det] at hd'
  push_cast at hd'
  refine Prod.ext ?_ (Prod.ext ?_ ?_)
  · refine mul_left_cancel₀ hd' ?_
    linear_combination (r22 * r33 - r23 * r32 : ℚ) * h1 - (r12 * r33 - r13 * r32 : ℚ) * h2 + (r12 * r23 - r13 * r22 : ℚ) * h3
  · refine mul_left_cancel₀ hd' ?_
    linear_combination -(r21 * r33 - r23 * r31 : ℚ) * h1 + (r11 * r33 - r13 * r31 : ℚ) * h2 - (r11 * r23 - r13 * r21 : ℚ) * h3
  · refine mul_left_cancel₀ hd' ?_
    linear_combination (r21 * r32 - r22 * r31 : ℚ) * h1 - (r11 * r32 - r12 * r31 : ℚ) * h2 + (r11 * r22 - r12 * r21 : ℚ) * h3

theorem cartesian_inj {L : M3 ℚ} (hv : volume L ≠ 0) {x y : V3 ℚ} (h : cartesian L x = cartesian L y) : x = y := by
  obtain ⟨⟨a, b, c⟩, ⟨d, e, f⟩, ⟨g, k, l⟩⟩ := L
  obtain ⟨x1, x2, x3⟩ := x
  obtain ⟨y1, y2, y3⟩ := y
  simp only [cartesian, Prod.mk.injEq] at h
  obtain ⟨h1, h2, h3⟩ := h
  simp only [volume] at hv
  refine Prod.ext ?_ (Prod.ext ?_ ?_)
  · refine mul_left_cancel₀ hv ?_
    linear_combination (e * l - f * k) * h1 - (d * l - f * g) * h2 + (d * k - e * g) * h3
  · refine mul_left_cancel₀ hv ?_
    linear_combination -(b * l - c * k) * h1 + (a * l - c * g) * h2 - (a * k - b * g) * h3
  · refine mul_left_cancel₀ hv ?_
    linear_combination (b * f - c * e) * h1 - (a * f - c * d) * h2 + (a * e - b * d) * h3

theorem atomSites_add {pos : List (V3 ℚ)} {x : V3 ℚ} (h : x ∈ AtomSites pos) (v : V3 ℤ) : x + castV v ∈ AtomSites pos := by
  obtain ⟨p, hp, hpx⟩ := h
  exact ⟨p, hp, hpx.trans ⟨v, rfl⟩⟩

/-- an operation permutes the sites of the infinite crystal: it maps into them … -/
theorem atomSites_maps {pos : List (V3 ℚ)} {ops : List Op} (hops : SymContract Cong pos ops) {op : Op} (hop : op ∈ ops)
    {x : V3 ℚ} (hx : x ∈ AtomSites pos) : op.image x ∈ AtomSites pos := by
  obtain ⟨p, hp, hpx⟩ := hx
  obtain ⟨y, hy, hpy⟩ := hops.maps op hop p hp
  exact ⟨y, hy, hpy.symm.trans (image_cong op hpx)⟩

/-- … and onto them -/
theorem atomSites_surj {pos : List (V3 ℚ)} {ops : List Op} (hops : SymContract Cong pos ops) {op : Op} (hop : op ∈ ops)
    (hdet : det op.1 = 1 ∨ det op.1 = -1) {y : V3 ℚ} (hy : y ∈ AtomSites pos) : ∃ x ∈ AtomSites pos, op.image x = y := by
  obtain ⟨q, hq, hqy⟩ := hy
  obtain ⟨g, hg, hinv⟩ := hops.inv op hop
  obtain ⟨z, hz, hqz⟩ := hops.maps g hg q hq
  obtain ⟨w, hw, hzw⟩ := hops.maps op hop z hz
  have h1 := hinv z hz w hw hzw
  have h2 : w = q := hops.inj g hg w hw q hq (h1.trans hqz.symm)
  subst h2
  obtain ⟨x, hx, rfl⟩ := image_surj_cong op hdet (hzw.trans hqy)
  exact ⟨x, ⟨z, hz, hx⟩, rfl⟩

/-- a decorated crystal moved by an operation is again a decoration of the parent's sites, periodic along the rotated lattice -/
theorem moved_decorated {L : M3 ℚ} (hv : volume L ≠ 0) {pos : List (V3 ℚ)} {ops : List Op} (hops : SymContract Cong pos ops)
    {op : Op} (hop : op ∈ ops) (hdet : det op.1 = 1 ∨ det op.1 = -1) (D : V3 ℚ → ℤ) {A : AddSubgroup (V3 ℤ)} (hD : PeriodicOn pos A D) :
    ∃ E : V3 ℚ → ℤ, PeriodicOn pos (A.map (rot op.1)) E ∧ Moved L op (Decorated L pos D) = Decorated L pos E ∧
      ∀ x ∈ AtomSites pos, E (op.image x) = D x := by
  classical
  have hd0 : det op.1 ≠ 0 := by rcases hdet with h | h <;> rw [h] <;> norm_num
  let E : V3 ℚ → ℤ := fun y => if h : ∃ x ∈ AtomSites pos, op.image x = y then D h.choose else 0
  have hE : ∀ x ∈ AtomSites pos, E (op.image x) = D x := by
    intro x hx
    have h : ∃ x' ∈ AtomSites pos, op.image x' = op.image x := ⟨x, hx, rfl⟩
    have hEx : E (op.image x) = D h.choose := dif_pos h
    rw [hEx, image_inj op hd0 h.choose_spec.2]
  refine ⟨E, ?_, ?_, hE⟩
  · rintro y hy v ⟨u, hu, rfl⟩
    obtain ⟨x, hx, rfl⟩ := atomSites_surj hops hop hdet hy
    rw [castV_def, ← image_add, hE _ (atomSites_add hx u), hE x hx]
    exact hD x hx u hu
  · ext s
    constructor
    · rintro ⟨x, z, ⟨x', hx', he⟩, rfl⟩
      obtain ⟨e1, rfl⟩ := Prod.mk.inj he
      obtain rfl := cartesian_inj hv e1
      exact ⟨_, atomSites_maps hops hop hx', by rw [hE _ hx']⟩
    · rintro ⟨y, hy, rfl⟩
      obtain ⟨x, hx, rfl⟩ := atomSites_surj hops hop hdet hy
      exact ⟨x, D x, ⟨x, hx, rfl⟩, by rw [hE x hx]⟩

/-- the sites of an enlarged cell, in fractional coordinates of the parent: all are parent sites with the parent's element,
and every parent site is a translate of one of them along the superlattice -/
theorem enlarge_atomSites {B : M3 ℚ} {ps : List (V3 ℚ)} {ns : List ℤ} (hps : ps ≠ []) (hl : ps.length = ns.length)
    {h : M3 ℤ} (ht : Triangular h) {n : ℕ} (hn : n = h.1.1 * h.2.1.2.1 * h.2.2.2.2) (hb : n < 100000) :
    ∃ c, enlarge B ps ns h = .ok c ∧ Built c ∧ (∀ x, cartesian c.lattice x = cartesian B (cartesian (castM h) x)) ∧
      volume c.lattice = n * volume B ∧
      (∀ s ∈ c.positions.zip c.numbers, (cartesian (castM h) s.1, s.2) ∈ Crystal (ps.zip ns)) ∧
      ∀ x ∈ AtomSites ps, ∃ q ∈ c.positions, ∃ k, x = cartesian (castM h) q + castV (vecMul k h) := by
  have h0 := det_pos ht
  obtain ⟨c, pts, henl, hlat, _, f3, _, p3, p4, p2, hpp⟩ := enlarge_sites B ps ns hps hl h ht n hn hb
  obtain ⟨c', e1, e2, _, _, _, e6, _⟩ := enlarge_spec B ps ns hps hl h ht n hn hb
  rw [henl] at e1
  injection e1 with e1
  subst e1
  refine ⟨c, henl, ?_, fun x => congrFun e2 x, e6, ?_, ?_⟩
  · unfold enlarge at henl
    obtain ⟨hi, _, henl⟩ := bind_ok henl
    obtain ⟨oPos, _, henl⟩ := bind_ok henl
    split at henl
    · cases henl
    · obtain ⟨nums, _, henl⟩ := bind_ok henl
      exact ⟨_, _, _, henl⟩
  · intro s hs
    obtain ⟨u, hu, hs⟩ := List.mem_flatMap.1 (p2.subset hs)
    obtain ⟨q, hq, rfl⟩ := List.mem_map.1 hs
    obtain ⟨v, _, rfl⟩ := List.mem_map.1 hq
    exact ⟨u, hu, by rw [toFrac_cartesian h0.ne']; exact ⟨v, rfl⟩, rfl⟩
  · rintro x ⟨p, hp, w, rfl⟩
    obtain ⟨v, k, hv, rfl⟩ := inside_rep h0 w
    refine ⟨toFrac h (p + castV v), hpp.symm.subset (List.mem_flatMap.2 ⟨p, hp, List.mem_map.2 ⟨v, (f3 v).2 hv, rfl⟩⟩), k, ?_⟩
    rw [toFrac_cartesian h0.ne', add_assoc, ← castV_add]
    rfl

theorem cartesian_translate (h : M3 ℤ) (q : V3 ℚ) (k : V3 ℤ) :
    cartesian (castM h) (q + castV k) = cartesian (castM h) q + castV (vecMul k h) := by
  rw [cartesian_add, castV_vecMul]; rfl

theorem mem_cartCrystal {L : M3 ℚ} {sites : List (V3 ℚ × ℤ)} {s : V3 ℚ × ℤ} :
    s ∈ CartCrystal L sites ↔ ∃ t ∈ sites, ∃ k : V3 ℤ, s = (cartesian L (t.1 + castV k), t.2) := Iff.rfl

/-- a periodic decoration of the parent's sites is the crystal of the enlarged cell with the elements read off at its sites -/
theorem decorated_eq_crystal {B : M3 ℚ} {ps : List (V3 ℚ)} {h : M3 ℤ} {c : GCell}
    (hcart : ∀ x, cartesian c.lattice x = cartesian B (cartesian (castM h) x))
    (hin : ∀ q ∈ c.positions, cartesian (castM h) q ∈ AtomSites ps)
    (hcov : ∀ x ∈ AtomSites ps, ∃ q ∈ c.positions, ∃ k, x = cartesian (castM h) q + castV (vecMul k h))
    {E : V3 ℚ → ℤ} (hE : PeriodicOn ps (rowLattice h) E) :
    CartCrystal c.lattice (c.positions.zip (c.positions.map fun q => E (cartesian (castM h) q))) = Decorated B ps E := by
  have hper : ∀ q ∈ c.positions, ∀ k, E (cartesian (castM h) q + castV (vecMul k h)) = E (cartesian (castM h) q) :=
    fun q hq k => hE _ (hin q hq) _ ((mem_rowLattice h _).2 ⟨k, rfl⟩)
  have hmem : ∀ t, t ∈ c.positions.zip (c.positions.map fun q => E (cartesian (castM h) q)) ↔
      t.1 ∈ c.positions ∧ t.2 = E (cartesian (castM h) t.1) := by
    intro t
    rw [List.zip_map_right, List.mem_map]
    constructor
    · rintro ⟨⟨a, b⟩, hab, rfl⟩
      obtain ⟨i, hi⟩ := List.mem_iff_getElem?.1 hab
      obtain ⟨h1, h2⟩ := List.getElem?_zip_eq_some.1 hi
      rw [h1] at h2
      injection h2 with h2
      simp only [Prod.map_apply, id]
      exact ⟨List.mem_of_getElem? h1, by rw [show a = b from h2]⟩
    · rintro ⟨h1, h2⟩
      obtain ⟨i, hi⟩ := List.mem_iff_getElem?.1 h1
      exact ⟨(t.1, t.1), List.mem_iff_getElem?.2 ⟨i, List.getElem?_zip_eq_some.2 ⟨hi, hi⟩⟩, Prod.ext rfl h2.symm⟩
  ext s
  rw [mem_cartCrystal]
  constructor
  · rintro ⟨t, ht, k, rfl⟩
    obtain ⟨h1, h2⟩ := (hmem t).1 ht
    refine ⟨cartesian (castM h) t.1 + castV (vecMul k h), atomSites_add (hin _ h1) _, ?_⟩
    rw [hcart, cartesian_translate, h2, hper _ h1]
  · rintro ⟨x, hx, rfl⟩
    obtain ⟨q, hq, k, rfl⟩ := hcov x hx
    refine ⟨(q, E (cartesian (castM h) q)), (hmem _).2 ⟨hq, rfl⟩, k, ?_⟩
    rw [hcart, cartesian_translate, hper q hq]

/-- conversely every decoration of the enlarged cell is a periodic decoration of the parent's sites -/
theorem crystal_eq_decorated {B : M3 ℚ} {ps : List (V3 ℚ)} {h : M3 ℤ} (h0 : 0 < det h) {c : GCell}
    (hcart : ∀ x, cartesian c.lattice x = cartesian B (cartesian (castM h) x))
    (hin : ∀ q ∈ c.positions, cartesian (castM h) q ∈ AtomSites ps)
    (hcov : ∀ x ∈ AtomSites ps, ∃ q ∈ c.positions, ∃ k, x = cartesian (castM h) q + castV (vecMul k h))
    (hcong : c.positions.Pairwise (fun p q => ¬ Cong p q)) (m : List ℤ) (hm : m.length = c.positions.length) :
    ∃ E, PeriodicOn ps (rowLattice h) E ∧ CartCrystal c.lattice (c.positions.zip m) = Decorated B ps E ∧
      m = c.positions.map fun q => E (cartesian (castM h) q) := by
  classical
  have hv : volume (castM h) ≠ 0 := by
    have : volume (castM h) = ((det h : ℤ) : ℚ) := by rw [castM_det]; rfl
    rw [this]; exact_mod_cast h0.ne'
  let Q : V3 ℚ → ℤ → Prop := fun x z => ∃ t ∈ c.positions.zip m, ∃ k : V3 ℤ, x = cartesian (castM h) (t.1 + castV k) ∧ z = t.2
  have huniq : ∀ x z z', Q x z → Q x z' → z = z' := by
    rintro x z z' ⟨t, ht, k, e1, rfl⟩ ⟨t', ht', k', e1', rfl⟩
    have e := cartesian_inj hv (e1.symm.trans e1')
    have hc : Cong t.1 t'.1 := by
      refine ⟨k - k', ?_⟩
      have : t'.1 = t.1 + (castV k - castV k') := by rw [← add_sub_assoc, e]; abel
      rw [this]
      ext <;> simp [castV, V3.map]
    obtain ⟨i, hi⟩ := List.mem_iff_getElem?.1 ht
    obtain ⟨j, hj⟩ := List.mem_iff_getElem?.1 ht'
    obtain ⟨i1, i2⟩ := List.getElem?_zip_eq_some.1 hi
    obtain ⟨j1, j2⟩ := List.getElem?_zip_eq_some.1 hj
    obtain ⟨hi', hix⟩ := List.getElem?_eq_some_iff.1 i1
    obtain ⟨hj', hjx⟩ := List.getElem?_eq_some_iff.1 j1
    have hij : i = j := by
      have hpw := List.pairwise_iff_getElem.1 hcong
      rcases lt_trichotomy i j with hlt | heq | hgt
      · exact absurd (by rw [hix, hjx]; exact hc) (hpw i j hi' hj' hlt)
      · exact heq
      · exact absurd (by rw [hix, hjx]; exact hc.symm) (hpw j i hj' hi' hgt)
    subst hij
    rw [i2] at j2
    injection j2
  let E : V3 ℚ → ℤ := fun x => if hx : ∃ z, Q x z then hx.choose else 0
  have hE : ∀ x z, Q x z → E x = z := by
    intro x z hz
    have hx : ∃ z, Q x z := ⟨z, hz⟩
    have : E x = hx.choose := dif_pos hx
    rw [this]
    exact huniq x _ _ hx.choose_spec hz
  have hme : m = c.positions.map fun q => E (cartesian (castM h) q) := by
    apply List.ext_getElem?
    intro i
    rw [List.getElem?_map]
    by_cases hi : i < c.positions.length
    · have e1 := List.getElem?_eq_getElem hi
      have e2 : m[i]? = some m[i] := List.getElem?_eq_getElem (by omega)
      rw [e1, e2, Option.map_some, hE _ m[i] ⟨(c.positions[i], m[i]), ?_, 0, ?_, rfl⟩]
      · exact List.mem_iff_getElem?.2 ⟨i, List.getElem?_zip_eq_some.2 ⟨e1, e2⟩⟩
      · have : castV (0 : V3 ℤ) = 0 := by ext <;> simp [castV, V3.map]
        rw [this, add_zero]
    · rw [List.getElem?_eq_none (by omega), List.getElem?_eq_none (by omega)]; rfl
  have hper : PeriodicOn ps (rowLattice h) E := by
    intro x hx v hv'
    obtain ⟨l, rfl⟩ := (mem_rowLattice h v).1 hv'
    obtain ⟨q, hq, k, rfl⟩ := hcov x hx
    obtain ⟨i, hi⟩ := List.mem_iff_getElem?.1 hq
    have hil : i < m.length := by
      have := (List.getElem?_eq_some_iff.1 hi).1
      omega
    have e2 : m[i]? = some m[i] := List.getElem?_eq_getElem hil
    have hmem : (q, m[i]) ∈ c.positions.zip m := List.mem_iff_getElem?.2 ⟨i, List.getElem?_zip_eq_some.2 ⟨hi, e2⟩⟩
    rw [castV_def, hE _ m[i] ⟨_, hmem, k + l, ?_, rfl⟩, hE _ m[i] ⟨_, hmem, k, ?_, rfl⟩]
    · rw [cartesian_translate]
    · rw [cartesian_translate, vecMul_add, castV_add, add_assoc]
  refine ⟨E, hper, ?_, hme⟩
  conv_lhs => rw [hme]
  exact decorated_eq_crystal hcart hin hcov hper

/-- moving the Cartesian crystal of a cell by an operation of the cell -/
theorem moved_crystal {L : M3 ℚ} (hv : volume L ≠ 0) {g : Op} {s t : List (V3 ℚ × ℤ)} (h : g.imageSet (Crystal s) = Crystal t) :
    Moved L g (CartCrystal L s) = CartCrystal L t := by
  have hC : ∀ (l : List (V3 ℚ × ℤ)) (x : V3 ℚ) (z : ℤ), (cartesian L x, z) ∈ CartCrystal L l ↔ (x, z) ∈ Crystal l := by
    intro l x z
    constructor
    · rintro ⟨u, hu, k, he⟩
      obtain ⟨e1, e2⟩ := Prod.mk.inj he
      exact ⟨u, hu, ⟨k, cartesian_inj hv e1⟩, e2⟩
    · rintro ⟨u, hu, ⟨k, e1⟩, e2⟩
      exact ⟨u, hu, k, Prod.ext (congrArg (cartesian L) e1) e2⟩
  ext ⟨y, z⟩
  constructor
  · rintro ⟨x, w, hx, he⟩
    obtain ⟨rfl, rfl⟩ := Prod.mk.inj he
    rw [hC, ← h]
    exact ⟨(x, z), (hC _ _ _).1 hx, rfl⟩
  · intro hy
    obtain ⟨u, hu, k, he⟩ := mem_cartCrystal.1 hy
    obtain ⟨rfl, rfl⟩ := Prod.mk.inj he
    have : (u.1 + castV k, u.2) ∈ g.imageSet (Crystal s) := by rw [h]; exact ⟨u, hu, ⟨k, rfl⟩, rfl⟩
    obtain ⟨⟨x, w⟩, hx, he⟩ := this
    obtain ⟨e1, e2⟩ := Prod.mk.inj he
    exact ⟨x, u.2, (hC _ _ _).2 (by rw [e2]; exact hx), by rw [e1]⟩

/-- the part of C89 shared by all generators -/
theorem derivative_core (unit : GCell) (hne : unit.positions ≠ []) (hlen : unit.positions.length = unit.numbers.length)
    (hvol : volume unit.lattice ≠ 0) {ops : List Op} (hops : SymContract Cong unit.positions ops)
    (hel : KeepsElements Cong unit.positions ops unit.numbers) {op : Op} (hop : op ∈ ops) (hdet : det op.1 = 1 ∨ det op.1 = -1)
    {h : M3 ℤ} (ht : Triangular h) {n : ℕ} (hn : n = h.1.1 * h.2.1.2.1 * h.2.2.2.2) (hb : n < 100000)
    {A : AddSubgroup (V3 ℤ)} (hA : A.map (rot op.1) = rowLattice h) {D : V3 ℚ → ℤ} (hD : PeriodicOn unit.positions A D) :
    ∃ c, enlarge unit.lattice unit.positions unit.numbers h = .ok c ∧ Built c ∧ volume c.lattice ≠ 0 ∧
      ∃ a : List ℤ, a.length = c.positions.length ∧
        Moved unit.lattice op (Decorated unit.lattice unit.positions D) = CartCrystal c.lattice (c.positions.zip a) ∧
        ∀ (i : ℕ) z w, c.numbers[i]? = some z → a[i]? = some w → ∃ x ∈ AtomSites unit.positions, w = D x ∧
          ∀ z', (x, z') ∈ Crystal (unit.positions.zip unit.numbers) → z' = z := by
  have h0 := det_pos ht
  obtain ⟨c, c1, c2, c3, c4, c5, c6⟩ := enlarge_atomSites (B := unit.lattice) hne hlen ht hn hb
  have hn0 : 0 < n := by
    have := det_triangular ht
    rw [← hn] at this
    rw [this] at h0
    exact_mod_cast h0
  have hlc := c2.length
  have hpair : ∀ i : ℕ, i < c.positions.length → ∃ q z, c.positions[i]? = some q ∧ c.numbers[i]? = some z ∧
      (q, z) ∈ c.positions.zip c.numbers := by
    intro i hi
    have e1 := List.getElem?_eq_getElem hi
    have e2 : c.numbers[i]? = some c.numbers[i] := List.getElem?_eq_getElem (by omega)
    exact ⟨_, _, e1, e2, List.mem_iff_getElem?.2 ⟨i, List.getElem?_zip_eq_some.2 ⟨e1, e2⟩⟩⟩
  have hin : ∀ q ∈ c.positions, cartesian (castM h) q ∈ AtomSites unit.positions := by
    intro q hq
    obtain ⟨i, hi⟩ := List.mem_iff_getElem?.1 hq
    obtain ⟨q', z, e1, _, e3⟩ := hpair i (List.getElem?_eq_some_iff.1 hi).1
    rw [hi] at e1
    injection e1 with e1
    subst e1
    obtain ⟨t, ht, htc, _⟩ := c5 _ e3
    exact ⟨t.1, (List.of_mem_zip ht).1, htc⟩
  obtain ⟨E, E1, E2, E3⟩ := moved_decorated hvol hops hop hdet D hD
  rw [hA] at E1
  refine ⟨c, c1, c2, ?_, _, ?_, E2.trans (decorated_eq_crystal c3 hin c6 E1).symm, ?_⟩
  · rw [c4]
    exact mul_ne_zero (by exact_mod_cast hn0.ne') hvol
  · rw [List.length_map]
  · intro i z w hz hw
    rw [List.getElem?_map] at hw
    obtain ⟨q, z', e1, e2, e3⟩ := hpair i (by have := (List.getElem?_eq_some_iff.1 hz).1; omega)
    rw [hz] at e2
    injection e2 with e2
    subst e2
    rw [e1, Option.map_some] at hw
    injection hw with hw
    obtain ⟨x, hx, hxy⟩ := atomSites_surj hops hop hdet (hin q (List.mem_of_getElem? e1))
    refine ⟨x, hx, by rw [← hw, ← hxy, E3 x hx], fun z' hz' => ?_⟩
    obtain ⟨t, ht, htc, rfl⟩ := c5 _ e3
    obtain ⟨u, hu, huc, rfl⟩ := hz'
    obtain ⟨j, hj⟩ := List.mem_iff_getElem?.1 ht
    obtain ⟨k, hk⟩ := List.mem_iff_getElem?.1 hu
    obtain ⟨j1, j2⟩ := List.getElem?_zip_eq_some.1 hj
    obtain ⟨k1, k2⟩ := List.getElem?_zip_eq_some.1 hk
    have := hel op hop k j _ _ k1 j1 ((image_cong op huc).trans (by rw [hxy]; exact htc.symm))
    rw [k2, j2] at this
    injection this

/-- a listed representative of the class of `a` is the crystal of `a` moved by an operation of the enlarged cell -/
theorem derivative_representative {c : GCell} (hv : volume c.lattice ≠ 0) {ops : List Op} {wy : List String} {g : OGen}
    (hg : GenSetup c ops wy g) (hops : SymContract Cong c.positions ops) (hdet : ∀ g ∈ ops, det g.1 = 1 ∨ det g.1 = -1)
    {r a : List ℤ} (hr : r.length = c.positions.length) (ha : a.length = c.positions.length)
    (h : GeomEquiv siteKey c.positions ops r a) :
    ∃ op ∈ ops, CartCrystal c.lattice (c.positions.zip r) = Moved c.lattice op (CartCrystal c.lattice (c.positions.zip a)) := by
  obtain ⟨_, _, hrows, hP⟩ := hg.rows
  have h' := (rel_iff_geom hg.distinct hg.contract hrows r a hr ha).2 h
  have h'' := (rel_iff_geom hg.distinct hg.contract hrows a r ha hr).1 (Rel.symm hP hr h')
  obtain ⟨op, hop, himg⟩ := (geom_iff_crystal hg.distinct hops hdet a r).1 h''
  exact ⟨op, hop, (moved_crystal hv himg).symm⟩

/-- the superlattice of the enumeration that carries a given sublattice, and the parent operation that rotates one onto the other -/
theorem superlattice_of (setList : List ℕ → List ℕ) (hs : SetOrder setList) (itemFirst : Bool) (unit : GCell)
    (ops : List Op) (hG : PointGroup (ops.map (·.1))) (n : ℕ) (h0 : 0 < n) (hn : n < 2000) :
    ∃ out, hnfsFromN setList itemFirst unit (ops.map (·.1)) n = .ok out ∧
      (∀ s ∈ out, IsHnf n s.latCoeff ∧ s.ub = unit.lattice ∧ s.upositions = unit.positions ∧ s.unumbers = unit.numbers) ∧
      ∀ A : AddSubgroup (V3 ℤ), A.index = n → ∃ s ∈ out, ∃ op ∈ ops, (det op.1 = 1 ∨ det op.1 = -1) ∧ A.map (rot op.1) = rowLattice s.latCoeff := by
  obtain ⟨l, l1, l2, l3, l4⟩ := C28_hnf_exact setList hs unit (ops.map (·.1)) n h0
  have hgood : ∀ s ∈ l, SLGood (ops.map (·.1)) n s := fun s hs =>
    ⟨(l4 s hs).2.2.2, isHnf_index ((l3 _).1 (List.mem_map_of_mem hs))⟩
  obtain ⟨out, f1, f2, f3, _⟩ := nodupLoop_spec hG h0 hn itemFirst l [] hgood (by simp)
  rw [List.nil_append] at f2 f3
  refine ⟨out, by unfold hnfsFromN; rw [l1]; exact f1, fun s hs' => ?_, fun A hA => ?_⟩
  · obtain ⟨u1, u2, u3, _⟩ := l4 s (f2.subset hs')
    exact ⟨(l3 _).1 (List.mem_map_of_mem (f2.subset hs')), u1, u2, u3⟩
  · obtain ⟨m, hm, rfl⟩ := isHnf_exists h0 A hA
    obtain ⟨x, hx, rfl⟩ := List.mem_map.1 ((l3 m).2 hm)
    obtain ⟨y, hy, hyx⟩ := f3 x hx
    obtain ⟨r, hr, hrA⟩ := SameUpToRotation.symm hG hyx
    obtain ⟨op, hop, rfl⟩ := List.mem_map.1 hr
    exact ⟨y, hy, op, hop, hG.unimodular _ hr, hrA⟩

/-- the part of `C89_binary` that does not depend on the enumeration of the superlattices -/
theorem derivative_binary_of (unit : GCell) (hu : Built unit)
    (hvol : volume unit.lattice ≠ 0) (ops : List Op) (hops : SymContract Cong unit.positions ops)
    (hel : KeepsElements Cong unit.positions ops unit.numbers) (n : ℕ) (hn : n < 2000) {s : SLCell}
    (u : IsHnf n s.latCoeff ∧ s.ub = unit.lattice ∧ s.upositions = unit.positions ∧ s.unumbers = unit.numbers)
    (sp : Specie) (A : AddSubgroup (V3 ℤ)) {op : Op} (hop : op ∈ ops) (hdet : det op.1 = 1 ∨ det op.1 = -1) (hrot : A.map (rot op.1) = rowLattice s.latCoeff)
    (D : V3 ℚ → ℤ) (hper : PeriodicOn unit.positions A D)
    (hD : ∀ x ∈ AtomSites unit.positions, D x = sp.Z ∨ (x, D x) ∈ Crystal (unit.positions.zip unit.numbers)) :
    ∃ c, s.toGeneralCell = .ok c ∧ ∃ k ≤ c.positions.length,
      ∀ (hash : List ℤ → ℕ) (ops' : List Op) (wy : List String) (g : OGen), OGen.new c ops' wy = .ok g → (c.positions.map siteKey).Nodup →
        SymContract Cong c.positions ops' → (∀ op ∈ ops', Unimodular op.1) →
        Set.InjOn hash {m | m.length = c.positions.length ∧ ∃ d ∈ {d | ∃ S : Finset ℕ, S ⊆ Finset.range c.numbers.length ∧ S.card = k ∧
          Subst c.numbers S sp.Z d}, GeomEquiv siteKey c.positions ops' d m} →
        ∃ strus, g.genNodupUnitary hash k sp = .ok strus ∧ ∃ b ∈ strus, ∃ op ∈ ops, ∃ op' ∈ ops',
          CartCrystal b.lattice (b.positions.zip b.numbers) =
            Moved c.lattice op' (Moved unit.lattice op (Decorated unit.lattice unit.positions D)) := by
  obtain ⟨u1, u2, u3, u4⟩ := u
  obtain ⟨t1, t2⟩ := isHnf_triangular u1
  obtain ⟨c, c1, c2, c3, a, a1, a2, a3⟩ := derivative_core unit hu.ne_nil hu.length.symm hvol hops hel hop hdet t1 t2 (by omega) hrot hper
  have hlc := c2.length
  let S : Finset ℕ := (Finset.range c.numbers.length).filter fun i => a[i]? = some sp.Z
  have hS : S ⊆ Finset.range c.numbers.length := Finset.filter_subset _ _
  refine ⟨c, ?_, S.card, ?_, ?_⟩
  · unfold SLCell.toGeneralCell
    rw [u2, u3, u4]; exact c1
  · have := Finset.card_le_card hS
    rw [Finset.card_range] at this
    omega
  · intro hash ops' wy g hg hk hops' hdet' hinj
    have hset : GenSetup c ops' wy g := ⟨c2, hk, (contract_of_exact hk hops').1, hg⟩
    obtain ⟨strus, e1, e2, e3, e4, _⟩ := C21_nodup_unitary hash c ops' wy g hset S.card sp _ rfl hinj
    refine ⟨strus, e1, ?_⟩
    have haD : a ∈ {d | ∃ S' : Finset ℕ, S' ⊆ Finset.range c.numbers.length ∧ S'.card = S.card ∧ Subst c.numbers S' sp.Z d} := by
      refine ⟨S, hS, rfl, by omega, fun i hi => ?_⟩
      by_cases h : a[i]? = some sp.Z
      · rw [if_pos (Finset.mem_filter.2 ⟨Finset.mem_range.2 hi, h⟩), h]
      · rw [if_neg (fun hm : i ∈ S => h (Finset.mem_filter.1 hm).2)]
        have ez := List.getElem?_eq_getElem hi
        have ew : a[i]? = some a[i] := List.getElem?_eq_getElem (by omega)
        obtain ⟨x, hx, hw, hz⟩ := a3 i _ _ ez ew
        rcases hD x hx with hd | hd
        · exact absurd (by rw [ew, hw, hd]) h
        · rw [ew, ez, hw, hz _ hd]
    obtain ⟨r, hr, hra⟩ := e4 a haD
    obtain ⟨b, hb, rfl⟩ := List.mem_map.1 hr
    obtain ⟨_, _, _, hb1, _⟩ := e3 _ hr
    obtain ⟨op', hop', hfin⟩ := derivative_representative c3 hset hops' hdet' (by omega) a1 hra
    refine ⟨b, hb, op, hop, op', hop', ?_⟩
    rw [(e2 b hb).1, (e2 b hb).2, hfin, a2]

/-- **C89** (binary). Let a crystal arise from a parent crystal by replacing some atoms by `sp`, periodically along a sublattice of index `n` of the
parent's lattice. Then among the superlattices listed for index `n` there is one whose cell, decorated with some number `k` of `sp` atoms, has the
crystal among its listed symmetry-inequivalent structures, up to an operation of the parent and one of the enlarged cell. -/
theorem C89_binary (setList : List ℕ → List ℕ) (hs : SetOrder setList) (itemFirst : Bool) (unit : GCell) (hu : Built unit)
    (hvol : volume unit.lattice ≠ 0) (ops : List Op) (hops : SymContract Cong unit.positions ops)
    (hel : KeepsElements Cong unit.positions ops unit.numbers) (hG : PointGroup (ops.map (·.1))) (n : ℕ) (h0 : 0 < n) (hn : n < 2000)
    (sp : Specie) (A : AddSubgroup (V3 ℤ)) (hA : A.index = n) (D : V3 ℚ → ℤ) (hper : PeriodicOn unit.positions A D)
    (hD : ∀ x ∈ AtomSites unit.positions, D x = sp.Z ∨ (x, D x) ∈ Crystal (unit.positions.zip unit.numbers)) :
    ∃ out, hnfsFromN setList itemFirst unit (ops.map (·.1)) n = .ok out ∧ ∃ s ∈ out, ∃ c, s.toGeneralCell = .ok c ∧ ∃ k ≤ c.positions.length,
      ∀ (hash : List ℤ → ℕ) (ops' : List Op) (wy : List String) (g : OGen), OGen.new c ops' wy = .ok g → (c.positions.map siteKey).Nodup →
        SymContract Cong c.positions ops' → (∀ op ∈ ops', Unimodular op.1) →
        Set.InjOn hash {m | m.length = c.positions.length ∧ ∃ d ∈ {d | ∃ S : Finset ℕ, S ⊆ Finset.range c.numbers.length ∧ S.card = k ∧
          Subst c.numbers S sp.Z d}, GeomEquiv siteKey c.positions ops' d m} →
        ∃ strus, g.genNodupUnitary hash k sp = .ok strus ∧ ∃ b ∈ strus, ∃ op ∈ ops, ∃ op' ∈ ops',
          CartCrystal b.lattice (b.positions.zip b.numbers) =
            Moved c.lattice op' (Moved unit.lattice op (Decorated unit.lattice unit.positions D)) := by
  obtain ⟨out, o1, o2, o3⟩ := superlattice_of setList hs itemFirst unit ops hG n h0 hn
  obtain ⟨s, hs', op, hop, hdet, hrot⟩ := o3 A hA
  exact ⟨out, o1, s, hs', derivative_binary_of unit hu hvol ops hops hel n hn (o2 s hs') sp A hop hdet hrot D hper hD⟩

/-- the part of `C89_ternary` that does not depend on the enumeration of the superlattices -/
theorem derivative_ternary_of (unit : GCell) (hu : Built unit)
    (hvol : volume unit.lattice ≠ 0) (ops : List Op) (hops : SymContract Cong unit.positions ops)
    (hel : KeepsElements Cong unit.positions ops unit.numbers) (n : ℕ) (hn : n < 2000) {s : SLCell}
    (u : IsHnf n s.latCoeff ∧ s.ub = unit.lattice ∧ s.upositions = unit.positions ∧ s.unumbers = unit.numbers)
    (sp1 sp2 : Specie) (A : AddSubgroup (V3 ℤ)) {op : Op} (hop : op ∈ ops) (hdet : det op.1 = 1 ∨ det op.1 = -1) (hrot : A.map (rot op.1) = rowLattice s.latCoeff)
    (D : V3 ℚ → ℤ) (hper : PeriodicOn unit.positions A D)
    (hD : ∀ x ∈ AtomSites unit.positions, D x = sp1.Z ∨ D x = sp2.Z ∨ (x, D x) ∈ Crystal (unit.positions.zip unit.numbers)) :
    ∃ c, s.toGeneralCell = .ok c ∧
      ∃ k1 k2, k1 + k2 ≤ c.positions.length ∧
      ∀ (hash : List ℤ → ℕ) (ops' : List Op) (wy : List String) (g : OGen), OGen.new c ops' wy = .ok g → (c.positions.map siteKey).Nodup →
        SymContract Cong c.positions ops' → (∀ op ∈ ops', Unimodular op.1) →
        Set.InjOn hash {m | m.length = c.positions.length ∧ ∃ d ∈ {d | ∃ S T : Finset ℕ, S ⊆ Finset.range c.numbers.length ∧
          T ⊆ Finset.range c.numbers.length ∧ Disjoint S T ∧ S.card = k1 ∧ T.card = k2 ∧ Subst2 c.numbers S sp1.Z T sp2.Z d},
          GeomEquiv siteKey c.positions ops' d m} →
        ∃ strus, g.genNodupTrinary hash sp1 k1 sp2 k2 = .ok strus ∧ ∃ b ∈ strus, ∃ op ∈ ops, ∃ op' ∈ ops',
          CartCrystal b.lattice (b.positions.zip b.numbers) =
            Moved c.lattice op' (Moved unit.lattice op (Decorated unit.lattice unit.positions D)) := by
  obtain ⟨u1, u2, u3, u4⟩ := u
  obtain ⟨t1, t2⟩ := isHnf_triangular u1
  obtain ⟨c, c1, c2, c3, a, a1, a2, a3⟩ := derivative_core unit hu.ne_nil hu.length.symm hvol hops hel hop hdet t1 t2 (by omega) hrot hper
  have hlc := c2.length
  let S : Finset ℕ := (Finset.range c.numbers.length).filter fun i => a[i]? = some sp1.Z
  let T : Finset ℕ := (Finset.range c.numbers.length).filter fun i => a[i]? = some sp2.Z ∧ a[i]? ≠ some sp1.Z
  have hS : S ⊆ Finset.range c.numbers.length := Finset.filter_subset _ _
  have hT : T ⊆ Finset.range c.numbers.length := Finset.filter_subset _ _
  have hST : Disjoint S T := by
    rw [Finset.disjoint_left]
    intro i h1 h2
    exact (Finset.mem_filter.1 h2).2.2 (Finset.mem_filter.1 h1).2
  refine ⟨c, ?_, S.card, T.card, ?_, ?_⟩
  · unfold SLCell.toGeneralCell
    rw [u2, u3, u4]; exact c1
  · have := Finset.card_le_card (Finset.union_subset hS hT)
    rw [Finset.card_range, Finset.card_union_of_disjoint hST] at this
    omega
  · intro hash ops' wy g hg hk hops' hdet' hinj
    have hset : GenSetup c ops' wy g := ⟨c2, hk, (contract_of_exact hk hops').1, hg⟩
    obtain ⟨strus, e1, e2, e3, e4, _⟩ := C21_nodup_trinary hash c ops' wy g hset sp1 S.card sp2 T.card _ rfl hinj
    refine ⟨strus, e1, ?_⟩
    have haD : a ∈ {d | ∃ S' T' : Finset ℕ, S' ⊆ Finset.range c.numbers.length ∧ T' ⊆ Finset.range c.numbers.length ∧ Disjoint S' T' ∧
        S'.card = S.card ∧ T'.card = T.card ∧ Subst2 c.numbers S' sp1.Z T' sp2.Z d} := by
      refine ⟨S, T, hS, hT, hST, rfl, rfl, by omega, fun i hi => ?_⟩
      by_cases h : a[i]? = some sp1.Z
      · rw [if_pos (Finset.mem_filter.2 ⟨Finset.mem_range.2 hi, h⟩), h]
      · rw [if_neg (fun hm : i ∈ S => h (Finset.mem_filter.1 hm).2)]
        by_cases h2 : a[i]? = some sp2.Z
        · rw [if_pos (Finset.mem_filter.2 ⟨Finset.mem_range.2 hi, h2, h⟩), h2]
        · rw [if_neg (fun hm : i ∈ T => h2 (Finset.mem_filter.1 hm).2.1)]
          have ez := List.getElem?_eq_getElem hi
          have ew : a[i]? = some a[i] := List.getElem?_eq_getElem (by omega)
          obtain ⟨x, hx, hw, hz⟩ := a3 i _ _ ez ew
          rcases hD x hx with hd | hd | hd
          · exact absurd (by rw [ew, hw, hd]) h
          · exact absurd (by rw [ew, hw, hd]) h2
          · rw [ew, ez, hw, hz _ hd]
    obtain ⟨r, hr, hra⟩ := e4 a haD
    obtain ⟨b, hb, rfl⟩ := List.mem_map.1 hr
    obtain ⟨_, _, _, _, _, _, _, hb1, _⟩ := e3 _ hr
    obtain ⟨op', hop', hfin⟩ := derivative_representative c3 hset hops' hdet' (by omega) a1 hra
    refine ⟨b, hb, op, hop, op', hop', ?_⟩
    rw [(e2 b hb).1, (e2 b hb).2, hfin, a2]

/-- **C89** (ternary). The same for crystals in which every atom is of its parent element, `sp1` or `sp2`. -/
theorem C89_ternary (setList : List ℕ → List ℕ) (hs : SetOrder setList) (itemFirst : Bool) (unit : GCell) (hu : Built unit)
    (hvol : volume unit.lattice ≠ 0) (ops : List Op) (hops : SymContract Cong unit.positions ops)
    (hel : KeepsElements Cong unit.positions ops unit.numbers) (hG : PointGroup (ops.map (·.1))) (n : ℕ) (h0 : 0 < n) (hn : n < 2000)
    (sp1 sp2 : Specie) (A : AddSubgroup (V3 ℤ)) (hA : A.index = n) (D : V3 ℚ → ℤ) (hper : PeriodicOn unit.positions A D)
    (hD : ∀ x ∈ AtomSites unit.positions, D x = sp1.Z ∨ D x = sp2.Z ∨ (x, D x) ∈ Crystal (unit.positions.zip unit.numbers)) :
    ∃ out, hnfsFromN setList itemFirst unit (ops.map (·.1)) n = .ok out ∧ ∃ s ∈ out, ∃ c, s.toGeneralCell = .ok c ∧
      ∃ k1 k2, k1 + k2 ≤ c.positions.length ∧
      ∀ (hash : List ℤ → ℕ) (ops' : List Op) (wy : List String) (g : OGen), OGen.new c ops' wy = .ok g → (c.positions.map siteKey).Nodup →
        SymContract Cong c.positions ops' → (∀ op ∈ ops', Unimodular op.1) →
        Set.InjOn hash {m | m.length = c.positions.length ∧ ∃ d ∈ {d | ∃ S T : Finset ℕ, S ⊆ Finset.range c.numbers.length ∧
          T ⊆ Finset.range c.numbers.length ∧ Disjoint S T ∧ S.card = k1 ∧ T.card = k2 ∧ Subst2 c.numbers S sp1.Z T sp2.Z d},
          GeomEquiv siteKey c.positions ops' d m} →
        ∃ strus, g.genNodupTrinary hash sp1 k1 sp2 k2 = .ok strus ∧ ∃ b ∈ strus, ∃ op ∈ ops, ∃ op' ∈ ops',
          CartCrystal b.lattice (b.positions.zip b.numbers) =
            Moved c.lattice op' (Moved unit.lattice op (Decorated unit.lattice unit.positions D)) := by
  obtain ⟨out, o1, o2, o3⟩ := superlattice_of setList hs itemFirst unit ops hG n h0 hn
  obtain ⟨s, hs', op, hop, hdet, hrot⟩ := o3 A hA
  exact ⟨out, o1, s, hs', derivative_ternary_of unit hu hvol ops hops hel n hn (o2 s hs') sp1 sp2 A hop hdet hrot D hper hD⟩

/-- the part of `C89_only_derivatives` that does not depend on the enumeration of the superlattices -/
theorem derivative_only_of (unit : GCell) (hu : Built unit)
    (hcong : unit.positions.Pairwise fun p q => ¬ Cong p q) (n : ℕ) (hn : n < 2000) {s : SLCell}
    (u : IsHnf n s.latCoeff ∧ s.ub = unit.lattice ∧ s.upositions = unit.positions ∧ s.unumbers = unit.numbers)
    (sp : Specie) :
    (rowLattice s.latCoeff).index = n ∧
      ∃ c, s.toGeneralCell = .ok c ∧
      ∀ (hash : List ℤ → ℕ) (ops' : List Op) (wy : List String) (g : OGen) (k : ℕ) (strus : List GCell), OGen.new c ops' wy = .ok g →
        g.genNodupUnitary hash k sp = .ok strus → ∀ b ∈ strus, ∃ D, PeriodicOn unit.positions (rowLattice s.latCoeff) D ∧
          CartCrystal b.lattice (b.positions.zip b.numbers) = Decorated unit.lattice unit.positions D ∧
          ∀ x ∈ AtomSites unit.positions, D x = sp.Z ∨ (x, D x) ∈ Crystal (unit.positions.zip unit.numbers) := by
  obtain ⟨u1, u2, u3, u4⟩ := u
  obtain ⟨t1, t2⟩ := isHnf_triangular u1
  obtain ⟨c, c1, c2, c3, _, c5, c6⟩ := enlarge_atomSites (B := unit.lattice) hu.ne_nil hu.length.symm t1 t2 (by omega)
  obtain ⟨c', d1, _, _, _, _, _, d7⟩ := enlarge_spec unit.lattice unit.positions unit.numbers hu.ne_nil hu.length.symm _ t1 n t2 (by omega)
  rw [c1] at d1
  injection d1 with d1
  subst d1
  have hlc := c2.length
  refine ⟨isHnf_index u1, c, by unfold SLCell.toGeneralCell; rw [u2, u3, u4]; exact c1, ?_⟩
  intro hash ops' wy g k strus hg hgen b hb
  have hi : g.init = c := by
    unfold OGen.new at hg
    obtain ⟨rows, _, hg⟩ := bind_ok hg
    injection hg with hg
    rw [← hg]
  obtain ⟨cells, subsets, h1, _, _, h4, _, _⟩ := C15_unitary_exact g (hi ▸ c2) k sp
  unfold OGen.genNodupUnitary at hgen
  rw [h1] at hgen
  have hbc : b ∈ cells := gen2NodupLoop_subset _ _ _ _ _ hgen b hb
  obtain ⟨S, hS, b1, b2, b3⟩ := forall₂_mem_right h4 hbc
  rw [hi] at b1 b2 b3
  have hpair : ∀ (i : ℕ) q, c.positions[i]? = some q → ∃ z, c.numbers[i]? = some z ∧ (q, z) ∈ c.positions.zip c.numbers := by
    intro i q e1
    have hi := (List.getElem?_eq_some_iff.1 e1).1
    have e2 : c.numbers[i]? = some c.numbers[i] := List.getElem?_eq_getElem (by omega)
    exact ⟨_, e2, List.mem_iff_getElem?.2 ⟨i, List.getElem?_zip_eq_some.2 ⟨e1, e2⟩⟩⟩
  have hin : ∀ q ∈ c.positions, cartesian (castM s.latCoeff) q ∈ AtomSites unit.positions := by
    intro q hq
    obtain ⟨i, hi⟩ := List.mem_iff_getElem?.1 hq
    obtain ⟨z, _, e3⟩ := hpair i q hi
    obtain ⟨t, ht, htc, _⟩ := c5 _ e3
    exact ⟨t.1, (List.of_mem_zip ht).1, htc⟩
  obtain ⟨E, E1, E2, E3⟩ := crystal_eq_decorated (det_pos t1) c3 hin c6 (d7 hcong) b.numbers (by rw [b3.1, hlc])
  refine ⟨E, E1, by rw [b1, b2]; exact E2, fun x hx => ?_⟩
  obtain ⟨q, hq, l, rfl⟩ := c6 x hx
  have hEx : E (cartesian (castM s.latCoeff) q + castV (vecMul l s.latCoeff)) = E (cartesian (castM s.latCoeff) q) :=
    E1 _ (hin q hq) _ ((mem_rowLattice _ _).2 ⟨l, rfl⟩)
  obtain ⟨i, hiq⟩ := List.mem_iff_getElem?.1 hq
  obtain ⟨z, ez, hz⟩ := hpair i q hiq
  have hbi : b.numbers[i]? = some (E (cartesian (castM s.latCoeff) q)) := by
    rw [E3, List.getElem?_map, hiq]; rfl
  rw [b3.2 i (by have := (List.getElem?_eq_some_iff.1 ez).1; omega)] at hbi
  rw [hEx]
  by_cases hiS : i ∈ S
  · rw [if_pos hiS] at hbi
    injection hbi with hbi
    exact .inl hbi.symm
  · rw [if_neg hiS, ez] at hbi
    injection hbi with hbi
    rw [← hbi]
    obtain ⟨t, ht, htc, hte⟩ := c5 _ hz
    exact .inr ⟨t, ht, htc.trans ⟨_, rfl⟩, hte⟩

/-- **C89** (nothing else). Every structure listed for a superlattice of index `n` is a crystal that arises from the parent crystal by replacing some
atoms by `sp`, periodically along that superlattice. -/
theorem C89_only_derivatives (setList : List ℕ → List ℕ) (hs : SetOrder setList) (itemFirst : Bool) (unit : GCell) (hu : Built unit)
    (hcong : unit.positions.Pairwise fun p q => ¬ Cong p q) (ops : List Op) (hG : PointGroup (ops.map (·.1))) (n : ℕ) (h0 : 0 < n) (hn : n < 2000)
    (sp : Specie) :
    ∃ out, hnfsFromN setList itemFirst unit (ops.map (·.1)) n = .ok out ∧ ∀ s ∈ out, (rowLattice s.latCoeff).index = n ∧
      ∃ c, s.toGeneralCell = .ok c ∧
      ∀ (hash : List ℤ → ℕ) (ops' : List Op) (wy : List String) (g : OGen) (k : ℕ) (strus : List GCell), OGen.new c ops' wy = .ok g →
        g.genNodupUnitary hash k sp = .ok strus → ∀ b ∈ strus, ∃ D, PeriodicOn unit.positions (rowLattice s.latCoeff) D ∧
          CartCrystal b.lattice (b.positions.zip b.numbers) = Decorated unit.lattice unit.positions D ∧
          ∀ x ∈ AtomSites unit.positions, D x = sp.Z ∨ (x, D x) ∈ Crystal (unit.positions.zip unit.numbers) := by
  obtain ⟨out, o1, o2, _⟩ := superlattice_of setList hs itemFirst unit ops hG n h0 hn
  exact ⟨out, o1, fun s hs' => derivative_only_of unit hu hcong n hn (o2 s hs') sp⟩

/-! ## example: alternating layers in a primitive cubic crystal -/

/-- a primitive cubic cell with one copper atom -/
def exPrim : GCell := ⟨identM, [(0, 0, 0)], [29], [29], 1⟩

/-- its rotations about the third axis, without translation -/
def exPrimOps : List Op := exC4.map fun r => (r, (0, 0, 0))

/-- gold on every second layer perpendicular to the second axis -/
noncomputable def exLayers (x : V3 ℚ) : ℤ := by
  classical
  exact if ∃ z : ℤ, x.2.1 = 2 * z then 79 else 29

theorem exPrimOps_contract : SymContract Cong exPrim.positions exPrimOps := by
  have h : ∀ g ∈ exPrimOps, g.image (0, 0, 0) = (0, 0, 0) := by decide +kernel
  have hp : ∀ x ∈ exPrim.positions, x = (0, 0, 0) := fun x hx => List.mem_singleton.1 hx
  have h0 : ((0, 0, 0) : V3 ℚ) ∈ exPrim.positions := List.mem_singleton.2 rfl
  have hid : (((1, 0, 0), (0, 1, 0), (0, 0, 1)), (0, 0, 0)) ∈ exPrimOps := by simp [exPrimOps, exC4]
  have hfix : ∀ g ∈ exPrimOps, ∀ x ∈ exPrim.positions, ∀ y ∈ exPrim.positions, Cong (g.image x) y := by
    intro g hg x hx y hy
    rw [hp x hx, hp y hy, h g hg]
    exact Cong.refl _
  exact { maps := fun g hg x hx => ⟨_, h0, hfix g hg x hx _ h0⟩
          inj := fun g hg x hx y hy _ => (hp x hx).trans (hp y hy).symm
          one := ⟨_, hid, fun x hx => hfix _ hid x hx x hx⟩
          mul := fun f hf g hg => ⟨_, hid, fun x hx y hy z hz _ _ => hfix _ hid x hx z hz⟩
          inv := fun f hf => ⟨_, hid, fun x hx y hy _ => hfix _ hid y hy x hx⟩ }

/-- the hypotheses of C89 hold for the layered crystal: it is periodic along the sublattice generated by the first, twice the second and the third
axis, of index 2 -/
example (setList : List ℕ → List ℕ) (hs : SetOrder setList) :
    ∃ out, hnfsFromN setList true exPrim (exPrimOps.map (·.1)) 2 = .ok out ∧ ∃ s ∈ out, ∃ c, s.toGeneralCell = .ok c ∧ ∃ k ≤ c.positions.length,
      ∀ (hash : List ℤ → ℕ) (ops' : List Op) (wy : List String) (g : OGen), OGen.new c ops' wy = .ok g → (c.positions.map siteKey).Nodup →
        SymContract Cong c.positions ops' → (∀ op ∈ ops', Unimodular op.1) →
        Set.InjOn hash {m | m.length = c.positions.length ∧ ∃ d ∈ {d | ∃ S : Finset ℕ, S ⊆ Finset.range c.numbers.length ∧ S.card = k ∧
          Subst c.numbers S exAu.Z d}, GeomEquiv siteKey c.positions ops' d m} →
        ∃ strus, g.genNodupUnitary hash k exAu = .ok strus ∧ ∃ b ∈ strus, ∃ op ∈ exPrimOps, ∃ op' ∈ ops',
          CartCrystal b.lattice (b.positions.zip b.numbers) =
            Moved c.lattice op' (Moved exPrim.lattice op (Decorated exPrim.lattice exPrim.positions exLayers)) := by
  refine C89_binary setList hs true exPrim ⟨identM, [(0, 0, 0)], [29], by decide +kernel⟩ (by decide +kernel) exPrimOps exPrimOps_contract ?_ ?_ 2
    (by norm_num) (by norm_num) exAu (rowLattice ((1, 0, 0), (0, 2, 0), (0, 0, 1))) ?_ exLayers ?_ ?_
  · intro op _ i j x y hx hy _
    have hi : i < 1 := (List.getElem?_eq_some_iff.1 hx).1
    have hj : j < 1 := (List.getElem?_eq_some_iff.1 hy).1
    rw [Nat.lt_one_iff.1 hi, Nat.lt_one_iff.1 hj]
  · have : exPrimOps.map (·.1) = exC4 := by decide +kernel
    rw [this]; exact exC4_group
  · rw [rowLattice_index]; decide
  · intro x _ v hv
    obtain ⟨k, rfl⟩ := (mem_rowLattice _ _).1 hv
    have : (∃ z : ℤ, (x + (((vecMul k ((1, 0, 0), (0, 2, 0), (0, 0, 1))).1 : ℚ), ((vecMul k ((1, 0, 0), (0, 2, 0), (0, 0, 1))).2.1 : ℚ),
        ((vecMul k ((1, 0, 0), (0, 2, 0), (0, 0, 1))).2.2 : ℚ))).2.1 = 2 * z) ↔ ∃ z : ℤ, x.2.1 = 2 * z := by
      simp only [vecMul, Prod.snd_add, Prod.fst_add]
      constructor
      · rintro ⟨z, hz⟩; refine ⟨z - k.2.1, ?_⟩; push_cast at hz ⊢; linarith
      · rintro ⟨z, hz⟩; refine ⟨z + k.2.1, ?_⟩; push_cast at hz ⊢; linarith
    classical
    exact if_congr this rfl rfl
  · rintro x ⟨p, hp, hpx⟩
    unfold exLayers
    split
    · exact .inl rfl
    · exact .inr ⟨(p, 29), by rw [List.mem_singleton.1 hp]; exact List.mem_singleton.2 rfl, hpx, rfl⟩

/-- and the remaining hypotheses hold for every cell with distinct sites, at least with the identity alone and an injective hash -/
example (c : GCell) (hc : Built c) (hk : (c.positions.map siteKey).Nodup) :
    ∃ (ops' : List Op) (g : OGen), OGen.new c ops' [] = .ok g ∧ SymContract Cong c.positions ops' ∧ (∀ op ∈ ops', Unimodular op.1) ∧
      ∀ S, Set.InjOn exHash S := by
  have hid : ∀ x : V3 ℚ, Op.image (((1, 0, 0), (0, 1, 0), (0, 0, 1)), (0, 0, 0)) x = x := by
    intro x; simp [Op.image]
  have hdist : ∀ x ∈ c.positions, ∀ y ∈ c.positions, Cong x y → x = y := fun x hx y hy h =>
    List.inj_on_of_nodup_map hk hx hy (siteKey_cong h.symm)
  have hops : SymContract Cong c.positions [(((1, 0, 0), (0, 1, 0), (0, 0, 1)), (0, 0, 0))] := by
    refine ⟨?_, ?_, ⟨_, List.mem_singleton.2 rfl, fun x _ => by rw [hid]; exact Cong.refl x⟩, ?_, ?_⟩
    · intro g hg x hx
      rw [List.mem_singleton.1 hg, hid]
      exact ⟨x, hx, Cong.refl x⟩
    · intro g hg x hx y hy h
      rw [List.mem_singleton.1 hg, hid, hid] at h
      exact hdist x hx y hy h
    · intro f hf g hg
      refine ⟨_, List.mem_singleton.2 rfl, fun x _ y _ z _ h1 h2 => ?_⟩
      rw [List.mem_singleton.1 hg, hid] at h1
      rw [List.mem_singleton.1 hf, hid] at h2
      rw [hid]; exact h1.trans h2
    · intro f hf
      refine ⟨_, List.mem_singleton.2 rfl, fun x _ y _ h => ?_⟩
      rw [List.mem_singleton.1 hf, hid] at h
      rw [hid]; exact h.symm
  obtain ⟨rows, h1, _, _⟩ := ogen_new (wy := []) hc hk (contract_of_exact hk hops).1
  refine ⟨_, _, h1, hops, ?_, exHash_inj⟩
  intro op hop
  rw [List.mem_singleton.1 hop]
  unfold Unimodular
  decide

end Verif
