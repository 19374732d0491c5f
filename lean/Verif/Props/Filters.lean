import Verif.Props.AppFiles
import Verif.Props.Derivative
import Verif.Spec.Filter

/-! # C91: the filters do not depend on the representative, so the applications miss no wanted structure -/

namespace Verif

open Spec

theorem Spec.ExactSymmetry.det {L : M3 ℚ} {pos : List (V3 ℚ)} {ops : List Op} (h : ExactSymmetry L pos ops) {g : Op} (hg : g ∈ ops) :
    Verif.det g.1 = 1 ∨ Verif.det g.1 = -1 := by
  have := h.unit g hg
  rw [Int.natAbs_eq_iff] at this
  simpa [Verif.det] using this

theorem crystal_dist (L : M3 ℚ) (p q : V3 ℚ) (k l : V3 ℤ) :
    distSq (cartesian L (p + castV k)) (cartesian L (q + castV l)) = distSq (cartesian L p) (cartesian L (shift q (l - k))) := by
  simp only [distSq, cartesian, shift, castV, V3.map, Prod.fst_add, Prod.snd_add, Prod.fst_sub, Prod.snd_sub]
  push_cast
  ring

/-- bounding the distances by site indices and offsets is bounding those of the infinite crystal -/
theorem bound_iff_apart {c : GCell} (hk : (c.positions.map siteKey).Nodup) (el : Specie) (d : ℚ) :
    TruePeriodicBound c el d ↔ Apart c.lattice (Crystal (c.positions.zip c.numbers)) el.Z d := by
  constructor
  · rintro h x y ⟨s, hs, ⟨k, hkx⟩, hsz⟩ ⟨t, ht, ⟨l, hly⟩, htz⟩ hne
    obtain ⟨i, hi⟩ := List.mem_iff_getElem?.1 hs
    obtain ⟨j, hj⟩ := List.mem_iff_getElem?.1 ht
    obtain ⟨i1, i2⟩ := List.getElem?_zip_eq_some.1 hi
    obtain ⟨j1, j2⟩ := List.getElem?_zip_eq_some.1 hj
    simp only at hkx hly hsz htz
    have := h i j s.1 t.1 (l - k) i1 (hsz ▸ i2) j1 (htz ▸ j2) (by
      by_contra hcon
      push Not at hcon
      obtain ⟨rfl, e⟩ := hcon
      rw [sub_eq_zero] at e
      subst e
      rw [i1] at j1
      rw [hkx, hly, Option.some.inj j1] at hne
      exact hne rfl)
    unfold Farther at this ⊢
    rw [hkx, hly]
    rwa [← crystal_dist] at this
  · intro h i j p q k hp hi hq hj hne
    have := h p (shift q k) ⟨(p, el.Z), List.mem_of_getElem? (List.getElem?_zip_eq_some.2 ⟨hp, hi⟩), ⟨0, by simp⟩, rfl⟩
      ⟨(q, el.Z), List.mem_of_getElem? (List.getElem?_zip_eq_some.2 ⟨hq, hj⟩), ⟨k, rfl⟩, rfl⟩ (by
        intro he
        have hpq : p = q := List.inj_on_of_nodup_map hk (List.mem_of_getElem? hp) (List.mem_of_getElem? hq) (siteKey_cong (⟨k, he⟩ : Cong q p))
        have hij : i = j := (List.getElem?_inj (List.getElem?_eq_some_iff.1 hp).1 hk.of_map).1 (by rw [hp, hq, hpq])
        subst hpq
        have hk0 : k = 0 := by
          simp only [shift, Prod.ext_iff] at he
          obtain ⟨e1, e2, e3⟩ := he
          refine Prod.ext ?_ (Prod.ext ?_ ?_)
          · exact_mod_cast (by simpa using e1 : (k.1 : ℚ) = 0)
          · exact_mod_cast (by simpa using e2 : (k.2.1 : ℚ) = 0)
          · exact_mod_cast (by simpa using e3 : (k.2.2 : ℚ) = 0)
        exact hne.elim (fun h => h hij) (fun h => h hk0))
    exact this

theorem apart_moved {L : M3 ℚ} {g : Op} (hi : Isometric L g) (hd : Verif.det g.1 = 1 ∨ Verif.det g.1 = -1) {S : Set (V3 ℚ × ℤ)} {z : ℤ} {d : ℚ} :
    Apart L (g.imageSet S) z d ↔ Apart L S z d := by
  have hd0 : Verif.det g.1 ≠ 0 := by rcases hd with h | h <;> rw [h] <;> norm_num
  constructor
  · intro h x y hx hy hne
    have := h (g.image x) (g.image y) ⟨_, hx, rfl⟩ ⟨_, hy, rfl⟩ (fun e => hne (image_inj g hd0 e))
    unfold Farther at this ⊢
    rwa [hi x y] at this
  · rintro h _ _ ⟨⟨x, zx⟩, hx, ex⟩ ⟨⟨y, zy⟩, hy, ey⟩ hne
    obtain ⟨rfl, rfl⟩ := Prod.mk.inj ex
    obtain ⟨rfl, hz⟩ := Prod.mk.inj ey
    simp only at hz
    subst hz
    have := h x y hx hy (fun e => hne (by rw [e]))
    unfold Farther at this ⊢
    rwa [hi x y]

theorem image_surj (g : Op) (hd : Verif.det g.1 ≠ 0) (y : V3 ℚ) : ∃ x, g.image x = y := by
  obtain ⟨⟨⟨r11, r12, r13⟩, ⟨r21, r22, r23⟩, ⟨r31, r32, r33⟩⟩, t1, t2, t3⟩ := g
  obtain ⟨y1, y2, y3⟩ := y
  have hd' : ((Verif.det ((r11, r12, r13), (r21, r22, r23), (r31, r32, r33)) : ℤ) : ℚ) ≠ 0 := by exact_mod_cast hd
  simp only [Verif.det] at hd'
  push_cast at hd'
  set D : ℚ := r11 * (r22 * r33 - r23 * r32) - r12 * (r21 * r33 - r23 * r31) + r13 * (r21 * r32 - r22 * r31) with hD
  refine ⟨(((r22 * r33 - r23 * r32 : ℚ) * (y1 - t1) - (r12 * r33 - r13 * r32 : ℚ) * (y2 - t2) + (r12 * r23 - r13 * r22 : ℚ) * (y3 - t3)) / D,
    (-(r21 * r33 - r23 * r31 : ℚ) * (y1 - t1) + (r11 * r33 - r13 * r31 : ℚ) * (y2 - t2) - (r11 * r23 - r13 * r21 : ℚ) * (y3 - t3)) / D,
    ((r21 * r32 - r22 * r31 : ℚ) * (y1 - t1) - (r11 * r32 - r12 * r31 : ℚ) * (y2 - t2) + (r11 * r22 - r12 * r21 : ℚ) * (y3 - t3)) / D), ?_⟩
  refine Prod.ext ?_ (Prod.ext ?_ ?_) <;>
  · simp only [Op.image]
    rw [mul_div_assoc', mul_div_assoc', mul_div_assoc', ← add_div, ← add_div, div_add' _ _ _ hd', div_eq_iff hd', hD]
    ring

theorem primitive_moved {g : Op} (hd : Verif.det g.1 = 1 ∨ Verif.det g.1 = -1) {S : Set (V3 ℚ × ℤ)} :
    PrimitiveCrystal (g.imageSet S) ↔ PrimitiveCrystal S := by
  have hd0 : Verif.det g.1 ≠ 0 := by rcases hd with h | h <;> rw [h] <;> norm_num
  have hadd : ∀ x t, g.image (x + t) = g.image x + (g.image t - g.image 0) := by
    intro x t
    refine Prod.ext ?_ (Prod.ext ?_ ?_) <;>
    · simp only [Op.image, Prod.fst_add, Prod.snd_add, Prod.fst_sub, Prod.snd_sub, Prod.fst_zero, Prod.snd_zero]
      ring
  -- a translation keeps `S` iff its image keeps the image
  have hkeep : ∀ t, (∀ x z, (x, z) ∈ S ↔ (x + t, z) ∈ S) ↔
      ∀ x z, (x, z) ∈ g.imageSet S ↔ (x + (g.image t - g.image 0), z) ∈ g.imageSet S := by
    have hmem : ∀ x z, (g.image x, z) ∈ g.imageSet S ↔ (x, z) ∈ S := by
      intro x z
      constructor
      · rintro ⟨⟨y, w⟩, hy, e⟩
        obtain ⟨e, rfl⟩ := Prod.mk.inj e
        rwa [image_inj g hd0 e]
      · intro h; exact ⟨_, h, rfl⟩
    intro t
    constructor
    · intro h y z
      obtain ⟨x, rfl⟩ := image_surj g hd0 y
      rw [← hadd, hmem, hmem]
      exact h x z
    · intro h x z
      rw [← hmem, ← hmem, hadd]
      exact h _ z
  -- a translation is a lattice vector iff its image is
  have hint : ∀ t, (∃ k : V3 ℤ, t = castV k) ↔ ∃ k : V3 ℤ, g.image t - g.image 0 = castV k := by
    intro t
    constructor
    · rintro ⟨k, rfl⟩
      refine ⟨rot g.1 k, ?_⟩
      have := image_add g 0 k
      rw [zero_add] at this
      rw [this, add_sub_cancel_left]
    · rintro ⟨k, hk⟩
      obtain ⟨x, ⟨l, hl⟩, hx⟩ := image_surj_cong g hd (x := 0) (y := g.image t) ⟨k, by rw [castV_def, ← hk]; simp⟩
      have := image_inj g hd0 hx
      exact ⟨l, by rw [← this, hl, zero_add]; rfl⟩
  constructor
  · intro h t ht
    exact (hint t).2 (h _ ((hkeep t).1 ht))
  · intro h t' ht'
    obtain ⟨t, ht⟩ := image_surj g hd0 (g.image 0 + t')
    have e : t' = g.image t - g.image 0 := by rw [ht]; simp
    rw [e] at ht' ⊢
    exact (hint t).1 (h t ((hkeep t).2 ht'))

theorem mem_of_crystal {pos : List (V3 ℚ)} {m : List ℤ} (hl : m.length = pos.length) (z : ℤ) : z ∈ m ↔ ∃ x, (x, z) ∈ Crystal (pos.zip m) := by
  constructor
  · intro hz
    obtain ⟨i, hi, rfl⟩ := List.mem_iff_getElem.1 hz
    exact ⟨pos[i]'(by omega), (pos[i]'(by omega), m[i]), List.mem_iff_getElem.2 ⟨i, by simp; omega, by simp⟩, ⟨0, by simp⟩, rfl⟩
  · rintro ⟨x, s, hs, _, e⟩
    have := (List.of_mem_zip (a := s.1) (b := s.2) hs).2
    simp only at e
    exact e ▸ this

/-- **C91.** Being wanted does not depend on the representative of a symmetry class. -/
theorem C91_class {L : M3 ℚ} {pos : List (V3 ℚ)} {ops : List Op} (hk : (pos.map siteKey).Nodup) (hs : ExactSymmetry L pos ops)
    (mpr : Bool) (restriction : Option (ℤ × ℚ)) {a b : List ℤ} (ha : a.length = pos.length) (hb : b.length = pos.length)
    (hab : GeomEquiv siteKey pos ops a b) : Wanted L pos mpr restriction a ↔ Wanted L pos mpr restriction b := by
  have hdet : ∀ g ∈ ops, Verif.det g.1 = 1 ∨ Verif.det g.1 = -1 := fun g hg => hs.det hg
  obtain ⟨g, hg, e⟩ := (geom_iff_crystal hk hs.contract hdet a b).1 hab
  have hz : ∀ z, z ∈ a ↔ z ∈ b := by
    intro z
    rw [mem_of_crystal ha z, mem_of_crystal hb z, ← e]
    constructor
    · rintro ⟨x, hx⟩; exact ⟨g.image x, (x, z), hx, rfl⟩
    · rintro ⟨y, ⟨x, w⟩, hx, e⟩
      obtain ⟨-, rfl⟩ := Prod.mk.inj e
      exact ⟨x, hx⟩
  constructor
  · intro h
    refine ⟨fun hm => ?_, fun z d hr => ?_⟩
    · rw [← e]; exact (primitive_moved (hdet g hg)).2 (h.primitive hm)
    · rw [← hz, ← e]; exact ⟨(h.apart z d hr).1, (apart_moved (hs.isometric g hg) (hdet g hg)).2 (h.apart z d hr).2⟩
  · intro h
    refine ⟨fun hm => ?_, fun z d hr => ?_⟩
    · have := h.primitive hm
      rw [← e] at this; exact (primitive_moved (hdet g hg)).1 this
    · have := h.apart z d hr
      rw [← e] at this
      exact ⟨(hz z).2 this.1, (apart_moved (hs.isometric g hg) (hdet g hg)).1 this.2⟩

/-- atomic number and distance of the restriction -/
def restrictionOf (tr : Option (Specie × ℚ)) : Option (ℤ × ℚ) := tr.map fun t => (t.1.Z, t.2)

/-- in this cell the 27 images that the restriction looks at suffice: the cell is wide compared to `d`, or its edges are orthogonal -/
def NearSuffices (L : M3 ℚ) (d : ℚ) : Prop := WideCell L d ∨ dot L.1 L.2.1 = 0 ∧ dot L.1 L.2.2 = 0 ∧ dot L.2.1 L.2.2 = 0

/-- all coordinates are in `[0,1)` -/
def InsideCell (pos : List (V3 ℚ)) : Prop := ∀ p ∈ pos, (0 ≤ p.1 ∧ p.1 < 1) ∧ (0 ≤ p.2.1 ∧ p.2.1 < 1) ∧ (0 ≤ p.2.2 ∧ p.2.2 < 1)

/-- spglib's `find_primitive` finds a smaller cell of a decoration of these sites iff there is one -/
def PrimitiveContract (e : Ext) (L : M3 ℚ) (pos : List (V3 ℚ)) : Prop := ∀ nums : List ℤ, nums.length = pos.length →
  ((∃ p, e.findPrimitive (L, pos, nums) = some p ∧ p.2.2.length = nums.length) ↔ PrimitiveCrystal (Crystal (pos.zip nums)))

/-- what is assumed about the input cell for C91 -/
structure GoodCell (e : Ext) (mpr : Bool) (tr : Option (Specie × ℚ)) (cell : GCell) : Prop where
  distinct : (cell.positions.map siteKey).Nodup
  symmetric : ExactSymmetry cell.lattice cell.positions (e.symmetry cell)
  primitive : mpr = true → PrimitiveContract e cell.lattice cell.positions
  inside : ∀ t, tr = some t → InsideCell cell.positions
  near : ∀ t, tr = some t → NearSuffices cell.lattice t.2

/-- **C91.** In such a cell the filters accept exactly the wanted decorations. -/
theorem C91_filter {e : Ext} {mpr : Bool} {tr : Option (Specie × ℚ)} {cell : GCell} (hg : GoodCell e mpr tr cell) {r : GCell} (hb : Built r)
    (hl : r.lattice = cell.lattice) (hp : r.positions = cell.positions) :
    Passes e mpr tr r ↔ Wanted cell.lattice cell.positions mpr (restrictionOf tr) r.numbers := by
  have hlen : r.numbers.length = cell.positions.length := by rw [hb.length, hp]
  have happ : ∀ el d, tr = some (el, d) → el.Z ∈ r.numbers →
      (KeepsApart r el.Z d ↔ Apart cell.lattice (Crystal (cell.positions.zip r.numbers)) el.Z d) := by
    intro el d ht hm
    rw [← hl, ← hp, ← bound_iff_apart (by rw [hp]; exact hg.distinct)]
    constructor
    · intro hk
      have hsat : minDistSatisfied el d r = .ok true := (minDist_iff hb el d).2 ⟨hm, hk⟩
      have hin : InsideCell r.positions := hp ▸ hg.inside _ ht
      rcases hg.near _ ht with hW | ho
      · exact C37_wide_cells_partial r hb.length.symm el d hin (by rw [hl]; exact hW) hsat
      · exact C37_orthogonal_partial r hb.length.symm el d hin (by rw [hl]; exact ho) hsat
    · intro h i j p q t h1 h2 h3 h4 _ h6
      exact h i j p q t h1 h2 h3 h4 h6
  constructor
  · intro h
    refine ⟨fun hm => ?_, fun z d hr => ?_⟩
    · have := h.primitive hm
      rw [hl, hp] at this
      exact (hg.primitive hm _ hlen).1 this
    · cases htr : tr with
      | none => rw [htr] at hr; cases hr
      | some t =>
        obtain ⟨el, d'⟩ := t
        rw [htr] at hr
        obtain ⟨rfl, rfl⟩ := Prod.mk.inj (Option.some.inj hr)
        obtain ⟨a1, a2⟩ := h.apart el d' htr
        exact ⟨a1, (happ el d' htr a1).1 a2⟩
  · intro h
    refine ⟨fun hm => ?_, fun el d htr => ?_⟩
    · have := (hg.primitive hm _ hlen).2 (h.primitive hm)
      rw [hl, hp]
      exact this
    · obtain ⟨a1, a2⟩ := h.apart el.Z d (by rw [htr]; rfl)
      exact ⟨a1, (happ el d htr a1).2 a2⟩

theorem transversal_filter {R : List ℤ → List ℤ → Prop} {D W : Set (List ℤ)} {cs : List GCell} {p : GCell → Prop} [DecidablePred p]
    (h : Transversal R D (cs.map (·.numbers))) (hp : ∀ c ∈ cs, (p c ↔ c.numbers ∈ W)) (hW : ∀ c ∈ cs, ∀ m ∈ D, R c.numbers m → m ∈ W → c.numbers ∈ W) :
    Transversal R {m | m ∈ D ∧ m ∈ W} ((cs.filter fun c => p c).map (·.numbers)) := by
  obtain ⟨h1, h2, h3⟩ := h
  refine ⟨?_, ?_, ?_⟩
  · intro m hm
    obtain ⟨c, hc, rfl⟩ := List.mem_map.1 hm
    rw [List.mem_filter] at hc
    exact ⟨h1 _ (List.mem_map.2 ⟨c, hc.1, rfl⟩), (hp c hc.1).1 (by simpa using hc.2)⟩
  · rintro m ⟨hm, hw⟩
    obtain ⟨r, hr, hrm⟩ := h2 m hm
    obtain ⟨c, hc, rfl⟩ := List.mem_map.1 hr
    exact ⟨_, List.mem_map.2 ⟨c, List.mem_filter.2 ⟨hc, by simpa using (hp c hc).2 (hW c hc m hm hrm hw)⟩, rfl⟩, hrm⟩
  · exact h3.sublist (List.Sublist.map _ List.filter_sublist)

/-- the passing structures are representatives of the classes of wanted decorations -/
theorem passers_transversal {e : Ext} {mpr : Bool} {tr : Option (Specie × ℚ)} {cell : GCell} (hg : GoodCell e mpr tr cell) {cs : List GCell}
    (hcs : ∀ d ∈ cs, Built d ∧ d.lattice = cell.lattice ∧ d.positions = cell.positions) {D : Set (List ℤ)} (hD : ∀ m ∈ D, m.length = cell.positions.length)
    (ht : Transversal (GeomEquiv siteKey cell.positions (e.symmetry cell)) D (cs.map (·.numbers))) :
    Transversal (GeomEquiv siteKey cell.positions (e.symmetry cell))
      {m | m ∈ D ∧ Wanted cell.lattice cell.positions mpr (restrictionOf tr) m} ((passers e mpr tr cs).map (·.numbers)) := by
  classical
  have := transversal_filter (W := {m | Wanted cell.lattice cell.positions mpr (restrictionOf tr) m}) (p := Passes e mpr tr) ht
    (fun c hc => by rw [Set.mem_ofPred_eq]; exact C91_filter hg (hcs c hc).1 (hcs c hc).2.1 (hcs c hc).2.2) (fun c hc m hm hR hw => by
      rw [Set.mem_ofPred_eq] at hw ⊢
      exact (C91_class hg.distinct hg.symmetric mpr _ (by rw [(hcs c hc).1.length, (hcs c hc).2.2]) (hD m hm) hR).2 hw)
  unfold passers
  simp only [Set.mem_ofPred_eq] at this
  convert this

/-- **C91.** A finished run of `ocubiter` on a good cell records exactly one representative of every class of wanted ways to replace `n` of the target atoms:
none is missed because another member of its class was looked at. -/
theorem C91_ocubiter {e : Ext} {infile : List Char} {content : FileContent} {o : OccOpts} {fs fs' : Fs}
    (h : ocubiter e infile content o fs = (fs', .ok ()))
    (hgood : ∀ cell tr, readFile e.root content infile none = .ok cell → FirstRestriction o.trs tr → GoodCell e o.mpr tr cell) :
    ∃ cell ele sp n comment tr g cs ws, OccSetup e (fun s => ((s / 2 + 1 : ℕ) : ℤ)) infile content o cell ele sp n comment tr g ∧ 0 ≤ n ∧
      OccOutcome e o o.mpr comment tr cs ws fs fs' ∧ ∀ D : Set (List ℤ),
        D = {m | ∃ S : Finset ℕ, (∀ i ∈ S, cell.numbers[i]? = some ele.Z) ∧ S.card = n.toNat ∧ Subst cell.numbers S sp.Z m} →
        Set.InjOn e.hash {m | m.length = cell.positions.length ∧ ∃ d ∈ D, GeomEquiv siteKey cell.positions (e.symmetry cell) d m} →
        Transversal (GeomEquiv siteKey cell.positions (e.symmetry cell)) {m | m ∈ D ∧ Wanted cell.lattice cell.positions o.mpr (restrictionOf tr) m}
          ((passers e o.mpr tr cs).map (·.numbers)) := by
  have hgood' : ∀ cell tr, readFile e.root content infile none = .ok cell → FirstRestriction o.trs tr →
      (cell.positions.map siteKey).Nodup ∧ SymContract sameKey cell.positions (e.symmetry cell) := fun cell tr h1 h2 =>
    ⟨(hgood cell tr h1 h2).distinct, (contract_of_exact (hgood cell tr h1 h2).distinct (hgood cell tr h1 h2).symmetric.contract).1⟩
  obtain ⟨cell, ele, sp, n, comment, tr, g, cs, ws, h1, -⟩ := C67_ocubiter h
  have htr := h1.restricted
  clear h1
  obtain ⟨cell, ele, sp, n, comment, tr, g, cs, ws, h1, h2, h3, h4, h5⟩ := C75_ocubiter h (fun cell hc => hgood' cell _ hc htr)
  refine ⟨cell, ele, sp, n, comment, tr, g, cs, ws, h1, h2, h3, fun D hD hinj => ?_⟩
  refine passers_transversal (hgood cell tr h1.read h1.restricted) h4 ?_ (h5 D hD hinj)
  rw [hD]
  rintro m ⟨S, _, _, hm⟩
  rw [hm.1, (readFile_built h1.read).length]

/-- **C91.** The same for `ocumaker`, level by level. -/
theorem C91_ocumaker {e : Ext} {infile : List Char} {content : FileContent} {o : OccOpts} {fs fs' : Fs}
    (h : ocumaker e infile content o fs = (fs', .ok ()))
    (hgood : ∀ cell tr, readFile e.root content infile none = .ok cell → FirstRestriction o.trs tr → GoodCell e true tr cell) :
    ∃ cell ele sp n comment tr g, ∃ ls : List (List GCell), ∃ ws, OccSetup e (fun s => (s : ℤ) - 1) infile content o cell ele sp n comment tr g ∧
      OccOutcome e o true comment tr ls.flatten ws fs fs' ∧ ls.length = n.toNat - cell.numbers.count sp.Z ∧
      passers e true tr ls.flatten = (ls.map (passers e true tr)).flatten ∧
      ∀ D : ℕ → Set (List ℤ), (∀ k, D k = {m | ∃ S : Finset ℕ, S.card = k ∧ (∀ i ∈ S, ∃ v, cell.numbers[i]? = some v ∧ v = ele.Z ∧ v ≠ sp.Z) ∧
          Subst cell.numbers S sp.Z m}) →
        ∀ k l, ls[k]? = some l → (∀ j ≤ k, Set.InjOn e.hash {m | m.length = cell.positions.length ∧ ∃ d ∈ D (j + 1),
            GeomEquiv siteKey cell.positions (e.symmetry cell) d m}) →
          Transversal (GeomEquiv siteKey cell.positions (e.symmetry cell))
            {m | m ∈ D (k + 1) ∧ Wanted cell.lattice cell.positions true (restrictionOf tr) m} ((passers e true tr l).map (·.numbers)) := by
  obtain ⟨cell, ele, sp, n, comment, tr, g, ls, ws, h1, -⟩ := C67_ocumaker h
  have htr := h1.restricted
  clear h1
  obtain ⟨cell, ele, sp, n, comment, tr, g, ls, ws, h1, h3, h4, h5⟩ := C75_ocumaker h (fun cell hc =>
    ⟨(hgood cell _ hc htr).distinct, (contract_of_exact (hgood cell _ hc htr).distinct (hgood cell _ hc htr).symmetric.contract).1⟩)
  refine ⟨cell, ele, sp, n, comment, tr, g, ls, ws, h1, h3, h4, ?_, fun D hD k l hl hinj => ?_⟩
  · unfold passers
    rw [List.filter_flatten]
  obtain ⟨a1, a2⟩ := h5 D hD k l hl
  refine passers_transversal (hgood cell tr h1.read h1.restricted) a1 ?_ (a2 hinj)
  rw [hD]
  rintro m ⟨S, _, _, hm⟩
  rw [hm.1, (readFile_built h1.read).length]

/-- the hypothesis on the cell of the ternary applications -/
def TerGood (e : Ext) (settings : YDoc) (o : TerOpts) (mpr : Bool) : Prop :=
  ∀ lat pos num cell tr, settings.lattice = some lat → settings.positions = some pos → settings.numbers = some num →
    GCell.new (smulM ((o.zoom.or settings.zoom).getD 1) lat) pos num = .ok cell → FirstRestriction o.trs tr → GoodCell e mpr tr cell

theorem ter_transversal {e : Ext} {settings : YDoc} {o : TerOpts} {mpr : Bool} (hgood : TerGood e settings o mpr) {cell : GCell} {size : ℕ}
    {comment : List Char} {tr : Option (Specie × ℚ)} {g : OGen} (h : TerSetup e settings o cell size comment tr g) {sp1 sp2 : Specie} {n1 n2 : ℕ}
    {cs : List GCell} (hcs : g.genNodupTrinary e.hash sp1 n1 sp2 n2 = .ok cs) (D : Set (List ℤ))
    (hD : D = {m | ∃ S T : Finset ℕ, S ⊆ Finset.range cell.numbers.length ∧ T ⊆ Finset.range cell.numbers.length ∧
      Disjoint S T ∧ S.card = n1 ∧ T.card = n2 ∧ Subst2 cell.numbers S sp1.Z T sp2.Z m})
    (hinj : Set.InjOn e.hash {m | m.length = cell.positions.length ∧ ∃ d ∈ D, GeomEquiv siteKey cell.positions (e.symmetry cell) d m}) :
    Transversal (GeomEquiv siteKey cell.positions (e.symmetry cell)) {m | m ∈ D ∧ Wanted cell.lattice cell.positions mpr (restrictionOf tr) m}
      ((passers e mpr tr cs).map (·.numbers)) := by
  obtain ⟨lat, pos, num, s1, s2, s3, hnew, -⟩ := h.source
  have hg := hgood lat pos num cell tr s1 s2 s3 hnew h.restricted
  have hb : Built cell := ⟨_, _, _, hnew⟩
  obtain ⟨a1, a2⟩ := C65_composition h hg.distinct (contract_of_exact hg.distinct hg.symmetric.contract).1 hcs D hD hinj
  refine passers_transversal hg (fun d hd => ⟨genNodupTrinary_built hcs d hd, a1 d hd⟩) ?_ a2
  rw [hD]
  rintro m ⟨S, T, _, _, _, _, _, hm⟩
  rw [hm.1, hb.length]

/-- **C91.** The same for `ocutenter`. -/
theorem C91_ocutenter {e : Ext} {settings : YDoc} {o : TerOpts} {n1 n2 : ℤ} {fs fs' : Fs}
    (h : ocutenter e settings o n1 n2 fs = (fs', .ok ())) (hgood : TerGood e settings o o.mpr) :
    ∃ cell size comment tr g sp1 sp2 cs ws, TerSetup e settings o cell size comment tr g ∧
      Specie.ofSymbol o.s1 = .ok sp1 ∧ Specie.ofSymbol o.s2 = .ok sp2 ∧ 0 ≤ n1 ∧ 0 ≤ n2 ∧
      TerOutcome e o o.mpr comment tr [(terNames o.outmode ((size : ℤ) - n1 - n2) n1 n2, cs)] [ws] fs fs' ∧ ∀ D : Set (List ℤ),
        D = {m | ∃ S T : Finset ℕ, S ⊆ Finset.range cell.numbers.length ∧ T ⊆ Finset.range cell.numbers.length ∧
          Disjoint S T ∧ S.card = n1.toNat ∧ T.card = n2.toNat ∧ Subst2 cell.numbers S sp1.Z T sp2.Z m} →
        Set.InjOn e.hash {m | m.length = cell.positions.length ∧ ∃ d ∈ D, GeomEquiv siteKey cell.positions (e.symmetry cell) d m} →
        Transversal (GeomEquiv siteKey cell.positions (e.symmetry cell)) {m | m ∈ D ∧ Wanted cell.lattice cell.positions o.mpr (restrictionOf tr) m}
          ((passers e o.mpr tr cs).map (·.numbers)) := by
  obtain ⟨cell, size, comment, tr, g, sp1, sp2, cs, ws, h1, h2, h3, h4, h5, h6, h7⟩ := C66_ocutenter h
  exact ⟨cell, size, comment, tr, g, sp1, sp2, cs, ws, h1, h2, h3, h4, h5, h7, fun D hD hinj => ter_transversal hgood h1 h6 D hD hinj⟩

/-- **C91.** The same for `ocumakert`, for every composition. -/
theorem C91_ocumakert {e : Ext} {settings : YDoc} {o : TerOpts} {fs fs' : Fs} (h : ocumakert e settings o fs = (fs', .ok ()))
    (hgood : TerGood e settings o true) :
    ∃ cell size comment tr g, ∃ structs : ℕ × ℕ → List GCell, ∃ wss, TerSetup e settings o cell size comment tr g ∧
      TerOutcome e o true comment tr ((makertPairs size).map fun p => (terNames o.outmode ((size : ℤ) - p.1 - p.2) p.1 p.2, structs p)) wss fs fs' ∧
      ∀ n1 n2 : ℕ, 1 ≤ n1 → 1 ≤ n2 → n1 + n2 < size → ∃ sp1 sp2, Specie.ofSymbol o.s1 = .ok sp1 ∧ Specie.ofSymbol o.s2 = .ok sp2 ∧ ∀ D : Set (List ℤ),
        D = {m | ∃ S T : Finset ℕ, S ⊆ Finset.range cell.numbers.length ∧ T ⊆ Finset.range cell.numbers.length ∧
          Disjoint S T ∧ S.card = n1 ∧ T.card = n2 ∧ Subst2 cell.numbers S sp1.Z T sp2.Z m} →
        Set.InjOn e.hash {m | m.length = cell.positions.length ∧ ∃ d ∈ D, GeomEquiv siteKey cell.positions (e.symmetry cell) d m} →
        Transversal (GeomEquiv siteKey cell.positions (e.symmetry cell)) {m | m ∈ D ∧ Wanted cell.lattice cell.positions true (restrictionOf tr) m}
          ((passers e true tr (structs (n1, n2))).map (·.numbers)) := by
  obtain ⟨cell, size, comment, tr, g, structs, wss, h1, h2, h7⟩ := C65_ocumakert h
  refine ⟨cell, size, comment, tr, g, structs, wss, h1, h7, ?_⟩
  intro n1 n2 p1 p2 p3
  obtain ⟨sp1, sp2, s1, s2, h6⟩ := h2 n1 n2 p1 p2 p3
  exact ⟨sp1, sp2, s1, s2, fun D hD hinj => ter_transversal hgood h1 h6 D hD hinj⟩

/-! ## the hypotheses are met: a chain of four sites with its translations and reflections -/

/-- four boron atoms on a line, in a cell with orthogonal edges -/
def exRow : GCell :=
  ⟨((3, 0, 0), (0, 3, 0), (0, 0, 8)), [(0, 0, 0), (0, 0, 1/4), (0, 0, 1/2), (0, 0, 3/4)], [5, 5, 5, 5], [5, 5, 5, 5], 4⟩

theorem exRow_symmetry : ExactSymmetry exRow.lattice exRow.positions exOps := by
  refine ⟨by constructor <;> decide +kernel, by decide +kernel, ?_⟩
  intro g hg x y
  have h : ∀ g ∈ exOps, (g.1 = ((1, 0, 0), (0, 1, 0), (0, 0, 1)) ∨ g.1 = ((1, 0, 0), (0, 1, 0), (0, 0, -1))) := by decide +kernel
  obtain ⟨r, t⟩ := g
  rcases h _ hg with h | h <;>
  · simp only at h
    subst h
    simp only [Op.image, distSq, cartesian, exRow]
    push_cast
    ring

open Classical in
/-- an outside world that knows the symmetry of the chain and which cells are primitive -/
noncomputable def exExact (choices : ℕ → List Char) : Ext :=
  { exExt choices with
    symmetry := fun _ => exOps
    findPrimitive := fun t => if PrimitiveCrystal (Crystal (t.2.1.zip t.2.2)) then some t else none }

/-- the chain is a good cell, for every restriction and whether or not only primitive cells are wanted -/
example (choices : ℕ → List Char) (mpr : Bool) (tr : Option (Specie × ℚ)) : GoodCell (exExact choices) mpr tr exRow := by
  refine ⟨by decide +kernel, exRow_symmetry, fun _ nums _ => ?_, fun _ _ => ?_, fun _ _ => .inr ⟨by decide +kernel, by decide +kernel, by decide +kernel⟩⟩
  · simp only [exExact]
    split <;> rename_i h
    · exact ⟨fun _ => h, fun _ => ⟨_, rfl, rfl⟩⟩
    · simp [h]
  · unfold InsideCell; decide +kernel

/-- the chain as a file, a restriction of the carbon atoms to distances above 5/2, and the filtered run with two of the four atoms replaced: of the two
inequivalent ways only the one with the carbon atoms apart is recorded -/
def exRowPoscar : FileContent := .text "B4\n1\n3 0 0\n0 3 0\n0 0 8\nB\n4\ndirect\n0 0 0 B\n0 0 0.25 B\n0 0 0.5 B\n0 0 0.75 B\n".toList

set_option maxRecDepth 100000 in
example :
    let e : Ext := { exExt fun k => natStr (1000 + k) with symmetry := fun _ => exOps }
    let o : OccOpts := { exOpts with nspeckle := some 2, speckle := some "C", trs := [("C", 5/2)] }
    (readAll id (ocubiter e "POSCAR".toList exRowPoscar o ⟨[], []⟩).1).map (Option.map Prod.snd) = [some [6, 5, 6, 5]] ∧
    (readAll id (ocubiter e "POSCAR".toList exRowPoscar { o with trs := [] } ⟨[], []⟩).1).map (Option.map Prod.snd) = [some [6, 6, 5, 5], some [6, 5, 6, 5]] := by
  decide +kernel

/-! ## in a skew cell the restriction depends on the representative -/

def exSkewOps : List Op := [(((1, 0, 0), (0, 1, 0), (0, 0, 1)), (0, 0, 0)), (((-1, -4, 0), (0, 1, 0), (0, 0, 1)), (0, 0, 0))]

def exSkewCell (nums : List ℤ) : GCell :=
  ⟨((1, 0, 0), (2, 1/2, 0), (0, 0, 1)), [(0, 0, 0), (3/5, 2/5, 0), (4/5, 2/5, 0)], nums, nums, 3⟩

/-- **C91, where it fails.** Without the hypothesis that 27 images suffice: two decorations of a cell with exact symmetry are mirror images of each other, yet the
restriction accepts one of them and rejects the other. Which of the two is looked at decides whether the class is recorded. -/
theorem C91_false_skew : ∃ (c₁ c₂ : GCell) (ops : List Op) (el : Specie) (d : ℚ), Built c₁ ∧ Built c₂ ∧ c₁.lattice = c₂.lattice ∧
    c₁.positions = c₂.positions ∧ (c₁.positions.map siteKey).Nodup ∧ InsideCell c₁.positions ∧ ExactSymmetry c₁.lattice c₁.positions ops ∧
    GeomEquiv siteKey c₁.positions ops c₁.numbers c₂.numbers ∧
    minDistSatisfied el d c₁ = .ok false ∧ minDistSatisfied el d c₂ = .ok true := by
  refine ⟨exSkewCell [79, 79, 29], exSkewCell [79, 29, 79], exSkewOps, exAu, 47/100,
    ⟨((1, 0, 0), (2, 1/2, 0), (0, 0, 1)), [(0, 0, 0), (3/5, 2/5, 0), (4/5, 2/5, 0)], [79, 79, 29], by decide +kernel⟩,
    ⟨((1, 0, 0), (2, 1/2, 0), (0, 0, 1)), [(0, 0, 0), (3/5, 2/5, 0), (4/5, 2/5, 0)], [79, 29, 79], by decide +kernel⟩,
    rfl, rfl, by decide +kernel, by unfold InsideCell; decide +kernel, ⟨by constructor <;> decide +kernel, by decide +kernel, ?_⟩, ?_,
    by decide +kernel, by decide +kernel⟩
  · intro g hg x y
    obtain ⟨r, t⟩ := g
    have h : ∀ g ∈ exSkewOps, (g.1 = ((1, 0, 0), (0, 1, 0), (0, 0, 1)) ∨ g.1 = ((-1, -4, 0), (0, 1, 0), (0, 0, 1))) := by decide +kernel
    rcases h _ hg with h | h <;>
    · simp only at h
      subst h
      simp only [Op.image, distSq, cartesian, exSkewCell]
      push_cast
      ring
  · have h₁ : ∀ s ∈ (exSkewCell []).positions.zip ([79, 79, 29] : List ℤ), ∃ t ∈ (exSkewCell []).positions.zip ([79, 29, 79] : List ℤ),
        siteKey t.1 = siteKey (Op.image (((-1, -4, 0), (0, 1, 0), (0, 0, 1)), (0, 0, 0)) s.1) ∧ t.2 = s.2 := by decide +kernel
    have h₂ : ∀ t ∈ (exSkewCell []).positions.zip ([79, 29, 79] : List ℤ), ∃ s ∈ (exSkewCell []).positions.zip ([79, 79, 29] : List ℤ),
        siteKey (Op.image (((-1, -4, 0), (0, 1, 0), (0, 0, 1)), (0, 0, 0)) s.1) = siteKey t.1 ∧ s.2 = t.2 := by decide +kernel
    refine ⟨_, List.mem_cons_of_mem _ (List.mem_singleton.2 rfl), fun k z => ⟨?_, ?_⟩⟩
    · rintro ⟨s, hs, rfl, rfl⟩; exact h₁ s hs
    · rintro ⟨t, ht, rfl, rfl⟩; exact h₂ t ht

end Verif
