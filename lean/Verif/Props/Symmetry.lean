import Verif.Lemmas.Symmetry
import Mathlib.Tactic.LinearCombination

/-! # C13, C14: symmetry permutations and structure equivalence -/

namespace Verif

/-- C13 (rounded contract). If every operation permutes the sites up to reduced coordinates, each row of the table is a
permutation, and site `p[i]` is the one the operation moves onto site `i`. -/
theorem C13_permutation_rows (c : GCell) (hc : Built c) (hk : (c.positions.map siteKey).Nodup) (ops : List Spec.Op)
    (maps : ∀ g ∈ ops, ∀ x ∈ c.positions, ∃ y ∈ c.positions, sameKey (g.image x) y)
    (inj : ∀ g ∈ ops, ∀ x ∈ c.positions, ∀ y ∈ c.positions, sameKey (g.image x) (g.image y) → x = y) :
    ∃ rows, c.symmetryPermutation ops = .ok rows ∧
      List.Forall₂ (fun g p => p.Perm (List.range c.positions.length) ∧
        ∀ (i : ℕ) x, c.positions[i]? = some x → ∀ (j : ℕ) y, c.positions[j]? = some y →
          (p[i]? = some j ↔ sameKey (g.image y) x)) ops rows :=
  table_spec hc hk maps inj

/-- C13 (exact contract). The same with congruence modulo the lattice instead of rounded coordinates. -/
theorem C13_permutation_rows_exact (c : GCell) (hc : Built c) (hk : (c.positions.map siteKey).Nodup)
    (ops : List Spec.Op) (hops : Spec.SymContract Spec.Cong c.positions ops) :
    ∃ rows, c.symmetryPermutation ops = .ok rows ∧
      List.Forall₂ (fun g p => p.Perm (List.range c.positions.length) ∧
        ∀ (i : ℕ) x, c.positions[i]? = some x → ∀ (j : ℕ) y, c.positions[j]? = some y →
          (p[i]? = some j ↔ Spec.Cong (g.image y) x)) ops rows := by
  obtain ⟨ht, hiff⟩ := contract_of_exact hk hops
  obtain ⟨rows, h1, h2⟩ := table_spec hc hk ht.maps ht.inj
  refine ⟨rows, h1, ?_⟩
  rw [List.forall₂_iff_zip] at h2 ⊢
  refine ⟨h2.1, fun {g p} hgp => ?_⟩
  have hg : g ∈ ops := (List.of_mem_zip hgp).1
  refine ⟨(h2.2 hgp).1, fun i x hx j y hy => ?_⟩
  rw [(h2.2 hgp).2 i x hx j y hy]
  exact hiff g hg y (List.mem_of_getElem? hy) x (List.mem_of_getElem? hx)

theorem isEquivLoop_ok (a b : List ℤ) (P : List (List ℕ)) (hP : ∀ p ∈ P, ∀ i ∈ p, i < a.length) :
    ∃ v, isEquivLoop a b P = .ok v ∧ (v = true ↔ Rel P a b) := by
  induction P with
  | nil => exact ⟨false, rfl, by simp [Rel]⟩
  | cons p P ih =>
    obtain ⟨v, hv, hiff⟩ := ih (fun q hq => hP q (List.mem_cons_of_mem _ hq))
    unfold isEquivLoop
    rw [fancy_gather (hP p (by simp))]
    by_cases h : gather a p = b
    · exact ⟨true, by simp [bind, Except.bind, h, pure, Except.pure], by simp [Rel, h]⟩
    · refine ⟨v, by simp [bind, Except.bind, h, hv], ?_⟩
      rw [hiff]
      unfold Rel
      constructor
      · rintro ⟨q, hq, h'⟩; exact ⟨q, List.mem_cons_of_mem _ hq, h'⟩
      · rintro ⟨q, hq, h'⟩
        rcases List.mem_cons.1 hq with rfl | hq
        · exact absurd h' h
        · exact ⟨q, hq, h'⟩

/-- everything known about a generator object built from a cell whose operations satisfy the contract -/
theorem ogen_new {c : GCell} (hc : Built c) (hk : (c.positions.map siteKey).Nodup) {ops : List Spec.Op}
    {wy : List String} (hops : Spec.SymContract sameKey c.positions ops) :
    ∃ rows, OGen.new c ops wy = .ok ⟨c, rows, wy⟩ ∧ List.Forall₂ (RowOf c) ops rows ∧
      PermGroup c.positions.length rows := by
  obtain ⟨rows, h1, h2⟩ := table_spec hc hk hops.maps hops.inj
  refine ⟨rows, ?_, h2, table_group hops h2⟩
  unfold OGen.new
  rw [h1]; rfl

/-- the two decorated point sets compared by `is_equivalent`, in reduced coordinates -/
theorem rel_row_iff {c : GCell} (hk : (c.positions.map siteKey).Nodup) {g : Spec.Op} {p : List ℕ} (hR : RowOf c g p)
    (a b : List ℤ) (ha : a.length = c.positions.length) (hb : b.length = c.positions.length)
    (maps : ∀ x ∈ c.positions, ∃ y ∈ c.positions, sameKey (g.image x) y) :
    gather a p = b ↔ ∀ (k : V3 ℚ) (z : ℤ),
      (∃ s ∈ c.positions.zip a, siteKey (g.image s.1) = k ∧ s.2 = z) ↔
      (∃ s ∈ c.positions.zip b, siteKey s.1 = k ∧ s.2 = z) := by
  have hlt : ∀ i ∈ p, i < a.length := by rw [ha]; exact hR.1.lt
  have hnd : c.positions.Nodup := List.Nodup.of_map _ hk
  have zmem : ∀ (l : List ℤ) (s : V3 ℚ × ℤ), s ∈ c.positions.zip l ↔
      ∃ i : ℕ, c.positions[i]? = some s.1 ∧ l[i]? = some s.2 := by
    intro l s
    rw [List.mem_iff_getElem?]
    constructor
    · rintro ⟨i, hi⟩; exact ⟨i, (List.getElem?_zip_eq_some.1 hi)⟩
    · rintro ⟨i, hi⟩; exact ⟨i, List.getElem?_zip_eq_some.2 hi⟩
  constructor
  · rintro rfl k z
    constructor
    · rintro ⟨s, hs, rfl, rfl⟩
      obtain ⟨j, hj, haj⟩ := (zmem a s).1 hs
      obtain ⟨y, hy, hsy⟩ := maps s.1 (List.mem_of_getElem? hj)
      obtain ⟨i, hi⟩ := List.mem_iff_getElem?.1 hy
      have hp := (hR.2 i y hi j _ hj).2 hsy
      refine ⟨(y, s.2), (zmem _ _).2 ⟨i, hi, ?_⟩, hsy.symm, rfl⟩
      rw [gather_getElem? hlt, hp]; exact haj
    · rintro ⟨s, hs, rfl, rfl⟩
      obtain ⟨i, hi, hai⟩ := (zmem _ s).1 hs
      rw [gather_getElem? hlt] at hai
      cases hpi : p[i]? with
      | none => rw [hpi] at hai; simp at hai
      | some j =>
        rw [hpi] at hai
        simp only [Option.bind_some] at hai
        have hj : j < c.positions.length := hR.1.lt _ (List.mem_of_getElem? hpi)
        have ej := List.getElem?_eq_getElem hj
        exact ⟨(c.positions[j], s.2), (zmem _ _).2 ⟨j, ej, hai⟩, (hR.2 i _ hi j _ ej).1 hpi, rfl⟩
  · intro h
    apply List.ext_getElem?
    intro i
    rw [gather_getElem? hlt]
    by_cases hi : i < c.positions.length
    · have hip : i < p.length := by rw [hR.1.length]; exact hi
      have hj : p[i] < c.positions.length := hR.1.lt _ (List.getElem_mem hip)
      have ei := List.getElem?_eq_getElem hi
      have ej := List.getElem?_eq_getElem hj
      have ep := List.getElem?_eq_getElem hip
      rw [ep, Option.bind_some]
      have eb : b[i]? = some b[i] := List.getElem?_eq_getElem (by omega)
      obtain ⟨s, hs, hsk, hsz⟩ := (h (siteKey c.positions[i]) b[i]).2
        ⟨(c.positions[i], b[i]), (zmem _ _).2 ⟨i, ei, eb⟩, rfl, rfl⟩
      obtain ⟨j', hj', haj'⟩ := (zmem _ _).1 hs
      have := (hR.2 i _ ei j' _ hj').2 hsk
      rw [ep] at this
      injection this with this
      rw [this, haj', hsz, eb]
    · rw [List.getElem?_eq_none (by rw [hR.1.length]; omega), List.getElem?_eq_none (by omega)]; rfl

/-- table equivalence is geometric equivalence -/
theorem rel_iff_geom {c : GCell} (hk : (c.positions.map siteKey).Nodup) {ops : List Spec.Op}
    (hops : Spec.SymContract sameKey c.positions ops) {rows : List (List ℕ)} (h2 : List.Forall₂ (RowOf c) ops rows)
    (a b : List ℤ) (ha : a.length = c.positions.length) (hb : b.length = c.positions.length) :
    Rel rows a b ↔ Spec.GeomEquiv siteKey c.positions ops a b := by
  constructor
  · rintro ⟨p, hp, hab⟩
    obtain ⟨op, hop, hR⟩ := forall₂_mem_right h2 hp
    exact ⟨op, hop, (rel_row_iff hk hR _ _ ha hb (hops.maps op hop)).1 hab⟩
  · rintro ⟨op, hop, h⟩
    obtain ⟨p, hp, hR⟩ := forall₂_mem_left h2 hop
    exact ⟨p, hp, (rel_row_iff hk hR _ _ ha hb (hops.maps op hop)).2 h⟩

/-- C14 (rounded contract). `is_equivalent(a, b)` answers exactly whether some operation maps decoration `a` onto
decoration `b`, as sets of (reduced position, element). -/
theorem C14_is_equivalent_iff (c : GCell) (hc : Built c) (hk : (c.positions.map siteKey).Nodup) (ops : List Spec.Op)
    (wy : List String) (hops : Spec.SymContract sameKey c.positions ops) (a b : GCell)
    (ha : a.numbers.length = c.positions.length) (hb : b.numbers.length = c.positions.length) :
    ∃ g v, OGen.new c ops wy = .ok g ∧ g.isEquivalent a b = .ok v ∧
      (v = true ↔ Spec.GeomEquiv siteKey c.positions ops a.numbers b.numbers) := by
  obtain ⟨rows, h1, h2, h3⟩ := ogen_new (wy := wy) hc hk hops
  obtain ⟨v, hv, hiff⟩ := isEquivLoop_ok a.numbers b.numbers rows
    (fun p hp => by rw [ha]; exact (h3.perm p hp).lt)
  exact ⟨_, v, h1, hv, hiff.trans (rel_iff_geom hk hops h2 _ _ ha hb)⟩

theorem image_cong (g : Spec.Op) {x y : V3 ℚ} (h : Spec.Cong x y) : Spec.Cong (g.image x) (g.image y) := by
  obtain ⟨z, rfl⟩ := h
  refine ⟨(g.1.1.1 * z.1 + g.1.1.2.1 * z.2.1 + g.1.1.2.2 * z.2.2,
    g.1.2.1.1 * z.1 + g.1.2.1.2.1 * z.2.1 + g.1.2.1.2.2 * z.2.2,
    g.1.2.2.1 * z.1 + g.1.2.2.2.1 * z.2.1 + g.1.2.2.2.2 * z.2.2), ?_⟩
  refine Prod.ext ?_ (Prod.ext ?_ ?_)
  · simp only [Spec.Op.image, Prod.fst_add, Prod.snd_add]; push_cast; ring
  · simp only [Spec.Op.image, Prod.fst_add, Prod.snd_add]; push_cast; ring
  · simp only [Spec.Op.image, Prod.fst_add, Prod.snd_add]; push_cast; ring

/-- a unimodular operation maps onto every translate of an image point -/
theorem image_surj_cong (g : Spec.Op) (hdet : det g.1 = 1 ∨ det g.1 = -1) {x y : V3 ℚ}
    (h : Spec.Cong (g.image x) y) : ∃ x', Spec.Cong x x' ∧ g.image x' = y := by
  obtain ⟨z, rfl⟩ := h
  have hd2 : det g.1 * det g.1 = 1 := by rcases hdet with h | h <;> rw [h] <;> norm_num
  have hw (i : ℤ) : (det g.1 : ℤ) * (det g.1 * i) = i := by rw [← mul_assoc, hd2, one_mul]
  -- x' = x + det · adj · z
  set w : V3 ℤ := mulVec (adj g.1) z with hwdef
  refine ⟨x + ((((det g.1 * w.1 : ℤ)) : ℚ), ((det g.1 * w.2.1 : ℤ) : ℚ), ((det g.1 * w.2.2 : ℤ) : ℚ)),
    ⟨(det g.1 * w.1, det g.1 * w.2.1, det g.1 * w.2.2), rfl⟩, ?_⟩
  obtain ⟨⟨⟨r11, r12, r13⟩, ⟨r21, r22, r23⟩, ⟨r31, r32, r33⟩⟩, t⟩ := g
  obtain ⟨z1, z2, z3⟩ := z
  have e1 := hw z1
  have e2 := hw z2
  have e3 := hw z3
  have e1' : ((det ((r11, r12, r13), (r21, r22, r23), (r31, r32, r33)) *
    (det ((r11, r12, r13), (r21, r22, r23), (r31, r32, r33)) * z1) : ℤ) : ℚ) = z1 := by exact_mod_cast e1
  have e2' : ((det ((r11, r12, r13), (r21, r22, r23), (r31, r32, r33)) *
    (det ((r11, r12, r13), (r21, r22, r23), (r31, r32, r33)) * z2) : ℤ) : ℚ) = z2 := by exact_mod_cast e2
  have e3' : ((det ((r11, r12, r13), (r21, r22, r23), (r31, r32, r33)) *
    (det ((r11, r12, r13), (r21, r22, r23), (r31, r32, r33)) * z3) : ℤ) : ℚ) = z3 := by exact_mod_cast e3
  simp only [det] at e1' e2' e3'
  push_cast at e1' e2' e3'
  rw [hwdef]
  refine Prod.ext ?_ (Prod.ext ?_ ?_)
  · simp only [Spec.Op.image, Prod.fst_add, Prod.snd_add, mulVec, adj, dot, det]
    push_cast
    linear_combination e1'
  · simp only [Spec.Op.image, Prod.fst_add, Prod.snd_add, mulVec, adj, dot, det]
    push_cast
    linear_combination e2'
  · simp only [Spec.Op.image, Prod.fst_add, Prod.snd_add, mulVec, adj, dot, det]
    push_cast
    linear_combination e3'

/-- geometric equivalence in reduced coordinates is equivalence of the infinite decorated crystals -/
theorem geom_iff_crystal {pos : List (V3 ℚ)} (hk : (pos.map siteKey).Nodup) {ops : List Spec.Op}
    (hops : Spec.SymContract Spec.Cong pos ops) (hdet : ∀ g ∈ ops, det g.1 = 1 ∨ det g.1 = -1) (a b : List ℤ) :
    Spec.GeomEquiv siteKey pos ops a b ↔ ∃ op ∈ ops, op.imageSet (Spec.Crystal (pos.zip a)) = Spec.Crystal (pos.zip b) := by
  obtain ⟨hsk, hiff⟩ := contract_of_exact hk hops
  have hinj : ∀ x ∈ pos, ∀ y ∈ pos, siteKey x = siteKey y → x = y :=
    fun x hx y hy hxy => List.inj_on_of_nodup_map hk hx hy hxy
  refine exists_congr fun op => and_congr_right fun hop => ?_
  constructor
  · intro h
    ext ⟨q, z⟩
    constructor
    · rintro ⟨⟨t, z'⟩, ⟨s, hs, hst, hz⟩, heq⟩
      obtain ⟨rfl, rfl⟩ := Prod.mk.inj heq
      simp only at hst hz
      obtain ⟨y, hy, hxy⟩ := hops.maps op hop s.1 (List.of_mem_zip hs).1
      obtain ⟨u, hu, huk, huz⟩ := (h (siteKey y) s.2).1 ⟨s, hs, (siteKey_cong hxy).symm, rfl⟩
      have hu1 : u.1 = y := hinj _ (List.of_mem_zip hu).1 y hy huk
      refine ⟨u, hu, ?_, by simp only [huz, hz]⟩
      simp only
      rw [hu1]
      exact hxy.symm.trans (image_cong op hst)
    · rintro ⟨u, hu, huq, huz⟩
      simp only at huq huz
      obtain ⟨s, hs, hsk', hsz⟩ := (h (siteKey u.1) u.2).2 ⟨u, hu, rfl, rfl⟩
      have hcong := (hiff op hop s.1 (List.of_mem_zip hs).1 u.1 (List.of_mem_zip hu).1).1 hsk'
      obtain ⟨x', hx', himg⟩ := image_surj_cong op (hdet op hop) (hcong.trans huq)
      exact ⟨(x', z), ⟨s, hs, hx', by simp only [huz, hsz]⟩, by rw [himg]⟩
  · intro h k z
    constructor
    · rintro ⟨s, hs, rfl, rfl⟩
      have hmem : (op.image s.1, s.2) ∈ op.imageSet (Spec.Crystal (pos.zip a)) :=
        ⟨s, ⟨s, hs, Spec.Cong.refl _, rfl⟩, rfl⟩
      rw [h] at hmem
      obtain ⟨u, hu, huq, huz⟩ := hmem
      exact ⟨u, hu, (siteKey_cong huq).symm, huz.symm⟩
    · rintro ⟨u, hu, rfl, rfl⟩
      have hmem : (u.1, u.2) ∈ Spec.Crystal (pos.zip b) := ⟨u, hu, Spec.Cong.refl _, rfl⟩
      rw [← h] at hmem
      obtain ⟨⟨t, z'⟩, ⟨s, hs, hst, hz⟩, heq⟩ := hmem
      simp only at hst hz
      obtain ⟨e1, e2⟩ := Prod.mk.inj heq
      refine ⟨s, hs, ?_, by rw [e2]; exact hz.symm⟩
      rw [e1]
      exact (siteKey_cong (image_cong op hst)).symm

/-- C14 (exact contract). `is_equivalent(a, b)` iff some operation maps the infinite decorated crystal `a` onto `b`. -/
theorem C14_is_equivalent_crystal (c : GCell) (hc : Built c) (hk : (c.positions.map siteKey).Nodup)
    (ops : List Spec.Op) (wy : List String) (hops : Spec.SymContract Spec.Cong c.positions ops)
    (hdet : ∀ g ∈ ops, det g.1 = 1 ∨ det g.1 = -1) (a b : GCell)
    (ha : a.numbers.length = c.positions.length) (hb : b.numbers.length = c.positions.length) :
    ∃ g v, OGen.new c ops wy = .ok g ∧ g.isEquivalent a b = .ok v ∧
      (v = true ↔ ∃ op ∈ ops, op.imageSet (Spec.Crystal (c.positions.zip a.numbers)) =
        Spec.Crystal (c.positions.zip b.numbers)) := by
  obtain ⟨hsk, _⟩ := contract_of_exact hk hops
  obtain ⟨g, v, h1, h2, h3⟩ := C14_is_equivalent_iff c hc hk ops wy hsk a b ha hb
  exact ⟨g, v, h1, h2, h3.trans (geom_iff_crystal hk hops hdet _ _)⟩

/-- C14. `is_equivalent` is an equivalence relation on decorations of the cell and never raises. -/
theorem C14_equivalence_relation (c : GCell) (hc : Built c) (hk : (c.positions.map siteKey).Nodup) (ops : List Spec.Op)
    (wy : List String) (hops : Spec.SymContract sameKey c.positions ops) :
    ∃ g, OGen.new c ops wy = .ok g ∧
      (∀ a b : GCell, a.numbers.length = c.positions.length → ∃ v, g.isEquivalent a b = .ok v) ∧
      (∀ a : GCell, a.numbers.length = c.positions.length → g.isEquivalent a a = .ok true) ∧
      (∀ a b : GCell, a.numbers.length = c.positions.length → b.numbers.length = c.positions.length →
        g.isEquivalent a b = .ok true → g.isEquivalent b a = .ok true) ∧
      (∀ a b d : GCell, a.numbers.length = c.positions.length → b.numbers.length = c.positions.length →
        g.isEquivalent a b = .ok true → g.isEquivalent b d = .ok true → g.isEquivalent a d = .ok true) := by
  obtain ⟨rows, h1, h2, h3⟩ := ogen_new (wy := wy) hc hk hops
  have hok : ∀ a b : GCell, a.numbers.length = c.positions.length →
      ∃ v, isEquivLoop a.numbers b.numbers rows = .ok v ∧ (v = true ↔ Rel rows a.numbers b.numbers) :=
    fun a b ha => isEquivLoop_ok _ _ _ (fun p hp => by rw [ha]; exact (h3.perm p hp).lt)
  have htrue : ∀ a b : GCell, a.numbers.length = c.positions.length →
      (isEquivLoop a.numbers b.numbers rows = .ok true ↔ Rel rows a.numbers b.numbers) := by
    intro a b ha
    obtain ⟨v, hv, hiff⟩ := hok a b ha
    rw [hv]
    constructor
    · intro h; injection h with h; exact hiff.1 h
    · intro h; rw [hiff.2 h]
  refine ⟨_, h1, fun a b ha => ?_, fun a ha => ?_, fun a b ha hb hab => ?_, fun a b d ha hb hab hbd => ?_⟩
  · obtain ⟨v, hv, _⟩ := hok a b ha; exact ⟨v, hv⟩
  · exact (htrue a a ha).2 (Rel.refl h3 ha)
  · exact (htrue b a hb).2 (Rel.symm h3 ha ((htrue a b ha).1 hab))
  · exact (htrue a d ha).2 (Rel.trans h3 ha ((htrue a b ha).1 hab) ((htrue b d hb).1 hbd))

/-! ### The hypotheses are met: a chain of four sites with its translations and reflections (8 operations) -/

/-- rotation part identity or `z ↦ -z` -/
def exOps : List Spec.Op :=
  [(((1, 0, 0), (0, 1, 0), (0, 0, 1)), (0, 0, 0)), (((1, 0, 0), (0, 1, 0), (0, 0, 1)), (0, 0, 1/4)),
   (((1, 0, 0), (0, 1, 0), (0, 0, 1)), (0, 0, 1/2)), (((1, 0, 0), (0, 1, 0), (0, 0, 1)), (0, 0, 3/4)),
   (((1, 0, 0), (0, 1, 0), (0, 0, -1)), (0, 0, 0)), (((1, 0, 0), (0, 1, 0), (0, 0, -1)), (0, 0, 1/4)),
   (((1, 0, 0), (0, 1, 0), (0, 0, -1)), (0, 0, 1/2)), (((1, 0, 0), (0, 1, 0), (0, 0, -1)), (0, 0, 3/4))]

/-- four copper atoms on a line (input order scrambled, one site outside the unit cell) -/
def exChain : GCell :=
  ⟨((3, 0, 0), (0, 3, 0), (0, 0, 8)), [(0, 0, 0), (0, 0, 5/4), (0, 0, 1/2), (0, 0, 3/4)], [29, 29, 29, 29],
    [29, 29, 29, 29], 4⟩

theorem exChain_built : Built exChain :=
  ⟨((3, 0, 0), (0, 3, 0), (0, 0, 8)), [(0, 0, 1/2), (0, 0, 0), (0, 0, 3/4), (0, 0, 5/4)], [29, 29, 29, 29],
    by decide +kernel⟩

theorem exChain_keys : (exChain.positions.map siteKey).Nodup := by decide +kernel

theorem exChain_contract : Spec.SymContract Spec.Cong exChain.positions exOps := by
  constructor <;> decide +kernel

example : ∀ g ∈ exOps, det g.1 = 1 ∨ det g.1 = -1 := by decide +kernel

/-- the table of the example and a non-trivial equivalence and inequivalence -/
example : ∃ g, OGen.new exChain exOps [] = .ok g ∧
    g.isEquivalent { exChain with numbers := [29, 29, 79, 79] } { exChain with numbers := [79, 29, 29, 79] } = .ok true ∧
    g.isEquivalent { exChain with numbers := [29, 29, 79, 79] } { exChain with numbers := [79, 29, 79, 29] } = .ok false := by
  refine ⟨⟨exChain, [[0, 1, 2, 3], [3, 0, 1, 2], [2, 3, 0, 1], [1, 2, 3, 0], [0, 3, 2, 1], [1, 0, 3, 2], [2, 1, 0, 3],
    [3, 2, 1, 0]], []⟩, ?_, ?_, ?_⟩
  · have : exChain.symmetryPermutation exOps = .ok [[0, 1, 2, 3], [3, 0, 1, 2], [2, 3, 0, 1], [1, 2, 3, 0],
      [0, 3, 2, 1], [1, 0, 3, 2], [2, 1, 0, 3], [3, 2, 1, 0]] := by decide +kernel
    simp [OGen.new, this, bind, Except.bind, pure, Except.pure]
  · decide +kernel
  · decide +kernel

end Verif
