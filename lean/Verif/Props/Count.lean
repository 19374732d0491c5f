import Verif.Spec.Count
import Verif.Lemmas.Burnside
import Verif.Props.Levels
import Mathlib.Data.Set.Card
import Mathlib.Data.Fintype.Perm
import Mathlib.Data.Fintype.EquivFin

/-! # C82: how many structures there are (Burnside) -/

namespace Verif

/-- the table row of a permutation of the sites -/
def toRow {n : ℕ} (σ : Equiv.Perm (Fin n)) : List ℕ := List.ofFn fun i => ((σ.symm i : Fin n) : ℕ)

theorem toRow_getElem? {n : ℕ} (σ : Equiv.Perm (Fin n)) (i : Fin n) : (toRow σ)[(i : ℕ)]? = some ((σ.symm i : Fin n) : ℕ) := by
  unfold toRow
  rw [List.getElem?_ofFn]
  simp

theorem toRow_inj {n : ℕ} : Function.Injective (toRow (n := n)) := by
  intro σ τ h
  have : σ.symm = τ.symm := by
    ext i
    have h1 := toRow_getElem? σ i
    rw [h, toRow_getElem?] at h1
    exact (Option.some.inj h1).symm
  have := congrArg Equiv.symm this
  simpa using this

theorem toRow_lt {n : ℕ} (σ : Equiv.Perm (Fin n)) : ∀ i ∈ toRow σ, i < n := by
  intro i hi
  obtain ⟨j, rfl⟩ := List.mem_ofFn.1 hi
  exact (σ.symm j).2

theorem toRow_of_isPerm {n : ℕ} {p : List ℕ} (hp : IsPerm n p) : ∃ σ : Equiv.Perm (Fin n), toRow σ = p := by
  have hl := hp.length
  have hlt : ∀ i : Fin n, p[(i : ℕ)]'(by rw [hl]; exact i.2) < n := fun i => hp.lt _ (List.getElem_mem _)
  let f : Fin n → Fin n := fun i => ⟨p[(i : ℕ)]'(by rw [hl]; exact i.2), hlt i⟩
  have hf : Function.Injective f := by
    intro i j h
    have := congrArg Fin.val h
    exact Fin.ext ((List.Nodup.getElem_inj_iff hp.nodup).1 this)
  refine ⟨(Equiv.ofBijective f (Finite.injective_iff_bijective.1 hf)).symm, ?_⟩
  unfold toRow
  apply List.ext_getElem
  · simp [hl]
  · intro i h1 h2
    simp [f]

theorem gather_toRow {n : ℕ} (σ : Equiv.Perm (Fin n)) {m : List ℤ} (hm : m.length = n) :
    gather m (toRow σ) = m ↔ Spec.Fixed σ m := by
  have hlt : ∀ i ∈ toRow σ, i < m.length := by rw [hm]; exact toRow_lt σ
  constructor
  · intro h i
    have h1 := gather_getElem? hlt ((σ i : Fin n) : ℕ)
    rw [h, toRow_getElem?] at h1
    simpa using h1
  · intro h
    apply List.ext_getElem?
    intro k
    rw [gather_getElem? hlt]
    by_cases hk : k < n
    · have := toRow_getElem? σ ⟨k, hk⟩
      simp only at this
      rw [this]
      have h2 := h (σ.symm ⟨k, hk⟩)
      simpa using h2.symm
    · have h1 : (toRow σ)[k]? = none := List.getElem?_eq_none (by unfold toRow; simp; omega)
      rw [h1, List.getElem?_eq_none (by omega)]
      rfl

open Classical in
/-- the distinct rows of the table are the rows of the site symmetries -/
theorem rows_eq_image {c : GCell} {ops : List Spec.Op} {rows : List (List ℕ)} (hF : List.Forall₂ (RowOf c) ops rows) :
    rows.toFinset = (Finset.univ.filter (· ∈ Spec.SiteSyms sameKey c.positions ops)).image toRow := by
  ext p
  simp only [List.mem_toFinset, Finset.mem_image, Finset.mem_filter, Finset.mem_univ, true_and]
  constructor
  · intro hp
    obtain ⟨op, hop, hR⟩ := forall₂_mem_right hF hp
    obtain ⟨σ, rfl⟩ := toRow_of_isPerm hR.1
    refine ⟨σ, ⟨op, hop, fun i => ?_⟩, rfl⟩
    have := (hR.2 ((σ i : Fin _) : ℕ) c.positions[σ i] (by simp) (i : ℕ) c.positions[i] (by simp)).1 (by rw [toRow_getElem?]; simp)
    exact this
  · rintro ⟨σ, ⟨op, hop, hσ⟩, rfl⟩
    obtain ⟨p, hp, hR⟩ := forall₂_mem_left hF hop
    have : p = toRow σ := by
      apply List.ext_getElem?
      intro k
      by_cases hk : k < c.positions.length
      · have h1 := toRow_getElem? σ ⟨k, hk⟩
        simp only at h1
        rw [h1]
        refine (hR.2 k c.positions[k] (by simp [hk]) ((σ.symm ⟨k, hk⟩ : Fin _) : ℕ) c.positions[σ.symm ⟨k, hk⟩] (by simp)).2 ?_
        have := hσ (σ.symm ⟨k, hk⟩)
        simpa using this
      · rw [List.getElem?_eq_none (by rw [hR.1.length]; omega), List.getElem?_eq_none (by unfold toRow; simp; omega)]
    rw [← this]; exact hp

open Classical in
/-- Burnside for the decorations of a cell -/
theorem count_geom {c : GCell} {ops : List Spec.Op} {wy : List String} {g : OGen} (h : GenSetup c ops wy g) (D : Set (List ℤ))
    (hfin : D.Finite) (hlen : ∀ m ∈ D, m.length = c.positions.length)
    (hcl : ∀ m ∈ D, ∀ p ∈ g.perms, gather m p ∈ D) (out : List (List ℤ))
    (ht : Spec.Transversal (Spec.GeomEquiv siteKey c.positions ops) D out) :
    out.length * (Spec.SiteSyms sameKey c.positions ops).ncard =
      ∑ σ with σ ∈ Spec.SiteSyms sameKey c.positions ops, {m | m ∈ D ∧ Spec.Fixed σ m}.ncard := by
  obtain ⟨_, _, hF, hG⟩ := h.rows
  have hrel : ∀ a ∈ D, ∀ b ∈ D, (Rel g.perms a b ↔ Spec.GeomEquiv siteKey c.positions ops a b) := fun a ha b hb =>
    rel_iff_geom h.distinct h.contract hF a b (hlen a ha) (hlen b hb)
  have hb := burnside hG hfin.toFinset (fun a ha => hlen a (hfin.mem_toFinset.1 ha))
    (fun a ha p hp => hfin.mem_toFinset.2 (hcl a (hfin.mem_toFinset.1 ha) p hp)) out
    (fun r hr => hfin.mem_toFinset.2 (ht.1 r hr))
    (fun d hd => by
      have hd' := hfin.mem_toFinset.1 hd
      obtain ⟨r, hr, hrd⟩ := ht.2.1 d hd'
      exact ⟨r, hr, (hrel r (ht.1 r hr) d hd').2 hrd⟩)
    (ht.2.2.imp_of_mem fun {a b} ha hb hab =>
      ⟨fun hr => hab.1 ((hrel a (ht.1 a ha) b (ht.1 b hb)).1 hr), fun hr => hab.2 ((hrel b (ht.1 b hb) a (ht.1 a ha)).1 hr)⟩)
  rw [rows_eq_image hF, Finset.card_image_of_injective _ toRow_inj, Finset.sum_image (fun a _ b _ hab => toRow_inj hab)] at hb
  have hcard : (Spec.SiteSyms sameKey c.positions ops).ncard = (Finset.univ.filter (· ∈ Spec.SiteSyms sameKey c.positions ops)).card := by
    rw [← Set.ncard_coe_finset]
    congr 1
    ext σ; simp
  rw [hcard, hb]
  refine Finset.sum_congr rfl fun σ _ => ?_
  rw [← Set.ncard_coe_finset]
  congr 1
  ext m
  simp only [Finset.coe_filter, Set.mem_ofPred_eq, hfin.mem_toFinset]
  exact and_congr_right fun hm => gather_toRow σ (hlen m hm)

/-- the rows of the table do not change the decoration of the cell itself -/
theorem gather_base {c : GCell} {ops : List Spec.Op} {wy : List String} {g : OGen} (h : GenSetup c ops wy g)
    (hk : Spec.KeepsElements sameKey c.positions ops c.numbers) {p : List ℕ} (hp : p ∈ g.perms) {i j : ℕ} (hij : p[i]? = some j) :
    c.numbers[i]? = c.numbers[j]? := by
  obtain ⟨_, _, hF, _⟩ := h.rows
  obtain ⟨op, hop, hR⟩ := forall₂_mem_right hF hp
  have hi : i < c.positions.length := by rw [← hR.1.length]; exact (List.getElem?_eq_some_iff.1 hij).1
  have hj : j < c.positions.length := hR.1.lt j (List.mem_of_getElem? hij)
  have := (hR.2 i c.positions[i] (by simp [hi]) j c.positions[j] (by simp [hj])).1 hij
  exact (hk op hop j i _ _ (by simp [hj]) (by simp [hi]) this).symm

/-- the positions that a row sends into a set -/
def preim (n : ℕ) (p : List ℕ) (S : Finset ℕ) : Finset ℕ := (Finset.range n).filter fun i => ∃ j ∈ S, p[i]? = some j

theorem mem_preim {n : ℕ} {p : List ℕ} {S : Finset ℕ} {i j : ℕ} (hi : i < n) (hij : p[i]? = some j) : i ∈ preim n p S ↔ j ∈ S := by
  unfold preim
  rw [Finset.mem_filter, Finset.mem_range]
  constructor
  · rintro ⟨_, k, hk, hik⟩
    rw [hij] at hik
    exact Option.some.inj hik ▸ hk
  · exact fun h => ⟨hi, j, h, hij⟩

theorem preim_card {n : ℕ} {p : List ℕ} (hP : IsPerm n p) {S : Finset ℕ} (hS : S ⊆ Finset.range n) : (preim n p S).card = S.card := by
  refine Finset.card_bij (fun i _ => p.getD i 0) ?_ ?_ ?_
  · intro i hi
    obtain ⟨_, j, hj, hij⟩ := Finset.mem_filter.1 hi
    rw [List.getD_eq_getElem?_getD, hij]; exact hj
  · intro a ha b hb hab
    obtain ⟨_, j, hj, hij⟩ := Finset.mem_filter.1 ha
    obtain ⟨_, j', hj', hij'⟩ := Finset.mem_filter.1 hb
    simp only [List.getD_eq_getElem?_getD, hij, hij', Option.getD_some] at hab
    subst hab
    exact (List.getElem?_inj (List.getElem?_eq_some_iff.1 hij).1 hP.nodup).1 (hij.trans hij'.symm)
  · intro j hj
    have hjn := Finset.mem_range.1 (hS hj)
    obtain ⟨i, hi⟩ := List.mem_iff_getElem?.1 (hP.mem hjn)
    refine ⟨i, Finset.mem_filter.2 ⟨?_, j, hj, hi⟩, by rw [List.getD_eq_getElem?_getD, hi]; rfl⟩
    rw [Finset.mem_range, ← hP.length]; exact (List.getElem?_eq_some_iff.1 hi).1

theorem preim_sub (n : ℕ) (p : List ℕ) (S : Finset ℕ) : preim n p S ⊆ Finset.range n := Finset.filter_subset _ _

/-- a row carries a substitution to a substitution -/
theorem gather_subst {c : GCell} {ops : List Spec.Op} {wy : List String} {g : OGen} (h : GenSetup c ops wy g)
    (hk : Spec.KeepsElements sameKey c.positions ops c.numbers) {p : List ℕ} (hp : p ∈ g.perms) {S : Finset ℕ} {z : ℤ} {m : List ℤ}
    (hm : Spec.Subst c.numbers S z m) : Spec.Subst c.numbers (preim c.numbers.length p S) z (gather m p) := by
  obtain ⟨_, _, _, hG⟩ := h.rows
  have hP := hG.perm p hp
  have hbl := h.built.length
  have hPl : p.length = c.numbers.length := by rw [hP.length, hbl]
  have hlt : ∀ i ∈ p, i < m.length := by rw [hm.1, hbl]; exact hP.lt
  refine ⟨by rw [gather_length hlt, hPl], fun i hi => ?_⟩
  have hip : i < p.length := by omega
  have hij := List.getElem?_eq_getElem hip
  rw [gather_getElem? hlt, hij, Option.bind_some, hm.2 _ (by rw [hbl]; exact hP.lt _ (List.getElem_mem hip)),
    gather_base h hk hp hij]
  simp only [mem_preim hi hij]

/-- a row carries a double substitution to a double substitution -/
theorem gather_subst2 {c : GCell} {ops : List Spec.Op} {wy : List String} {g : OGen} (h : GenSetup c ops wy g)
    (hk : Spec.KeepsElements sameKey c.positions ops c.numbers) {p : List ℕ} (hp : p ∈ g.perms) {S T : Finset ℕ} {z w : ℤ} {m : List ℤ}
    (hm : Spec.Subst2 c.numbers S z T w m) :
    Spec.Subst2 c.numbers (preim c.numbers.length p S) z (preim c.numbers.length p T) w (gather m p) := by
  obtain ⟨_, _, _, hG⟩ := h.rows
  have hP := hG.perm p hp
  have hbl := h.built.length
  have hPl : p.length = c.numbers.length := by rw [hP.length, hbl]
  have hlt : ∀ i ∈ p, i < m.length := by rw [hm.1, hbl]; exact hP.lt
  refine ⟨by rw [gather_length hlt, hPl], fun i hi => ?_⟩
  have hip : i < p.length := by omega
  have hij := List.getElem?_eq_getElem hip
  rw [gather_getElem? hlt, hij, Option.bind_some, hm.2 _ (by rw [hbl]; exact hP.lt _ (List.getElem_mem hip)),
    gather_base h hk hp hij]
  simp only [mem_preim hi hij]

/-- a row keeps the Wyckoff letters when the operations do -/
theorem gather_wyckoff {c : GCell} {ops : List Spec.Op} {wy : List String} {g : OGen} (h : GenSetup c ops wy g)
    (hw : Spec.KeepsLabels sameKey c.positions ops wy) {p : List ℕ} (hp : p ∈ g.perms) {i j : ℕ} (hij : p[i]? = some j) :
    wy[i]? = wy[j]? := by
  obtain ⟨_, _, hF, _⟩ := h.rows
  obtain ⟨op, hop, hR⟩ := forall₂_mem_right hF hp
  have hi : i < c.positions.length := by rw [← hR.1.length]; exact (List.getElem?_eq_some_iff.1 hij).1
  have hj : j < c.positions.length := hR.1.lt j (List.mem_of_getElem? hij)
  have := (hR.2 i c.positions[i] (by simp [hi]) j c.positions[j] (by simp [hj])).1 hij
  exact (hw op hop j i _ _ (by simp [hj]) (by simp [hi]) this).symm

theorem subst_finite (base : List ℤ) (z : ℤ) (Q : Finset ℕ → Prop) : 
    {m | ∃ S : Finset ℕ, S ⊆ Finset.range base.length ∧ Q S ∧ Spec.Subst base S z m}.Finite := by
  have : {m | ∃ S : Finset ℕ, S ⊆ Finset.range base.length ∧ Q S ∧ Spec.Subst base S z m} ⊆
      (fun S : Finset ℕ => (List.range base.length).map fun i => if i ∈ S then z else base.getD i 0) '' ↑(Finset.range base.length).powerset := by
    rintro m ⟨S, hS, _, hm⟩
    refine ⟨S, Finset.mem_coe.2 (Finset.mem_powerset.2 hS), ?_⟩
    apply List.ext_getElem?
    intro i
    by_cases hi : i < base.length
    · rw [hm.2 i hi]
      simp only [List.getElem?_map, List.getElem?_range hi, Option.map_some]
      split
      · rfl
      · rw [List.getD_eq_getElem?_getD, List.getElem?_eq_getElem hi]; rfl
    · rw [List.getElem?_eq_none (by simp; omega), List.getElem?_eq_none (by rw [hm.1]; omega)]
  exact (Finset.finite_toSet _).image _ |>.subset this

open Classical in
/-- **C82 (`gen_nodup_unitary`).** When the operations given by spglib carry atoms onto atoms of the same element and the hash does not
collide, the number of structures times the number of site permutations is the sum, over these permutations, of the number of
decorations they fix. -/
theorem C82_unitary (hash : List ℤ → ℕ) (c : GCell) (ops : List Spec.Op) (wy : List String) (g : OGen) (h : GenSetup c ops wy g)
    (hk : Spec.KeepsElements sameKey c.positions ops c.numbers) (n : ℕ) (sp : Specie) (D : Set (List ℤ))
    (hD : D = {m | ∃ S : Finset ℕ, S ⊆ Finset.range c.numbers.length ∧ S.card = n ∧ Spec.Subst c.numbers S sp.Z m})
    (hinj : Set.InjOn hash D) :
    ∃ out, g.genNodupUnitary hash n sp = .ok out ∧
      out.length * (Spec.SiteSyms sameKey c.positions ops).ncard =
        ∑ σ with σ ∈ Spec.SiteSyms sameKey c.positions ops, {m | m ∈ D ∧ Spec.Fixed σ m}.ncard := by
  obtain ⟨_, _, hF, hG⟩ := h.rows
  have hlen : ∀ m ∈ D, m.length = c.positions.length := by
    rw [hD]; rintro m ⟨S, _, _, hm⟩; rw [hm.1, h.built.length]
  have hcl : ∀ m ∈ D, ∀ p ∈ g.perms, gather m p ∈ D := by
    rw [hD]
    rintro m ⟨S, h1, h2, hm⟩ p hp
    exact ⟨_, preim_sub _ _ _, (preim_card (h.built.length ▸ hG.perm p hp) h1).trans h2, gather_subst h hk hp hm⟩
  obtain ⟨out, e1, _, e3⟩ := C21_nodup_unitary hash c ops wy g h n sp D hD (hinj.mono (by
    rintro m ⟨hm, d, hd, hdm⟩
    obtain ⟨p, hp, rfl⟩ := (rel_iff_geom h.distinct h.contract hF d m (hlen d hd) hm).2 hdm
    exact hcl d hd p hp))
  refine ⟨out, e1, ?_⟩
  have hfin : D.Finite := by rw [hD]; exact subst_finite _ _ _
  simpa using count_geom h D hfin hlen hcl _ e3

open Classical in
/-- **C82 (`gen_nodup_of_ele`).** The same for substituting atoms of one element. -/
theorem C82_of_ele (hash : List ℤ → ℕ) (c : GCell) (ops : List Spec.Op) (wy : List String) (g : OGen) (h : GenSetup c ops wy g)
    (hk : Spec.KeepsElements sameKey c.positions ops c.numbers) (ele : Specie) (n : ℕ) (sp : Specie) (D : Set (List ℤ))
    (hD : D = {m | ∃ S : Finset ℕ, (∀ i ∈ S, c.numbers[i]? = some ele.Z) ∧ S.card = n ∧ Spec.Subst c.numbers S sp.Z m})
    (hinj : Set.InjOn hash D) :
    ∃ out, g.genNodupOfEle hash ele n sp = .ok out ∧
      out.length * (Spec.SiteSyms sameKey c.positions ops).ncard =
        ∑ σ with σ ∈ Spec.SiteSyms sameKey c.positions ops, {m | m ∈ D ∧ Spec.Fixed σ m}.ncard := by
  obtain ⟨_, _, hF, hG⟩ := h.rows
  have hsub : ∀ S : Finset ℕ, (∀ i ∈ S, c.numbers[i]? = some ele.Z) → S ⊆ Finset.range c.numbers.length := by
    intro S hS i hi
    exact Finset.mem_range.2 (List.getElem?_eq_some_iff.1 (hS i hi)).1
  have hlen : ∀ m ∈ D, m.length = c.positions.length := by
    rw [hD]; rintro m ⟨S, _, _, hm⟩; rw [hm.1, h.built.length]
  have hcl : ∀ m ∈ D, ∀ p ∈ g.perms, gather m p ∈ D := by
    rw [hD]
    rintro m ⟨S, h1, h2, hm⟩ p hp
    refine ⟨_, fun i hi => ?_, (preim_card (h.built.length ▸ hG.perm p hp) (hsub S h1)).trans h2, gather_subst h hk hp hm⟩
    obtain ⟨_, j, hj, hij⟩ := Finset.mem_filter.1 hi
    rw [gather_base h hk hp hij, h1 j hj]
  obtain ⟨out, e1, _, e3⟩ := C21_nodup_of_ele hash c ops wy g h ele n sp D hD (hinj.mono (by
    rintro m ⟨hm, d, hd, hdm⟩
    obtain ⟨p, hp, rfl⟩ := (rel_iff_geom h.distinct h.contract hF d m (hlen d hd) hm).2 hdm
    exact hcl d hd p hp))
  refine ⟨out, e1, ?_⟩
  have hfin : D.Finite := by
    refine (subst_finite c.numbers sp.Z (fun _ => True)).subset ?_
    rw [hD]
    rintro m ⟨S, h1, _, hm⟩
    exact ⟨S, hsub S h1, trivial, hm⟩
  simpa using count_geom h D hfin hlen hcl _ e3

open Classical in
/-- **C82 (`gen_nodup`).** The same for substituting atoms of one Wyckoff position. -/
theorem C82_wyckoff (hash : List ℤ → ℕ) (c : GCell) (ops : List Spec.Op) (wy : List String) (g : OGen) (h : GenSetup c ops wy g)
    (hk : Spec.KeepsElements sameKey c.positions ops c.numbers) (hl : wy.length = c.numbers.length)
    (hw : Spec.KeepsLabels sameKey c.positions ops wy) (w : String) (n : ℕ) (sp : Specie) (D : Set (List ℤ))
    (hD : D = {m | ∃ S : Finset ℕ, (∀ i ∈ S, wy[i]? = some w) ∧ S.card = n ∧ Spec.Subst c.numbers S sp.Z m})
    (hinj : Set.InjOn hash D) :
    ∃ out, g.genNodup hash w n sp = .ok out ∧
      out.length * (Spec.SiteSyms sameKey c.positions ops).ncard =
        ∑ σ with σ ∈ Spec.SiteSyms sameKey c.positions ops, {m | m ∈ D ∧ Spec.Fixed σ m}.ncard := by
  obtain ⟨_, _, hF, hG⟩ := h.rows
  have hsub : ∀ S : Finset ℕ, (∀ i ∈ S, wy[i]? = some w) → S ⊆ Finset.range c.numbers.length := by
    intro S hS i hi
    exact Finset.mem_range.2 (hl ▸ (List.getElem?_eq_some_iff.1 (hS i hi)).1)
  have hlen : ∀ m ∈ D, m.length = c.positions.length := by
    rw [hD]; rintro m ⟨S, _, _, hm⟩; rw [hm.1, h.built.length]
  have hcl : ∀ m ∈ D, ∀ p ∈ g.perms, gather m p ∈ D := by
    rw [hD]
    rintro m ⟨S, h1, h2, hm⟩ p hp
    refine ⟨_, fun i hi => ?_, (preim_card (h.built.length ▸ hG.perm p hp) (hsub S h1)).trans h2, gather_subst h hk hp hm⟩
    obtain ⟨_, j, hj, hij⟩ := Finset.mem_filter.1 hi
    rw [gather_wyckoff h hw hp hij, h1 j hj]
  obtain ⟨out, e1, _, e3⟩ := C21_nodup_wyckoff hash c ops wy g h hl w n sp D hD (hinj.mono (by
    rintro m ⟨hm, d, hd, hdm⟩
    obtain ⟨p, hp, rfl⟩ := (rel_iff_geom h.distinct h.contract hF d m (hlen d hd) hm).2 hdm
    exact hcl d hd p hp))
  refine ⟨out, e1, ?_⟩
  have hfin : D.Finite := by
    refine (subst_finite c.numbers sp.Z (fun _ => True)).subset ?_
    rw [hD]
    rintro m ⟨S, h1, _, hm⟩
    exact ⟨S, hsub S h1, trivial, hm⟩
  simpa using count_geom h D hfin hlen hcl _ e3

theorem subst2_finite (base : List ℤ) (z w : ℤ) (Q : Finset ℕ → Finset ℕ → Prop) :
    {m | ∃ S T : Finset ℕ, S ⊆ Finset.range base.length ∧ T ⊆ Finset.range base.length ∧ Q S T ∧ Spec.Subst2 base S z T w m}.Finite := by
  have : {m | ∃ S T : Finset ℕ, S ⊆ Finset.range base.length ∧ T ⊆ Finset.range base.length ∧ Q S T ∧ Spec.Subst2 base S z T w m} ⊆
      (fun S : Finset ℕ × Finset ℕ => (List.range base.length).map fun i =>
        if i ∈ S.1 then z else if i ∈ S.2 then w else base.getD i 0) ''
          ↑((Finset.range base.length).powerset ×ˢ (Finset.range base.length).powerset) := by
    rintro m ⟨S, T, hS, hT, _, hm⟩
    refine ⟨(S, T), Finset.mem_coe.2 (Finset.mem_product.2 ⟨Finset.mem_powerset.2 hS, Finset.mem_powerset.2 hT⟩), ?_⟩
    apply List.ext_getElem?
    intro i
    by_cases hi : i < base.length
    · rw [hm.2 i hi]
      simp only [List.getElem?_map, List.getElem?_range hi, Option.map_some]
      split
      · rfl
      · split
        · rfl
        · rw [List.getD_eq_getElem?_getD, List.getElem?_eq_getElem hi]; rfl
    · rw [List.getElem?_eq_none (by simp; omega), List.getElem?_eq_none (by rw [hm.1]; omega)]
  exact (Finset.finite_toSet _).image _ |>.subset this

open Classical in
/-- **C82 (`gen_nodup_trinary_alloy`).** The same for two substituted elements. -/
theorem C82_trinary (hash : List ℤ → ℕ) (c : GCell) (ops : List Spec.Op) (wy : List String) (g : OGen) (h : GenSetup c ops wy g)
    (hk : Spec.KeepsElements sameKey c.positions ops c.numbers) (sp1 : Specie) (n1 : ℕ) (sp2 : Specie) (n2 : ℕ) (D : Set (List ℤ))
    (hD : D = {m | ∃ S T : Finset ℕ, S ⊆ Finset.range c.numbers.length ∧ T ⊆ Finset.range c.numbers.length ∧
      Disjoint S T ∧ S.card = n1 ∧ T.card = n2 ∧ Spec.Subst2 c.numbers S sp1.Z T sp2.Z m})
    (hinj : Set.InjOn hash D) :
    ∃ out, g.genNodupTrinary hash sp1 n1 sp2 n2 = .ok out ∧
      out.length * (Spec.SiteSyms sameKey c.positions ops).ncard =
        ∑ σ with σ ∈ Spec.SiteSyms sameKey c.positions ops, {m | m ∈ D ∧ Spec.Fixed σ m}.ncard := by
  obtain ⟨_, _, hF, hG⟩ := h.rows
  have hlen : ∀ m ∈ D, m.length = c.positions.length := by
    rw [hD]; rintro m ⟨S, T, _, _, _, _, _, hm⟩; rw [hm.1, h.built.length]
  have hcl : ∀ m ∈ D, ∀ p ∈ g.perms, gather m p ∈ D := by
    rw [hD]
    rintro m ⟨S, T, h1, h2, h3, h4, h5, hm⟩ p hp
    have hP : IsPerm c.numbers.length p := h.built.length ▸ hG.perm p hp
    refine ⟨_, _, preim_sub _ _ _, preim_sub _ _ _, ?_, (preim_card hP h1).trans h4, (preim_card hP h2).trans h5,
      gather_subst2 h hk hp hm⟩
    rw [Finset.disjoint_left] at h3 ⊢
    intro i hi hi'
    obtain ⟨_, j, hj, hij⟩ := Finset.mem_filter.1 hi
    obtain ⟨_, j', hj', hij'⟩ := Finset.mem_filter.1 hi'
    rw [hij] at hij'
    exact h3 hj (Option.some.inj hij' ▸ hj')
  obtain ⟨out, e1, _, e3⟩ := C21_nodup_trinary hash c ops wy g h sp1 n1 sp2 n2 D hD (hinj.mono (by
    rintro m ⟨hm, d, hd, hdm⟩
    obtain ⟨p, hp, rfl⟩ := (rel_iff_geom h.distinct h.contract hF d m (hlen d hd) hm).2 hdm
    exact hcl d hd p hp))
  refine ⟨out, e1, ?_⟩
  have hfin : D.Finite := by
    refine (subst2_finite c.numbers sp1.Z sp2.Z (fun _ _ => True)).subset ?_
    rw [hD]
    rintro m ⟨S, T, h1, h2, _, _, _, hm⟩
    exact ⟨S, T, h1, h2, trivial, hm⟩
  simpa using count_geom h D hfin hlen hcl _ e3

/-! ## the hypotheses are met: the four-site chain -/

/-- the operations keep the elements of the chain -/
theorem exChain_keeps : Spec.KeepsElements sameKey exChain.positions exOps exChain.numbers := by
  intro op _ i j x y hi hj _
  have h1 : i < 4 := (List.getElem?_eq_some_iff.1 hi).1
  have h2 : j < 4 := (List.getElem?_eq_some_iff.1 hj).1
  interval_cases i <;> interval_cases j <;> rfl

/-- the chain has eight site permutations -/
theorem exChain_syms : (Spec.SiteSyms sameKey exChain.positions exOps).ncard = 8 := by
  classical
  obtain ⟨_, _, hF, _⟩ := exGen_setup.rows
  have h := congrArg Finset.card (rows_eq_image hF)
  rw [Finset.card_image_of_injective _ toRow_inj] at h
  rw [show (Spec.SiteSyms sameKey exChain.positions exOps).ncard =
    (Finset.univ.filter (· ∈ Spec.SiteSyms sameKey exChain.positions exOps)).card by
      rw [← Set.ncard_coe_finset]; congr 1; ext σ; simp, ← h]
  decide +kernel

open Classical in
/-- two of the four atoms of the chain replaced: two structures, and the fixed decorations of the eight permutations add up to 16 -/
example : ∑ σ with σ ∈ Spec.SiteSyms sameKey exChain.positions exOps,
    {m | m ∈ {m | ∃ S : Finset ℕ, S ⊆ Finset.range exChain.numbers.length ∧ S.card = 2 ∧ Spec.Subst exChain.numbers S exAu.Z m} ∧
      Spec.Fixed σ m}.ncard = 16 := by
  obtain ⟨out, h1, h2⟩ := C82_unitary exHash exChain exOps _ exGen exGen_setup exChain_keeps 2 exAu _ rfl (exHash_inj _)
  rw [← h2, exChain_syms]
  have : out.length = 2 := by
    have e : (exGen.genNodupUnitary exHash 2 exAu).map List.length = .ok 2 := by decide +kernel
    rw [h1] at e
    exact Except.ok.inj e
  rw [this]

end Verif
