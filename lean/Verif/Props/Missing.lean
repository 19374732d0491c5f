import Verif.Spec.Coarse
import Verif.Props.Count
import Verif.Props.Levels
import Verif.Lemmas.DedupNum

/-! # C124: what the generators list when not all symmetry operations are found, or too many -/

namespace Verif

open Spec (Op GeomEquiv Transversal SiteSyms Oversplit)

theorem pairwise_both {α : Type*} {R : α → α → Prop} {l : List α} (h : l.Pairwise fun a b => ¬ R a b ∧ ¬ R b a) {a b : α} (ha : a ∈ l)
    (hb : b ∈ l) (hne : a ≠ b) : ¬ R a b ∧ ¬ R b a := by
  have : Std.Symm fun a b => ¬ R a b ∧ ¬ R b a := ⟨fun _ _ h => ⟨h.2, h.1⟩⟩
  exact h.forall ha hb hne

/-- structures equivalent under a large group `G` and pairwise inequivalent under a subgroup `H` are at most as many as `H` has cosets -/
theorem cosets_bound {n : ℕ} {G H : List (List ℕ)} (hG : PermGroup n G) (hH : PermGroup n H) (hsub : ∀ p ∈ H, p ∈ G) {d : List ℤ}
    (hd : d.length = n) {l : List (List ℤ)} (hl : ∀ r ∈ l, Rel G d r) (hp : l.Pairwise fun a b => ¬ Rel H a b ∧ ¬ Rel H b a) :
    l.length * H.toFinset.card ≤ G.toFinset.card := by
  have hlen : ∀ r ∈ l, r.length = n := fun r hr => (hl r hr).length_eq hG.perm hd
  have hnd : l.Nodup := hp.imp_of_mem fun {a b} ha _ hab e => hab.1 (e ▸ Rel.refl hH (hlen a ha))
  have hex : ∀ r, ∃ p, r ∈ l → p ∈ G ∧ gather d p = r := fun r => by
    by_cases hr : r ∈ l
    · obtain ⟨p, h1, h2⟩ := hl r hr
      exact ⟨p, fun _ => ⟨h1, h2⟩⟩
    · exact ⟨[], fun h => absurd h hr⟩
  choose f hf using hex
  rw [← List.toFinset_card_of_nodup hnd, ← Finset.card_product]
  refine Finset.card_le_card_of_injOn (fun x => gather (f x.1) x.2) ?_ ?_
  · rintro ⟨r, h⟩ hx
    rw [Finset.mem_coe, Finset.mem_product, List.mem_toFinset, List.mem_toFinset] at hx
    exact List.mem_toFinset.2 (hG.mul _ (hf r hx.1).1 _ (hsub h hx.2))
  · rintro ⟨r, h⟩ hx ⟨r', h'⟩ hx' e
    rw [Finset.mem_coe, Finset.mem_product, List.mem_toFinset, List.mem_toFinset] at hx hx'
    obtain ⟨m1, m2⟩ := hx
    obtain ⟨m1', m2'⟩ := hx'
    simp only at e m1 m2 m1' m2'
    obtain ⟨g1, g2⟩ := hf r m1
    obtain ⟨g1', g2'⟩ := hf r' m1'
    have key : gather r h = gather r' h' := by
      have a := hG.perm _ g1
      have a' := hG.perm _ g1'
      rw [← g2, ← g2', gather_gather (by rw [hd]; exact a.lt) (by rw [a.length]; exact (hH.perm h m2).lt),
        gather_gather (by rw [hd]; exact a'.lt) (by rw [a'.length]; exact (hH.perm h' m2').lt), e]
    have hrel : Rel H r r' := by
      have r1 : Rel H r (gather r h) := ⟨h, m2, rfl⟩
      have r2 : Rel H r' (gather r h) := ⟨h', m2', key.symm⟩
      exact r1.trans hH (hlen r m1) (r2.symm hH (hlen r' m1'))
    have err : r = r' := by
      by_contra hne
      exact (pairwise_both hp m1 m1' hne).1 hrel
    subst err
    exact Prod.ext rfl (gather_left_inj (hG.perm _ g1) (hH.perm h m2) (hH.perm h' m2') e)

open Classical in
/-- the number of distinct rows is the number of site permutations -/
theorem rows_card {c : GCell} {ops : List Op} {wy : List String} {g : OGen} (h : GenSetup c ops wy g) :
    g.perms.toFinset.card = (SiteSyms sameKey c.positions ops).ncard := by
  obtain ⟨_, _, hF, _⟩ := h.rows
  rw [rows_eq_image hF, Finset.card_image_of_injective _ toRow_inj, ← Set.ncard_coe_finset]
  congr 1
  ext σ; simp

theorem perms_sub {c : GCell} {ops all : List Op} {wy wy' : List String} {g g' : OGen} (h : GenSetup c ops wy g) (h' : GenSetup c all wy' g')
    (hsub : ∀ o ∈ ops, o ∈ all) : ∀ p ∈ g.perms, p ∈ g'.perms := by
  classical
  obtain ⟨_, _, hF, _⟩ := h.rows
  obtain ⟨_, _, hF', _⟩ := h'.rows
  intro p hp
  rw [← List.mem_toFinset, rows_eq_image hF'] at *
  rw [rows_eq_image hF] at hp
  obtain ⟨σ, hσ, rfl⟩ := Finset.mem_image.1 hp
  refine Finset.mem_image_of_mem _ ?_
  rw [Finset.mem_filter] at hσ ⊢
  obtain ⟨o, ho, hs⟩ := hσ.2
  exact ⟨Finset.mem_univ _, o, hsub o ho, hs⟩

/-- two systems of representatives of the same structures, one for fewer operations -/
theorem oversplit_of {c : GCell} {ops all : List Op} {wy wy' : List String} {g g' : OGen} (h : GenSetup c ops wy g)
    (h' : GenSetup c all wy' g') (hsub : ∀ o ∈ ops, o ∈ all) {D : Set (List ℤ)} (hlen : ∀ d ∈ D, d.length = c.positions.length)
    {out full : List (List ℤ)} (t : Transversal (GeomEquiv siteKey c.positions ops) D out)
    (t' : Transversal (GeomEquiv siteKey c.positions all) D full) : Oversplit sameKey siteKey c.positions ops all D out full := by
  classical
  obtain ⟨_, _, hF, hH⟩ := h.rows
  obtain ⟨_, _, hF', hG⟩ := h'.rows
  have hps := perms_sub h h' hsub
  have relH : ∀ a ∈ D, ∀ b ∈ D, (Rel g.perms a b ↔ GeomEquiv siteKey c.positions ops a b) := fun a ha b hb =>
    rel_iff_geom h.distinct h.contract hF a b (hlen a ha) (hlen b hb)
  have relG : ∀ a ∈ D, ∀ b ∈ D, (Rel g'.perms a b ↔ GeomEquiv siteKey c.positions all a b) := fun a ha b hb =>
    rel_iff_geom h'.distinct h'.contract hF' a b (hlen a ha) (hlen b hb)
  have up : ∀ a b, GeomEquiv siteKey c.positions ops a b → GeomEquiv siteKey c.positions all a b := fun a b ⟨o, ho, e⟩ => ⟨o, hsub o ho, e⟩
  have rep : ∀ d ∈ D, (out.filter fun r => GeomEquiv siteKey c.positions all d r).length * (SiteSyms sameKey c.positions ops).ncard ≤
      (SiteSyms sameKey c.positions all).ncard := by
    intro d hd
    rw [← rows_card h, ← rows_card h']
    refine cosets_bound hG hH hps (hlen d hd) ?_ ?_
    · intro r hr
      rw [List.mem_filter, decide_eq_true_eq] at hr
      exact (relG d hd r (t.1 r hr.1)).2 hr.2
    · refine (t.2.2.sublist List.filter_sublist).imp_of_mem ?_
      intro a b ha hb hab
      have ha' := t.1 a (List.mem_filter.1 ha).1
      have hb' := t.1 b (List.mem_filter.1 hb).1
      rw [relH a ha' b hb', relH b hb' a ha']
      exact hab
  have cov : ∀ d ∈ D, ∃ r ∈ out, GeomEquiv siteKey c.positions all r d := fun d hd => by
    obtain ⟨r, hr, e⟩ := t.2.1 d hd
    exact ⟨r, hr, up _ _ e⟩
  have symmG : ∀ a ∈ D, ∀ b ∈ D, GeomEquiv siteKey c.positions all a b → GeomEquiv siteKey c.positions all b a := fun a ha b hb e =>
    (relG b hb a ha).1 (((relG a ha b hb).2 e).symm hG (hlen a ha))
  have transG : ∀ a ∈ D, ∀ b ∈ D, ∀ x ∈ D, GeomEquiv siteKey c.positions all a b → GeomEquiv siteKey c.positions all b x →
      GeomEquiv siteKey c.positions all a x := fun a ha b hb x hx e e' =>
    (relG a ha x hx).1 (((relG a ha b hb).2 e).trans hG (hlen a ha) ((relG b hb x hx).2 e'))
  have reflG : ∀ a ∈ D, GeomEquiv siteKey c.positions all a a := fun a ha => (relG a ha a ha).1 (Rel.refl hG (hlen a ha))
  have reflH : ∀ a ∈ D, GeomEquiv siteKey c.positions ops a a := fun a ha => (relH a ha a ha).1 (Rel.refl hH (hlen a ha))
  have ndF : full.Nodup := t'.2.2.imp_of_mem fun {a b} ha _ hab e => hab.1 (e ▸ reflG a (t'.1 a ha))
  have ndO : out.Nodup := t.2.2.imp_of_mem fun {a b} ha _ hab e => hab.1 (e ▸ reflH a (t.1 a ha))
  refine ⟨cov, rep, ?_, ?_⟩
  · -- a structure of `out` for each of `full`
    choose! f hf using cov
    rw [← List.toFinset_card_of_nodup ndF, ← List.toFinset_card_of_nodup ndO]
    refine Finset.card_le_card_of_injOn f ?_ ?_
    · intro a ha
      exact List.mem_toFinset.2 (hf a (t'.1 a (List.mem_toFinset.1 ha))).1
    · intro a ha b hb e
      have ha' := List.mem_toFinset.1 ha
      have hb' := List.mem_toFinset.1 hb
      by_contra hne
      have da := t'.1 a ha'
      have db := t'.1 b hb'
      refine (pairwise_both t'.2.2 ha' hb' hne).1 ?_
      have fa := (hf a da)
      have fb := (hf b db)
      have dfa := t.1 _ fa.1
      exact transG a da (f a) dfa b db (symmG _ dfa a da fa.2) (e ▸ fb.2)
  · -- the structures of `out`, sorted by what they are in `full`
    have hc : out.toFinset.card = ∑ x ∈ full.toFinset, (out.toFinset.filter fun r => GeomEquiv siteKey c.positions all x r).card := by
      have hex : ∀ r ∈ D, ∃ x ∈ full, GeomEquiv siteKey c.positions all x r := t'.2.1
      choose! f hf using hex
      rw [Finset.card_eq_sum_card_fiberwise (f := f) (t := full.toFinset)]
      · refine Finset.sum_congr rfl fun x hx => ?_
        congr 1
        apply Finset.filter_congr
        intro r hr
        have hr' := t.1 r (List.mem_toFinset.1 hr)
        have hx' := List.mem_toFinset.1 hx
        have fr := hf r hr'
        constructor
        · intro e
          rw [← e]
          exact fr.2
        · intro e
          by_contra hne
          exact (pairwise_both t'.2.2 fr.1 hx' hne).1
            (transG _ (t'.1 _ fr.1) r hr' x (t'.1 x hx') fr.2 (symmG x (t'.1 x hx') r hr' e))
      · intro r hr
        exact List.mem_toFinset.2 (hf r (t.1 r (List.mem_toFinset.1 hr))).1
    rw [← List.toFinset_card_of_nodup ndF, ← List.toFinset_card_of_nodup ndO, hc, Finset.sum_mul]
    refine (Finset.sum_le_card_nsmul _ _ (SiteSyms sameKey c.positions all).ncard ?_).trans (by rw [smul_eq_mul])
    intro x hx
    have := rep x (t'.1 x (List.mem_toFinset.1 hx))
    have e : (out.filter fun r => GeomEquiv siteKey c.positions all x r).length =
        (out.toFinset.filter fun r => GeomEquiv siteKey c.positions all x r).card := by
      rw [← List.toFinset_card_of_nodup (ndO.sublist List.filter_sublist), List.toFinset_filter]
      simp only [decide_eq_true_eq]
    rw [← e]
    exact this

theorem geom_up {key : V3 ℚ → V3 ℚ} {pos : List (V3 ℚ)} {ops all : List Op} (hsub : ∀ o ∈ ops, o ∈ all) {D : Set (List ℤ)} {n : ℕ} :
    {m : List ℤ | m.length = n ∧ ∃ d ∈ D, GeomEquiv key pos ops d m} ⊆ {m : List ℤ | m.length = n ∧ ∃ d ∈ D, GeomEquiv key pos all d m} := by
  rintro m ⟨h1, d, hd, o, ho, e⟩
  exact ⟨h1, d, hd, o, hsub o ho, e⟩

theorem C124_unitary (hash : List ℤ → ℕ) (c : GCell) (ops all : List Op) (wy wy' : List String) (g g' : OGen) (h : GenSetup c ops wy g)
    (h' : GenSetup c all wy' g') (hsub : ∀ o ∈ ops, o ∈ all) (n : ℕ) (sp : Specie) (D : Set (List ℤ))
    (hDdef : D = {m | ∃ S : Finset ℕ, S ⊆ Finset.range c.numbers.length ∧ S.card = n ∧ Spec.Subst c.numbers S sp.Z m})
    (hinj : Set.InjOn hash {m | m.length = c.positions.length ∧ ∃ d ∈ D, GeomEquiv siteKey c.positions all d m}) :
    ∃ out full, g.genNodupUnitary hash n sp = .ok out ∧ g'.genNodupUnitary hash n sp = .ok full ∧
      Oversplit sameKey siteKey c.positions ops all D (out.map (·.numbers)) (full.map (·.numbers)) := by
  obtain ⟨out, e1, _, t⟩ := C21_nodup_unitary hash c ops wy g h n sp D hDdef (hinj.mono (geom_up hsub))
  obtain ⟨full, e1', _, t'⟩ := C21_nodup_unitary hash c all wy' g' h' n sp D hDdef hinj
  refine ⟨out, full, e1, e1', oversplit_of h h' hsub ?_ t t'⟩
  rw [hDdef]
  rintro d ⟨S, _, _, e⟩
  exact e.1.trans h.built.length

theorem C124_of_ele (hash : List ℤ → ℕ) (c : GCell) (ops all : List Op) (wy : List String) (g g' : OGen) (h : GenSetup c ops wy g)
    (h' : GenSetup c all wy g') (hsub : ∀ o ∈ ops, o ∈ all) (ele : Specie) (n : ℕ) (sp : Specie) (D : Set (List ℤ))
    (hDdef : D = {m | ∃ S : Finset ℕ, (∀ i ∈ S, c.numbers[i]? = some ele.Z) ∧ S.card = n ∧ Spec.Subst c.numbers S sp.Z m})
    (hinj : Set.InjOn hash {m | m.length = c.positions.length ∧ ∃ d ∈ D, GeomEquiv siteKey c.positions all d m}) :
    ∃ out full, g.genNodupOfEle hash ele n sp = .ok out ∧ g'.genNodupOfEle hash ele n sp = .ok full ∧
      Oversplit sameKey siteKey c.positions ops all D (out.map (·.numbers)) (full.map (·.numbers)) := by
  obtain ⟨out, e1, _, t⟩ := C21_nodup_of_ele hash c ops wy g h ele n sp D hDdef (hinj.mono (geom_up hsub))
  obtain ⟨full, e1', _, t'⟩ := C21_nodup_of_ele hash c all wy g' h' ele n sp D hDdef hinj
  refine ⟨out, full, e1, e1', oversplit_of h h' hsub ?_ t t'⟩
  rw [hDdef]
  rintro d ⟨S, _, _, e⟩
  exact e.1.trans h.built.length

theorem C124_wyckoff (hash : List ℤ → ℕ) (c : GCell) (ops all : List Op) (wy : List String) (g g' : OGen) (h : GenSetup c ops wy g)
    (h' : GenSetup c all wy g') (hsub : ∀ o ∈ ops, o ∈ all) (hw : wy.length = c.numbers.length) (w : String) (n : ℕ) (sp : Specie) (D : Set (List ℤ))
    (hDdef : D = {m | ∃ S : Finset ℕ, (∀ i ∈ S, wy[i]? = some w) ∧ S.card = n ∧ Spec.Subst c.numbers S sp.Z m})
    (hinj : Set.InjOn hash {m | m.length = c.positions.length ∧ ∃ d ∈ D, GeomEquiv siteKey c.positions all d m}) :
    ∃ out full, g.genNodup hash w n sp = .ok out ∧ g'.genNodup hash w n sp = .ok full ∧
      Oversplit sameKey siteKey c.positions ops all D (out.map (·.numbers)) (full.map (·.numbers)) := by
  obtain ⟨out, e1, _, t⟩ := C21_nodup_wyckoff hash c ops wy g h hw w n sp D hDdef (hinj.mono (geom_up hsub))
  obtain ⟨full, e1', _, t'⟩ := C21_nodup_wyckoff hash c all wy g' h' hw w n sp D hDdef hinj
  refine ⟨out, full, e1, e1', oversplit_of h h' hsub ?_ t t'⟩
  rw [hDdef]
  rintro d ⟨S, _, _, e⟩
  exact e.1.trans h.built.length

theorem C124_trinary (hash : List ℤ → ℕ) (c : GCell) (ops all : List Op) (wy : List String) (g g' : OGen) (h : GenSetup c ops wy g)
    (h' : GenSetup c all wy g') (hsub : ∀ o ∈ ops, o ∈ all) (sp1 : Specie) (n1 : ℕ) (sp2 : Specie) (n2 : ℕ) (D : Set (List ℤ))
    (hDdef : D = {m | ∃ S T : Finset ℕ, S ⊆ Finset.range c.numbers.length ∧ T ⊆ Finset.range c.numbers.length ∧
      Disjoint S T ∧ S.card = n1 ∧ T.card = n2 ∧ Spec.Subst2 c.numbers S sp1.Z T sp2.Z m})
    (hinj : Set.InjOn hash {m | m.length = c.positions.length ∧ ∃ d ∈ D, GeomEquiv siteKey c.positions all d m}) :
    ∃ out full, g.genNodupTrinary hash sp1 n1 sp2 n2 = .ok out ∧ g'.genNodupTrinary hash sp1 n1 sp2 n2 = .ok full ∧
      Oversplit sameKey siteKey c.positions ops all D (out.map (·.numbers)) (full.map (·.numbers)) := by
  obtain ⟨out, e1, _, t⟩ := C21_nodup_trinary hash c ops wy g h sp1 n1 sp2 n2 D hDdef (hinj.mono (geom_up hsub))
  obtain ⟨full, e1', _, t'⟩ := C21_nodup_trinary hash c all wy g' h' sp1 n1 sp2 n2 D hDdef hinj
  refine ⟨out, full, e1, e1', oversplit_of h h' hsub ?_ t t'⟩
  rw [hDdef]
  rintro d ⟨S, T, _, _, _, _, _, e⟩
  exact e.1.trans h.built.length

theorem C124_levels (hash : List ℤ → ℕ) (c : GCell) (ops all : List Op) (wy wy' : List String) (g g' : OGen) (h : GenSetup c ops wy g)
    (h' : GenSetup c all wy' g') (hsub : ∀ o ∈ ops, o ∈ all) (n : ℕ) (sp : Specie) (D : ℕ → Set (List ℤ))
    (hD : ∀ k, D k = {m | ∃ S : Finset ℕ, S.card = k ∧ (∀ i ∈ S, ∃ v, c.numbers[i]? = some v ∧ v ≠ sp.Z) ∧
      Spec.Subst c.numbers S sp.Z m})
    (hinj : ∀ k, Set.InjOn hash {m | m.length = c.positions.length ∧ ∃ d ∈ D k, GeomEquiv siteKey c.positions all d m}) :
    ∃ ls ls', g.allSpeckleUnitary hash n sp = .ok ls ∧ g'.allSpeckleUnitary hash n sp = .ok ls' ∧ ls.length = ls'.length ∧
      ∀ k l l', ls[k]? = some l → ls'[k]? = some l' →
        Oversplit sameKey siteKey c.positions ops all (D (k + 1)) (l.map (·.numbers)) (l'.map (·.numbers)) := by
  obtain ⟨ls, e, hl, t⟩ := C23_levels_unitary hash c ops wy g h n sp D hD
  obtain ⟨ls', e', hl', t'⟩ := C23_levels_unitary hash c all wy' g' h' n sp D hD
  refine ⟨ls, ls', e, e', by rw [hl, hl'], fun k l l' hk hk' => oversplit_of h h' hsub ?_
    ((t k l hk).2 fun j _ => (hinj (j + 1)).mono (geom_up hsub)) ((t' k l' hk').2 fun j _ => hinj (j + 1))⟩
  rw [hD]
  rintro d ⟨S, _, _, e⟩
  exact e.1.trans h.built.length

/-- missing operations that bring about no further permutation of the sites do no harm -/
theorem C124_harmless (c : GCell) (ops all : List Op) (wy : List String) (g : OGen) (h : GenSetup c ops wy g) (D : Set (List ℤ))
    (out full : List (List ℤ)) (ho : Oversplit sameKey siteKey c.positions ops all D out full)
    (hs : SiteSyms sameKey c.positions ops = SiteSyms sameKey c.positions all) : out.length = full.length := by
  have hpos : 0 < (SiteSyms sameKey c.positions ops).ncard := by
    rw [← rows_card h, Finset.card_pos]
    obtain ⟨_, _, _, hG⟩ := h.rows
    exact ⟨_, List.mem_toFinset.2 hG.one⟩
  refine le_antisymm ?_ ho.more
  have := ho.bounded
  rw [← hs] at this
  exact Nat.le_of_mul_le_mul_right this hpos

/-! ## The chain with only the identity and one mirror found -/

def exFew : List Op := [(((1, 0, 0), (0, 1, 0), (0, 0, 1)), (0, 0, 0)), (((1, 0, 0), (0, 1, 0), (0, 0, -1)), (0, 0, 0))]

def exFewGen : OGen := ⟨exChain, [[0, 1, 2, 3], [0, 3, 2, 1]], ["a", "a", "a", "a"]⟩

theorem exFew_setup : GenSetup exChain exFew ["a", "a", "a", "a"] exFewGen := by
  refine ⟨exChain_built, exChain_keys, (contract_of_exact exChain_keys (by constructor <;> decide +kernel)).1, ?_⟩
  have : exChain.symmetryPermutation exFew = .ok exFewGen.perms := by decide +kernel
  simp [OGen.new, this, bind, Except.bind, pure, Except.pure, exFewGen]

/-- two pairs become four: each is listed twice, and four times would be allowed -/
example : (exFewGen.genNodupUnitary exDigits 2 exAu).map (List.map (·.numbers)) =
    .ok [[79, 79, 29, 29], [79, 29, 79, 29], [29, 79, 79, 29], [29, 79, 29, 79]] := by decide +kernel

example : ∃ out full, exFewGen.genNodupUnitary exHash 2 exAu = .ok out ∧ exGen.genNodupUnitary exHash 2 exAu = .ok full ∧
    Oversplit sameKey siteKey exChain.positions exFew exOps
      {m | ∃ S : Finset ℕ, S ⊆ Finset.range exChain.numbers.length ∧ S.card = 2 ∧ Spec.Subst exChain.numbers S exAu.Z m}
      (out.map (·.numbers)) (full.map (·.numbers)) :=
  C124_unitary exHash exChain exFew exOps _ _ exFewGen exGen exFew_setup exGen_setup (by decide +kernel) 2 exAu _ rfl (exHash_inj _)

/-! ## An operation that is none -/

/-- four atoms in a rectangle with sides 3 and 4 -/
def exRect : GCell :=
  ⟨((6, 0, 0), (0, 8, 0), (0, 0, 5)), [(0, 0, 0), (0, 1/2, 0), (1/2, 0, 0), (1/2, 1/2, 0)], [29, 29, 29, 29], [29, 29, 29, 29], 4⟩

/-- its translations -/
def exRectOps : List Op := [(((1, 0, 0), (0, 1, 0), (0, 0, 1)), (0, 0, 0)), (((1, 0, 0), (0, 1, 0), (0, 0, 1)), (1/2, 0, 0)),
  (((1, 0, 0), (0, 1, 0), (0, 0, 1)), (0, 1/2, 0)), (((1, 0, 0), (0, 1, 0), (0, 0, 1)), (1/2, 1/2, 0))]

/-- the translations and the exchange of the two sides, which is a symmetry of a square only -/
def exSquareOps : List Op := exRectOps ++ [(((0, 1, 0), (1, 0, 0), (0, 0, 1)), (0, 0, 0)), (((0, 1, 0), (1, 0, 0), (0, 0, 1)), (1/2, 0, 0)),
  (((0, 1, 0), (1, 0, 0), (0, 0, 1)), (0, 1/2, 0)), (((0, 1, 0), (1, 0, 0), (0, 0, 1)), (1/2, 1/2, 0))]

def exRectGen : OGen := ⟨exRect, [[0, 1, 2, 3], [2, 3, 0, 1], [1, 0, 3, 2], [3, 2, 1, 0]], ["a", "a", "a", "a"]⟩

def exSquareGen : OGen := ⟨exRect, [[0, 1, 2, 3], [2, 3, 0, 1], [1, 0, 3, 2], [3, 2, 1, 0],
  [0, 2, 1, 3], [1, 3, 0, 2], [2, 0, 3, 1], [3, 1, 2, 0]], ["a", "a", "a", "a"]⟩

theorem exRect_built : Built exRect :=
  ⟨((6, 0, 0), (0, 8, 0), (0, 0, 5)), [(0, 0, 0), (0, 1/2, 0), (1/2, 0, 0), (1/2, 1/2, 0)], [29, 29, 29, 29], by decide +kernel⟩

theorem exRect_keys : (exRect.positions.map siteKey).Nodup := by decide +kernel

theorem exRect_setup : GenSetup exRect exRectOps ["a", "a", "a", "a"] exRectGen := by
  refine ⟨exRect_built, exRect_keys, (contract_of_exact exRect_keys (by constructor <;> decide +kernel)).1, ?_⟩
  have : exRect.symmetryPermutation exRectOps = .ok exRectGen.perms := by decide +kernel
  simp [OGen.new, this, bind, Except.bind, pure, Except.pure, exRectGen]

theorem exSquare_setup : GenSetup exRect exSquareOps ["a", "a", "a", "a"] exSquareGen := by
  refine ⟨exRect_built, exRect_keys, (contract_of_exact exRect_keys (by constructor <;> decide +kernel)).1, ?_⟩
  have : exRect.symmetryPermutation exSquareOps = .ok exSquareGen.perms := by decide +kernel
  simp [OGen.new, this, bind, Except.bind, pure, Except.pure, exSquareGen]

/-- with operations that are none, what is listed is still listed once only … -/
theorem C124_extra (hash : List ℤ → ℕ) (c : GCell) (ops all : List Op) (wy' : List String) (g' : OGen)
    (h' : GenSetup c all wy' g') (hsub : ∀ o ∈ ops, o ∈ all) (n : ℕ) (sp : Specie) (D : Set (List ℤ))
    (hDdef : D = {m | ∃ S : Finset ℕ, S ⊆ Finset.range c.numbers.length ∧ S.card = n ∧ Spec.Subst c.numbers S sp.Z m})
    (hinj : Set.InjOn hash {m | m.length = c.positions.length ∧ ∃ d ∈ D, GeomEquiv siteKey c.positions all d m}) :
    ∃ full, g'.genNodupUnitary hash n sp = .ok full ∧ (∀ r ∈ full, r.numbers ∈ D) ∧
      (full.map (·.numbers)).Pairwise fun a b => ¬ GeomEquiv siteKey c.positions ops a b ∧ ¬ GeomEquiv siteKey c.positions ops b a := by
  obtain ⟨full, e, _, t⟩ := C21_nodup_unitary hash c all wy' g' h' n sp D hDdef hinj
  refine ⟨full, e, fun r hr => t.1 _ (List.mem_map_of_mem hr), t.2.2.imp fun {a b} hab => ?_⟩
  exact ⟨fun ⟨o, ho, x⟩ => hab.1 ⟨o, hsub o ho, x⟩, fun ⟨o, ho, x⟩ => hab.2 ⟨o, hsub o ho, x⟩⟩

/-- … but structures are lost: of the pairs along the two sides of a rectangle, one of length 3 and one of length 4, only one is left -/
theorem C124_lost : (exRectGen.genNodupUnitary exDigits 2 exAu).map (List.map (·.numbers)) =
      .ok [[79, 79, 29, 29], [79, 29, 79, 29], [79, 29, 29, 79]] ∧
    (exSquareGen.genNodupUnitary exDigits 2 exAu).map (List.map (·.numbers)) = .ok [[79, 79, 29, 29], [79, 29, 29, 79]] ∧
    (∀ r ∈ [[79, 79, 29, 29], [79, 29, 29, 79]], ¬ GeomEquiv siteKey exRect.positions exRectOps r [79, 29, 79, 29]) := by
  refine ⟨by decide +kernel, by decide +kernel, fun r hr he => ?_⟩
  obtain ⟨_, _, hF, _⟩ := exRect_setup.rows
  have hl : r.length = exRect.positions.length := by
    have : ∀ r ∈ ([[79, 79, 29, 29], [79, 29, 29, 79]] : List (List ℤ)), r.length = exRect.positions.length := by decide +kernel
    exact this r hr
  have hrel := (rel_iff_geom exRect_setup.distinct exRect_setup.contract hF r [79, 29, 79, 29] hl (by decide +kernel)).2 he
  have : ∀ r ∈ ([[79, 79, 29, 29], [79, 29, 29, 79]] : List (List ℤ)), ∀ p ∈ exRectGen.perms, gather r p ≠ [79, 29, 79, 29] := by
    decide +kernel
  obtain ⟨p, hp, e⟩ := hrel
  exact this r hr p hp e

end Verif
