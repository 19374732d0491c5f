import Verif.Lemmas.Dedup
import Verif.Props.Symmetry
import Verif.Props.Enumerate
import Mathlib.Data.Set.Function

/-! # C19–C21: removal of symmetry-equivalent structures -/

namespace Verif

/-- C19. For every hash function (collisions allowed) and every table whose rows fit the structures:
the output is a subsequence of the input and no emitted structure is a symmetry image of an earlier emitted one. -/
theorem C19_no_equivalent_pair (hash : List ℤ → ℕ) (g : OGen) (dup : List GCell)
    (hP : ∀ c ∈ dup, ∀ p ∈ g.perms, ∀ i ∈ p, i < c.numbers.length) :
    ∃ out, g.gen2Nodup hash dup = .ok out ∧ out.Sublist dup ∧
      out.Pairwise (fun a b => ¬ Spec.Image g.perms a.numbers b.numbers) := by
  refine ⟨_, gen2NodupLoop_eq hash g.perms [] dup hP, dedupL_sublist _ _ _ _, ?_⟩
  refine List.Pairwise.imp_of_mem ?_ (dedupL_pairwise (GCell.id hash) (isoKeys hash g.perms) [] dup)
  intro a b ha _ hk himg
  have hmem := (dedupL_sublist _ _ _ _).subset ha
  obtain ⟨p, hp, hab⟩ := (image_iff_rel (hP a hmem)).1 himg
  apply hk
  rw [isoKeys, List.mem_map]
  exact ⟨p, hp, by rw [hab]; rfl⟩

/-- C19 for group tables: the relation is symmetric, so no two emitted structures are equivalent at all. -/
theorem C19_no_equivalent_pair_group (hash : List ℤ → ℕ) (g : OGen) (n : ℕ) (hG : PermGroup n g.perms)
    (dup : List GCell) (hn : ∀ c ∈ dup, c.numbers.length = n) :
    ∃ out, g.gen2Nodup hash dup = .ok out ∧ out.Sublist dup ∧
      out.Pairwise (fun a b => ¬ Spec.Image g.perms a.numbers b.numbers ∧ ¬ Spec.Image g.perms b.numbers a.numbers) := by
  have hP : ∀ c ∈ dup, ∀ p ∈ g.perms, ∀ i ∈ p, i < c.numbers.length :=
    fun c hc p hp => by rw [hn c hc]; exact (hG.perm p hp).lt
  obtain ⟨out, h1, h2, h3⟩ := C19_no_equivalent_pair hash g dup hP
  refine ⟨out, h1, h2, h3.imp_of_mem ?_⟩
  intro a b ha hb h
  refine ⟨h, fun h' => h ?_⟩
  rw [image_iff_rel (hP _ (h2.subset ha))]
  rw [image_iff_rel (hP _ (h2.subset hb))] at h'
  exact h'.symm hG (hn b (h2.subset hb))

/-- C20. Without hash collisions among the images, and with the identity in the table, every input structure is an image
of an emitted structure that does not come after it; with a group table the emitted ones are the first of their class. -/
theorem C20_no_class_lost (hash : List ℤ → ℕ) (g : OGen) (n : ℕ) (dup : List GCell)
    (hn : ∀ c ∈ dup, c.numbers.length = n) (hperm : ∀ p ∈ g.perms, p.Perm (List.range n)) (hone : List.range n ∈ g.perms)
    (hinj : Set.InjOn hash {m | ∃ c ∈ dup, Spec.Image g.perms c.numbers m}) :
    ∃ out, g.gen2Nodup hash dup = .ok out ∧
      (∀ pre a post, dup = pre ++ a :: post →
        ∃ r ∈ out, r ∈ pre ++ [a] ∧ Spec.Image g.perms r.numbers a.numbers) ∧
      (PermGroup n g.perms → ∀ r ∈ out, ∃ pre post, dup = pre ++ r :: post ∧
        ∀ q ∈ pre, ¬ Spec.Image g.perms q.numbers r.numbers) := by
  have hlt : ∀ c ∈ dup, ∀ p ∈ g.perms, ∀ i ∈ p, i < c.numbers.length :=
    fun c hc p hp i hi => by rw [hn c hc]; exact List.mem_range.1 ((hperm p hp).subset hi)
  have hself : ∀ c ∈ dup, gather c.numbers (List.range n) = c.numbers :=
    fun c hc => by rw [← hn c hc]; exact gather_range _
  -- membership of keys is image, thanks to injectivity
  have hkey : ∀ c ∈ dup, ∀ d ∈ dup, d.id hash ∈ isoKeys hash g.perms c → Spec.Image g.perms c.numbers d.numbers := by
    intro c hc d hd hk
    rw [isoKeys, List.mem_map] at hk
    obtain ⟨p, hp, heq⟩ := hk
    rw [image_iff_rel (hlt c hc)]
    refine ⟨p, hp, ?_⟩
    apply hinj _ _ heq
    · exact ⟨c, hc, (image_iff_rel (hlt c hc)).2 ⟨p, hp, rfl⟩⟩
    · exact ⟨d, hd, (image_iff_rel (hlt d hd)).2 ⟨_, hone, hself d hd⟩⟩
  have hcover : ∀ pre a post, dup = pre ++ a :: post →
      ∃ r ∈ dedupL (GCell.id hash) (isoKeys hash g.perms) [] dup,
        r ∈ pre ++ [a] ∧ Spec.Image g.perms r.numbers a.numbers := by
    intro pre a post hdup
    have ha : a ∈ dup := by rw [hdup]; simp
    have hrefl : a.id hash ∈ isoKeys hash g.perms a := by
      rw [isoKeys, List.mem_map]; exact ⟨_, hone, by rw [hself a ha]; rfl⟩
    obtain ⟨r, h1, h2, h3⟩ := dedupL_cover (GCell.id hash) (isoKeys hash g.perms) (seen := []) (pre := pre)
      (post := post) hrefl (by simp)
    rw [← hdup] at h1
    exact ⟨r, h1, h2, hkey r ((dedupL_sublist _ _ _ _).subset h1) a ha h3⟩
  refine ⟨_, gen2NodupLoop_eq hash g.perms [] dup hlt, hcover, ?_⟩
  intro hG r hr
  obtain ⟨pre, post, hdup, hfirst⟩ := dedupL_first (GCell.id hash) (isoKeys hash g.perms) hr
  refine ⟨pre, post, hdup, fun q hq himg => ?_⟩
  obtain ⟨pre₁, pre₂, rfl⟩ := List.append_of_mem hq
  have hqd : q ∈ dup := by rw [hdup]; simp
  have hrefl : q.id hash ∈ isoKeys hash g.perms q := by
    rw [isoKeys, List.mem_map]; exact ⟨_, hone, by rw [hself q hqd]; rfl⟩
  obtain ⟨s, h1, h2, h3⟩ := dedupL_cover (GCell.id hash) (isoKeys hash g.perms) (seen := []) (pre := pre₁)
    (post := pre₂) hrefl (by simp)
  have hsd : s ∈ dup := by
    rw [hdup]; have := (dedupL_sublist _ _ _ _).subset h1; simp at this ⊢; tauto
  have himg2 := hkey s hsd q hqd h3
  rw [image_iff_rel (hlt _ hsd)] at himg2
  rw [image_iff_rel (hlt _ hqd)] at himg
  obtain ⟨p, hp, hpe⟩ := himg2.trans hG (hn s hsd) himg
  apply hfirst s h1
  rw [isoKeys, List.mem_map]
  exact ⟨p, hp, by rw [hpe]; rfl⟩

/-- shared core of C21: deduplicating a list that realises the decoration set `D` gives a system of representatives -/
theorem nodup_core (hash : List ℤ → ℕ) (g : OGen) (n : ℕ) (hG : PermGroup n g.perms) (dup : List GCell)
    (hn : ∀ c ∈ dup, c.numbers.length = n) (D : Set (List ℤ)) (hD : ∀ m, m ∈ D ↔ m ∈ dup.map (·.numbers))
    (hinj : Set.InjOn hash {m | ∃ d ∈ D, Rel g.perms d m}) :
    ∃ out, g.gen2Nodup hash dup = .ok out ∧ out.Sublist dup ∧
      Spec.Transversal (Rel g.perms) D (out.map (·.numbers)) := by
  have hlt : ∀ c ∈ dup, ∀ p ∈ g.perms, ∀ i ∈ p, i < c.numbers.length :=
    fun c hc p hp => by rw [hn c hc]; exact (hG.perm p hp).lt
  obtain ⟨out, h1, h2, h3⟩ := C19_no_equivalent_pair_group hash g n hG dup hn
  have hset : {m | ∃ c ∈ dup, Spec.Image g.perms c.numbers m} = {m | ∃ d ∈ D, Rel g.perms d m} := by
    ext m
    constructor
    · rintro ⟨c, hc, h⟩
      exact ⟨c.numbers, (hD _).2 (List.mem_map_of_mem hc), (image_iff_rel (hlt c hc)).1 h⟩
    · rintro ⟨d, hd, h⟩
      obtain ⟨c, hc, rfl⟩ := List.mem_map.1 ((hD d).1 hd)
      exact ⟨c, hc, (image_iff_rel (hlt c hc)).2 h⟩
  obtain ⟨out', h1', h4, _⟩ := C20_no_class_lost hash g n dup hn hG.perm hG.one (by rw [hset]; exact hinj)
  rw [h1] at h1'
  injection h1' with h1'
  subst h1'
  refine ⟨out, h1, h2, ?_, ?_, ?_⟩
  · intro m hm
    obtain ⟨c, hc, rfl⟩ := List.mem_map.1 hm
    exact (hD _).2 (List.mem_map_of_mem (h2.subset hc))
  · intro d hd
    obtain ⟨a, ha, rfl⟩ := List.mem_map.1 ((hD d).1 hd)
    obtain ⟨pre, post, hdup⟩ := List.append_of_mem ha
    obtain ⟨r, hr, _, himg⟩ := h4 pre a post hdup
    exact ⟨r.numbers, List.mem_map_of_mem hr, (image_iff_rel (hlt r (h2.subset hr))).1 himg⟩
  · rw [List.pairwise_map]
    refine h3.imp_of_mem ?_
    intro a b ha hb h
    rw [image_iff_rel (hlt a (h2.subset ha)), image_iff_rel (hlt b (h2.subset hb))] at h
    exact h

theorem Spec.Transversal.congr {R R' : List ℤ → List ℤ → Prop} {D : Set (List ℤ)} {out : List (List ℤ)}
    (h : Spec.Transversal R D out) (hRR : ∀ a ∈ D, ∀ b ∈ D, (R a b ↔ R' a b)) : Spec.Transversal R' D out := by
  refine ⟨h.1, fun d hd => ?_, ?_⟩
  · obtain ⟨r, hr, hrd⟩ := h.2.1 d hd
    exact ⟨r, hr, (hRR r (h.1 r hr) d hd).1 hrd⟩
  · refine h.2.2.imp_of_mem ?_
    intro a b ha hb hab
    rw [← hRR a (h.1 a ha) b (h.1 b hb), ← hRR b (h.1 b hb) a (h.1 a ha)]
    exact hab

/-- the hypotheses shared by the statements of C21: a constructed cell with distinct sites, operations satisfying the
spglib contract, and the generator object built from them -/
structure GenSetup (c : GCell) (ops : List Spec.Op) (wy : List String) (g : OGen) : Prop where
  built : Built c
  distinct : (c.positions.map siteKey).Nodup
  contract : Spec.SymContract sameKey c.positions ops
  made : OGen.new c ops wy = .ok g

theorem GenSetup.rows {c : GCell} {ops : List Spec.Op} {wy : List String} {g : OGen} (h : GenSetup c ops wy g) :
    g.init = c ∧ g.wyckoffs = wy ∧ List.Forall₂ (RowOf c) ops g.perms ∧ PermGroup c.positions.length g.perms := by
  obtain ⟨rows, h1, h2, h3⟩ := ogen_new (wy := wy) h.built h.distinct h.contract
  have := h.made
  rw [h1] at this
  injection this with this
  subst this
  exact ⟨rfl, rfl, h2, h3⟩

/-- geometric form of `nodup_core` -/
theorem nodup_geom {hash : List ℤ → ℕ} {c : GCell} {ops : List Spec.Op} {wy : List String} {g : OGen}
    (h : GenSetup c ops wy g) (dup : List GCell) (hn : ∀ d ∈ dup, d.numbers.length = c.positions.length)
    (D : Set (List ℤ)) (hD : ∀ m, m ∈ D ↔ m ∈ dup.map (·.numbers))
    (hinj : Set.InjOn hash {m | m.length = c.positions.length ∧ ∃ d ∈ D, Spec.GeomEquiv siteKey c.positions ops d m}) :
    ∃ out, g.gen2Nodup hash dup = .ok out ∧ out.Sublist dup ∧
      Spec.Transversal (Spec.GeomEquiv siteKey c.positions ops) D (out.map (·.numbers)) := by
  obtain ⟨_, _, hrows, hG⟩ := h.rows
  have hlen : ∀ d ∈ D, d.length = c.positions.length := by
    intro d hd
    obtain ⟨a, ha, rfl⟩ := List.mem_map.1 ((hD d).1 hd)
    exact hn a ha
  obtain ⟨out, h1, h2, h3⟩ := nodup_core hash g _ hG dup hn D hD (by
    refine hinj.mono ?_
    rintro m ⟨d, hd, hdm⟩
    have hml := hdm.length_eq hG.perm (hlen d hd)
    exact ⟨hml, d, hd, (rel_iff_geom h.distinct h.contract hrows d m (hlen d hd) hml).1 hdm⟩)
  exact ⟨out, h1, h2, h3.congr (fun a ha b hb =>
    rel_iff_geom h.distinct h.contract hrows a b (hlen a ha) (hlen b hb))⟩

/-- membership in a substitution enumeration, from its exactness -/
theorem mem_numbers_iff {c : GCell} {z : ℤ} {subsets : List (Finset ℕ)} {cells : List GCell}
    (hF : List.Forall₂ (SubstCell c z) subsets cells) (m : List ℤ) :
    (∃ S ∈ subsets, Spec.Subst c.numbers S z m) ↔ m ∈ cells.map (·.numbers) := by
  constructor
  · rintro ⟨S, hS, hm⟩
    obtain ⟨d, hd, hSd⟩ := forall₂_mem_left hF hS
    exact List.mem_map.2 ⟨d, hd, hSd.2.2.unique hm⟩
  · intro hm
    obtain ⟨d, hd, rfl⟩ := List.mem_map.1 hm
    obtain ⟨S, hS, hSd⟩ := forall₂_mem_right hF hd
    exact ⟨S, hS, hSd.2.2⟩

theorem numbers_length {c : GCell} (hc : Built c) {z : ℤ} {subsets : List (Finset ℕ)} {cells : List GCell}
    (hF : List.Forall₂ (SubstCell c z) subsets cells) : ∀ d ∈ cells, d.numbers.length = c.positions.length := by
  intro d hd
  obtain ⟨S, _, hSd⟩ := forall₂_mem_right hF hd
  rw [hSd.2.2.1, hc.length]

/-- every emitted cell keeps lattice and positions -/
theorem cells_same {c : GCell} {z : ℤ} {subsets : List (Finset ℕ)} {cells out : List GCell}
    (hF : List.Forall₂ (SubstCell c z) subsets cells) (hs : out.Sublist cells) :
    ∀ d ∈ out, d.lattice = c.lattice ∧ d.positions = c.positions := by
  intro d hd
  obtain ⟨S, _, hSd⟩ := forall₂_mem_right hF (hs.subset hd)
  exact ⟨hSd.1, hSd.2.1⟩

/-- C21, `gen_nodup_unitary`. -/
theorem C21_nodup_unitary (hash : List ℤ → ℕ) (c : GCell) (ops : List Spec.Op) (wy : List String) (g : OGen)
    (h : GenSetup c ops wy g) (n : ℕ) (sp : Specie) (D : Set (List ℤ))
    (hDdef : D = {m | ∃ S : Finset ℕ, S ⊆ Finset.range c.numbers.length ∧ S.card = n ∧ Spec.Subst c.numbers S sp.Z m})
    (hinj : Set.InjOn hash {m | m.length = c.positions.length ∧ ∃ d ∈ D, Spec.GeomEquiv siteKey c.positions ops d m}) :
    ∃ out, g.genNodupUnitary hash n sp = .ok out ∧
      (∀ d ∈ out, d.lattice = c.lattice ∧ d.positions = c.positions) ∧
      Spec.Transversal (Spec.GeomEquiv siteKey c.positions ops) D (out.map (·.numbers)) := by
  obtain ⟨hi, _, _, _⟩ := h.rows
  obtain ⟨cells, subsets, h1, _, h3, h4, _, _⟩ := C15_unitary_exact g (hi ▸ h.built) n sp
  rw [hi] at h3 h4
  obtain ⟨out, e1, e2, e3⟩ := nodup_geom h cells (numbers_length h.built h4) D (fun m => by
    rw [← mem_numbers_iff h4, hDdef, Set.mem_ofPred_eq]
    refine exists_congr fun S => ?_
    rw [h3, and_assoc]) hinj
  refine ⟨out, ?_, cells_same h4 e2, e3⟩
  unfold OGen.genNodupUnitary
  rw [h1]; exact e1

/-- C21, `gen_nodup_of_ele`. -/
theorem C21_nodup_of_ele (hash : List ℤ → ℕ) (c : GCell) (ops : List Spec.Op) (wy : List String) (g : OGen)
    (h : GenSetup c ops wy g) (ele : Specie) (n : ℕ) (sp : Specie) (D : Set (List ℤ))
    (hDdef : D = {m | ∃ S : Finset ℕ, (∀ i ∈ S, c.numbers[i]? = some ele.Z) ∧ S.card = n ∧ Spec.Subst c.numbers S sp.Z m})
    (hinj : Set.InjOn hash {m | m.length = c.positions.length ∧ ∃ d ∈ D, Spec.GeomEquiv siteKey c.positions ops d m}) :
    ∃ out, g.genNodupOfEle hash ele n sp = .ok out ∧
      (∀ d ∈ out, d.lattice = c.lattice ∧ d.positions = c.positions) ∧
      Spec.Transversal (Spec.GeomEquiv siteKey c.positions ops) D (out.map (·.numbers)) := by
  obtain ⟨hi, _, _, _⟩ := h.rows
  obtain ⟨cells, subsets, h1, _, h3, h4, _, _⟩ := C16_of_ele_exact g (hi ▸ h.built) ele n sp
  rw [hi] at h3 h4
  obtain ⟨out, e1, e2, e3⟩ := nodup_geom h cells (numbers_length h.built h4) D (fun m => by
    rw [← mem_numbers_iff h4, hDdef, Set.mem_ofPred_eq]
    refine exists_congr fun S => ?_
    rw [h3, and_assoc]) hinj
  refine ⟨out, ?_, cells_same h4 e2, e3⟩
  unfold OGen.genNodupOfEle
  rw [h1]; exact e1

/-- C21, `gen_nodup` (Wyckoff letter). -/
theorem C21_nodup_wyckoff (hash : List ℤ → ℕ) (c : GCell) (ops : List Spec.Op) (wy : List String) (g : OGen)
    (h : GenSetup c ops wy g) (hw : wy.length = c.numbers.length) (w : String) (n : ℕ) (sp : Specie) (D : Set (List ℤ))
    (hDdef : D = {m | ∃ S : Finset ℕ, (∀ i ∈ S, wy[i]? = some w) ∧ S.card = n ∧ Spec.Subst c.numbers S sp.Z m})
    (hinj : Set.InjOn hash {m | m.length = c.positions.length ∧ ∃ d ∈ D, Spec.GeomEquiv siteKey c.positions ops d m}) :
    ∃ out, g.genNodup hash w n sp = .ok out ∧
      (∀ d ∈ out, d.lattice = c.lattice ∧ d.positions = c.positions) ∧
      Spec.Transversal (Spec.GeomEquiv siteKey c.positions ops) D (out.map (·.numbers)) := by
  obtain ⟨hi, hwy, _, _⟩ := h.rows
  obtain ⟨cells, subsets, h1, _, h3, h4, _, _, _⟩ := C17_wyckoff_exact g (hi ▸ h.built) (by rw [hi, hwy, hw]) w n sp
  rw [hwy] at h3
  rw [hi] at h4
  obtain ⟨out, e1, e2, e3⟩ := nodup_geom h cells (numbers_length h.built h4) D (fun m => by
    rw [← mem_numbers_iff h4, hDdef, Set.mem_ofPred_eq]
    refine exists_congr fun S => ?_
    rw [h3, and_assoc]) hinj
  refine ⟨out, ?_, cells_same h4 e2, e3⟩
  unfold OGen.genNodup
  rw [h1]; exact e1

/-- C21, `gen_nodup_trinary_alloy`. -/
theorem C21_nodup_trinary (hash : List ℤ → ℕ) (c : GCell) (ops : List Spec.Op) (wy : List String) (g : OGen)
    (h : GenSetup c ops wy g) (sp1 : Specie) (n1 : ℕ) (sp2 : Specie) (n2 : ℕ) (D : Set (List ℤ))
    (hDdef : D = {m | ∃ S T : Finset ℕ, S ⊆ Finset.range c.numbers.length ∧ T ⊆ Finset.range c.numbers.length ∧
      Disjoint S T ∧ S.card = n1 ∧ T.card = n2 ∧ Spec.Subst2 c.numbers S sp1.Z T sp2.Z m})
    (hinj : Set.InjOn hash {m | m.length = c.positions.length ∧ ∃ d ∈ D, Spec.GeomEquiv siteKey c.positions ops d m}) :
    ∃ out, g.genNodupTrinary hash sp1 n1 sp2 n2 = .ok out ∧
      (∀ d ∈ out, d.lattice = c.lattice ∧ d.positions = c.positions) ∧
      Spec.Transversal (Spec.GeomEquiv siteKey c.positions ops) D (out.map (·.numbers)) := by
  obtain ⟨hi, _, _, _⟩ := h.rows
  obtain ⟨cells, pairs, h1, _, h3, h4, _⟩ := C18_trinary_exact g (hi ▸ h.built) sp1 n1 sp2 n2
  rw [hi] at h3 h4
  obtain ⟨out, e1, e2, e3⟩ := nodup_geom h cells (fun d hd => by
      obtain ⟨ST, _, hSd⟩ := forall₂_mem_right h4 hd
      rw [hSd.2.2.1, h.built.length]) D (fun m => by
    rw [hDdef, Set.mem_ofPred_eq]
    constructor
    · rintro ⟨S, T, a1, a2, a3, a4, a5, a6⟩
      obtain ⟨d, hd, hSd⟩ := forall₂_mem_left h4 ((h3 S T).2 ⟨a1, a2, a3, a4, a5⟩)
      exact List.mem_map.2 ⟨d, hd, hSd.2.2.unique a6⟩
    · intro hm
      obtain ⟨d, hd, rfl⟩ := List.mem_map.1 hm
      obtain ⟨⟨S, T⟩, hST, hSd⟩ := forall₂_mem_right h4 hd
      obtain ⟨a1, a2, a3, a4, a5⟩ := (h3 S T).1 hST
      exact ⟨S, T, a1, a2, a3, a4, a5, hSd.2.2⟩) hinj
  refine ⟨out, ?_, ?_, e3⟩
  · unfold OGen.genNodupTrinary
    rw [h1]; exact e1
  · intro d hd
    obtain ⟨ST, _, hSd⟩ := forall₂_mem_right h4 (e2.subset hd)
    exact ⟨hSd.1, hSd.2.1⟩

end Verif
