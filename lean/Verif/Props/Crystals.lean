import Verif.Spec.Crystal
import Verif.Props.Unimodal
import Verif.Props.Cell

/-! # C104: from a list of atoms to inequivalent crystals -/

namespace Verif

/-! ## Sites that are apart have different reduced coordinates -/

theorem reduced_near {x y r : ℚ} (hx : Spec.IsReduced x r) (hy : Spec.IsReduced y r) : ¬ Spec.FarMod1 x y := by
  intro h
  obtain ⟨_, _, _, z, hz⟩ := hx
  obtain ⟨_, _, _, w, hw⟩ := hy
  have := h (z - w)
  have h2 : x - y - ((z - w : ℤ) : ℚ) = (x - (r + z)) - (y - (r + w)) := by push_cast; ring
  rw [h2] at this
  have h3 := abs_sub (x - (r + z)) (y - (r + w))
  linarith

theorem separated_keys {pos : List (V3 ℚ)} (h : Spec.Separated pos) : (pos.map siteKey).Nodup := by
  rw [List.Nodup, List.pairwise_map]
  refine h.imp fun {p q} hpq e => ?_
  obtain ⟨p1, p2, p3⟩ := siteKey_reduced p
  obtain ⟨q1, q2, q3⟩ := siteKey_reduced q
  rw [← e] at q1 q2 q3
  rcases hpq with hpq | hpq | hpq
  · exact reduced_near p1 q1 hpq
  · exact reduced_near p2 q2 hpq
  · exact reduced_near p3 q3 hpq

theorem contract_perm {pos pos' : List (V3 ℚ)} (hp : pos.Perm pos') {same : V3 ℚ → V3 ℚ → Prop} {ops : List Spec.Op}
    (h : Spec.SymContract same pos ops) : Spec.SymContract same pos' ops where
  maps := fun g hg x hx => by
    obtain ⟨y, hy, e⟩ := h.maps g hg x (hp.mem_iff.2 hx)
    exact ⟨y, hp.mem_iff.1 hy, e⟩
  inj := fun g hg x hx y hy => h.inj g hg x (hp.mem_iff.2 hx) y (hp.mem_iff.2 hy)
  one := by
    obtain ⟨g, hg, e⟩ := h.one
    exact ⟨g, hg, fun x hx => e x (hp.mem_iff.2 hx)⟩
  mul := fun f hf g hg => by
    obtain ⟨k, hk, e⟩ := h.mul f hf g hg
    exact ⟨k, hk, fun x hx y hy z hz => e x (hp.mem_iff.2 hx) y (hp.mem_iff.2 hy) z (hp.mem_iff.2 hz)⟩
  inv := fun f hf => by
    obtain ⟨g, hg, e⟩ := h.inv f hf
    exact ⟨g, hg, fun x hx y hy => e x (hp.mem_iff.2 hx) y (hp.mem_iff.2 hy)⟩

/-! ## Markings -/

theorem marking_perm {α μ : Type} {l l' : List α} (h : l.Perm l') : ∀ m : List (α × μ), m.map (·.1) = l → ∃ m' : List (α × μ), m'.map (·.1) = l' ∧ m.Perm m' := by
  induction h with
  | nil => intro m hm; exact ⟨m, hm, List.Perm.refl _⟩
  | cons x _ ih =>
    intro m hm
    match m, hm with
    | a :: m, hm =>
      obtain ⟨h1, h2⟩ := List.cons.inj hm
      obtain ⟨m', e1, e2⟩ := ih m h2
      exact ⟨a :: m', by rw [List.map_cons, e1]; exact congrArg (· :: _) h1, e2.cons a⟩
  | swap x y l =>
    intro m hm
    match m, hm with
    | a :: b :: m, hm =>
      obtain ⟨h1, h2⟩ := List.cons.inj hm
      obtain ⟨h3, h4⟩ := List.cons.inj h2
      exact ⟨b :: a :: m, by rw [List.map_cons, List.map_cons, h4]; simp only at h1 h3; rw [h1, h3], List.Perm.swap b a m⟩
  | trans _ _ ih1 ih2 =>
    intro m hm
    obtain ⟨m1, e1, e2⟩ := ih1 m hm
    obtain ⟨m2, e3, e4⟩ := ih2 m1 e1
    exact ⟨m2, e3, e2.trans e4⟩

theorem crystal_perm {l l' : List (V3 ℚ × ℤ)} (h : l.Perm l') : Spec.Crystal l = Spec.Crystal l' := by
  ext s
  exact exists_congr fun t => and_congr_left fun _ => h.mem_iff

theorem replaced_sub {l l' : List (V3 ℚ × ℤ)} (h : l.Perm l') (allowed : ℤ → Prop) (n : ℕ) (z : ℤ) :
    Spec.Replaced l allowed n z ⊆ Spec.Replaced l' allowed n z := by
  rintro C ⟨m, h1, h2, h3, rfl⟩
  obtain ⟨m', e1, e2⟩ := marking_perm h m h1
  refine ⟨m', e1, ?_, fun x hx => h3 x (e2.mem_iff.2 hx), crystal_perm (e2.map _)⟩
  rw [← h2]
  exact ((e2.map _).count_eq true).symm

theorem replaced_perm {l l' : List (V3 ℚ × ℤ)} (h : l.Perm l') (allowed : ℤ → Prop) (n : ℕ) (z : ℤ) :
    Spec.Replaced l allowed n z = Spec.Replaced l' allowed n z :=
  Set.Subset.antisymm (replaced_sub h allowed n z) (replaced_sub h.symm allowed n z)

theorem replaced2_sub {l l' : List (V3 ℚ × ℤ)} (h : l.Perm l') (n : ℕ) (z : ℤ) (k : ℕ) (w : ℤ) :
    Spec.Replaced2 l n z k w ⊆ Spec.Replaced2 l' n z k w := by
  rintro C ⟨m, h1, h2, h3, rfl⟩
  obtain ⟨m', e1, e2⟩ := marking_perm h m h1
  exact ⟨m', e1, by rw [← h2]; exact ((e2.map _).count_eq _).symm, by rw [← h3]; exact ((e2.map _).count_eq _).symm, crystal_perm (e2.map _)⟩

theorem replaced2_perm {l l' : List (V3 ℚ × ℤ)} (h : l.Perm l') (n : ℕ) (z : ℤ) (k : ℕ) (w : ℤ) :
    Spec.Replaced2 l n z k w = Spec.Replaced2 l' n z k w :=
  Set.Subset.antisymm (replaced2_sub h n z k w) (replaced2_sub h.symm n z k w)

theorem count_map_range {β : Type} [BEq β] [LawfulBEq β] [DecidableEq β] (f : ℕ → β) (b : β) (N : ℕ) :
    ((List.range N).map f).count b = ((Finset.range N).filter fun i => f i = b).card := by
  induction N with
  | zero => rfl
  | succ N ih =>
    rw [List.range_succ, List.map_append, List.count_append, ih, Finset.range_add_one, Finset.filter_insert]
    by_cases h : f N = b
    · rw [if_pos h, Finset.card_insert_of_notMem (by simp)]
      simp [h]
    · rw [if_neg h]
      simp [h]

/-- a marking is a function on the indices -/
theorem marking_fn {α μ : Type} [Inhabited μ] {sites : List α} {m : List (α × μ)} (h : m.map (·.1) = sites) :
    ∃ f : ℕ → μ, m = sites.mapIdx fun i s => (s, f i) := by
  refine ⟨fun i => (m[i]?.map (·.2)).getD default, ?_⟩
  subst h
  apply List.ext_getElem?
  intro i
  rw [List.getElem?_mapIdx, List.getElem?_map]
  cases hm : m[i]? with
  | none => rfl
  | some x => simp [hm]

theorem marking_snd {α μ : Type} (sites : List α) (f : ℕ → μ) : (sites.mapIdx fun i s => (s, f i)).map (·.2) = (List.range sites.length).map f := by
  apply List.ext_getElem?
  intro i
  rw [List.getElem?_map, List.getElem?_mapIdx, List.getElem?_map]
  by_cases h : i < sites.length
  · rw [List.getElem?_eq_getElem h, List.getElem?_eq_getElem (by simpa using h)]; simp
  · rw [List.getElem?_eq_none (by omega), List.getElem?_eq_none (by simp; omega)]; rfl

theorem marking_fst {α μ : Type} (sites : List α) (f : ℕ → μ) : (sites.mapIdx fun i s => (s, f i)).map (·.1) = sites := by
  apply List.ext_getElem?
  intro i
  rw [List.getElem?_map, List.getElem?_mapIdx]
  cases sites[i]? <;> rfl

theorem zip_at {α β : Type} {l : List α} {l' : List β} {i : ℕ} (h : i < l.length) (h' : i < l'.length) : (l.zip l')[i]? = some (l[i], l'[i]) := by
  rw [List.getElem?_eq_getElem (by rw [List.length_zip]; omega), List.getElem_zip]

theorem marking_zip {μ : Type} {pos : List (V3 ℚ)} {nums : List ℤ} (hl : nums.length = pos.length) (f : ℕ → μ) (el : ℤ → μ → ℤ) :
    ((pos.zip nums).mapIdx fun i s => (s, f i)).map (fun x => (x.1.1, el x.1.2 x.2)) = pos.zip (nums.mapIdx fun i v => el v (f i)) := by
  apply List.ext_getElem?
  intro i
  rw [List.getElem?_map, List.getElem?_mapIdx]
  by_cases h : i < pos.length
  · have hn : i < nums.length := hl ▸ h
    rw [zip_at h hn, zip_at h (by rw [List.length_mapIdx]; exact hn)]
    simp
  · rw [List.getElem?_eq_none (by rw [List.length_zip]; omega), List.getElem?_eq_none (by rw [List.length_zip, List.length_mapIdx]; omega)]
    rfl

/-- the crystals with replaced atoms in terms of number arrays -/
theorem replaced_stored {pos : List (V3 ℚ)} {nums : List ℤ} (hl : nums.length = pos.length) (allowed : ℤ → Prop) (n : ℕ) (z : ℤ) :
    Spec.Replaced (pos.zip nums) allowed n z = {C | ∃ d, (∃ S : Finset ℕ, S.card = n ∧ (∀ i ∈ S, ∃ v, nums[i]? = some v ∧ allowed v) ∧
      Spec.Subst nums S z d) ∧ C = Spec.Crystal (pos.zip d)} := by
  have hzl : (pos.zip nums).length = nums.length := by rw [List.length_zip]; omega
  ext C
  constructor
  · rintro ⟨m, h1, h2, h3, rfl⟩
    obtain ⟨f, rfl⟩ := marking_fn h1
    rw [marking_snd, count_map_range, hzl] at h2
    refine ⟨_, ⟨_, h2, ?_, ?_⟩, by rw [marking_zip hl f fun v b => if b then z else v]⟩
    · intro i hi
      obtain ⟨hi, hf⟩ := Finset.mem_filter.1 hi
      have hi := Finset.mem_range.1 hi
      refine ⟨nums[i], List.getElem?_eq_getElem hi, ?_⟩
      refine h3 ((pos[i]'(hl ▸ hi), nums[i]), f i) (List.mem_iff_getElem?.2 ⟨i, ?_⟩) hf
      rw [List.getElem?_mapIdx, zip_at (hl ▸ hi) hi]
      rfl
    · refine ⟨by rw [List.length_mapIdx], fun i hi => ?_⟩
      rw [List.getElem?_mapIdx, List.getElem?_eq_getElem hi]
      by_cases hf : f i = true
      · rw [if_pos (Finset.mem_filter.2 ⟨Finset.mem_range.2 hi, hf⟩)]; simp [hf]
      · rw [if_neg (show i ∉ Finset.filter _ _ from fun hh => hf (Finset.mem_filter.1 hh).2)]; simp [hf]
  · rintro ⟨d, ⟨S, h1, h2, h3⟩, rfl⟩
    have hS : S ⊆ Finset.range nums.length := by
      intro i hi
      obtain ⟨v, hv, _⟩ := h2 i hi
      exact Finset.mem_range.2 (List.getElem?_eq_some_iff.1 hv).1
    refine ⟨(pos.zip nums).mapIdx fun i s => (s, decide (i ∈ S)), marking_fst _ _, ?_, ?_, ?_⟩
    · rw [marking_snd, count_map_range, hzl, ← h1]
      congr 1
      ext i
      simp only [Finset.mem_filter, decide_eq_true_eq]
      exact ⟨fun h => h.2, fun h => ⟨hS h, h⟩⟩
    · intro x hx hx2
      obtain ⟨i, hi⟩ := List.mem_iff_getElem?.1 hx
      rw [List.getElem?_mapIdx] at hi
      obtain ⟨s, hs, rfl⟩ := Option.map_eq_some_iff.1 hi
      obtain ⟨v, hv, hav⟩ := h2 i (by simpa using hx2)
      have := (List.getElem?_zip_eq_some.1 hs).2
      rw [hv] at this
      rw [← Option.some.inj this]
      exact hav
    · rw [marking_zip hl (fun i => decide (i ∈ S)) fun v b => if b then z else v]
      congr 2
      apply List.ext_getElem?
      intro i
      rw [List.getElem?_mapIdx]
      by_cases hi : i < nums.length
      · rw [h3.2 i hi, List.getElem?_eq_getElem hi]
        by_cases hs : i ∈ S
        · simp [hs]
        · simp [hs]
      · rw [List.getElem?_eq_none (by rw [h3.1]; omega), List.getElem?_eq_none (by omega)]; rfl

theorem replaced2_stored {pos : List (V3 ℚ)} {nums : List ℤ} (hl : nums.length = pos.length) (n : ℕ) (z : ℤ) (k : ℕ) (w : ℤ) :
    Spec.Replaced2 (pos.zip nums) n z k w = {C | ∃ d, (∃ S T : Finset ℕ, S ⊆ Finset.range nums.length ∧ T ⊆ Finset.range nums.length ∧
      Disjoint S T ∧ S.card = n ∧ T.card = k ∧ Spec.Subst2 nums S z T w d) ∧ C = Spec.Crystal (pos.zip d)} := by
  have hzl : (pos.zip nums).length = nums.length := by rw [List.length_zip]; omega
  ext C
  constructor
  · rintro ⟨m, h1, h2, h3, rfl⟩
    obtain ⟨f, rfl⟩ := marking_fn h1
    rw [marking_snd, count_map_range, hzl] at h2 h3
    refine ⟨_, ⟨_, _, Finset.filter_subset _ _, Finset.filter_subset _ _, ?_, h2, h3, ?_⟩,
      by rw [marking_zip hl f fun v b => if b = some true then z else if b = some false then w else v]⟩
    · rw [Finset.disjoint_left]
      intro i h4 h5
      have := (Finset.mem_filter.1 h4).2.symm.trans (Finset.mem_filter.1 h5).2
      simp at this
    · refine ⟨by rw [List.length_mapIdx], fun i hi => ?_⟩
      rw [List.getElem?_mapIdx, List.getElem?_eq_getElem hi]
      by_cases hf : f i = some true
      · rw [if_pos (Finset.mem_filter.2 ⟨Finset.mem_range.2 hi, hf⟩)]; simp [hf]
      · rw [if_neg (show i ∉ Finset.filter _ _ from fun hh => hf (Finset.mem_filter.1 hh).2)]
        by_cases hg : f i = some false
        · rw [if_pos (Finset.mem_filter.2 ⟨Finset.mem_range.2 hi, hg⟩)]; simp [hg]
        · rw [if_neg (show i ∉ Finset.filter _ _ from fun hh => hg (Finset.mem_filter.1 hh).2)]; simp [hf, hg]
  · rintro ⟨d, ⟨S, T, s1, t1, hd, s2, t2, h3⟩, rfl⟩
    refine ⟨(pos.zip nums).mapIdx fun i s => (s, if i ∈ S then some true else if i ∈ T then some false else none), marking_fst _ _, ?_, ?_, ?_⟩
    · rw [marking_snd _ fun i => if i ∈ S then some true else if i ∈ T then some false else none, count_map_range, hzl, ← s2]
      congr 1
      ext i
      simp only [Finset.mem_filter]
      constructor
      · rintro ⟨_, h⟩
        by_contra hn
        rw [if_neg hn] at h
        split at h <;> simp at h
      · intro h; exact ⟨s1 h, if_pos h⟩
    · rw [marking_snd _ fun i => if i ∈ S then some true else if i ∈ T then some false else none, count_map_range, hzl, ← t2]
      congr 1
      ext i
      simp only [Finset.mem_filter]
      constructor
      · rintro ⟨_, h⟩
        by_cases hs : i ∈ S
        · rw [if_pos hs] at h; simp at h
        · rw [if_neg hs] at h
          by_contra hn
          rw [if_neg hn] at h
          simp at h
      · intro h; exact ⟨t1 h, by rw [if_neg (Finset.disjoint_right.1 hd h), if_pos h]⟩
    · rw [marking_zip hl (fun i => if i ∈ S then some true else if i ∈ T then some false else none)
        fun v b => if b = some true then z else if b = some false then w else v]
      congr 2
      apply List.ext_getElem?
      intro i
      rw [List.getElem?_mapIdx]
      by_cases hi : i < nums.length
      · rw [h3.2 i hi, List.getElem?_eq_getElem hi]
        by_cases hs : i ∈ S
        · simp [hs]
        · by_cases ht : i ∈ T
          · simp [hs, ht]
          · simp [hs, ht]
      · rw [List.getElem?_eq_none (by rw [h3.1]; omega), List.getElem?_eq_none (by omega)]; rfl

/-! ## From number arrays to crystals -/

/-- what the user provides: at least one atom, one number per position, sites apart, and operations which exactly
permute the sites and form a group on them -/
structure AtomList (pos : List (V3 ℚ)) (nums : List ℤ) (ops : List Spec.Op) : Prop where
  ne : pos ≠ []
  length : nums.length = pos.length
  apart : Spec.Separated pos
  contract : Spec.SymContract Spec.Cong pos ops
  unimodular : ∀ g ∈ ops, det g.1 = 1 ∨ det g.1 = -1

theorem AtomList.setup {L : M3 ℚ} {pos : List (V3 ℚ)} {nums : List ℤ} {ops : List Spec.Op} (h : AtomList pos nums ops) (wy : List String) :
    ∃ c g, GCell.new L pos nums = .ok c ∧ OGen.new c ops wy = .ok g ∧ GenSetup c ops wy g ∧ c.lattice = L ∧
      (c.positions.zip c.numbers).Perm (pos.zip nums) ∧ c.positions.Perm pos ∧ c.numbers.Perm nums ∧
      (c.positions.map siteKey).Nodup ∧ Spec.SymContract Spec.Cong c.positions ops := by
  obtain ⟨c, hc⟩ := (C09_constructor_domain L pos nums).1.2 ⟨h.ne, h.length.ge⟩
  obtain ⟨c1, c2, c3, c4, _⟩ := C09_sites_rearranged L pos nums c hc
  have hcl : c.numbers.length = c.positions.length := by rw [c3, c4]
  have p1 : c.positions.Perm pos := by
    have := c2.map Prod.fst
    rwa [List.map_fst_zip hcl.ge, List.map_fst_zip h.length.ge] at this
  have p2 : c.numbers.Perm nums := by
    have := c2.map Prod.snd
    rwa [List.map_snd_zip hcl.le, List.map_snd_zip h.length.le] at this
  have hk : (c.positions.map siteKey).Nodup := (p1.map siteKey).nodup_iff.2 (separated_keys h.apart)
  have hcon := contract_perm p1.symm h.contract
  have hb : Built c := ⟨L, pos, nums, hc⟩
  obtain ⟨rows, h1, _, _⟩ := ogen_new (wy := wy) hb hk (contract_of_exact hk hcon).1
  exact ⟨c, _, hc, h1, ⟨hb, hk, (contract_of_exact hk hcon).1, h1⟩, c1, c2, p1, p2, hk, hcon⟩

/-- the crystal of a cell -/
def cellCrystal (d : GCell) : Set (V3 ℚ × ℤ) := Spec.Crystal (d.positions.zip d.numbers)

/-- one number array per class gives one crystal per class -/
theorem once_of_transversal {c : GCell} {ops : List Spec.Op} {wy : List String} {g : OGen} (h : GenSetup c ops wy g)
    (hcon : Spec.SymContract Spec.Cong c.positions ops) (hdet : ∀ g ∈ ops, det g.1 = 1 ∨ det g.1 = -1) {D : Set (List ℤ)}
    (hlen : ∀ m ∈ D, m.length = c.positions.length) {out : List GCell} (hpos : ∀ d ∈ out, d.positions = c.positions)
    (ht : Spec.Transversal (Spec.GeomEquiv siteKey c.positions ops) D (out.map (·.numbers))) :
    Spec.OncePerClass ops {C | ∃ d, d ∈ D ∧ C = Spec.Crystal (c.positions.zip d)} (out.map cellCrystal) := by
  have hiff := geom_iff_crystal h.distinct hcon hdet
  obtain ⟨_, _, hF, hG⟩ := h.rows
  refine ⟨?_, ?_⟩
  · intro C hC
    obtain ⟨d, hd, rfl⟩ := List.mem_map.1 hC
    exact ⟨d.numbers, ht.1 _ (List.mem_map_of_mem hd), by rw [cellCrystal, hpos d hd]⟩
  · rintro C ⟨m, hm, rfl⟩
    obtain ⟨r, hr, hrm⟩ := ht.2.1 m hm
    obtain ⟨i, hi⟩ := List.mem_iff_getElem?.1 hr
    rw [List.getElem?_map] at hi
    obtain ⟨d, hd, rfl⟩ := Option.map_eq_some_iff.1 hi
    refine ⟨i, ⟨_, by rw [List.getElem?_map, hd]; rfl, ?_⟩, ?_⟩
    · show ∃ op ∈ ops, op.imageSet (Spec.Crystal (d.positions.zip d.numbers)) = _
      rw [hpos d (List.mem_of_getElem? hd)]
      exact (hiff _ _).1 hrm
    · rintro j ⟨C', hj, hop⟩
      rw [List.getElem?_map] at hj
      obtain ⟨d', hd', rfl⟩ := Option.map_eq_some_iff.1 hj
      have hop : ∃ op ∈ ops, op.imageSet (Spec.Crystal (d'.positions.zip d'.numbers)) = _ := hop
      rw [hpos d' (List.mem_of_getElem? hd')] at hop
      have hd'm := (hiff _ _).2 hop
      have hdD := ht.1 _ (List.mem_map_of_mem (List.mem_of_getElem? hd))
      have hd'D := ht.1 _ (List.mem_map_of_mem (List.mem_of_getElem? hd'))
      have hrel := fun a ha b hb => rel_iff_geom h.distinct h.contract hF a b (hlen a ha) (hlen b hb)
      have r1 := (hrel _ hdD _ hm).2 hrm
      have r2 := (hrel _ hd'D _ hm).2 hd'm
      have r3 := r1.trans hG (hlen _ hdD) (r2.symm hG (hlen _ hd'D))
      have g1 := (hrel _ hdD _ hd'D).1 r3
      have g2 := (hrel _ hd'D _ hdD).1 (r3.symm hG (hlen _ hdD))
      have hpw := List.pairwise_iff_getElem.1 ht.2.2
      obtain ⟨li, ei⟩ := List.getElem?_eq_some_iff.1 hd
      obtain ⟨lj, ej⟩ := List.getElem?_eq_some_iff.1 hd'
      by_contra hne
      rcases Nat.lt_or_gt_of_ne hne with hlt | hlt
      · exact (hpw j i (by simpa using lj) (by simpa using li) hlt).1 (by simpa [ei, ej] using g2)
      · exact (hpw i j (by simpa using li) (by simpa using lj) hlt).1 (by simpa [ei, ej] using g1)

theorem geom_entries {pos : List (V3 ℚ)} {ops : List Spec.Op} {a b : List ℤ} (hb : b.length = pos.length)
    (h : Spec.GeomEquiv siteKey pos ops a b) : ∀ x ∈ b, x ∈ a := by
  intro x hx
  obtain ⟨i, hi, rfl⟩ := List.mem_iff_getElem.1 hx
  obtain ⟨op, _, h⟩ := h
  have hs : (pos[i]'(hb ▸ hi), b[i]) ∈ pos.zip b := List.mem_of_getElem? (zip_at (hb ▸ hi) hi)
  obtain ⟨t, ht, _, e⟩ := (h _ _).2 ⟨_, hs, rfl, rfl⟩
  simp only at e
  rw [← e]
  exact (List.of_mem_zip ht).2

theorem subst_entries {base m : List ℤ} {S : Finset ℕ} {z : ℤ} (h : Spec.Subst base S z m) : ∀ x ∈ m, x = z ∨ x ∈ base := by
  intro x hx
  obtain ⟨i, hi, rfl⟩ := List.mem_iff_getElem.1 hx
  have := h.2 i (h.1 ▸ hi)
  rw [List.getElem?_eq_getElem hi] at this
  split at this
  · exact .inl (Option.some.inj this)
  · exact .inr (List.mem_of_getElem? this.symm)

theorem subst2_entries {base m : List ℤ} {S T : Finset ℕ} {z w : ℤ} (h : Spec.Subst2 base S z T w m) : ∀ x ∈ m, x = z ∨ x = w ∨ x ∈ base := by
  intro x hx
  obtain ⟨i, hi, rfl⟩ := List.mem_iff_getElem.1 hx
  have := h.2 i (h.1 ▸ hi)
  rw [List.getElem?_eq_getElem hi] at this
  split at this
  · exact .inl (Option.some.inj this)
  · split at this
    · exact .inr (.inl (Option.some.inj this))
    · exact .inr (.inr (List.mem_of_getElem? this.symm))

/-- **C104 (`gen_nodup_unitary`).** From any list of atoms, the crystals yielded are exactly one from each class, under
the symmetry operations, of the crystals with `n` of the atoms turned into `sp`. -/
theorem C104_unitary (hash : List ℤ → ℕ) (L : M3 ℚ) (pos : List (V3 ℚ)) (nums : List ℤ) (ops : List Spec.Op) (wy : List String)
    (h : AtomList pos nums ops) (n : ℕ) (sp : Specie)
    (hinj : Set.InjOn hash {m | m.length = pos.length ∧ ∀ x ∈ m, x = sp.Z ∨ x ∈ nums}) :
    ∃ c g out, GCell.new L pos nums = .ok c ∧ OGen.new c ops wy = .ok g ∧ g.genNodupUnitary hash n sp = .ok out ∧
      (∀ d ∈ out, d.lattice = L) ∧
      Spec.OncePerClass ops (Spec.Replaced (pos.zip nums) (fun _ => True) n sp.Z) (out.map cellCrystal) := by
  obtain ⟨c, g, h1, h2, h3, hL, hp, p1, p2, hk, hcon⟩ := h.setup (L := L) wy
  have hlen : ∀ m, (∃ S : Finset ℕ, S ⊆ Finset.range c.numbers.length ∧ S.card = n ∧ Spec.Subst c.numbers S sp.Z m) → m.length = c.positions.length := by
    rintro m ⟨S, _, _, hm⟩; rw [hm.1, h3.built.length]
  obtain ⟨out, o1, o2, o3⟩ := C21_nodup_unitary hash c ops wy g h3 n sp _ rfl (hinj.mono (by
    rintro m ⟨hm, d, ⟨S, _, _, hd⟩, hdm⟩
    refine ⟨by rw [hm, p1.length_eq], fun x hx => ?_⟩
    rcases subst_entries hd x (geom_entries hm hdm x hx) with e | e
    · exact .inl e
    · exact .inr (p2.mem_iff.1 e)))
  refine ⟨c, g, out, h1, h2, o1, fun d hd => (o2 d hd).1.trans hL, ?_⟩
  have := once_of_transversal h3 hcon h.unimodular hlen (fun d hd => (o2 d hd).2) o3
  rw [← replaced_perm hp, replaced_stored h3.built.length]
  convert this using 2
  ext C
  refine exists_congr fun d => and_congr_left fun _ => exists_congr fun S => ?_
  constructor
  · rintro ⟨a1, a2, a3⟩
    refine ⟨fun i hi => ?_, a1, a3⟩
    obtain ⟨v, hv, _⟩ := a2 i hi
    exact Finset.mem_range.2 (List.getElem?_eq_some_iff.1 hv).1
  · rintro ⟨a1, a2, a3⟩
    exact ⟨a2, fun i hi => ⟨_, List.getElem?_eq_getElem (Finset.mem_range.1 (a1 hi)), trivial⟩, a3⟩

/-- **C104 (`gen_nodup_of_ele`).** The same with only the atoms of the element `ele` turned into `sp`. -/
theorem C104_of_ele (hash : List ℤ → ℕ) (L : M3 ℚ) (pos : List (V3 ℚ)) (nums : List ℤ) (ops : List Spec.Op) (wy : List String)
    (h : AtomList pos nums ops) (ele : Specie) (n : ℕ) (sp : Specie)
    (hinj : Set.InjOn hash {m | m.length = pos.length ∧ ∀ x ∈ m, x = sp.Z ∨ x ∈ nums}) :
    ∃ c g out, GCell.new L pos nums = .ok c ∧ OGen.new c ops wy = .ok g ∧ g.genNodupOfEle hash ele n sp = .ok out ∧
      (∀ d ∈ out, d.lattice = L) ∧
      Spec.OncePerClass ops (Spec.Replaced (pos.zip nums) (fun v => v = ele.Z) n sp.Z) (out.map cellCrystal) := by
  obtain ⟨c, g, h1, h2, h3, hL, hp, p1, p2, hk, hcon⟩ := h.setup (L := L) wy
  have hlen : ∀ m, (∃ S : Finset ℕ, (∀ i ∈ S, c.numbers[i]? = some ele.Z) ∧ S.card = n ∧ Spec.Subst c.numbers S sp.Z m) → m.length = c.positions.length := by
    rintro m ⟨S, _, _, hm⟩; rw [hm.1, h3.built.length]
  obtain ⟨out, o1, o2, o3⟩ := C21_nodup_of_ele hash c ops wy g h3 ele n sp _ rfl (hinj.mono (by
    rintro m ⟨hm, d, ⟨S, _, _, hd⟩, hdm⟩
    refine ⟨by rw [hm, p1.length_eq], fun x hx => ?_⟩
    rcases subst_entries hd x (geom_entries hm hdm x hx) with e | e
    · exact .inl e
    · exact .inr (p2.mem_iff.1 e)))
  refine ⟨c, g, out, h1, h2, o1, fun d hd => (o2 d hd).1.trans hL, ?_⟩
  have := once_of_transversal h3 hcon h.unimodular hlen (fun d hd => (o2 d hd).2) o3
  rw [← replaced_perm hp, replaced_stored h3.built.length]
  convert this using 2
  ext C
  refine exists_congr fun d => and_congr_left fun _ => exists_congr fun S => ?_
  constructor
  · rintro ⟨a1, a2, a3⟩
    refine ⟨fun i hi => ?_, a1, a3⟩
    obtain ⟨v, hv, rfl⟩ := a2 i hi
    exact hv
  · rintro ⟨a1, a2, a3⟩
    exact ⟨a2, fun i hi => ⟨_, a1 i hi, rfl⟩, a3⟩

/-- **C104 (`gen_nodup_trinary_alloy`).** The same with `n1` atoms turned into `sp1` and `n2` others into `sp2`. -/
theorem C104_ternary (hash : List ℤ → ℕ) (L : M3 ℚ) (pos : List (V3 ℚ)) (nums : List ℤ) (ops : List Spec.Op) (wy : List String)
    (h : AtomList pos nums ops) (sp1 : Specie) (n1 : ℕ) (sp2 : Specie) (n2 : ℕ)
    (hinj : Set.InjOn hash {m | m.length = pos.length ∧ ∀ x ∈ m, x = sp1.Z ∨ x = sp2.Z ∨ x ∈ nums}) :
    ∃ c g out, GCell.new L pos nums = .ok c ∧ OGen.new c ops wy = .ok g ∧ g.genNodupTrinary hash sp1 n1 sp2 n2 = .ok out ∧
      (∀ d ∈ out, d.lattice = L) ∧
      Spec.OncePerClass ops (Spec.Replaced2 (pos.zip nums) n1 sp1.Z n2 sp2.Z) (out.map cellCrystal) := by
  obtain ⟨c, g, h1, h2, h3, hL, hp, p1, p2, hk, hcon⟩ := h.setup (L := L) wy
  have hlen : ∀ m, (∃ S T : Finset ℕ, S ⊆ Finset.range c.numbers.length ∧ T ⊆ Finset.range c.numbers.length ∧
      Disjoint S T ∧ S.card = n1 ∧ T.card = n2 ∧ Spec.Subst2 c.numbers S sp1.Z T sp2.Z m) → m.length = c.positions.length := by
    rintro m ⟨S, T, _, _, _, _, _, hm⟩; rw [hm.1, h3.built.length]
  obtain ⟨out, o1, o2, o3⟩ := C21_nodup_trinary hash c ops wy g h3 sp1 n1 sp2 n2 _ rfl (hinj.mono (by
    rintro m ⟨hm, d, ⟨S, T, _, _, _, _, _, hd⟩, hdm⟩
    refine ⟨by rw [hm, p1.length_eq], fun x hx => ?_⟩
    rcases subst2_entries hd x (geom_entries hm hdm x hx) with e | e | e
    · exact .inl e
    · exact .inr (.inl e)
    · exact .inr (.inr (p2.mem_iff.1 e))))
  refine ⟨c, g, out, h1, h2, o1, fun d hd => (o2 d hd).1.trans hL, ?_⟩
  have := once_of_transversal h3 hcon h.unimodular hlen (fun d hd => (o2 d hd).2) o3
  rw [← replaced2_perm hp, replaced2_stored h3.built.length]
  exact this

/-- **C104 (`all_speckle_gen_unitary`).** The incremental generator yields, level by level, exactly one crystal from each
class of the crystals with 1, 2, ... of the atoms that are not `sp` yet turned into `sp`. -/
theorem C104_levels_unitary (hash : List ℤ → ℕ) (L : M3 ℚ) (pos : List (V3 ℚ)) (nums : List ℤ) (ops : List Spec.Op) (wy : List String)
    (h : AtomList pos nums ops) (n : ℕ) (sp : Specie)
    (hinj : Set.InjOn hash {m | m.length = pos.length ∧ ∀ x ∈ m, x = sp.Z ∨ x ∈ nums}) :
    ∃ c g ls, GCell.new L pos nums = .ok c ∧ OGen.new c ops wy = .ok g ∧ g.allSpeckleUnitary hash n sp = .ok ls ∧
      ls.length = n - nums.count sp.Z ∧ ∀ k l, ls[k]? = some l → (∀ d ∈ l, d.lattice = L) ∧
      Spec.OncePerClass ops (Spec.Replaced (pos.zip nums) (fun v => v ≠ sp.Z) (k + 1) sp.Z) (l.map cellCrystal) := by
  obtain ⟨c, g, h1, h2, h3, hL, hp, p1, p2, hk, hcon⟩ := h.setup (L := L) wy
  obtain ⟨ls, o1, o2, o3⟩ := C23_levels_unitary hash c ops wy g h3 n sp _ fun _ => rfl
  refine ⟨c, g, ls, h1, h2, o1, ?_, fun k l hl => ?_⟩
  · rw [o2, ← p2.count_eq]; rfl
  obtain ⟨q1, q2⟩ := o3 k l hl
  refine ⟨fun d hd => (q1 d hd).1.trans hL, ?_⟩
  have := once_of_transversal h3 hcon h.unimodular (by rintro m ⟨S, _, _, hm⟩; rw [hm.1, h3.built.length]) (fun d hd => (q1 d hd).2)
    (q2 fun j _ => hinj.mono (by
      rintro m ⟨hm, d, ⟨S, _, _, hd⟩, hdm⟩
      refine ⟨by rw [hm, p1.length_eq], fun x hx => ?_⟩
      rcases subst_entries hd x (geom_entries hm hdm x hx) with e | e
      · exact .inl e
      · exact .inr (p2.mem_iff.1 e)))
  rw [← replaced_perm hp, replaced_stored h3.built.length]
  exact this

/-- **C104 (`all_speckle_gen_of_ele`).** The same with only the atoms of the element `ele` turned into `sp`. -/
theorem C104_levels_of_ele (hash : List ℤ → ℕ) (L : M3 ℚ) (pos : List (V3 ℚ)) (nums : List ℤ) (ops : List Spec.Op) (wy : List String)
    (h : AtomList pos nums ops) (n : ℕ) (ele sp : Specie)
    (hinj : Set.InjOn hash {m | m.length = pos.length ∧ ∀ x ∈ m, x = sp.Z ∨ x ∈ nums}) :
    ∃ c g ls, GCell.new L pos nums = .ok c ∧ OGen.new c ops wy = .ok g ∧ g.allSpeckleOfEle hash n ele sp = .ok ls ∧
      ls.length = n - nums.count sp.Z ∧ ∀ k l, ls[k]? = some l → (∀ d ∈ l, d.lattice = L) ∧
      Spec.OncePerClass ops (Spec.Replaced (pos.zip nums) (fun v => v = ele.Z ∧ v ≠ sp.Z) (k + 1) sp.Z) (l.map cellCrystal) := by
  obtain ⟨c, g, h1, h2, h3, hL, hp, p1, p2, hk, hcon⟩ := h.setup (L := L) wy
  obtain ⟨ls, o1, o2, o3⟩ := C23_levels_of_ele hash c ops wy g h3 n ele sp _ fun _ => rfl
  refine ⟨c, g, ls, h1, h2, o1, ?_, fun k l hl => ?_⟩
  · rw [o2, ← p2.count_eq]; rfl
  obtain ⟨q1, q2⟩ := o3 k l hl
  refine ⟨fun d hd => (q1 d hd).1.trans hL, ?_⟩
  have := once_of_transversal h3 hcon h.unimodular (by rintro m ⟨S, _, _, hm⟩; rw [hm.1, h3.built.length]) (fun d hd => (q1 d hd).2)
    (q2 fun j _ => hinj.mono (by
      rintro m ⟨hm, d, ⟨S, _, _, hd⟩, hdm⟩
      refine ⟨by rw [hm, p1.length_eq], fun x hx => ?_⟩
      rcases subst_entries hd x (geom_entries hm hdm x hx) with e | e
      · exact .inl e
      · exact .inr (p2.mem_iff.1 e)))
  rw [← replaced_perm hp, replaced_stored h3.built.length]
  exact this

/-! ## The hypotheses hold for four atoms on a line, given in another order and in another periodic image -/

def exInput : List (V3 ℚ) := [(0, 0, 1/2), (0, 0, 0), (0, 0, 3/4), (0, 0, 5/4)]

theorem far_quarters {x y : ℚ} {a b : ℤ} (hx : x = a / 4) (hy : y = b / 4) (h : ¬ (4 : ℤ) ∣ a - b) : Spec.FarMod1 x y := by
  intro k
  have e : x - y - k = ((a - b - 4 * k : ℤ) : ℚ) / 4 := by rw [hx, hy]; push_cast; ring
  rw [e, abs_div, ← Int.cast_abs]
  have h1 : 1 ≤ |a - b - 4 * k| := Int.one_le_abs (by intro h0; exact h ⟨k, by omega⟩)
  have h2 : (1 : ℚ) ≤ ((|a - b - 4 * k| : ℤ) : ℚ) := by exact_mod_cast h1
  rw [show |(4 : ℚ)| = 4 by norm_num]
  linarith

theorem exInput_apart : Spec.Separated exInput := by
  have h0 : ∀ a b : ℤ, ¬ (4 : ℤ) ∣ a - b → ∀ x y : ℚ, x = a / 4 → y = b / 4 → Spec.FarMod1 x y := fun a b h x y hx hy => far_quarters hx hy h
  simp only [Spec.Separated, exInput, List.pairwise_cons, List.mem_cons, List.not_mem_nil, or_false, forall_eq_or_imp, forall_eq,
    List.Pairwise.nil, and_true, IsEmpty.forall_iff, implies_true]
  refine ⟨⟨.inr (.inr (h0 2 0 (by decide) _ _ (by norm_num) (by norm_num))), .inr (.inr (h0 2 3 (by decide) _ _ (by norm_num) (by norm_num))),
    .inr (.inr (h0 2 5 (by decide) _ _ (by norm_num) (by norm_num)))⟩, ⟨.inr (.inr (h0 0 3 (by decide) _ _ (by norm_num) (by norm_num))),
    .inr (.inr (h0 0 5 (by decide) _ _ (by norm_num) (by norm_num)))⟩, .inr (.inr (h0 3 5 (by decide) _ _ (by norm_num) (by norm_num)))⟩

theorem exInput_list : AtomList exInput [29, 29, 29, 29] exOps :=
  ⟨by decide, rfl, exInput_apart, by constructor <;> decide +kernel, by decide +kernel⟩

example : ∃ c g out, GCell.new ((3, 0, 0), (0, 3, 0), (0, 0, 8)) exInput [29, 29, 29, 29] = .ok c ∧ OGen.new c exOps [] = .ok g ∧
    g.genNodupUnitary exHash 2 exAu = .ok out ∧ (∀ d ∈ out, d.lattice = ((3, 0, 0), (0, 3, 0), (0, 0, 8))) ∧
    Spec.OncePerClass exOps (Spec.Replaced (exInput.zip [29, 29, 29, 29]) (fun _ => True) 2 79) (out.map cellCrystal) :=
  C104_unitary exHash _ exInput _ exOps [] exInput_list 2 exAu (exHash_inj _)

end Verif
