import Verif.Lemmas.Subst

/-! # C15–C18: the substitution enumerations -/

namespace Verif

/-- one enumerated cell: same lattice and positions, numbers overwritten on `S` -/
def SubstCell (c : GCell) (z : ℤ) (S : Finset ℕ) (d : GCell) : Prop :=
  d.lattice = c.lattice ∧ d.positions = c.positions ∧ Spec.Subst c.numbers S z d.numbers

/-- shared core: enumeration over the admissible index list `ind` -/
theorem enum_core {c : GCell} (hc : Built c) (ind : List ℕ) (hnd : ind.Nodup) (n : ℕ) (z : ℤ) :
    ∃ (cells : List GCell) (subsets : List (Finset ℕ)),
      (combinations ind n).mapM (fun comb => GCell.new c.lattice c.positions (overwrite c.numbers comb z)) = .ok cells ∧
      subsets.Nodup ∧ (∀ S, S ∈ subsets ↔ S ⊆ ind.toFinset ∧ S.card = n) ∧
      List.Forall₂ (SubstCell c z) subsets cells ∧ cells.length = ind.length.choose n := by
  refine ⟨_, (combinations ind n).map List.toFinset, subst_core hc _ z, (combinations_subsets ind hnd n).1,
    (combinations_subsets ind hnd n).2, ?_, ?_⟩
  · rw [List.forall₂_map_left_iff, List.forall₂_map_right_iff, List.forall₂_same]
    intro comb _
    exact ⟨rfl, rfl, overwrite_subst _ _ _⟩
  · rw [List.length_map, length_combinations]

/-- fresh element: counts and pairwise difference -/
theorem enum_fresh {c : GCell} {z : ℤ} {subsets : List (Finset ℕ)} {cells : List GCell} {n : ℕ}
    (hnd : subsets.Nodup) (hF : List.Forall₂ (SubstCell c z) subsets cells)
    (hS : ∀ S ∈ subsets, S.card = n ∧ ∀ i ∈ S, ∃ v, c.numbers[i]? = some v ∧ v ≠ z) :
    (∀ d ∈ cells, d.numbers.count z = c.numbers.count z + n) ∧ (cells.map (·.numbers)).Nodup := by
  induction hF with
  | nil => simp
  | @cons S d subsets cells h hF ih =>
    rw [List.nodup_cons] at hnd
    obtain ⟨ih1, ih2⟩ := ih hnd.2 (fun S hS' => hS S (List.mem_cons_of_mem _ hS'))
    have hSd := hS S (by simp)
    refine ⟨?_, ?_⟩
    · intro e he
      rcases List.mem_cons.1 he with rfl | he
      · rw [h.2.2.count hSd.2, hSd.1]
      · exact ih1 e he
    · rw [List.map_cons, List.nodup_cons]
      refine ⟨?_, ih2⟩
      intro hmem
      obtain ⟨e, he, heq⟩ := List.mem_map.1 hmem
      obtain ⟨T, hT, hTe⟩ := forall₂_mem_right hF he
      have := Spec.Subst.inj (m := e.numbers) (heq ▸ h.2.2) hTe.2.2 hSd.2 (hS T (List.mem_cons_of_mem _ hT)).2
      subst this
      exact hnd.1 hT

/-- C15. One structure for every `n`-subset of the sites and nothing else; `C(N, n)` in total. -/
theorem C15_unitary_exact (g : OGen) (hg : Built g.init) (n : ℕ) (sp : Specie) :
    ∃ (cells : List GCell) (subsets : List (Finset ℕ)), g.genDupUnitary n sp = .ok cells ∧
      subsets.Nodup ∧ (∀ S, S ∈ subsets ↔ S ⊆ Finset.range g.init.numbers.length ∧ S.card = n) ∧
      List.Forall₂ (SubstCell g.init sp.Z) subsets cells ∧
      cells.length = g.init.numbers.length.choose n ∧
      (sp.Z ∉ g.init.numbers → (∀ d ∈ cells, d.getSpeckleNum sp = n) ∧ (cells.map (·.numbers)).Nodup) := by
  obtain ⟨cells, subsets, h1, h2, h3, h4, h5⟩ :=
    enum_core hg (List.range g.init.numbers.length) List.nodup_range n sp.Z
  have h3' : ∀ S, S ∈ subsets ↔ S ⊆ Finset.range g.init.numbers.length ∧ S.card = n := by
    intro S; rw [h3]
    have : (List.range g.init.numbers.length).toFinset = Finset.range g.init.numbers.length := by ext; simp
    rw [this]
  refine ⟨cells, subsets, h1, h2, h3', h4, by rw [h5, List.length_range], fun hfresh => ?_⟩
  have := enum_fresh (n := n) h2 h4 (fun S hS => by
    obtain ⟨hsub, hcard⟩ := (h3' S).1 hS
    refine ⟨hcard, fun i hi => ?_⟩
    have hlt := Finset.mem_range.1 (hsub hi)
    refine ⟨_, List.getElem?_eq_getElem hlt, ?_⟩
    intro heq
    exact hfresh (heq ▸ List.getElem_mem hlt))
  refine ⟨fun d hd => ?_, this.2⟩
  have h0 := this.1 d hd
  rw [List.count_eq_zero_of_not_mem hfresh, zero_add] at h0
  exact h0

theorem mem_eleIndices (ns : List ℤ) (z : ℤ) (i : ℕ) : i ∈ eleIndices ns z ↔ ns[i]? = some z := by
  unfold eleIndices
  rw [List.mem_map]
  constructor
  · rintro ⟨⟨v, j⟩, hp, rfl⟩
    rw [List.mem_filter, List.mem_zipIdx_iff_getElem?] at hp
    have hv : v = z := by simpa using hp.2
    rw [← hv]; exact hp.1
  · intro h
    exact ⟨(z, i), List.mem_filter.2 ⟨by rw [List.mem_zipIdx_iff_getElem?]; exact h, by simp⟩, rfl⟩

theorem eleIndices_nodup (ns : List ℤ) (z : ℤ) : (eleIndices ns z).Nodup := by
  unfold eleIndices
  have h := (zipIdx_pairwise_lt ns 0).filter (fun p => p.1 == z)
  exact (List.pairwise_map.2 h).imp (fun hab => Nat.ne_of_lt hab)

theorem eleIndices_length (ns : List ℤ) (z : ℤ) : (eleIndices ns z).length = ns.count z := by
  rw [count_eq_card, ← List.toFinset_card_of_nodup (eleIndices_nodup ns z)]
  congr 1
  ext i
  simp only [List.mem_toFinset, mem_eleIndices, Finset.mem_filter, Finset.mem_range]
  exact ⟨fun h => ⟨(List.getElem?_eq_some_iff.1 h).1, h⟩, fun h => h.2⟩

/-- C16. One structure for every `n`-subset of the sites initially holding `ele`, nothing else, no repetition. -/
theorem C16_of_ele_exact (g : OGen) (hg : Built g.init) (ele : Specie) (n : ℕ) (sp : Specie) :
    ∃ (cells : List GCell) (subsets : List (Finset ℕ)), g.genDupOfEle ele n sp = .ok cells ∧
      subsets.Nodup ∧
      (∀ S : Finset ℕ, S ∈ subsets ↔ (∀ i ∈ S, g.init.numbers[i]? = some ele.Z) ∧ S.card = n) ∧
      List.Forall₂ (SubstCell g.init sp.Z) subsets cells ∧
      cells.length = (g.init.numbers.count ele.Z).choose n ∧
      (ele.Z ≠ sp.Z → (∀ d ∈ cells, d.getSpeckleNum sp = g.init.getSpeckleNum sp + n) ∧
        (cells.map (·.numbers)).Nodup) := by
  obtain ⟨cells, subsets, h1, h2, h3, h4, h5⟩ :=
    enum_core hg (eleIndices g.init.numbers ele.Z) (eleIndices_nodup _ _) n sp.Z
  have h3' : ∀ S : Finset ℕ, S ∈ subsets ↔ (∀ i ∈ S, g.init.numbers[i]? = some ele.Z) ∧ S.card = n := by
    intro S; rw [h3]
    refine and_congr_left fun _ => ?_
    constructor
    · intro h i hi; exact (mem_eleIndices _ _ _).1 (List.mem_toFinset.1 (h hi))
    · intro h i hi; exact List.mem_toFinset.2 ((mem_eleIndices _ _ _).2 (h i hi))
  refine ⟨cells, subsets, h1, h2, h3', h4, by rw [h5, eleIndices_length], fun hne => ?_⟩
  exact enum_fresh (n := n) h2 h4 (fun S hS =>
    ⟨((h3' S).1 hS).2, fun i hi => ⟨_, ((h3' S).1 hS).1 i hi, hne⟩⟩)

theorem mem_wyckoffIndices (ws : List String) (w : String) (i : ℕ) : i ∈ wyckoffIndices ws w ↔ ws[i]? = some w := by
  unfold wyckoffIndices
  rw [List.mem_map]
  constructor
  · rintro ⟨⟨v, j⟩, hp, rfl⟩
    rw [List.mem_filter, List.mem_zipIdx_iff_getElem?] at hp
    have hv : v = w := by simpa using hp.2
    rw [← hv]; exact hp.1
  · intro h
    exact ⟨(w, i), List.mem_filter.2 ⟨by rw [List.mem_zipIdx_iff_getElem?]; exact h, by simp⟩, rfl⟩

theorem wyckoffIndices_nodup (ws : List String) (w : String) : (wyckoffIndices ws w).Nodup := by
  unfold wyckoffIndices
  have h := (zipIdx_pairwise_lt ws 0).filter (fun p => p.1 == w)
  exact (List.pairwise_map.2 h).imp (fun hab => Nat.ne_of_lt hab)

theorem wyckoffIndices_length (ws : List String) (w : String) : (wyckoffIndices ws w).length = ws.count w := by
  unfold wyckoffIndices
  rw [List.length_map]
  have : ∀ k, ((ws.zipIdx k).filter (fun p => p.1 == w)).length = ws.count w := by
    induction ws with
    | nil => simp
    | cons x ws ih =>
      intro k
      rw [List.zipIdx_cons, List.filter_cons, List.count_cons]
      by_cases h : x = w
      · subst h; simp [ih]
      · simp [h, ih]
  exact this 0

/-- C17. One structure for every `n`-subset of the sites with Wyckoff letter `wy`; other sites untouched. -/
theorem C17_wyckoff_exact (g : OGen) (hg : Built g.init) (hw : g.wyckoffs.length = g.init.numbers.length)
    (wy : String) (n : ℕ) (sp : Specie) :
    ∃ (cells : List GCell) (subsets : List (Finset ℕ)), g.genDup wy n sp = .ok cells ∧
      subsets.Nodup ∧ (∀ S : Finset ℕ, S ∈ subsets ↔ (∀ i ∈ S, g.wyckoffs[i]? = some wy) ∧ S.card = n) ∧
      List.Forall₂ (SubstCell g.init sp.Z) subsets cells ∧
      cells.length = (g.wyckoffs.count wy).choose n ∧
      (∀ d ∈ cells, ∀ i : ℕ, g.wyckoffs[i]? ≠ some wy → d.numbers[i]? = g.init.numbers[i]?) ∧
      ((∀ i : ℕ, g.wyckoffs[i]? = some wy → g.init.numbers[i]? ≠ some sp.Z) →
        (∀ d ∈ cells, d.getSpeckleNum sp = g.init.getSpeckleNum sp + n) ∧ (cells.map (·.numbers)).Nodup) := by
  obtain ⟨cells, subsets, h1, h2, h3, h4, h5⟩ :=
    enum_core hg (wyckoffIndices g.wyckoffs wy) (wyckoffIndices_nodup _ _) n sp.Z
  have h3' : ∀ S : Finset ℕ, S ∈ subsets ↔ (∀ i ∈ S, g.wyckoffs[i]? = some wy) ∧ S.card = n := by
    intro S; rw [h3]
    refine and_congr_left fun _ => ?_
    constructor
    · intro h i hi; exact (mem_wyckoffIndices _ _ _).1 (List.mem_toFinset.1 (h hi))
    · intro h i hi; exact List.mem_toFinset.2 ((mem_wyckoffIndices _ _ _).2 (h i hi))
  refine ⟨cells, subsets, h1, h2, h3', h4, by rw [h5, wyckoffIndices_length], ?_, fun hne => ?_⟩
  · intro d hd i hi
    obtain ⟨S, hS, hSd⟩ := forall₂_mem_right h4 hd
    by_cases hlt : i < g.init.numbers.length
    · rw [hSd.2.2.2 i hlt, if_neg]
      intro hiS
      exact hi (((h3' S).1 hS).1 i hiS)
    · rw [List.getElem?_eq_none (by rw [hSd.2.2.1]; omega), List.getElem?_eq_none (by omega)]
  · exact enum_fresh (n := n) h2 h4 (fun S hS => by
      refine ⟨((h3' S).1 hS).2, fun i hi => ?_⟩
      have hwi := ((h3' S).1 hS).1 i hi
      have hlt : i < g.init.numbers.length := by rw [← hw]; exact (List.getElem?_eq_some_iff.1 hwi).1
      have e := List.getElem?_eq_getElem hlt
      refine ⟨_, e, fun heq => hne i hwi (by rw [e, heq])⟩)

theorem zipLongestWrite_spec (ns : List ℤ) (z1 z2 : ℤ) (c1 c2 : List ℕ) (hd : ∀ i ∈ c1, i ∉ c2) :
    (zipLongestWrite ns z1 z2 c1 c2).length = ns.length ∧
    ∀ i < ns.length, (zipLongestWrite ns z1 z2 c1 c2)[i]? =
      if i ∈ c1 then some z1 else if i ∈ c2 then some z2 else ns[i]? := by
  induction c1 generalizing ns c2 with
  | nil =>
    induction c2 generalizing ns with
    | nil => simp [zipLongestWrite]
    | cons k c2 ih =>
      have e : zipLongestWrite ns z1 z2 [] (k :: c2) = zipLongestWrite (ns.set k z2) z1 z2 [] c2 := by
        simp only [zipLongestWrite, List.foldl_cons]
      rw [e]
      obtain ⟨h1, h2⟩ := ih (ns.set k z2) (by simp)
      refine ⟨by rw [h1]; simp, fun i hi => ?_⟩
      rw [h2 i (by simpa using hi)]
      by_cases hk : i = k
      · subst hk; simp [hi]
      · simp [hk, List.getElem?_set_ne (Ne.symm hk)]
  | cons k c1 ih =>
    cases c2 with
    | nil =>
      unfold zipLongestWrite
      obtain ⟨h1, h2⟩ := ih (ns.set k z1) [] (by simp)
      refine ⟨by rw [h1]; simp, fun i hi => ?_⟩
      rw [h2 i (by simpa using hi)]
      by_cases hk : i = k
      · subst hk; simp [hi]
      · simp [hk, List.getElem?_set_ne (Ne.symm hk)]
    | cons j c2 =>
      unfold zipLongestWrite
      obtain ⟨h1, h2⟩ := ih ((ns.set k z1).set j z2) c2 (fun i hi h => hd i (by simp [hi]) (by simp [h]))
      refine ⟨by rw [h1]; simp, fun i hi => ?_⟩
      rw [h2 i (by simpa using hi)]
      have hkj : k ≠ j := by
        have := hd k (by simp)
        rintro rfl; simp at this
      have hjc1 : j ∉ c1 := fun h => hd j (by simp [h]) (by simp)
      have hkc2 : k ∉ c2 := fun h => hd k (by simp) (by simp [h])
      by_cases hik : i = k
      · subst hik
        rw [List.getElem?_set_ne (Ne.symm hkj)]
        simp [hkc2, hi]
      · by_cases hij : i = j
        · subst hij
          simp [hjc1, hik, hi]
        · simp [hik, hij, List.getElem?_set_ne (Ne.symm hik), List.getElem?_set_ne (Ne.symm hij)]

/-- one cell of the ternary enumeration -/
def Subst2Cell (c : GCell) (z w : ℤ) (ST : Finset ℕ × Finset ℕ) (d : GCell) : Prop :=
  d.lattice = c.lattice ∧ d.positions = c.positions ∧ Spec.Subst2 c.numbers ST.1 z ST.2 w d.numbers

/-- C18. One structure for every ordered pair of disjoint site sets of sizes `n1`, `n2`, nothing else. -/
theorem C18_trinary_exact (g : OGen) (hg : Built g.init) (sp1 : Specie) (n1 : ℕ) (sp2 : Specie) (n2 : ℕ) :
    ∃ (cells : List GCell) (pairs : List (Finset ℕ × Finset ℕ)), g.genDupTrinary sp1 n1 sp2 n2 = .ok cells ∧
      pairs.Nodup ∧
      (∀ S T : Finset ℕ, (S, T) ∈ pairs ↔ S ⊆ Finset.range g.init.numbers.length ∧
        T ⊆ Finset.range g.init.numbers.length ∧ Disjoint S T ∧ S.card = n1 ∧ T.card = n2) ∧
      List.Forall₂ (Subst2Cell g.init sp1.Z sp2.Z) pairs cells ∧
      cells.length = g.init.numbers.length.choose n1 * (g.init.numbers.length - n1).choose n2 := by
  set N := g.init.numbers.length with hN
  set combs : List (List ℕ × List ℕ) := (combinations (List.range N) n1).flatMap fun c1 =>
    (combinations ((List.range N).filter (fun x => !c1.contains x)) n2).map fun c2 => (c1, c2) with hcombs
  have hmem : ∀ c1 c2, (c1, c2) ∈ combs ↔ c1 ∈ combinations (List.range N) n1 ∧
      c2 ∈ combinations ((List.range N).filter (fun x => !c1.contains x)) n2 := by
    intro c1 c2
    rw [hcombs, List.mem_flatMap]
    constructor
    · rintro ⟨a, ha, hb⟩
      obtain ⟨b, hb', heq⟩ := List.mem_map.1 hb
      obtain ⟨rfl, rfl⟩ := Prod.mk.inj heq
      exact ⟨ha, hb'⟩
    · rintro ⟨ha, hb⟩
      exact ⟨c1, ha, List.mem_map.2 ⟨c2, hb, rfl⟩⟩
  have hdisj : ∀ cc ∈ combs, ∀ i ∈ cc.1, i ∉ cc.2 := by
    rintro ⟨c1, c2⟩ hcc i hi hi2
    obtain ⟨_, h2⟩ := (hmem c1 c2).1 hcc
    rw [mem_combinations] at h2
    have := h2.1.subset hi2
    simp [List.mem_filter] at this
    exact this.2 hi
  have hnd0 : (List.range N).Nodup := List.nodup_range
  have hndf : ∀ c1 : List ℕ, ((List.range N).filter (fun x => !c1.contains x)).Nodup := fun c1 => hnd0.filter _
  have htf : ∀ c1 : List ℕ, ((List.range N).filter (fun x => !c1.contains x)).toFinset =
      Finset.range N \ c1.toFinset := by
    intro c1; ext x; simp
  refine ⟨combs.map (fun cc => redecorate g.init (zipLongestWrite g.init.numbers sp1.Z sp2.Z cc.1 cc.2)),
    combs.map (fun cc => (cc.1.toFinset, cc.2.toFinset)), ?_, ?_, ?_, ?_, ?_⟩
  · apply mapM_ok
    intro cc hcc
    exact hg.new (by rw [(zipLongestWrite_spec _ _ _ _ _ (hdisj cc hcc)).1, hg.length]) _
  · -- distinct pairs of sets
    rw [hcombs, List.map_flatMap, List.nodup_flatMap]
    constructor
    · intro c1 _
      rw [List.map_map]
      have := (combinations_subsets _ (hndf c1) n2).1
      have h2 : (combinations ((List.range N).filter (fun x => !c1.contains x)) n2).map
          ((fun cc : List ℕ × List ℕ => (cc.1.toFinset, cc.2.toFinset)) ∘ fun c2 => (c1, c2)) =
          ((combinations ((List.range N).filter (fun x => !c1.contains x)) n2).map List.toFinset).map
            (fun T => (c1.toFinset, T)) := by
        rw [List.map_map]; rfl
      rw [h2]
      exact this.map (fun a b h => (Prod.mk.inj h).2)
    · have := (combinations_subsets _ hnd0 n1).1
      rw [List.Nodup, List.pairwise_map] at this
      refine this.imp ?_
      intro a b hab
      rw [Function.onFun, List.disjoint_left]
      intro x hx hx'
      simp only [List.mem_map] at hx hx'
      obtain ⟨_, ⟨_, _, rfl⟩, rfl⟩ := hx
      obtain ⟨_, ⟨_, _, rfl⟩, heq⟩ := hx'
      exact hab (Prod.mk.inj heq).1.symm
  · intro S T
    rw [List.mem_map]
    constructor
    · rintro ⟨⟨c1, c2⟩, hcc, heq⟩
      obtain ⟨rfl, rfl⟩ := Prod.mk.inj heq
      obtain ⟨h1, h2⟩ := (hmem c1 c2).1 hcc
      have e1 := ((combinations_subsets _ hnd0 n1).2 c1.toFinset).1 (List.mem_map.2 ⟨c1, h1, rfl⟩)
      have e2 := ((combinations_subsets _ (hndf c1) n2).2 c2.toFinset).1 (List.mem_map.2 ⟨c2, h2, rfl⟩)
      rw [htf] at e2
      refine ⟨fun x hx => by simpa using e1.1 hx, fun x hx => (Finset.mem_sdiff.1 (e2.1 hx)).1, ?_, e1.2, e2.2⟩
      rw [Finset.disjoint_left]
      intro x hx hx2
      exact (Finset.mem_sdiff.1 (e2.1 hx2)).2 hx
    · rintro ⟨h1, h2, h3, h4, h5⟩
      have e1 := ((combinations_subsets _ hnd0 n1).2 S).2 ⟨fun x hx => by simpa using h1 hx, h4⟩
      obtain ⟨c1, hc1, rfl⟩ := List.mem_map.1 e1
      have e2 := ((combinations_subsets _ (hndf c1) n2).2 T).2 ⟨by
        rw [htf]; intro x hx
        exact Finset.mem_sdiff.2 ⟨h2 hx, fun hx1 => Finset.disjoint_left.1 h3 hx1 hx⟩, h5⟩
      obtain ⟨c2, hc2, rfl⟩ := List.mem_map.1 e2
      exact ⟨(c1, c2), (hmem c1 c2).2 ⟨hc1, hc2⟩, rfl⟩
  · rw [List.forall₂_map_left_iff, List.forall₂_map_right_iff, List.forall₂_same]
    intro cc hcc
    refine ⟨rfl, rfl, ?_⟩
    obtain ⟨h1, h2⟩ := zipLongestWrite_spec g.init.numbers sp1.Z sp2.Z cc.1 cc.2 (hdisj cc hcc)
    refine ⟨h1, fun i hi => ?_⟩
    simp only [redecorate]
    rw [h2 i hi]
    simp
  · rw [List.length_map, hcombs, List.length_flatMap]
    have : ∀ c1 ∈ combinations (List.range N) n1,
        ((combinations ((List.range N).filter (fun x => !c1.contains x)) n2).map fun c2 => (c1, c2)).length =
          (N - n1).choose n2 := by
      intro c1 hc1
      rw [List.length_map, length_combinations]
      rw [mem_combinations] at hc1
      congr 1
      rw [← List.toFinset_card_of_nodup (hndf c1), htf, Finset.card_sdiff_of_subset]
      · rw [Finset.card_range, List.toFinset_card_of_nodup (hnd0.sublist hc1.1), hc1.2]
      · intro x hx
        have := hc1.1.subset (List.mem_toFinset.1 hx)
        simpa using this
    rw [List.map_congr_left this, List.map_const', List.sum_replicate, length_combinations, List.length_range]
    rfl

end Verif
