import Verif.Props.Binary64Grid

/-! # C131: 80 and 101 layers

A size of 80 is the smallest at which the double precision run goes wrong: `1/80 = 0.0125` is a tie for rounding to three decimals, and
the remainder modulo 1 of `1.0125` is not the double nearest to `0.0125`. The next one is 101: `96/101 = 0.950495…` becomes the tie
`0.9505` by the first rounding. -/

namespace Verif

/-- the identity and the mirror operation `x' = x + 2y`, `y' = -y` of a rhombic cell -/
def mirrorOps : List Spec.Op := [(((1, 0, 0), (0, 1, 0), (0, 0, 1)), (0, 0, 0)), (((1, 2, 0), (0, -1, 0), (0, 0, 1)), (0, 0, 0))]

/-- the permutation of the `d × 2 × 1` grid that exchanges the two sites of the given layers -/
def swapRow (d : ℕ) (layers : List ℕ) : List ℕ :=
  (List.range (2 * d)).map fun i => if i / 2 ∈ layers then (if i % 2 = 0 then i + 1 else i - 1) else i

theorem swap_group (d : ℕ) (layers : List ℕ) (h1 : gather (swapRow d layers) (swapRow d layers) = List.range (2 * d))
    (h5 : (swapRow d layers).Perm (List.range (2 * d))) : PermGroup (2 * d) [List.range (2 * d), swapRow d layers] := by
  have hl : (swapRow d layers).length = 2 * d := by simp [swapRow]
  have h2 : gather (swapRow d layers) (List.range (2 * d)) = swapRow d layers := by
    conv_lhs => rw [← hl]
    exact gather_range _
  have h3 : gather (List.range (2 * d)) (swapRow d layers) = swapRow d layers := by
    apply List.ext_getElem?
    intro i
    have hlt : ∀ j ∈ swapRow d layers, j < (List.range (2 * d)).length := fun j hj => by
      have := h5.subset hj
      simpa using this
    rw [gather_getElem? hlt]
    cases hi : (swapRow d layers)[i]? with
    | none => rfl
    | some j =>
      have := hlt j (List.mem_of_getElem? hi)
      rw [List.length_range] at this
      simp [this]
  have h4 : gather (List.range (2 * d)) (List.range (2 * d)) = List.range (2 * d) := by
    have := gather_range (List.range (2 * d))
    rwa [List.length_range] at this
  refine ⟨?_, by simp, ?_, ?_⟩
  · intro p hp
    simp only [List.mem_cons, List.not_mem_nil, or_false] at hp
    rcases hp with rfl | rfl
    · exact List.Perm.refl _
    · exact h5
  · intro p hp q hq
    simp only [List.mem_cons, List.not_mem_nil, or_false] at hp hq ⊢
    rcases hp with rfl | rfl <;> rcases hq with rfl | rfl
    · exact .inl h4
    · exact .inr h3
    · exact .inr h2
    · exact .inl h1
  · intro p hp
    simp only [List.mem_cons, List.not_mem_nil, or_false] at hp
    rcases hp with rfl | rfl
    · exact ⟨_, by simp, h4⟩
    · exact ⟨swapRow d layers, by simp, h1⟩

/-- the mirror operation maps every site of the `d` × 2 × 1 grid onto itself, modulo lattice translations -/
theorem mirror_fixes (d : ℕ) {op : Spec.Op} (hop : op ∈ mirrorOps) {c b a : ℕ} (hb : b < 2) (ha : a < 1) :
    Spec.Cong (op.image (Spec.site d 2 1 c b a)) (Spec.site d 2 1 c b a) := by
  obtain rfl : a = 0 := by omega
  simp only [mirrorOps, List.mem_cons, List.not_mem_nil, or_false] at hop
  rw [Spec.cong_iff]
  rcases hop with rfl | rfl
  · refine ⟨⟨0, ?_⟩, ⟨0, ?_⟩, ⟨0, ?_⟩⟩ <;> simp [Spec.Op.image, Spec.site]
  · refine ⟨⟨-b, ?_⟩, ⟨b, ?_⟩, ⟨0, ?_⟩⟩
    · simp [Spec.Op.image, Spec.site]; ring
    · simp [Spec.Op.image, Spec.site]
      obtain rfl | rfl : b = 0 ∨ b = 1 := by omega
      · norm_num
      · norm_num
    · simp [Spec.Op.image, Spec.site]

/-- the operations of the example satisfy the contract of C62 -/
theorem mirror_contract {d : ℕ} (hd : d ≤ 990) : Spec.SymContract Spec.Cong (gridPos d 2 1) mirrorOps := by
  have fix : ∀ op ∈ mirrorOps, ∀ x ∈ gridPos d 2 1, Spec.Cong (op.image x) x := by
    intro op hop x hx
    obtain ⟨i, hi⟩ := List.mem_iff_getElem?.1 hx
    obtain ⟨c, b, a, _, hb, ha, _, rfl⟩ := gridPos_index hi
    exact mirror_fixes d hop hb ha
  have hkeys := (gridPos_keys (n := 5) le_rfl hd (by norm_num : 2 ≤ 990) (by norm_num : 1 ≤ 990)).2
  have hid : (((1, 0, 0), (0, 1, 0), (0, 0, 1)), (0, 0, 0)) ∈ mirrorOps := by simp [mirrorOps]
  refine ⟨fun g hg x hx => ⟨x, hx, fix g hg x hx⟩, ?_, ⟨_, hid, fun x hx => fix _ hid x hx⟩, ?_, ?_⟩
  · intro g hg x hx y hy h
    have h' : Spec.Cong x y := ((fix g hg x hx).symm.trans h).trans (fix g hg y hy)
    exact List.inj_on_of_nodup_map hkeys hx hy (keyN_cong (by norm_num) _ _ h')
  · intro f hf g hg
    exact ⟨_, hid, fun x hx y hy z hz h1 h2 => (fix _ hid x hx).trans
      (((fix g hg x hx).symm.trans h1).trans ((fix f hf y hy).symm.trans h2))⟩
  · intro f hf
    exact ⟨_, hid, fun x hx y hy h => (fix _ hid y hy).trans (h.symm.trans (fix f hf x hx))⟩

/-- a permutation carries the one different entry along -/
theorem gather_one {n : ℕ} {p : List ℕ} (hp : IsPerm n p) {t u : ℕ} (hu : p[u]? = some t) (s z : ℤ) :
    gather ((List.replicate n s).set t z) p = (List.replicate n s).set u z := by
  have hlt : ∀ i ∈ p, i < ((List.replicate n s).set t z).length := by
    intro i hi; simpa using hp.lt i hi
  have hun : u < n := by rw [← hp.length]; exact (List.getElem?_eq_some_iff.1 hu).1
  apply List.ext_getElem?
  intro k
  rw [gather_getElem? hlt]
  by_cases hk : k < n
  · have hkp : k < p.length := by rw [hp.length]; exact hk
    have hpk : p[k]? = some p[k] := List.getElem?_eq_getElem hkp
    have hpn : p[k] < n := hp.lt _ (List.getElem_mem hkp)
    rw [hpk, Option.bind_some, List.getElem?_set, List.getElem?_set, List.getElem?_replicate, List.getElem?_replicate, List.length_replicate,
      if_pos hk, if_pos hpn]
    have hiff : t = p[k] ↔ u = k := by
      constructor
      · intro h
        have hnd : p.Nodup := hp.nodup_iff.2 List.nodup_range
        exact (List.getElem?_inj (by rw [hp.length]; exact hun) hnd).1 (by rw [hu, hpk, h])
      · rintro rfl
        rw [hpk] at hu
        injection hu with hu
        exact hu.symm
    by_cases h : u = k
    · rw [if_pos h, if_pos (hiff.2 h), if_pos (by omega), if_pos hun]
    · rw [if_neg h, if_neg fun h' => h (hiff.1 h')]
  · rw [List.getElem?_eq_none (by rw [hp.length]; omega), List.getElem?_eq_none (by simp; omega)]
    rfl

theorem set_one_ne {n t u : ℕ} (ht : t < n) (htu : t ≠ u) {s z : ℤ} (h : s ≠ z) : (List.replicate n s).set t z ≠ (List.replicate n s).set u z := by
  intro he
  have := congrArg (fun l : List ℤ => l[t]?) he
  simp [ht, htu.symm] at this
  exact h this.symm

theorem count_one {n t : ℕ} (ht : t < n) {s z : Specie} (h : s ≠ z) : ((List.replicate n s).set t z).count z = 1 := by
  rw [List.count_set (by simpa using ht)]
  simp [List.count_replicate, h]

/-- the `d` × 2 × 1 grid with its one speckle at place `t` -/
def oneSpeckle (d : ℕ) (sea sp : Specie) (t : ℕ) : Cube Specie := reshape3 d 2 1 ((List.replicate (2 * d) sea).set t sp)

theorem oneSpeckle_box (d : ℕ) (sea sp : Specie) (t : ℕ) : Spec.Box d 2 1 (oneSpeckle d sea sp t) := reshape3_box _ _ _ _ (by simp; omega)

theorem oneSpeckle_flat (d : ℕ) (sea sp : Specie) (t : ℕ) : (oneSpeckle d sea sp t).flatten.flatten = (List.replicate (2 * d) sea).set t sp :=
  reshape3_flatten _ _ _ _ (by simp; omega)

theorem oneSpeckle_grid (d : ℕ) {sea sp : Specie} (hne : sea ≠ sp) {t : ℕ} (ht : t < (2 * d)) :
    SpeckleGrid sea sp d 2 1 1 (oneSpeckle d sea sp t) := by
  refine ⟨oneSpeckle_box _ _ _ _, ?_, ?_⟩
  · rw [oneSpeckle_flat]
    intro x hx
    rcases List.mem_or_eq_of_mem_set hx with h | h
    · exact .inl (List.eq_of_mem_replicate h)
    · exact .inr h
  · rw [oneSpeckle_flat]
    exact count_one ht hne

/-- a run whose second permutation exchanges the sites of some layers loses structures -/
theorem mirror_loses (d : ℕ) (hd0 : 0 < d) (layers : List ℕ) (hlay : ∀ c ∈ layers, c < d)
    (hrows : mirrorOps.mapM (fun op => idSeqN64 5 ((gridPos64 d 2 1).map (applyOp64 op))) = .ok [List.range (2 * d), swapRow d layers])
    (hgrp : PermGroup (2 * d) [List.range (2 * d), swapRow d layers])
    (lattice : M3 ℚ) (sea sp : Specie) (hsea : ReachableSpecie sea) (hsp : ReachableSpecie sp) (hne : sea ≠ sp) :
    ∃ out, genNodupCstru64 (fun _ => mirrorOps) lattice sea (d, 2, 1) sp 1 = .ok out ∧
      ∀ c ∈ layers, ∃ b < 2, SpeckleGrid sea sp d 2 1 1 (oneSpeckle d sea sp (2 * c + b)) ∧
        ∀ s ∈ out, ¬ Spec.GridEquiv Spec.Cong d 2 1 mirrorOps s.grid (oneSpeckle d sea sp (2 * c + b)) := by
  have hsb := sea_rect d 2 1 sea
  have hm := cstru_new lattice (by omega) (by omega) _ hsb
  obtain ⟨cell, hc1, hc2, _⟩ := getCell64_ok lattice (d := d) (w := 2) (l := 1) (by omega) (by omega) (by omega) _ hsb
  obtain ⟨grids, g1, _, _, g4⟩ := (C06_gen_speckle sea sp hsea hsp hne d 2 1 1).1 (by positivity)
  have hgs : CStru.genSpeckle lattice sea (d, 2, 1) sp 1 = .ok (grids.map fun c => CStru.mk lattice c d 2 1) := by
    unfold CStru.genSpeckle
    rw [g1, okBind]
    exact mapM_ok _ _ _ fun c hc => cstru_new lattice (by omega) (by omega) c ((g4 c).1 hc).1
  have hstrus : ∀ s ∈ grids.map (fun c => CStru.mk lattice c d 2 1),
      s.depth = d ∧ s.width = 2 ∧ s.length = 1 ∧ Spec.Box d 2 1 s.grid := by
    intro s hs
    obtain ⟨c, hc, rfl⟩ := List.mem_map.1 hs
    exact ⟨rfl, rfl, rfl, ((g4 c).1 hc).1⟩
  have hloop := genNodupLoop_eq [List.range (2 * d), swapRow d layers] (d := d) (w := 2) (l := 1) (by omega) (by omega) (by omega)
    (fun p hp i hi => by have := (hgrp.perm p hp).lt i hi; omega) (grids.map fun c => CStru.mk lattice c d 2 1) hstrus []
  refine ⟨dedupL (fun s : CStru => atomSeqId s.nums) (fun s => isoNum atomSeqId [List.range (2 * d), swapRow d layers] s.nums) []
    (grids.map fun c => CStru.mk lattice c d 2 1), ?_, ?_⟩
  · unfold genNodupCstru64
    simp only
    rw [hm, okBind, hc1, okBind]
    unfold getPermutationCell64
    rw [hc2, hrows, okBind, hgs, okBind, genNodupLoop64_eq]
    exact hloop
  have hlen : ∀ m ∈ (grids.map fun c => CStru.mk lattice c d 2 1).map CStru.nums, m.length = 2 * d := by
    intro m hm
    obtain ⟨s, hs, rfl⟩ := List.mem_map.1 hm
    rw [CStru.nums, List.length_map, box_length (hstrus s hs).2.2.2]; omega
  have hsub := dedupL_sublist (fun s : CStru => atomSeqId s.nums) (fun s => isoNum atomSeqId [List.range (2 * d), swapRow d layers] s.nums) []
    (grids.map fun c => CStru.mk lattice c d 2 1)
  have hpw := dedupNum_pairwise atomSeqId hgrp ((grids.map fun c => CStru.mk lattice c d 2 1).map CStru.nums) hlen
  rw [← dedupL_map CStru.nums] at hpw
  set out := dedupL (fun s : CStru => atomSeqId s.nums) (fun s => isoNum atomSeqId [List.range (2 * d), swapRow d layers] s.nums) []
    (grids.map fun c => CStru.mk lattice c d 2 1)
  have hZ : sea.Z ≠ sp.Z := fun h => hne (by rw [← (reachable_known hsea).2, ← (reachable_known hsp).2, h])
  -- a grid equivalent to the grid with one speckle at `t` has its numbers
  have heq : ∀ s ∈ out, ∀ t, Spec.GridEquiv Spec.Cong d 2 1 mirrorOps s.grid (oneSpeckle d sea sp t) →
      (List.replicate (2 * d) sea.Z).set t sp.Z ∈ out.map CStru.nums := by
    rintro s hs t ⟨op, hop, hcar⟩
    refine List.mem_map.2 ⟨s, hs, ?_⟩
    have hbox := (hstrus s (hsub.subset hs)).2.2.2
    have hflat : s.grid.flatten.flatten = (List.replicate (2 * d) sea).set t sp := by
      rw [← oneSpeckle_flat]
      apply List.ext_getElem?
      intro i
      by_cases hi : i < (2 * d)
      · have e : i = (i / 2 * 2 + i % 2) * 1 + 0 := by omega
        rw [e, box_getElem? hbox _ _ _ (Nat.mod_lt _ (by omega)) (by omega),
          box_getElem? (oneSpeckle_box d sea sp t) _ _ _ (Nat.mod_lt _ (by omega)) (by omega)]
        exact hcar _ _ _ _ _ _ (by omega) (by omega) (by omega) (by omega) (by omega) (by omega)
          (mirror_fixes d hop (by omega) (by omega))
      · rw [List.getElem?_eq_none (by rw [box_length hbox]; omega),
          List.getElem?_eq_none (by rw [box_length (oneSpeckle_box d sea sp t)]; omega)]
    rw [CStru.nums, hflat, List.map_set, List.map_replicate]
  intro c hc
  have hcl : c < d := hlay c hc
  have hrel : Rel [List.range (2 * d), swapRow d layers] ((List.replicate (2 * d) sea.Z).set (2 * c) sp.Z) ((List.replicate (2 * d) sea.Z).set (2 * c + 1) sp.Z) := by
    refine ⟨swapRow d layers, by simp, gather_one (hgrp.perm _ (by simp)) ?_ _ _⟩
    unfold swapRow
    rw [List.getElem?_map, List.getElem?_range (by omega)]
    have e1 : (2 * c + 1) / 2 = c := by omega
    simp [e1, hc]
  have hdiff : (List.replicate (2 * d) sea.Z).set (2 * c) sp.Z ≠ (List.replicate (2 * d) sea.Z).set (2 * c + 1) sp.Z :=
    set_one_ne (by omega) (by omega) hZ
  by_contra hcon
  push Not at hcon
  have hex : ∀ b < 2, (List.replicate (2 * d) sea.Z).set (2 * c + b) sp.Z ∈ out.map CStru.nums := by
    intro b hb
    obtain ⟨s, hs, he⟩ := hcon b hb (oneSpeckle_grid d hne (by omega))
    exact heq s hs _ he
  have h0 := hex 0 (by omega)
  have h1 := hex 1 (by omega)
  rw [Nat.add_zero] at h0
  obtain ⟨i, hi⟩ := List.mem_iff_getElem?.1 h0
  obtain ⟨j, hj⟩ := List.mem_iff_getElem?.1 h1
  rw [List.getElem?_eq_some_iff] at hi hj
  obtain ⟨hi, ei⟩ := hi
  obtain ⟨hj, ej⟩ := hj
  rw [List.pairwise_iff_getElem] at hpw
  rcases lt_trichotomy i j with h | h | h
  · have := (hpw i j hi hj h).1
    rw [ei, ej] at this
    exact this hrel
  · subst h
    exact hdiff (ei.symm.trans ej)
  · have := (hpw j i hj hi h).2
    rw [ei, ej] at this
    exact this hrel

set_option maxRecDepth 100000 in
theorem rows_80 : mirrorOps.mapM (fun op => idSeqN64 5 ((gridPos64 80 2 1).map (applyOp64 op))) =
    .ok [List.range 160, swapRow 80 [1, 11, 21, 27, 31, 37, 47, 57, 67, 77]] := by
  decide +kernel

set_option maxRecDepth 100000 in
theorem rows_101 : mirrorOps.mapM (fun op => idSeqN64 5 ((gridPos64 101 2 1).map (applyOp64 op))) = .ok [List.range 202, swapRow 101 [96]] := by
  decide +kernel

set_option maxRecDepth 100000 in
/-- **C131 fails for 80 layers.** On the 80 × 2 × 1 grid, with the identity and a mirror operation that fixes every site (so that no two
different grids are equivalent) and exact translations, `gen_nodup_cstru` with one speckle loses structures in double precision: for each of ten layers, one of the two grids with the
speckle in that layer is not equivalent to any grid yielded. -/
theorem C131_false_80 (lattice : M3 ℚ) (sea sp : Specie) (hsea : ReachableSpecie sea) (hsp : ReachableSpecie sp) (hne : sea ≠ sp) :
    ∃ out, genNodupCstru64 (fun _ => mirrorOps) lattice sea (80, 2, 1) sp 1 = .ok out ∧
      ∀ c ∈ [1, 11, 21, 27, 31, 37, 47, 57, 67, 77], ∃ b < 2, SpeckleGrid sea sp 80 2 1 1 (oneSpeckle 80 sea sp (2 * c + b)) ∧
        ∀ s ∈ out, ¬ Spec.GridEquiv Spec.Cong 80 2 1 mirrorOps s.grid (oneSpeckle 80 sea sp (2 * c + b)) :=
  mirror_loses 80 (by norm_num) _ (by decide) rows_80 (swap_group 80 _ (by decide +kernel) (by decide +kernel)) lattice sea sp hsea hsp hne

set_option maxRecDepth 100000 in
/-- **C131 fails for 101 layers**, the first size from 100 on that is not good: one of the two grids with the speckle in layer 96 is lost. -/
theorem C131_false_101 (lattice : M3 ℚ) (sea sp : Specie) (hsea : ReachableSpecie sea) (hsp : ReachableSpecie sp) (hne : sea ≠ sp) :
    ∃ out, genNodupCstru64 (fun _ => mirrorOps) lattice sea (101, 2, 1) sp 1 = .ok out ∧
      ∃ b < 2, SpeckleGrid sea sp 101 2 1 1 (oneSpeckle 101 sea sp (2 * 96 + b)) ∧
        ∀ s ∈ out, ¬ Spec.GridEquiv Spec.Cong 101 2 1 mirrorOps s.grid (oneSpeckle 101 sea sp (2 * 96 + b)) := by
  obtain ⟨out, h1, h2⟩ := mirror_loses 101 (by norm_num) [96] (by decide) rows_101 (swap_group 101 _ (by decide +kernel) (by decide +kernel))
    lattice sea sp hsea hsp hne
  exact ⟨out, h1, h2 96 (by simp)⟩

/-- **C131, the exact run.** With exact arithmetic the same calls yield every one of the grids. -/
theorem C131_exact {d : ℕ} (hd0 : 0 < d) (hd : d ≤ 990) (lattice : M3 ℚ) (sea sp : Specie) (hsea : ReachableSpecie sea)
    (hsp : ReachableSpecie sp) (hne : sea ≠ sp) :
    ∃ out, genNodupCstru (fun _ => mirrorOps) lattice sea (d, 2, 1) sp 1 = .ok out ∧
      ∀ c, SpeckleGrid sea sp d 2 1 1 c → ∃ s ∈ out, Spec.GridEquiv Spec.Cong d 2 1 mirrorOps s.grid c := by
  have hsb := sea_rect d 2 1 sea
  have hm := cstru_new lattice (by omega) (by omega) _ hsb
  obtain ⟨cell, hc1, hc2, _⟩ := getCell_ok lattice (d := d) (w := 2) (l := 1) (by omega) (by omega) (by omega) _ hsb
  obtain ⟨out, h1, _, h2, _⟩ := C62_exact (fun _ => mirrorOps) lattice sea sp hsea hsp hne d 2 1 1 (by omega) (by omega) (by omega)
    (by omega) (by omega) (by omega) _ cell hm hc1 (by rw [hc2]; exact mirror_contract hd)
  exact ⟨out, h1, h2⟩

/-- the mirror operation is a symmetry of a lattice: it preserves the scalar products of the 80 × 2 × 1 supercell of the lattice with rows
`(1, 0, 0)`, `(40, 1, 0)`, `(0, 0, 1)`, whose supercell rows are `(80, 0, 0)`, `(80, 2, 0)`, `(0, 0, 1)` -/
example : ∀ x y z : ℚ, (80 * (x + 2 * y) + 80 * -y) ^ 2 + (2 * -y) ^ 2 + z ^ 2 = (80 * x + 80 * y) ^ 2 + (2 * y) ^ 2 + z ^ 2 := by
  intro x y z; ring

/-- the two keys of the first layer: `1/80` and `1/80 + 1` are the same place -/
example : keyN64 5 (fl64 (1 / 80)) = fl64 (13 / 1000) ∧ keyN64 5 (fl64 (fl64 (1 / 80) + 1)) = fl64 (12 / 1000) := by decide +kernel

end Verif
