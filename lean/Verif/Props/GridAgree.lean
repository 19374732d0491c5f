import Verif.Props.GridSym
import Verif.Props.ScaffoldMore
import Verif.Props.Unimodal
import Mathlib.Logic.Encodable.Basic
import Mathlib.Logic.Encodable.Lattice

/-! # C116: the grid generator and the cell generator find the same structures -/

namespace Verif

theorem key_mem {K : Type _} {h : List ℤ → K} {T : Set (List ℤ)} (hi : Set.InjOn h T) {S : List (List ℤ)} (hS : ∀ x ∈ S, x ∈ T)
    {x : List ℤ} (hx : x ∈ T) : h x ∈ S.map h ↔ x ∈ S := by
  rw [List.mem_map]
  constructor
  · rintro ⟨y, hy, e⟩
    rw [← hi (hS y hy) hx e]; exact hy
  · exact fun hx => ⟨_, hx, rfl⟩

theorem isoNum_append {K : Type _} (h : List ℤ → K) (P : List (List ℕ)) (m : List ℤ) (S : List (List ℤ)) :
    isoNum h P m ++ S.map h = (P.map (gather m) ++ S).map h := by
  rw [List.map_append, List.map_map]; rfl

/-- two keys without collisions give the same selection -/
theorem dedup_keys {A K₁ K₂ : Type _} [DecidableEq K₁] [DecidableEq K₂] (m : A → List ℤ) (h₁ : List ℤ → K₁) (h₂ : List ℤ → K₂)
    (P : List (List ℕ)) (T : Set (List ℤ)) (i₁ : Set.InjOn h₁ T) (i₂ : Set.InjOn h₂ T) (l : List A)
    (hl : ∀ a ∈ l, m a ∈ T ∧ ∀ p ∈ P, gather (m a) p ∈ T) (S : List (List ℤ)) (hS : ∀ x ∈ S, x ∈ T) :
    dedupL (fun a => h₁ (m a)) (fun a => isoNum h₁ P (m a)) (S.map h₁) l =
      dedupL (fun a => h₂ (m a)) (fun a => isoNum h₂ P (m a)) (S.map h₂) l := by
  induction l generalizing S with
  | nil => rfl
  | cons a l ih =>
    have ih' := ih (fun b hb => hl b (List.mem_cons_of_mem _ hb))
    obtain ⟨ha, hp⟩ := hl a (by simp)
    rw [dedupL_cons, dedupL_cons]
    simp only [key_mem i₁ hS ha, key_mem i₂ hS ha, isoNum_append]
    split
    · exact ih' S hS
    · rw [ih' _ (by
        intro x hx
        rcases List.mem_append.1 hx with hx | hx
        · obtain ⟨p, hp', rfl⟩ := List.mem_map.1 hx
          exact hp p hp'
        · exact hS x hx)]

theorem dedupL_congr_key {A K : Type _} [DecidableEq K] (key key' : A → K) (iso iso' : A → List K) (seen : List K) (l : List A)
    (hk : ∀ a ∈ l, key a = key' a) (hi : ∀ a ∈ l, iso a = iso' a) : dedupL key iso seen l = dedupL key' iso' seen l := by
  induction l generalizing seen with
  | nil => rfl
  | cons a l ih =>
    have ih' := fun s => ih s (fun b hb => hk b (List.mem_cons_of_mem _ hb)) (fun b hb => hi b (List.mem_cons_of_mem _ hb))
    rw [dedupL_cons, dedupL_cons, hk a (by simp), hi a (by simp), ih', ih']

/-- the rows the two modules compute for an operation that permutes the sites of a grid -/
theorem rows_agree {d w l : ℕ} (hd : d ≤ 990) (hw : w ≤ 990) (hl : l ≤ 990) {op : Spec.Op}
    (maps : ∀ x ∈ gridPos d w l, ∃ y ∈ gridPos d w l, Spec.Cong (op.image x) y)
    (inj : ∀ x ∈ gridPos d w l, ∀ y ∈ gridPos d w l, Spec.Cong (op.image x) (op.image y) → x = y) :
    lexsort3 (((gridPos d w l).map (applyOp op)).map (V3.map (keyN 5))) = lexsort3 (((gridPos d w l).map (applyOp op)).map siteKey) := by
  obtain ⟨k1, k2⟩ := gridPos_keys (n := 5) le_rfl hd hw hl
  have s := gridPos_sorted hd hw hl
  have r1 := exactRow_of_sort (fun x y h => keyN_cong (by omega) x y h) k1 k2 maps inj
  have r2 := exactRow_of_sort (κ := siteKey) (fun x y h => (siteKey_cong h).symm) (s.imp fun h => h.1) (s.imp fun h => h.2) maps inj
  exact r2.ext r1.1 fun i j x y hx hy hij => (r1.2 i x hx j y hy).1 hij

/-- the general cell of a grid with at most 990 layers in every direction -/
def gridCell (lattice : M3 ℚ) (d w l : ℕ) (nums : List ℤ) : GCell :=
  ⟨(V3.map ((d : ℚ) * ·) lattice.1, V3.map ((w : ℚ) * ·) lattice.2.1, V3.map ((l : ℚ) * ·) lattice.2.2), gridPos d w l, nums, nums, nums.length⟩

theorem gridCell_new (L : M3 ℚ) {d w l : ℕ} (hd : 0 < d) (hw : 0 < w) (hl : 0 < l) (hd' : d ≤ 990) (hw' : w ≤ 990) (hl' : l ≤ 990)
    {nums : List ℤ} (hn : nums.length = d * w * l) : GCell.new L (gridPos d w l) nums = .ok ⟨L, gridPos d w l, nums, nums, nums.length⟩ := by
  have hs := lexsort3_of_sorted _ ((gridPos_sorted hd' hw' hl').imp fun h => h.1)
  rw [List.length_map] at hs
  have hnl : nums.length = (gridPos d w l).length := by rw [hn, gridPos_length]
  obtain ⟨ps, ns, f1, f2, hnew⟩ := new_spec (nums := nums) L (gridPos_ne hd hw hl) (by rw [hnl])
  rw [hs, fancy_range] at f1
  rw [hs, ← hnl, fancy_range] at f2
  obtain rfl := Except.ok.inj f1
  obtain rfl := Except.ok.inj f2
  exact hnew

theorem getGcell_grid (m : M3 ℚ) {d w l : ℕ} (hd : 0 < d) (hw : 0 < w) (hl : 0 < l) (hd' : d ≤ 990) (hw' : w ≤ 990) (hl' : l ≤ 990)
    (grid : Cube Specie) (hb : Spec.Box d w l grid) :
    (CStru.mk m grid d w l).getCell = .ok ⟨(gridCell m d w l (grid.flatten.flatten.map (·.Z))).lattice, gridPos d w l, grid.flatten.flatten.map (·.Z)⟩ ∧
    (CStru.mk m grid d w l).getGcell = .ok (gridCell m d w l (grid.flatten.flatten.map (·.Z))) := by
  have harr : cubeToArray grid = .ok (cubeMap (·.Z) grid) := by
    unfold cubeToArray; rw [if_neg (box_size_pos hb hd hw hl)]
  have h1 : (CStru.mk m grid d w l).getCell = .ok ⟨(gridCell m d w l (grid.flatten.flatten.map (·.Z))).lattice, gridPos d w l, grid.flatten.flatten.map (·.Z)⟩ := by
    unfold CStru.getCell CStru.getArray
    simp only [harr, okBind]
    rw [← cubeMap_flatten]
    have : gridPos d w l = (yieldPosition d w l).map fun p => ((p.1 : ℚ) * (1 / d), (p.2.1 : ℚ) * (1 / w), (p.2.2 : ℚ) * (1 / l)) := by
      unfold gridPos Spec.site
      refine List.map_congr_left fun p _ => ?_
      simp only [mul_one_div]
    rw [this]
    rfl
  refine ⟨h1, ?_⟩
  unfold CStru.getGcell
  rw [h1, okBind]
  exact gridCell_new _ hd hw hl hd' hw' hl' (by rw [List.length_map, box_length hb])

theorem sea_numbers (d w l : ℕ) (sea : Specie) : (seaCube d w l sea).flatten.flatten.map (·.Z) = List.replicate (d * w * l) sea.Z := by
  rw [List.eq_replicate_iff]
  refine ⟨by rw [List.length_map, box_length (sea_rect d w l sea)], fun x hx => ?_⟩
  obtain ⟨s, hs, rfl⟩ := List.mem_map.1 hx
  obtain ⟨row, hr, hs⟩ := List.mem_flatten.1 hs
  obtain ⟨plane, hp, hr⟩ := List.mem_flatten.1 hr
  obtain ⟨_, _, rfl⟩ := List.mem_map.1 hp
  obtain ⟨_, _, rfl⟩ := List.mem_map.1 hr
  obtain ⟨_, _, rfl⟩ := List.mem_map.1 hs
  rfl

/-- the grids of `gen_speckle`, in order -/
theorem genSpeckle_list (lattice : M3 ℚ) (sea sp : Specie) (hsea : ReachableSpecie sea) (hsp : ReachableSpecie sp) (hne : sea ≠ sp)
    {d w l : ℕ} (hd : 0 < d) (hw : 0 < w) (hl : 0 < l) (num : ℕ) :
    CStru.genSpeckle lattice sea (d, w, l) sp num = .ok ((combinations (List.range (d * w * l)) num).map fun c =>
        ⟨lattice, cubeMap specieOf (reshape3 d w l (overwrite (List.replicate (d * w * l) sea.Z) c sp.Z)), d, w, l⟩) ∧
    ∀ c ∈ combinations (List.range (d * w * l)) num,
      Spec.Box d w l (cubeMap specieOf (reshape3 d w l (overwrite (List.replicate (d * w * l) sea.Z) c sp.Z))) ∧
      (cubeMap specieOf (reshape3 d w l (overwrite (List.replicate (d * w * l) sea.Z) c sp.Z))).flatten.flatten.map (·.Z) =
        overwrite (List.replicate (d * w * l) sea.Z) c sp.Z := by
  have hZ : sea.Z ≠ sp.Z := fun h => hne (by rw [← (reachable_known hsea).2, ← (reachable_known hsp).2, h])
  obtain ⟨k1, k2⟩ := reachable_known hsea
  obtain ⟨k3, k4⟩ := reachable_known hsp
  have hpos : 0 < d * w * l := by positivity
  obtain ⟨s1, s2⟩ := speckle_list (d * w * l) num sea.Z sp.Z hZ
  have hbox : ∀ c ∈ combinations (List.range (d * w * l)) num,
      Spec.Box d w l (cubeMap specieOf (reshape3 d w l (overwrite (List.replicate (d * w * l) sea.Z) c sp.Z))) ∧
      (cubeMap specieOf (reshape3 d w l (overwrite (List.replicate (d * w * l) sea.Z) c sp.Z))).flatten.flatten.map (·.Z) =
        overwrite (List.replicate (d * w * l) sea.Z) c sp.Z := by
    intro c hc
    obtain ⟨m1, m2, _⟩ := (s2 _).1 (List.mem_map.2 ⟨c, hc, rfl⟩)
    refine ⟨cubeMap_box _ (reshape3_box _ _ _ _ m1), ?_⟩
    rw [cubeMap_flatten, reshape3_flatten _ _ _ _ m1, List.map_map]
    conv_rhs => rw [← List.map_id (overwrite (List.replicate (d * w * l) sea.Z) c sp.Z)]
    refine List.map_congr_left fun x hx => ?_
    rcases m2 x hx with rfl | rfl
    · simp only [Function.comp, k2, id]
    · simp only [Function.comp, k4, id]
  refine ⟨?_, hbox⟩
  have hok : sgGenSpeckle sea (d, w, l) sp num = .ok ((combinations (List.range (d * w * l)) num).map fun c =>
      cubeMap specieOf (reshape3 d w l (overwrite (List.replicate (d * w * l) sea.Z) c sp.Z))) := by
    refine mapM_ok _ _ _ fun c hc => ?_
    obtain ⟨m1, m2, _⟩ := (s2 _).1 (List.mem_map.2 ⟨c, hc, rfl⟩)
    refine cubeFromArray_ok _ ?_ ?_
    · rw [cubeSize]
      change (reshape3 d w l (overwrite (List.replicate (d * w * l) sea.Z) c sp.Z)).flatten.flatten.length ≠ 0
      rw [reshape3_flatten _ _ _ _ m1, m1]; omega
    · intro n hn
      change n ∈ (reshape3 d w l (overwrite (List.replicate (d * w * l) sea.Z) c sp.Z)).flatten.flatten at hn
      rw [reshape3_flatten _ _ _ _ m1] at hn
      rcases m2 n hn with rfl | rfl
      · exact k1
      · exact k3
  unfold CStru.genSpeckle
  rw [hok, okBind]
  have : ∀ cs : List (List ℕ), (∀ c ∈ cs, c ∈ combinations (List.range (d * w * l)) num) →
      (cs.map fun c => cubeMap specieOf (reshape3 d w l (overwrite (List.replicate (d * w * l) sea.Z) c sp.Z))).mapM (CStru.new lattice) =
      .ok (cs.map fun c => ⟨lattice, cubeMap specieOf (reshape3 d w l (overwrite (List.replicate (d * w * l) sea.Z) c sp.Z)), d, w, l⟩) := by
    intro cs hcs
    rw [List.mapM_map]
    exact mapM_ok _ _ _ fun c hc => cstru_new lattice hd hw _ (hbox c (hcs c hc)).1
  exact this _ fun c hc => hc

/-- **C116 (the same structures).** For grids of at most 990 layers in every direction and operations that permute the sites exactly:
the general cell of the grid without speckles is the data spglib is given by `gen_nodup_cstru`, and `OccupyGenerator` on
this cell, with the same operations and a hash without collisions on the decorations with `num` speckles, yields the
general cells of the structures yielded by `gen_nodup_cstru`, one by one and in the same order. The operations need not form a group. -/
theorem C116_agree (hash : List ℤ → ℕ) (spg : SpgCell → List Spec.Op) (wy : List String) (lattice : M3 ℚ) (sea sp : Specie)
    (hsea : ReachableSpecie sea) (hsp : ReachableSpecie sp) (hne : sea ≠ sp) (d w l num : ℕ) (hd : 0 < d) (hw : 0 < w) (hl : 0 < l)
    (hd' : d ≤ 990) (hw' : w ≤ 990) (hl' : l ≤ 990) (mother : CStru) (cell : SpgCell)
    (hm : CStru.new lattice (seaCube d w l sea) = .ok mother) (hcell : mother.getCell = .ok cell)
    (maps : ∀ op ∈ spg cell, ∀ x ∈ cell.positions, ∃ y ∈ cell.positions, Spec.Cong (op.image x) y)
    (inj : ∀ op ∈ spg cell, ∀ x ∈ cell.positions, ∀ y ∈ cell.positions, Spec.Cong (op.image x) (op.image y) → x = y)
    (hinj : Set.InjOn hash {m | m.length = d * w * l ∧ (∀ x ∈ m, x = sea.Z ∨ x = sp.Z) ∧ m.count sp.Z = num}) :
    ∃ c g out cells, mother.getGcell = .ok c ∧ c.lattice = cell.lattice ∧ c.positions = cell.positions ∧ c.numbers = cell.numbers ∧
      OGen.new c (spg cell) wy = .ok g ∧ genNodupCstru spg lattice sea (d, w, l) sp num = .ok out ∧
      g.genNodupUnitary hash num sp = .ok cells ∧ List.Forall₂ (fun s e => s.getGcell = .ok e) out cells := by
  have hZ : sea.Z ≠ sp.Z := fun h => hne (by rw [← (reachable_known hsea).2, ← (reachable_known hsp).2, h])
  have hsb := sea_rect d w l sea
  have hmo := cstru_new lattice hd hw _ hsb
  rw [hm] at hmo
  injection hmo with hmo
  subst hmo
  obtain ⟨e1, e2⟩ := getGcell_grid lattice hd hw hl hd' hw' hl' _ hsb
  rw [hcell] at e1
  injection e1 with e1
  rw [sea_numbers] at e1 e2
  have hpos : cell.positions = gridPos d w l := by rw [e1]
  rw [hpos] at maps inj
  have hgne := gridPos_ne hd hw hl
  -- the permutation tables
  obtain ⟨rows, hrows1, hrows2, hperm⟩ : ∃ rows, (spg cell).mapM (fun op => idSeqN 5 ((gridPos d w l).map (applyOp op))) = .ok rows ∧
      (spg cell).mapM (fun op => newIdSeq ((gridPos d w l).map (applyOp op))) = .ok rows ∧ ∀ p ∈ rows, IsPerm (d * w * l) p := by
    refine ⟨(spg cell).map fun op => lexsort3 (((gridPos d w l).map (applyOp op)).map siteKey), mapM_ok _ _ _ ?_, mapM_ok _ _ _ ?_, ?_⟩
    · intro op hop
      unfold idSeqN
      rw [if_neg (by simpa using hgne), rows_agree hd' hw' hl' (maps op hop) (inj op hop)]
    · intro op hop
      exact newIdSeq_ok (by simpa using hgne)
    · intro p hp
      obtain ⟨op, _, rfl⟩ := List.mem_map.1 hp
      have := lexsort3_perm (((gridPos d w l).map (applyOp op)).map siteKey)
      simpa [gridPos_length] using this
  refine ⟨gridCell lattice d w l (List.replicate (d * w * l) sea.Z), ⟨gridCell lattice d w l (List.replicate (d * w * l) sea.Z), rows, wy⟩, ?_⟩
  obtain ⟨hgs, hbox⟩ := genSpeckle_list lattice sea sp hsea hsp hne hd hw hl num
  obtain ⟨_, s2⟩ := speckle_list (d * w * l) num sea.Z sp.Z hZ
  let m : List ℕ → List ℤ := fun c => overwrite (List.replicate (d * w * l) sea.Z) c sp.Z
  let F : List ℕ → CStru := fun c => ⟨lattice, cubeMap specieOf (reshape3 d w l (m c)), d, w, l⟩
  let G : List ℕ → GCell := fun c => gridCell lattice d w l (m c)
  let C := combinations (List.range (d * w * l)) num
  have hml : ∀ c, (m c).length = d * w * l := fun c => by simp only [m, overwrite_length, List.length_replicate]
  have hnums : ∀ c ∈ C, (F c).nums = m c := fun c hc => (hbox c hc).2
  have hT : ∀ c ∈ C, m c ∈ {m | m.length = d * w * l ∧ (∀ x ∈ m, x = sea.Z ∨ x = sp.Z) ∧ m.count sp.Z = num} ∧
      ∀ p ∈ rows, gather (m c) p ∈ {m | m.length = d * w * l ∧ (∀ x ∈ m, x = sea.Z ∨ x = sp.Z) ∧ m.count sp.Z = num} := by
    intro c hc
    have h1 := (s2 (m c)).1 (List.mem_map.2 ⟨c, hc, rfl⟩)
    refine ⟨h1, fun p hp => ?_⟩
    have hpp := gather_perm (xs := m c) (p := p) (by rw [hml]; exact hperm p hp)
    exact ⟨by rw [hpp.length_eq, hml], fun x hx => h1.2.1 x (hpp.subset hx), by rw [hpp.count_eq]; exact h1.2.2⟩
  have hsel := dedup_keys m atomSeqId hash rows _ (fun a _ b _ h => atomSeqId_inj h) hinj C hT [] (by simp)
  have hdup : (OGen.mk (gridCell lattice d w l (List.replicate (d * w * l) sea.Z)) rows wy).genDupUnitary num sp = .ok (C.map G) := by
    unfold OGen.genDupUnitary
    have hlen : (gridCell lattice d w l (List.replicate (d * w * l) sea.Z)).numbers.length = d * w * l := by simp [gridCell]
    change (combinations (List.range (gridCell lattice d w l (List.replicate (d * w * l) sea.Z)).numbers.length) num).mapM _ = _
    rw [hlen]
    refine mapM_ok _ _ _ fun c hc => ?_
    exact gridCell_new _ hd hw hl hd' hw' hl' (hml c)
  refine ⟨(dedupL (fun c => atomSeqId (m c)) (fun c => isoNum atomSeqId rows (m c)) [] C).map F,
    (dedupL (fun c => hash (m c)) (fun c => isoNum hash rows (m c)) [] C).map G, e2, by rw [e1], by rw [e1]; rfl, by rw [e1]; rfl, ?_, ?_, ?_, ?_⟩
  · unfold OGen.new GCell.symmetryPermutation
    change (spg cell).mapM (fun op => newIdSeq ((gridPos d w l).map (applyOp op))) >>= _ = _
    rw [hrows2]; rfl
  · unfold genNodupCstru
    simp only
    rw [hm, okBind, hcell, okBind]
    unfold getPermutationCell
    rw [hpos, hrows1, okBind, hgs, okBind]
    rw [genNodupLoop_eq rows hd hw hl (fun p hp => (hperm p hp).lt) _ (fun s hs => by
      obtain ⟨c, hc, rfl⟩ := List.mem_map.1 hs
      exact ⟨rfl, rfl, rfl, (hbox c hc).1⟩) []]
    congr 1
    change dedupL _ _ [] (C.map F) = _
    rw [← dedupL_map F]
    congr 1
    exact dedupL_congr_key _ _ _ _ _ _ (fun c hc => by rw [hnums c hc]) (fun c hc => by rw [hnums c hc])
  · unfold OGen.genNodupUnitary
    rw [hdup, okBind]
    unfold OGen.gen2Nodup
    rw [gen2NodupLoop_eq hash rows [] (C.map G) (by
      intro e he p hp
      obtain ⟨c, hc, rfl⟩ := List.mem_map.1 he
      change ∀ i ∈ p, i < (m c).length
      rw [hml]; exact (hperm p hp).lt)]
    congr 1
    rw [← dedupL_map G]
    rfl
  · simp only [List.map_nil] at hsel
    rw [← hsel, List.forall₂_map_left_iff, List.forall₂_map_right_iff, List.forall₂_same]
    intro c hc
    have hc' := (dedupL_sublist _ _ _ _).subset hc
    have := (getGcell_grid lattice hd hw hl hd' hw' hl' _ (hbox c hc').1).2
    rw [(hbox c hc').2] at this
    exact this

/-! ## How many grid structures there are -/

/-- the decorations of `N` sites with `s` and `z`, `k` of them `z` -/
def TwoLetter (N : ℕ) (s z : ℤ) (k : ℕ) : Set (List ℤ) := {m | m.length = N ∧ (∀ x ∈ m, x = s ∨ x = z) ∧ m.count z = k}

theorem twoLetter_subst {N : ℕ} {s z : ℤ} (hne : s ≠ z) (k : ℕ) :
    TwoLetter N s z k = {m | ∃ S : Finset ℕ, S ⊆ Finset.range (List.replicate N s).length ∧ S.card = k ∧ Spec.Subst (List.replicate N s) S z m} := by
  obtain ⟨_, s2⟩ := speckle_list N k s z hne
  obtain ⟨_, c2⟩ := combinations_subsets (List.range N) List.nodup_range k
  have hr : (List.range N).toFinset = Finset.range N := by ext; simp
  ext m
  rw [TwoLetter, Set.mem_ofPred_eq, ← s2, Set.mem_ofPred_eq, List.mem_map, List.length_replicate]
  constructor
  · rintro ⟨c, hc, rfl⟩
    obtain ⟨h1, h2⟩ := (c2 c.toFinset).1 (List.mem_map_of_mem hc)
    exact ⟨c.toFinset, by rwa [hr] at h1, h2, overwrite_subst _ _ _⟩
  · rintro ⟨S, h1, h2, hS⟩
    obtain ⟨c, hc, rfl⟩ := List.mem_map.1 ((c2 S).2 ⟨by rwa [hr], h2⟩)
    exact ⟨c, hc, (overwrite_subst _ _ _).unique hS⟩

theorem twoLetter_swap {N : ℕ} {s z : ℤ} (hne : s ≠ z) {k : ℕ} (hk : k ≤ N) : TwoLetter N s z k = TwoLetter N z s (N - k) := by
  have key : ∀ m : List ℤ, (∀ x ∈ m, x = s ∨ x = z) → m.count s + m.count z = m.length := by
    intro m
    induction m with
    | nil => simp
    | cons x m ih =>
      intro h
      have ih' := ih fun y hy => h y (List.mem_cons_of_mem _ hy)
      rcases h x (by simp) with rfl | rfl
      · rw [List.count_cons_self, List.count_cons_of_ne hne]; simp; omega
      · rw [List.count_cons_self, List.count_cons_of_ne (Ne.symm hne)]; simp; omega
  ext m
  simp only [TwoLetter, Set.mem_ofPred_eq]
  constructor
  · rintro ⟨h1, h2, h3⟩
    have := key m h2
    exact ⟨h1, fun x hx => (h2 x hx).symm, by omega⟩
  · rintro ⟨h1, h2, h3⟩
    have := key m fun x hx => (h2 x hx).symm
    exact ⟨h1, fun x hx => (h2 x hx).symm, by omega⟩

theorem siteSyms_exact {pos : List (V3 ℚ)} {ops : List Spec.Op} (hk : (pos.map siteKey).Nodup)
    (h : Spec.SymContract Spec.Cong pos ops) : Spec.SiteSyms sameKey pos ops = Spec.SiteSyms Spec.Cong pos ops := by
  have := (contract_of_exact hk h).2
  ext σ
  refine exists_congr fun op => and_congr_right fun hop => forall_congr' fun i => ?_
  exact this op hop _ (List.getElem_mem _) _ (List.getElem_mem _)

section
variable (spg : SpgCell → List Spec.Op) (lattice : M3 ℚ) (sea sp : Specie) (hsea : ReachableSpecie sea) (hsp : ReachableSpecie sp)
  (hne : sea ≠ sp) (d w l : ℕ) (hd : 0 < d) (hw : 0 < w) (hl : 0 < l) (hd' : d ≤ 990) (hw' : w ≤ 990) (hl' : l ≤ 990)
  (mother : CStru) (cell : SpgCell) (hm : CStru.new lattice (seaCube d w l sea) = .ok mother) (hcell : mother.getCell = .ok cell)
  (hspg : Spec.SymContract Spec.Cong cell.positions (spg cell))
include hsea hsp hne hd hw hl hd' hw' hl' hm hcell hspg

/-- the cell generator belonging to a grid -/
theorem grid_setup : ∃ c g, mother.getGcell = .ok c ∧ c.positions = cell.positions ∧ c.numbers = List.replicate (d * w * l) sea.Z ∧
    GenSetup c (spg cell) [] g ∧ Spec.KeepsElements sameKey c.positions (spg cell) c.numbers ∧ (cell.positions.map siteKey).Nodup ∧
    ∀ (hash : List ℤ → ℕ) (num : ℕ), Set.InjOn hash (TwoLetter (d * w * l) sea.Z sp.Z num) →
      ∃ out cells, genNodupCstru spg lattice sea (d, w, l) sp num = .ok out ∧ g.genNodupUnitary hash num sp = .ok cells ∧ out.length = cells.length := by
  have hA := fun hash num hi => C116_agree hash spg [] lattice sea sp hsea hsp hne d w l num hd hw hl hd' hw' hl' mother cell hm hcell
    hspg.maps hspg.inj hi
  obtain ⟨c, g, _, _, h1, h2, h3, h4, h5, _, _, _⟩ := hA Encodable.encode 0 (Encodable.encode_injective.injOn)
  have hmo := cstru_new lattice hd hw _ (sea_rect d w l sea)
  have hm' := hm
  rw [hmo] at hm'
  injection hm' with hm'
  obtain ⟨e1, e2⟩ := getGcell_grid lattice hd hw hl hd' hw' hl' _ (sea_rect d w l sea)
  rw [hm', hcell] at e1
  injection e1 with e1
  rw [sea_numbers] at e1
  have hp : cell.positions = gridPos d w l := by rw [e1]
  have hnum : c.numbers = List.replicate (d * w * l) sea.Z := by rw [h4, e1]
  have hnd : (cell.positions.map siteKey).Nodup := by rw [hp]; exact (gridPos_sorted hd' hw' hl').imp fun h => h.2
  refine ⟨c, g, h1, h3, hnum, ⟨?_, by rw [h3]; exact hnd, by rw [h3]; exact (contract_of_exact hnd hspg).1, h5⟩, ?_, hnd, ?_⟩
  · have := h1
    unfold CStru.getGcell at this
    rw [hcell, okBind] at this
    exact ⟨_, _, _, this⟩
  · intro op _ i j x y hx hy _
    rw [h3, hp] at hx hy
    have hi := (List.getElem?_eq_some_iff.1 hx).1
    have hj := (List.getElem?_eq_some_iff.1 hy).1
    rw [gridPos_length] at hi hj
    rw [hnum, List.getElem?_replicate, List.getElem?_replicate, if_pos hi, if_pos hj]
  · intro hash num hi
    obtain ⟨c', g', out, cells, k1, _, _, _, k5, k6, k7, k8⟩ := hA hash num hi
    rw [h1] at k1
    obtain rfl := Except.ok.inj k1
    rw [h5] at k5
    obtain rfl := Except.ok.inj k5
    exact ⟨out, cells, k6, k7, k8.length_eq⟩

open Classical in
/-- **C116 (Cauchy-Frobenius).** The number of structures yielded by `gen_nodup_cstru`, times the number of permutations of the grid
points brought about by the operations, is the sum over these permutations of the number of decorations they fix. -/
theorem C116_count (num : ℕ) : ∃ out, genNodupCstru spg lattice sea (d, w, l) sp num = .ok out ∧
    out.length * (Spec.SiteSyms Spec.Cong cell.positions (spg cell)).ncard =
      ∑ σ with σ ∈ Spec.SiteSyms Spec.Cong cell.positions (spg cell), {m | m ∈ TwoLetter (d * w * l) sea.Z sp.Z num ∧ Spec.Fixed σ m}.ncard := by
  have hZ : sea.Z ≠ sp.Z := fun h => hne (by rw [← (reachable_known hsea).2, ← (reachable_known hsp).2, h])
  obtain ⟨c, g, h1, h2, h3, h4, h5, hnd, h6⟩ := grid_setup spg lattice sea sp hsea hsp hne d w l hd hw hl hd' hw' hl' mother cell hm hcell hspg
  obtain ⟨out, cells, o1, o2, o3⟩ := h6 Encodable.encode num Encodable.encode_injective.injOn
  refine ⟨out, o1, ?_⟩
  obtain ⟨cells', q1, q2⟩ := C82_unitary Encodable.encode c (spg cell) [] g h4 h5 num sp (TwoLetter (d * w * l) sea.Z sp.Z num)
    (by rw [h3]; exact twoLetter_subst hZ num) Encodable.encode_injective.injOn
  rw [o2] at q1
  obtain rfl := Except.ok.inj q1
  rw [o3]
  rw [← siteSyms_exact hnd hspg]
  rw [h2] at q2
  exact q2

/-- **C116 (shape of the numbers).** As a function of the number of speckles, the number of structures is `1` at `0`, the same for `n`
and `N - n`, does not decrease up to one half of the `N` grid points and does not increase after it, is `0` beyond `N`, and lies between
`choose N n / s` and `choose N n` for `s` symmetries of the grid points. -/
theorem C116_shape : ∃ a : ℕ → ℕ, (∀ n, ∃ out, genNodupCstru spg lattice sea (d, w, l) sp n = .ok out ∧ out.length = a n) ∧
    Mountain (d * w * l) (Spec.SiteSyms Spec.Cong cell.positions (spg cell)).ncard a := by
  have hZ : sea.Z ≠ sp.Z := fun h => hne (by rw [← (reachable_known hsea).2, ← (reachable_known hsp).2, h])
  obtain ⟨c, g, h1, h2, h3, h4, h5, hnd, h6⟩ := grid_setup spg lattice sea sp hsea hsp hne d w l hd hw hl hd' hw' hl' mother cell hm hcell hspg
  obtain ⟨a, a1, a2⟩ := C103_unitary Encodable.encode c (spg cell) [] g h4 h5 sp (by
    rw [h3]; intro h; exact hZ (List.eq_of_mem_replicate h).symm) fun n => Encodable.encode_injective.injOn
  rw [h3, List.length_replicate, h2, siteSyms_exact hnd hspg] at a2
  refine ⟨a, fun n => ?_, a2⟩
  obtain ⟨out, cells, o1, o2, o3⟩ := h6 Encodable.encode n Encodable.encode_injective.injOn
  obtain ⟨cells', q1, q2⟩ := a1 n
  rw [o2] at q1
  obtain rfl := Except.ok.inj q1
  exact ⟨out, o1, o3.trans q2⟩

/-- **C116 (exchange of the species).** Exchanging sea and speckles: as many structures with `num` speckles in the sea as with
`N - num` atoms of the sea's species in a sea of the speckles' species, when spglib finds the same operations for the two seas. -/
theorem C116_exchange (mother' : CStru) (cell' : SpgCell) (hm' : CStru.new lattice (seaCube d w l sp) = .ok mother')
    (hcell' : mother'.getCell = .ok cell') (hsame : spg cell' = spg cell) (num : ℕ) (hnum : num ≤ d * w * l) :
    ∃ out out', genNodupCstru spg lattice sea (d, w, l) sp num = .ok out ∧
      genNodupCstru spg lattice sp (d, w, l) sea (d * w * l - num) = .ok out' ∧ out.length = out'.length := by
  classical
  have hZ : sea.Z ≠ sp.Z := fun h => hne (by rw [← (reachable_known hsea).2, ← (reachable_known hsp).2, h])
  have pos : ∀ (s : Specie) (mo : CStru) (ce : SpgCell), CStru.new lattice (seaCube d w l s) = .ok mo → mo.getCell = .ok ce →
      ce.positions = gridPos d w l := by
    intro s mo ce h1 h2
    rw [cstru_new lattice hd hw _ (sea_rect d w l s)] at h1
    obtain rfl := Except.ok.inj h1
    rw [(getGcell_grid lattice hd hw hl hd' hw' hl' _ (sea_rect d w l s)).1] at h2
    obtain rfl := Except.ok.inj h2
    rfl
  have p1 := pos _ _ _ hm hcell
  have p2 := pos _ _ _ hm' hcell'
  obtain ⟨out, o1, o2⟩ := C116_count spg lattice sea sp hsea hsp hne d w l hd hw hl hd' hw' hl' mother cell hm hcell hspg num
  obtain ⟨out', o3, o4⟩ := C116_count spg lattice sp sea hsp hsea hne.symm d w l hd hw hl hd' hw' hl' mother' cell' hm' hcell'
    (by rw [hsame, p2, ← p1]; exact hspg) (d * w * l - num)
  refine ⟨out, out', o1, o3, ?_⟩
  have hpos : 0 < (Spec.SiteSyms Spec.Cong cell.positions (spg cell)).ncard := by
    rw [Set.ncard_pos]
    obtain ⟨op, hop, hx⟩ := hspg.one
    exact ⟨1, op, hop, fun i => hx _ (List.getElem_mem _)⟩
  rw [hsame, p2, ← p1, ← twoLetter_swap hZ hnum, ← o2] at o4
  exact (Nat.eq_of_mul_eq_mul_right hpos o4).symm

end

/-! ## Non-vacuity -/

set_option maxRecDepth 100000 in
theorem exGrid_contract : Spec.SymContract Spec.Cong (gridPos 1 2 2) exGridOps := by
  constructor <;> decide +kernel

/-- all the hypotheses, for the `1 × 2 × 2` grid and the exchange of its two halves -/
example (num : ℕ) : ∃ c g out cells, (CStru.mk ((1, 0, 0), (0, 1, 0), (0, 0, 1)) (seaCube 1 2 2 .ghost) 1 2 2).getGcell = .ok c ∧
    OGen.new c exGridOps [] = .ok g ∧ genNodupCstru (fun _ => exGridOps) ((1, 0, 0), (0, 1, 0), (0, 0, 1)) .ghost (1, 2, 2) exTi num = .ok out ∧
    g.genNodupUnitary Encodable.encode num exTi = .ok cells ∧ List.Forall₂ (fun s e => s.getGcell = .ok e) out cells := by
  have hc := (getGcell_grid ((1, 0, 0), (0, 1, 0), (0, 0, 1)) (d := 1) (w := 2) (l := 2) (by omega) (by omega) (by omega) (by omega) (by omega) (by omega) _
    (sea_rect 1 2 2 .ghost)).1
  obtain ⟨c, g, out, cells, h1, _, _, _, h5, h6, h7, h8⟩ := C116_agree Encodable.encode (fun _ => exGridOps) [] _ .ghost exTi
    .ghost (.symbol (s := "Ti") (by decide +kernel)) (by decide) 1 2 2 num (by omega) (by omega) (by omega) (by omega) (by omega) (by omega) _ _
    (cstru_new _ (by omega) (by omega) _ (sea_rect 1 2 2 .ghost)) hc exGrid_contract.maps exGrid_contract.inj Encodable.encode_injective.injOn
  exact ⟨c, g, out, cells, h1, h5, h6, h7, h8⟩

/-- two of the four grids with one speckle, and four of the six with two, are inequivalent -/
example : (genNodupCstru (fun _ => exGridOps) ((1, 0, 0), (0, 1, 0), (0, 0, 1)) .ghost (1, 2, 2) exTi 1).map List.length = .ok 2 ∧
    (genNodupCstru (fun _ => exGridOps) ((1, 0, 0), (0, 1, 0), (0, 0, 1)) .ghost (1, 2, 2) exTi 2).map List.length = .ok 4 ∧
    (genNodupCstru (fun _ => exGridOps) ((1, 0, 0), (0, 1, 0), (0, 0, 1)) exTi (1, 2, 2) .ghost 3).map List.length = .ok 2 := by
  decide +kernel

/-- the numbers add up: `4 · 2 = 6 + 2` decorations with two speckles, fixed by the identity and by the exchange -/
example : ∃ out, genNodupCstru (fun _ => exGridOps) ((1, 0, 0), (0, 1, 0), (0, 0, 1)) .ghost (1, 2, 2) exTi 2 = .ok out ∧ out.length * 2 = 6 + 2 := by
  have h : (genNodupCstru (fun _ => exGridOps) ((1, 0, 0), (0, 1, 0), (0, 0, 1)) .ghost (1, 2, 2) exTi 2).map List.length = .ok 4 := by decide +kernel
  cases e : genNodupCstru (fun _ => exGridOps) ((1, 0, 0), (0, 1, 0), (0, 0, 1)) .ghost (1, 2, 2) exTi 2 with
  | error e' => rw [e] at h; exact absurd h (by intro h; cases h)
  | ok out =>
    rw [e] at h
    exact ⟨out, rfl, by rw [show out.length = 4 from Except.ok.inj h]⟩

end Verif
