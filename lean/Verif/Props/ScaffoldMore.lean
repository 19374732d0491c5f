import Verif.Model.ScaffoldMore
import Verif.Props.GridSym
import Verif.Props.Cell
import Verif.Props.Bucky

/-! # C85, C86: random grids, grids as general cells, names of molecules -/

namespace Verif

/-- reading an entry of a grid by its contents -/
theorem getItem_contents {h : RowHeap} {g : SGrid} (wf : g.WF h) {i j k : ℕ} (hi : i < g.depth) (hj : j < g.width) (hk : k < g.length) :
    ∃ sp, g.getItem h (i, j, k) = .ok sp ∧ Spec.entry (g.contents h) i j k = some sp := by
  have hp : Spec.InGrid g.depth g.width g.length ((i : ℤ), (j : ℤ), (k : ℤ)) := by
    refine ⟨⟨?_, ?_⟩, ⟨?_, ?_⟩, ⟨?_, ?_⟩⟩ <;> simp only <;> omega
  obtain ⟨plane, row, sp, e1, e2, e3, e4⟩ := contents_entry wf hp
  refine ⟨sp, e4, ?_⟩
  have s1 : slot g.depth ((i : ℤ), (j : ℤ), (k : ℤ)).1 = i := by
    unfold slot; simp only; rw [Int.emod_eq_of_lt (by omega) (by omega)]; rfl
  have s2 : slot g.width ((i : ℤ), (j : ℤ), (k : ℤ)).2.1 = j := by
    unfold slot; simp only; rw [Int.emod_eq_of_lt (by omega) (by omega)]; rfl
  have s3 : slot g.length ((i : ℤ), (j : ℤ), (k : ℤ)).2.2 = k := by
    unfold slot; simp only; rw [Int.emod_eq_of_lt (by omega) (by omega)]; rfl
  rw [s1] at e1; rw [s2] at e2; rw [s3] at e3
  unfold Spec.entry; rw [e1, Option.bind_some, e2, Option.bind_some, e3]

/-- **C85 (`random_fill`).** Whatever 0/1 array is drawn: the grid has the wanted size and its own rows, and holds `sp` where a 1 was
drawn and `bsp` elsewhere. -/
theorem C85_random_fill (h : RowHeap) {d w l : ℕ} (hd : 0 < d) (hw : 0 < w) (hl : 0 < l) (bsp sp : Specie) (hbsp : ReachableSpecie bsp)
    (hsp : ReachableSpecie sp) (r : Cube ℤ) (hb : Spec.Box d w l r) (hr : ∀ x ∈ r.flatten.flatten, x = 0 ∨ x = 1) :
    ∃ h' g, SGrid.randomFill h bsp r sp = .ok (h', g) ∧ g.WF h' ∧ g.depth = d ∧ g.width = w ∧ g.length = l ∧
      ∀ i j k : ℕ, i < d → j < w → k < l →
        g.getItem h' (i, j, k) = .ok (if Spec.entry r i j k = some 1 then sp else bsp) := by
  obtain ⟨k1, s1⟩ := reachable_known hbsp
  obtain ⟨k2, s2⟩ := reachable_known hsp
  set arr := cubeMap (fun x => bsp.Z + (sp.Z - bsp.Z) * x) r with harr
  have hba : Spec.Box d w l arr := cubeMap_box _ hb
  have hval : ∀ x : ℤ, x = 0 ∨ x = 1 → bsp.Z + (sp.Z - bsp.Z) * x = if x = 1 then sp.Z else bsp.Z := by
    rintro x (rfl | rfl)
    · simp
    · simp
  have hk : ∀ n ∈ arr.flatten.flatten, Spec.KnownNumber n := by
    intro n hn
    rw [harr, cubeMap_flatten] at hn
    obtain ⟨x, hx, rfl⟩ := List.mem_map.1 hn
    simp only [hval x (hr x hx)]
    split
    · exact k2
    · exact k1
  obtain ⟨g, h1, wf, rfl, rfl, rfl, hcont, _⟩ := ofCube_spec h (cubeMap specieOf arr) (cubeMap_box _ hba) hd hw
  refine ⟨_, g, ?_, wf, rfl, rfl, rfl, ?_⟩
  · unfold SGrid.randomFill SGrid.fromArray
    rw [← harr, cubeFromArray_ok arr (box_size_pos hba hd hw hl) hk, okBind]
    exact h1
  · intro i j k hi hj hk'
    obtain ⟨s, e1, e2⟩ := getItem_contents wf hi hj hk'
    rw [e1]
    rw [hcont, harr, cubeMap_cubeMap, cubeMap_entry] at e2
    obtain ⟨x, hx, hs⟩ := Option.map_eq_some_iff.1 e2
    have hmem : x ∈ r.flatten.flatten := by
      rw [← box_getElem? hb i j k hj hk'] at hx
      exact List.mem_of_getElem? hx
    rw [hval x (hr x hmem)] at hs
    rw [hx, ← hs]
    rcases hr x hmem with rfl | rfl
    · simp [s1]
    · simp [s2]

/-- every filling of the grid with the two species can be drawn -/
theorem C85_random_fill_all (h : RowHeap) {d w l : ℕ} (hd : 0 < d) (hw : 0 < w) (hl : 0 < l) (bsp sp : Specie) (hbsp : ReachableSpecie bsp)
    (hsp : ReachableSpecie sp) (c : Cube Specie) (hb : Spec.Box d w l c) (hc : ∀ s ∈ c.flatten.flatten, s = bsp ∨ s = sp) :
    ∃ r h' g, Spec.Box d w l r ∧ (∀ x ∈ r.flatten.flatten, x = 0 ∨ x = 1) ∧ SGrid.randomFill h bsp r sp = .ok (h', g) ∧
      ∀ i j k : ℕ, i < d → j < w → k < l → ∃ s, Spec.entry c i j k = some s ∧ g.getItem h' (i, j, k) = .ok s := by
  let f : Specie → ℤ := fun s => if s = sp then 1 else 0
  have hr : ∀ x ∈ (cubeMap f c).flatten.flatten, x = 0 ∨ x = 1 := by
    intro x hx
    rw [cubeMap_flatten] at hx
    obtain ⟨s, _, rfl⟩ := List.mem_map.1 hx
    by_cases hs : s = sp <;> simp [f, hs]
  obtain ⟨h', g, h1, _, _, _, _, h2⟩ := C85_random_fill h hd hw hl bsp sp hbsp hsp (cubeMap f c) (cubeMap_box f hb) hr
  refine ⟨cubeMap f c, h', g, cubeMap_box f hb, hr, h1, fun i j k hi hj hk => ?_⟩
  have hlen : (i * w + j) * l + k < c.flatten.flatten.length := by
    rw [box_length hb]
    calc (i * w + j) * l + k < (i * w + j + 1) * l := by rw [Nat.add_mul _ 1 l, one_mul]; omega
      _ ≤ d * w * l := by
        refine Nat.mul_le_mul_right l ?_
        calc i * w + j + 1 ≤ (i + 1) * w := by rw [Nat.add_mul, one_mul]; omega
          _ ≤ d * w := Nat.mul_le_mul_right w (by omega)
  have hget := List.getElem?_eq_getElem hlen
  have hent := box_getElem? hb i j k hj hk
  rw [hget] at hent
  refine ⟨_, hent.symm, ?_⟩
  rw [h2 i j k hi hj hk, cubeMap_entry, ← hent]
  have hm := hc _ (List.getElem_mem hlen)
  generalize c.flatten.flatten[(i * w + j) * l + k] = s at hm ⊢
  by_cases hs : s = sp
  · simp [f, hs]
  · rcases hm with rfl | hm
    · simp [f, hs]
    · exact absurd hm hs

/-! ### grids as general cells -/

theorem wrap3_lt {d c c' : ℕ} (hd : d ≤ 990) (hc : c < c') (hc' : c' < d) : wrap3 ((c : ℚ) / d) < wrap3 ((c' : ℚ) / d) := by
  have hd0 : (0 : ℚ) < d := by exact_mod_cast (by omega : 0 < d)
  have hdq : (d : ℚ) ≤ 990 := by exact_mod_cast hd
  have hsmall : ∀ x, |x - around 3 x| ≤ 1 / 2000 := by
    intro x
    refine (around_close 3 x).trans ?_
    norm_num
  have hstep : ∀ i j : ℕ, i < j → (i : ℚ) / d + 1 / 990 ≤ (j : ℚ) / d := by
    intro i j hij
    have h1 : (i : ℚ) + 1 ≤ j := by exact_mod_cast hij
    have h2 : (1 : ℚ) / 990 ≤ 1 / d := by
      rw [div_le_div_iff₀ (by norm_num) hd0]; linarith
    calc (i : ℚ) / d + 1 / 990 ≤ i / d + 1 / d := by linarith
      _ = (i + 1) / d := by ring
      _ ≤ j / d := by gcongr
  have hone : (d : ℚ) / d = 1 := by field_simp
  have hrange : ∀ i : ℕ, i < d → mod1 (around 3 ((i : ℚ) / d)) = around 3 ((i : ℚ) / d) := by
    intro i hi
    have h0 : 0 ≤ around 3 ((i : ℚ) / d) := by
      unfold around
      have h1 : (0 : ℚ) ≤ (i : ℚ) / d * 10 ^ 3 := by positivity
      have h2 := rint_mono h1
      rw [show rint 0 = 0 by exact_mod_cast rint_intCast 0] at h2
      have h3 : (0 : ℚ) ≤ (rint ((i : ℚ) / d * 10 ^ 3) : ℚ) := by exact_mod_cast h2
      positivity
    have h1 : around 3 ((i : ℚ) / d) < 1 := by
      have := abs_le.1 (hsmall ((i : ℚ) / d))
      have h2 := hstep i d hi
      rw [hone] at h2
      linarith [this.1]
    unfold mod1
    rw [Int.floor_eq_zero_iff.2 ⟨h0, h1⟩]; simp
  unfold wrap3
  rw [hrange c (by omega), hrange c' hc', around_idem, around_idem]
  unfold around
  rw [div_lt_div_iff_of_pos_right (by norm_num)]
  have : rint ((c : ℚ) / d * 10 ^ 3) < rint ((c' : ℚ) / d * 10 ^ 3) := by
    apply rint_lt
    linarith [hstep c c' hc]
  exact_mod_cast this

theorem gridPos_sorted {d w l : ℕ} (hd : d ≤ 990) (hw : w ≤ 990) (hl : l ≤ 990) :
    ((gridPos d w l).map siteKey).Pairwise (fun a b => lexLe a b = true ∧ a ≠ b) := by
  unfold gridPos
  rw [List.map_map, List.pairwise_map]
  refine (yieldPosition_sorted d w l).imp_of_mem ?_
  intro p q hp hq h
  rw [mem_yieldPosition] at hp hq
  simp only [Function.comp, siteKey, V3.map, Spec.site]
  rw [lexLe_iff]
  rcases h with h | ⟨e, h | ⟨e', h⟩⟩
  · have := wrap3_lt hd h hq.1
    exact ⟨.inl this, fun he => by have := congrArg Prod.fst he; simp only at this; linarith⟩
  · have := wrap3_lt hw h hq.2.1
    exact ⟨.inr ⟨by rw [e], .inl this⟩, fun he => by
      have := congrArg (fun v : V3 ℚ => v.2.1) he; simp only at this; linarith⟩
  · have := wrap3_lt hl h hq.2.2
    exact ⟨.inr ⟨by rw [e], .inr ⟨by rw [e'], this.le⟩⟩, fun he => by
      have := congrArg (fun v : V3 ℚ => v.2.2) he; simp only at this; linarith⟩

theorem gridPos_ne {d w l : ℕ} (hd : 0 < d) (hw : 0 < w) (hl : 0 < l) : gridPos d w l ≠ [] := by
  intro h
  have := congrArg List.length h
  rw [gridPos_length, List.length_nil] at this
  have : 0 < d * w * l := by positivity
  omega

/-- **C85 (`get_gcell`).** A grid of any size becomes a general cell with the lattice of `get_cell` and exactly the sites of the grid:
entry `[c][b][a]` sits at `(c/d, b/w, a/l)`. -/
theorem C85_get_gcell (m : M3 ℚ) {d w l : ℕ} (hd : 0 < d) (hw : 0 < w) (hl : 0 < l) (grid : Cube Specie) (hb : Spec.Box d w l grid) :
    ∃ s c, CStru.new m grid = .ok s ∧ s.getGcell = .ok c ∧
      c.lattice = ((d * m.1.1, d * m.1.2.1, d * m.1.2.2), (w * m.2.1.1, w * m.2.1.2.1, w * m.2.1.2.2),
        (l * m.2.2.1, l * m.2.2.2.1, l * m.2.2.2.2)) ∧
      c.positions.length = d * w * l ∧ c.numbers.length = d * w * l ∧
      (∀ i j k : ℕ, i < d → j < w → k < l → ∃ n : ℕ, ∃ sp, Spec.entry grid i j k = some sp ∧
        c.positions[n]? = some (Spec.site d w l i j k) ∧ c.numbers[n]? = some sp.Z) ∧
      c.positions.Nodup := by
  obtain ⟨s, cell, h1, h2, h3, h4, h5, h6, _, h8, _⟩ := C07_get_cell m hd hw hl grid hb
  have hne : cell.positions ≠ [] := by
    intro h; rw [h, List.length_nil] at h4
    have : 0 < d * w * l := by positivity
    omega
  obtain ⟨_, _, _, _, hnew⟩ := new_spec cell.lattice hne (by rw [h4, h5])
  obtain ⟨r1, r2, r3, r4, _⟩ := C09_sites_rearranged _ _ _ _ hnew
  refine ⟨s, _, h1, by unfold CStru.getGcell; rw [h2, okBind]; exact hnew, by rw [r1, h3], by rw [r3, h4], by rw [r4, h4], ?_, ?_⟩
  · intro i j k hi hj hk
    obtain ⟨n, sp, e1, e2, e3⟩ := h8 i j k hi hj hk
    have hm : (Spec.site d w l i j k, sp.Z) ∈ cell.positions.zip cell.numbers :=
      List.mem_of_getElem? (List.getElem?_zip_eq_some.2 ⟨e2, e3⟩)
    obtain ⟨n', hn'⟩ := List.mem_iff_getElem?.1 (r2.mem_iff.2 hm)
    obtain ⟨f1, f2⟩ := List.getElem?_zip_eq_some.1 hn'
    exact ⟨n', sp, e1, f1, f2⟩
  · have hp : (cell.positions.zip cell.numbers).map Prod.fst = cell.positions := List.map_fst_zip (by rw [h4, h5])
    have hp' := r2.map Prod.fst
    rw [hp, List.map_fst_zip (by rw [r3, r4])] at hp'
    exact hp'.nodup_iff.2 h6

/-- **C85 (order).** For at most 990 layers in every direction the general cell lists the sites in the order of the grid, so that its
numbers are the flattened array. -/
theorem C85_get_gcell_order (m : M3 ℚ) {d w l : ℕ} (hd : 0 < d) (hw : 0 < w) (hl : 0 < l) (hd' : d ≤ 990) (hw' : w ≤ 990) (hl' : l ≤ 990)
    (grid : Cube Specie) (hb : Spec.Box d w l grid) :
    ∃ s c arr, CStru.new m grid = .ok s ∧ s.getGcell = .ok c ∧ s.getArray = .ok arr ∧ c.numbers = arr.flatten.flatten ∧
      ∀ i j k : ℕ, i < d → j < w → k < l → c.positions[(i * w + j) * l + k]? = some (Spec.site d w l i j k) := by
  obtain ⟨cell, g1, g2, g3⟩ := getCell_ok m hd hw hl grid hb
  have hne := gridPos_ne hd hw hl
  have hs := lexsort3_of_sorted _ ((gridPos_sorted hd' hw' hl').imp fun h => h.1)
  rw [List.length_map] at hs
  have hnl : cell.numbers.length = (gridPos d w l).length := by rw [g3, List.length_map, gridPos_length, box_length hb]
  obtain ⟨ps, ns, f1, f2, hnew⟩ := new_spec (nums := cell.numbers) cell.lattice hne (by rw [hnl])
  rw [hs, fancy_range] at f1
  rw [hs, ← hnl, fancy_range] at f2
  obtain rfl := Except.ok.inj f1
  obtain rfl := Except.ok.inj f2
  refine ⟨_, _, cubeMap (·.Z) grid, cstru_new m hd hw grid hb, by
    unfold CStru.getGcell; rw [g1, okBind, g2]; exact hnew, ?_, ?_, ?_⟩
  · unfold CStru.getArray cubeToArray; rw [if_neg (box_size_pos hb hd hw hl)]
  · simp only [g3, cubeMap_flatten]
  · intro i j k hi hj hk
    exact gridPos_get d w l i j k hi hj hk

/-! ### names of molecules -/

theorem digits_emod (v w : ℤ) : ∀ n : ℕ, (∀ k < n, v / 256 ^ k % 256 = w / 256 ^ k % 256) → v % 256 ^ n = w % 256 ^ n
  | 0, _ => by simp
  | n + 1, h => by
    have e : ∀ x : ℤ, x % 256 ^ (n + 1) = x % 256 ^ n + 256 ^ n * (x / 256 ^ n % 256) := fun x => by
      rw [pow_succ]
      have h1 := Int.emod_add_mul_ediv x (256 ^ n)
      have h2 := Int.emod_add_mul_ediv (x / 256 ^ n) 256
      have h3 := Int.emod_nonneg x (show (256 : ℤ) ^ n ≠ 0 by positivity)
      have h4 := Int.emod_lt_of_pos x (show (0 : ℤ) < 256 ^ n by positivity)
      have h5 : x / 256 ^ n % 256 ≤ 255 := by omega
      have h6 : 0 ≤ x / 256 ^ n % 256 := by omega
      rw [Int.emod_eq_iff (by positivity)]
      refine ⟨by positivity, ?_, ?_⟩
      · rw [Int.natAbs_of_nonneg (by positivity)]
        nlinarith
      · exact ⟨-(x / 256 ^ n / 256), by linear_combination h1 + 256 ^ n * h2⟩
    rw [e v, e w, digits_emod v w n fun k hk => h k (by omega), h n (by omega)]

theorem int64Bytes_inj {v w : ℤ} (hv : -2 ^ 63 ≤ v ∧ v < 2 ^ 63) (hw : -2 ^ 63 ≤ w ∧ w < 2 ^ 63) (h : int64Bytes v = int64Bytes w) : v = w := by
  have := digits_emod v w 8 fun k hk => by
    have := congrArg (fun l => l[k]?) h
    simpa [int64Bytes, hk] using this
  norm_num at this hv hw
  omega

/-- **C86.** Two molecules have the same name exactly when they have the same atomic numbers in the same order. -/
theorem C86_name (a b : Bucky) (ha : ∀ v ∈ a.numbers, -2 ^ 63 ≤ v ∧ v < 2 ^ 63) (hb : ∀ v ∈ b.numbers, -2 ^ 63 ≤ v ∧ v < 2 ^ 63) :
    a.getName = b.getName ↔ a.numbers = b.numbers := by
  refine ⟨fun h => ?_, fun h => by unfold Bucky.getName; rw [h]⟩
  unfold Bucky.getName at h
  revert h
  generalize hx : a.numbers = x at ha
  generalize hy : b.numbers = y at hb
  clear hx hy
  induction x generalizing y with
  | nil =>
    cases y with
    | nil => exact fun _ => rfl
    | cons w y => intro h; have := congrArg List.length h; simp [int64Bytes] at this; omega
  | cons v x ih =>
    cases y with
    | nil => intro h; have := congrArg List.length h; simp [int64Bytes] at this
    | cons w y =>
      intro h
      rw [List.flatMap_cons, List.flatMap_cons] at h
      obtain ⟨h1, h2⟩ := List.append_inj h (by simp [int64Bytes])
      rw [int64Bytes_inj (ha v (by simp)) (hb w (by simp)) h1,
        ih (fun v hv => ha v (List.mem_cons_of_mem _ hv)) y (fun v hv => hb v (List.mem_cons_of_mem _ hv)) h2]

/-! ## C74: one more substituent on one molecule -/

theorem oneSite_iff_set {l : List ℤ} {i : ℕ} {z : ℤ} {m : List ℤ} (hi : i < l.length) : Spec.OneSite l i z m ↔ m = l.set i z := by
  constructor
  · rintro ⟨_, h2, h3, h4⟩
    apply List.ext_getElem?
    intro j
    by_cases h : j = i
    · subst h; rw [h3, List.getElem?_set_self hi]
    · rw [h4 j h, List.getElem?_set_ne (Ne.symm h)]
  · rintro rfl
    exact ⟨hi, List.length_set, List.getElem?_set_self hi, fun j hj => List.getElem?_set_ne (Ne.symm hj)⟩

/-- **C74, one more substituent.** `help_add_one_speckle` lists exactly the decorations with one site that did not hold the
substituent changed to it, each once. -/
theorem C74_help_add_one (l : List ℤ) (sp : Specie) :
    (buckyHelpAddOne l sp).Nodup ∧ (buckyHelpAddOne l sp).length + l.count sp.Z = l.length ∧
    ∀ m, m ∈ buckyHelpAddOne l sp ↔ ∃ (i : ℕ) (v : ℤ), l[i]? = some v ∧ v ≠ sp.Z ∧ Spec.OneSite l i sp.Z m := by
  refine ⟨?_, ?_, ?_⟩
  · refine List.Nodup.map_on ?_ ((zipIdx_nodup l 0).filter _)
    rintro ⟨v, i⟩ hv ⟨w, j⟩ hw h
    rw [List.mem_filter, List.mem_zipIdx_iff_getElem?] at hv hw
    simp only [bne_iff_ne] at hv hw h
    have hij : i = j := by
      by_contra hne
      have h1 : (l.set i sp.Z)[i]? = some sp.Z := List.getElem?_set_self (List.getElem?_eq_some_iff.1 hv.1).1
      rw [h, List.getElem?_set_ne (Ne.symm hne), hv.1] at h1
      exact hv.2 (Option.some.inj h1)
    subst hij
    rw [hv.1] at hw
    rw [Option.some.inj hw.1]
  · unfold buckyHelpAddOne
    rw [List.length_map]
    have h1 : ((l.zipIdx.filter fun p => p.1 != sp.Z).map (·.1)) = l.filter (· != sp.Z) := by
      conv_rhs => rw [← List.zipIdx_map_fst 0 l, List.filter_map]
      rfl
    have h2 := congrArg List.length h1
    rw [List.length_map] at h2
    rw [h2, ← List.countP_eq_length_filter, List.count]
    have := List.length_eq_countP_add_countP (· == sp.Z) (l := l)
    rw [this, add_comm]
    congr 1
    exact List.countP_congr fun a _ => by simp
  · intro m
    unfold buckyHelpAddOne
    simp only [List.mem_map, List.mem_filter, bne_iff_ne, Prod.exists]
    constructor
    · rintro ⟨v, i, ⟨h1, h2⟩, rfl⟩
      rw [List.mem_zipIdx_iff_getElem?] at h1
      exact ⟨i, v, h1, h2, (oneSite_iff_set (List.getElem?_eq_some_iff.1 h1).1).2 rfl⟩
    · rintro ⟨i, v, h1, h2, h3⟩
      exact ⟨v, i, ⟨List.mem_zipIdx_iff_getElem?.2 h1, h2⟩, ((oneSite_iff_set h3.1).1 h3).symm⟩

/-- **C61 (`to_gen`).** `to_gen()` yields one structure, the molecule's own numbers, and is what `all_speckle_gen` yields first. -/
theorem C61_to_gen (hash : List ℤ → ℕ) (ns : List ℤ) (hn : ns.length = 60) (nMax : ℕ) (sp : Specie) :
    ∃ b ls, Bucky.new ns = .ok b ∧ b.toGen = [ns] ∧ b.allSpeckleGen hash nMax sp = .ok (b.toGen :: ls) := by
  obtain ⟨b, ls, h1, h2, -⟩ := C61_never_equivalent hash ns hn nMax sp
  have hb := bucky_new ns
  rw [h1] at hb
  cases hb
  exact ⟨_, ls, h1, rfl, h2⟩

/-! ## the hypotheses are met -/

/-- one drawing for a 1 × 2 × 3 grid of copper and gold -/
example : (SGrid.randomFill [] ⟨"Cu", 29⟩ [[[0, 1, 0], [1, 1, 0]]] ⟨"Au", 79⟩).map (fun p => p.2.contents p.1) =
    .ok [[[⟨"Cu", 29⟩, ⟨"Au", 79⟩, ⟨"Cu", 29⟩], [⟨"Au", 79⟩, ⟨"Au", 79⟩, ⟨"Cu", 29⟩]]] := by decide +kernel

example : Spec.Box 1 2 3 ([[[0, 1, 0], [1, 1, 0]]] : Cube ℤ) ∧ ∀ x ∈ ([[[0, 1, 0], [1, 1, 0]]] : Cube ℤ).flatten.flatten, x = 0 ∨ x = 1 := by
  refine ⟨⟨rfl, ?_⟩, ?_⟩
  · simp
  · decide

/-- a 1 × 2 × 2 grid as a general cell -/
example : ((CStru.new ((1, 0, 0), (0, 1, 0), (0, 0, 1)) [[[⟨"Cu", 29⟩, ⟨"Au", 79⟩], [⟨"G", 0⟩, ⟨"Cu", 29⟩]]]).bind fun s =>
    s.getGcell).map (fun c => c) =
    .ok ⟨((1, 0, 0), (0, 2, 0), (0, 0, 2)), [(0, 0, 0), (0, 0, 1 / 2), (0, 1 / 2, 0), (0, 1 / 2, 1 / 2)], [29, 79, 0, 29],
      [29, 79, 0, 29], 4⟩ := by decide +kernel

/-- names of two molecules with the same formula -/
example : (⟨[], [5, 6, 6], []⟩ : Bucky).getName ≠ (⟨[], [6, 5, 6], []⟩ : Bucky).getName := by decide +kernel

end Verif
