import Verif.Props.Super

/-! # C113: `supercell(M)` for any matrix of non-negative integers, and for negative factors -/

namespace Verif

open Spec

/-- `pts` holds one vector of every coset of `ℤ³` modulo the row lattice of `h` -/
def Reps (h : M3 ℤ) (pts : List (V3 ℤ)) : Prop :=
  pts.Nodup ∧ (∀ v, ∃ p ∈ pts, ∃ k, v = p + vecMul k h) ∧ ∀ p ∈ pts, ∀ q ∈ pts, ∀ k, p - q = vecMul k h → p = q

/-- the matrix with its first two rows exchanged -/
def swapRows (h : M3 ℤ) : M3 ℤ := (h.2.1, h.1, h.2.2)

/-- the vector with its first two entries exchanged -/
def swapV {α} (v : V3 α) : V3 α := (v.2.1, v.1, v.2.2)

theorem det_swapRows (h : M3 ℤ) : det (swapRows h) = - det h := by
  simp only [det, swapRows]; ring

theorem amax_swapRows (h : M3 ℤ) : amax (swapRows h) = amax h := by
  unfold amax swapRows
  rw [max_left_comm]

theorem vecMul_swapRows (k : V3 ℤ) (h : M3 ℤ) : vecMul k (swapRows h) = vecMul (swapV k) h := by
  ext <;> simp [vecMul, swapRows, swapV] <;> ring

theorem inCell_swapV (v : V3 ℚ) : inCell (swapV v) = inCell v := by
  unfold inCell swapV
  rw [Bool.and_comm (inCell1 v.2.1)]

theorem toFrac_swapRows (h : M3 ℤ) (v : V3 ℚ) : toFrac (swapRows h) v = swapV (toFrac h v) := by
  unfold toFrac
  rw [det_swapRows]
  simp only [vecMul, smulM, castM, castV, V3.map, adj, swapRows, swapV]
  push_cast
  refine Prod.ext ?_ (Prod.ext ?_ ?_) <;> simp only [one_div, inv_neg] <;> ring

theorem NonNegM_swap {h : M3 ℤ} (hN : NonNegM h) : NonNegM (swapRows h) := by
  obtain ⟨h1, h2, h3, h4, h5, h6, h7, h8, h9⟩ := hN
  exact ⟨h4, h5, h6, h1, h2, h3, h7, h8, h9⟩

theorem fracFrom_filter {h : M3 ℤ} (h0 : det h ≠ 0) (ha : 0 < amax h) :
    fracFrom h = .ok (((intCoords (amax h * 3).toNat).filter fun v => inCell (toFrac h (castV v))).map fun v => toFrac h (castV v)) := by
  unfold fracFrom
  rw [inv_castM h0]
  simp only [bind, Except.bind, if_neg (not_le.2 ha), pure, Except.pure]
  rw [List.filter_map]
  rfl

/-- for a matrix of non-negative integers that is not singular, whatever the sign of its determinant, the points found are
one of every coset, and there are `|det|` of them -/
theorem fracFrom_abs {h : M3 ℤ} (hN : NonNegM h) (h0 : det h ≠ 0) (hn : (det h).natAbs < 100000) :
    ∃ pts : List (V3 ℤ), fracFrom h = .ok (pts.map fun v => toFrac h (castV v)) ∧ Reps h pts ∧ pts.length = (det h).natAbs := by
  have pos : ∀ {g : M3 ℤ}, NonNegM g → 0 < det g → (det g).natAbs < 100000 →
      ∃ pts : List (V3 ℤ), pts = ((intCoords (amax g * 3).toNat).filter fun v => inCell (toFrac g (castV v))) ∧ Reps g pts ∧
        pts.length = (det g).natAbs := by
    intro g gN g0 gn
    have hmem : ∀ v, v ∈ ((intCoords (amax g * 3).toNat).filter fun v => inCell (toFrac g (castV v))) ↔ Inside g v := by
      intro v
      rw [List.mem_filter, inCell_iff g0 (by omega)]
      exact ⟨fun h => h.2, fun hv => ⟨inside_range gN g0 hv, hv⟩⟩
    have hnd := (nodup_intCoords (amax g * 3).toNat).filter (fun v => inCell (toFrac g (castV v)))
    refine ⟨_, rfl, ⟨hnd, ?_, ?_⟩, ?_⟩
    · intro v
      obtain ⟨p, k, hp, e⟩ := inside_rep g0 v
      exact ⟨p, (hmem p).2 hp, k, e⟩
    · intro p hp q hq k e
      exact inside_unique g0 ((hmem p).1 hp) ((hmem q).1 hq) e
    · rw [inside_count g0 _ hnd hmem]; omega
  rcases lt_or_gt_of_ne h0 with hneg | hpos
  · obtain ⟨pts, e, ⟨r1, r2, r3⟩, hl⟩ := pos (NonNegM_swap hN) (by rw [det_swapRows]; omega) (by rw [det_swapRows]; omega)
    have e' : pts = (intCoords (amax h * 3).toNat).filter fun v => inCell (toFrac h (castV v)) := by
      rw [e, amax_swapRows]
      refine List.filter_congr ?_
      intro v _
      rw [toFrac_swapRows, inCell_swapV]
    refine ⟨pts, by rw [fracFrom_filter h0 (amax_pos hN h0), ← e'], ⟨r1, ?_, ?_⟩, by rw [hl, det_swapRows, Int.natAbs_neg]⟩
    · intro v
      obtain ⟨p, hp, k, hk⟩ := r2 v
      exact ⟨p, hp, swapV k, by rw [hk, vecMul_swapRows]⟩
    · intro p hp q hq k hk
      exact r3 p hp q hq (swapV k) (by rw [hk, vecMul_swapRows]; rfl)
  · obtain ⟨pts, e, r, hl⟩ := pos hN hpos hn
    exact ⟨pts, by rw [fracFrom_filter h0 (amax_pos hN h0), ← e], r, hl⟩

/-- all copies of all positions, in the order in which they are made -/
def copies (h : M3 ℤ) (pts : List (V3 ℤ)) (ps : List (V3 ℚ)) : List (V3 ℚ) :=
  ps.flatMap fun p => pts.map fun v => toFrac h (p + castV v)

theorem length_copies (h : M3 ℤ) (pts : List (V3 ℤ)) (ps : List (V3 ℚ)) : (copies h pts ps).length = ps.length * pts.length :=
  length_flatMap_const ps _ _ (fun p => by simp)

theorem diagProd_nonneg {h : M3 ℤ} (hN : NonNegM h) : 0 ≤ diagProd h := by
  obtain ⟨h1, _, _, _, h5, _, _, _, h9⟩ := hN
  exact mul_nonneg (mul_nonneg h1 h5) h9

/-- what `supercell` constructs its result from -/
theorem enlarge_new (B : M3 ℚ) (ps : List (V3 ℚ)) (ns : List ℤ) (hps : ps ≠ []) (h : M3 ℤ) (h0 : det h ≠ 0) (hd : 0 ≤ diagProd h)
    {pts : List (V3 ℤ)} (hf : fracFrom h = .ok (pts.map fun v => toFrac h (castV v))) :
    enlarge B ps ns h = GCell.new (matMul (castM h) B) (copies h pts ps) (ns.flatMap fun z => List.replicate (diagProd h).toNat z) := by
  unfold enlarge
  rw [hf, inv_castM h0]
  simp only [bind, Except.bind, repeatNumbers]
  rw [if_neg (by simpa using hps), if_neg (not_lt.2 hd)]
  simp only []
  refine congrArg (fun l => GCell.new _ l _) ?_
  unfold copies
  rw [List.flatMap_map]
  refine List.flatMap_congr ?_
  intro p _
  rw [List.map_map]
  refine List.map_congr_left ?_
  intro v _
  exact (toFrac_add h p (castV v)).symm

/-- copies of decorated sites, one per coset, make up the same crystal -/
theorem copies_crystal (B : M3 ℚ) (sites : List (V3 ℚ × ℤ)) (h : M3 ℤ) (h0 : det h ≠ 0) {pts : List (V3 ℤ)} (hr : Reps h pts) :
    CartCrystal (matMul (castM h) B) (sites.flatMap fun s => (pts.map fun v => toFrac h (s.1 + castV v)).map fun q => (q, s.2)) =
      CartCrystal B sites := by
  have hcart : ∀ x, cartesian (matMul (castM h) B) x = cartesian B (cartesian (castM h) x) := cartesian_matMul h B
  have key : ∀ (u : V3 ℚ) (v k : V3 ℤ), cartesian (matMul (castM h) B)
      ((toFrac h (u + castV v)).1 + (k.1 : ℚ), (toFrac h (u + castV v)).2.1 + (k.2.1 : ℚ), (toFrac h (u + castV v)).2.2 + (k.2.2 : ℚ)) =
      cartesian B (u + castV (v + vecMul k h)) := by
    intro u v k
    rw [hcart]
    congr 1
    have e1 : ((toFrac h (u + castV v)).1 + (k.1 : ℚ), (toFrac h (u + castV v)).2.1 + (k.2.1 : ℚ),
        (toFrac h (u + castV v)).2.2 + (k.2.2 : ℚ)) = toFrac h (u + castV v + castV (vecMul k h)) := by
      rw [toFrac_add h (u + castV v), toFrac_lattice h0]; rfl
    rw [e1, toFrac_cartesian h0, add_assoc, ← castV_add]
  ext s
  simp only [CartCrystal, Set.mem_ofPred_eq, List.mem_flatMap, List.mem_map]
  constructor
  · rintro ⟨t, ⟨u, hu, q, ⟨v, hv, rfl⟩, rfl⟩, k, rfl⟩
    exact ⟨u, hu, v + vecMul k h, Prod.ext (key u.1 v k) rfl⟩
  · rintro ⟨u, hu, w, rfl⟩
    obtain ⟨v, hv, k, rfl⟩ := hr.2.1 w
    exact ⟨(toFrac h (u.1 + castV v), u.2), ⟨u, hu, _, ⟨v, hv, rfl⟩, rfl⟩, k, Prod.ext (key u.1 v k).symm rfl⟩

/-- no copy repeats another one -/
theorem copies_distinct (h : M3 ℤ) (h0 : det h ≠ 0) {pts : List (V3 ℤ)} (hr : Reps h pts) {ps : List (V3 ℚ)}
    (hp : ps.Pairwise fun p q => ¬ Cong p q) : (copies h pts ps).Pairwise fun p q => ¬ Cong p q := by
  unfold copies
  rw [List.pairwise_flatMap]
  constructor
  · intro p _
    rw [List.pairwise_map]
    refine hr.1.imp_of_mem ?_
    intro a b ha hb' hab hcg
    obtain ⟨k, hk⟩ := (cong_toFrac h0 _ _).1 hcg
    rw [add_assoc, add_right_inj, ← castV_add] at hk
    have := castV_inj hk
    exact hab (hr.2.2 b hb' a ha k (by rw [this]; abel)).symm
  · refine hp.imp ?_
    intro p q hpq x hx y hy hcg
    obtain ⟨v, _, rfl⟩ := List.mem_map.1 hx
    obtain ⟨w, _, rfl⟩ := List.mem_map.1 hy
    obtain ⟨k, hk⟩ := (cong_toFrac h0 _ _).1 hcg
    refine hpq ⟨v + vecMul k h - w, ?_⟩
    have : q = p + (castV v + castV (vecMul k h) - castV w) := by
      rw [← add_sub_assoc, ← add_assoc, ← hk]; abel
    rw [this]
    ext <;> simp [castV, V3.map]

theorem map_snd_zip_take {α β} (l : List α) (m : List β) : (l.zip m).map Prod.snd = m.take l.length := by
  induction l generalizing m with
  | nil => simp
  | cons a l ih =>
    cases m with
    | nil => simp
    | cons b m => simp [ih]

theorem length_repeated (ns : List ℤ) (d : ℕ) : (ns.flatMap fun z => List.replicate d z).length = ns.length * d :=
  length_flatMap_const ns _ d (fun z => by simp)

/-- C113: the product of the diagonal is the index `|det M|`: the supercell is the same crystal, has `|det M|` times the
sites, `det M` times the (signed) volume, and repeats no site. The matrix need not be triangular, and its rows may be a
left-handed choice. -/
theorem C113_same_crystal (g : GCell) (hpos : g.positions ≠ []) (hlen : g.positions.length = g.numbers.length) (M : M3 ℤ)
    (hM : NonNegM M) (h0 : det M ≠ 0) (hb : (det M).natAbs < 100000) (hd : M.1.1 * M.2.1.2.1 * M.2.2.2.2 = (det M).natAbs) :
    ∃ c, g.supercell M = .ok c ∧ (∀ x, cartesian c.lattice x = cartesian g.lattice (cartesian (castM M) x)) ∧
      CartCrystal c.lattice (c.positions.zip c.numbers) = CartCrystal g.lattice (g.positions.zip g.numbers) ∧
      c.positions.length = g.positions.length * (det M).natAbs ∧ c.numbers.length = g.positions.length * (det M).natAbs ∧
      volume c.lattice = ((det M : ℤ) : ℚ) * volume g.lattice ∧
      (g.positions.Pairwise (fun p q => ¬ Cong p q) → c.positions.Pairwise (fun p q => ¬ Cong p q)) := by
  obtain ⟨pts, f1, f2, f3⟩ := fracFrom_abs hM h0 hb
  have hd' : (diagProd M).toNat = (det M).natAbs := by unfold diagProd; rw [hd, Int.toNat_natCast]
  have he := enlarge_new g.lattice g.positions g.numbers hpos M h0 (diagProd_nonneg hM) f1
  rw [hd'] at he
  have hne : 0 < g.positions.length * (det M).natAbs := Nat.mul_pos (List.length_pos_iff.2 hpos) (by omega)
  have hpl : (copies M pts g.positions).length = g.positions.length * (det M).natAbs := by rw [length_copies, f3]
  obtain ⟨⟨c, hc⟩, _⟩ : (∃ c, GCell.new (matMul (castM M) g.lattice) (copies M pts g.positions)
      (g.numbers.flatMap fun z => List.replicate (det M).natAbs z) = .ok c) ∧ True := by
    refine ⟨(C09_constructor_domain _ _ _).1.2 ⟨?_, ?_⟩, trivial⟩
    · intro e; rw [e, List.length_nil] at hpl; omega
    · rw [hpl, length_repeated, hlen]
  obtain ⟨p1, p2, p3, p4, _⟩ := C09_sites_rearranged _ _ _ c hc
  have hzip := zip_repeat g.positions g.numbers (fun p => pts.map fun v => toFrac M (p + castV v)) (det M).natAbs
    (fun p => by simp [f3]) hlen
  change (copies M pts g.positions).zip _ = _ at hzip
  have hpp : c.positions.Perm (copies M pts g.positions) := by
    have e1 : (c.positions.zip c.numbers).map Prod.fst = c.positions := List.map_fst_zip (by omega)
    have e2 : ((copies M pts g.positions).zip (g.numbers.flatMap fun z => List.replicate (det M).natAbs z)).map Prod.fst =
      copies M pts g.positions := List.map_fst_zip (by rw [hpl, length_repeated, hlen])
    rw [← e1, ← e2]
    exact p2.map _
  refine ⟨c, by unfold GCell.supercell; rw [he, hc], fun x => by rw [p1]; exact cartesian_matMul M g.lattice x, ?_,
    by rw [p3, hpl], by rw [p4, hpl], by rw [p1]; exact volume_matMul M g.lattice, ?_⟩
  · rw [crystal_congr (fun s => p2.mem_iff), hzip, p1]
    exact copies_crystal g.lattice _ M h0 f2
  · intro hp
    exact (hpp.pairwise_iff (fun {x y} h h' => h (h'.symm))).2 (copies_distinct M h0 f2 hp)

/-- C113: otherwise the outcome depends on the product of the diagonal alone: below the index the call fails with
`IndexError`, from the index on it succeeds. -/
theorem C113_outcome (g : GCell) (hpos : g.positions ≠ []) (hlen : g.positions.length = g.numbers.length) (M : M3 ℤ)
    (hM : NonNegM M) (h0 : det M ≠ 0) (hb : (det M).natAbs < 100000) :
    ((∃ c, g.supercell M = .ok c) ↔ (det M).natAbs ≤ M.1.1 * M.2.1.2.1 * M.2.2.2.2) ∧
      (g.supercell M = .error .indexError ↔ M.1.1 * M.2.1.2.1 * M.2.2.2.2 < (det M).natAbs) := by
  obtain ⟨pts, f1, f2, f3⟩ := fracFrom_abs hM h0 hb
  have hdn := diagProd_nonneg hM
  have he := enlarge_new g.lattice g.positions g.numbers hpos M h0 hdn f1
  have hN : 0 < g.positions.length := List.length_pos_iff.2 hpos
  have hne : 0 < g.positions.length * (det M).natAbs := Nat.mul_pos hN (by omega)
  have hpl : (copies M pts g.positions).length = g.positions.length * (det M).natAbs := by rw [length_copies, f3]
  have hcn : copies M pts g.positions ≠ [] := by intro e; rw [e, List.length_nil] at hpl; omega
  have hle : g.positions.length * (det M).natAbs ≤ g.positions.length * (diagProd M).toNat ↔
      ((det M).natAbs : ℤ) ≤ M.1.1 * M.2.1.2.1 * M.2.2.2.2 := by
    rw [Nat.mul_le_mul_left_iff hN]
    change _ ↔ ((det M).natAbs : ℤ) ≤ diagProd M
    omega
  unfold GCell.supercell
  rw [he]
  refine ⟨?_, ?_⟩
  · rw [(C09_constructor_domain _ _ _).1, hpl, length_repeated, ← hlen, hle]
    simp [hcn]
  · rw [(C09_constructor_domain _ _ _).2.2, hpl, length_repeated, ← hlen, ← not_le, hle, not_le]
    simp [hcn]

/-- C113: a singular matrix fails with `LinAlgError`. -/
theorem C113_singular (g : GCell) (M : M3 ℤ) (h0 : det M = 0) : g.supercell M = .error .linAlgError := by
  have : inv (castM M) = .error .linAlgError := by
    unfold inv
    rw [if_pos (by rw [← castM_det, h0]; simp)]
  unfold GCell.supercell enlarge
  rw [this]
  rfl

/-- C113: when the call succeeds the sites are those of the crystal, one per coset, with no repetition, but the species are
those of the list in which every number is repeated as often as the product of the diagonal says, cut off at the number of
sites. A cell of one species therefore gives the right crystal. -/
theorem C113_sites_right (g : GCell) (hpos : g.positions ≠ []) (hlen : g.positions.length = g.numbers.length) (M : M3 ℤ)
    (hM : NonNegM M) (h0 : det M ≠ 0) (hb : (det M).natAbs < 100000) (c : GCell) (hc : g.supercell M = .ok c) :
    (∀ x, cartesian c.lattice x = cartesian g.lattice (cartesian (castM M) x)) ∧
      CartCrystal c.lattice (c.positions.map fun p => (p, 0)) = CartCrystal g.lattice (g.positions.map fun p => (p, 0)) ∧
      c.positions.length = g.positions.length * (det M).natAbs ∧
      (g.positions.Pairwise (fun p q => ¬ Cong p q) → c.positions.Pairwise (fun p q => ¬ Cong p q)) ∧
      c.numbers.Perm ((g.numbers.flatMap fun z => List.replicate (M.1.1 * M.2.1.2.1 * M.2.2.2.2).toNat z).take
        (g.positions.length * (det M).natAbs)) ∧
      ∀ z, (∀ y ∈ g.numbers, y = z) →
        CartCrystal c.lattice (c.positions.zip c.numbers) = CartCrystal g.lattice (g.positions.zip g.numbers) := by
  obtain ⟨pts, f1, f2, f3⟩ := fracFrom_abs hM h0 hb
  have he := enlarge_new g.lattice g.positions g.numbers hpos M h0 (diagProd_nonneg hM) f1
  unfold GCell.supercell at hc
  rw [he] at hc
  obtain ⟨p1, p2, p3, p4, _⟩ := C09_sites_rearranged _ _ _ c hc
  have hdom := (C09_constructor_domain _ _ _).1.1 ⟨c, hc⟩
  have hpl : (copies M pts g.positions).length = g.positions.length * (det M).natAbs := by rw [length_copies, f3]
  set nums := g.numbers.flatMap fun z => List.replicate (diagProd M).toNat z with hnums
  have hpp : c.positions.Perm (copies M pts g.positions) := by
    have e1 : (c.positions.zip c.numbers).map Prod.fst = c.positions := List.map_fst_zip (by omega)
    have e2 : ((copies M pts g.positions).zip nums).map Prod.fst = copies M pts g.positions := List.map_fst_zip hdom.2
    rw [← e1, ← e2]
    exact p2.map _
  have hnp : c.numbers.Perm (nums.take (g.positions.length * (det M).natAbs)) := by
    have e1 : (c.positions.zip c.numbers).map Prod.snd = c.numbers := List.map_snd_zip (by omega)
    have e2 : ((copies M pts g.positions).zip nums).map Prod.snd = nums.take (g.positions.length * (det M).natAbs) := by
      rw [map_snd_zip_take, hpl]
    rw [← e1, ← e2]
    exact p2.map _
  have hsites : ∀ z : ℤ, (copies M pts g.positions).map (fun p => (p, z)) =
      (g.positions.map fun p => (p, z)).flatMap fun s => (pts.map fun v => toFrac M (s.1 + castV v)).map fun q => (q, s.2) := by
    intro z
    unfold copies
    rw [List.map_flatMap, List.flatMap_map]
  have hcr : ∀ z : ℤ, CartCrystal c.lattice (c.positions.map fun p => (p, z)) =
      CartCrystal g.lattice (g.positions.map fun p => (p, z)) := by
    intro z
    rw [crystal_congr (fun s => (hpp.map _).mem_iff), hsites, p1]
    exact copies_crystal g.lattice _ M h0 f2
  refine ⟨fun x => by rw [p1]; exact cartesian_matMul M g.lattice x, hcr 0, by rw [p3, hpl],
    fun hp => (hpp.pairwise_iff (fun {x y} h h' => h (h'.symm))).2 (copies_distinct M h0 f2 hp), hnp, ?_⟩
  intro z hz
  have zipc : ∀ (l : List (V3 ℚ)) (m : List ℤ), l.length = m.length → (∀ y ∈ m, y = z) → l.zip m = l.map fun p => (p, z) := by
    intro l m hlm hm
    have : m = List.replicate l.length z := List.eq_replicate_iff.2 ⟨hlm.symm, hm⟩
    rw [this]
    clear * -
    induction l with
    | nil => rfl
    | cons a l ih => simp [List.replicate_succ, ih]
  have hall : ∀ y ∈ c.numbers, y = z := by
    intro y hy
    have := List.mem_of_mem_take (hnp.mem_iff.1 hy)
    obtain ⟨w, hw, hy'⟩ := List.mem_flatMap.1 this
    rw [List.eq_of_mem_replicate hy', hz w hw]
  rw [zipc _ _ (by omega) hall, zipc _ _ hlen hz]
  exact hcr z

/-- C113: above the index the species are wrong. If the species of the first stored atom occurs nowhere else, the supercell
has more atoms of it than the crystal has in that volume. -/
theorem C113_species_wrong (g : GCell) (z : ℤ) (ns : List ℤ) (hnum : g.numbers = z :: ns) (hne : ns ≠ []) (hz : z ∉ ns)
    (hlen : g.positions.length = g.numbers.length) (M : M3 ℤ) (hM : NonNegM M) (h0 : det M ≠ 0)
    (hb : (det M).natAbs < 100000) (hbig : (det M).natAbs < M.1.1 * M.2.1.2.1 * M.2.2.2.2) :
    ∃ c, g.supercell M = .ok c ∧ g.numbers.count z * (det M).natAbs < c.numbers.count z := by
  have hpos : g.positions ≠ [] := by
    intro e; rw [e, hnum] at hlen; simp at hlen
  obtain ⟨c, hc⟩ := (C113_outcome g hpos hlen M hM h0 hb).1.2 hbig.le
  refine ⟨c, hc, ?_⟩
  obtain ⟨_, _, _, _, hp, _⟩ := C113_sites_right g hpos hlen M hM h0 hb c hc
  have hl2 : 2 ≤ g.positions.length := by
    have := List.length_pos_iff.2 hne
    rw [hlen, hnum, List.length_cons]; omega
  rw [hp.count_eq, hnum, List.flatMap_cons, List.take_append, List.count_append, List.take_replicate, List.count_replicate_self,
    List.count_cons_self, List.count_eq_zero.2 hz]
  have : (det M).natAbs * 2 ≤ g.positions.length * (det M).natAbs := by
    rw [Nat.mul_comm]; exact Nat.mul_le_mul_right _ hl2
  omega

/-- C113: two negative factors. `supercell(diag(-a, -b, k))` has a positive determinant `a·b·k`, and the call succeeds, but
only the copies along the third axis are made: `k` of the `a·b·k` copies, in a cell of `a·b·k` times the volume. -/
theorem C113_negative_factors (g : GCell) (hpos : g.positions ≠ []) (hlen : g.positions.length = g.numbers.length)
    (a b k : ℕ) (ha : 0 < a ∧ a < 100000) (hb : 0 < b ∧ b < 100000) (hk : 0 < k ∧ k < 100000) :
    ∃ c, g.supercell ((-a, 0, 0), (0, -b, 0), (0, 0, k)) = .ok c ∧ c.positions.length = g.positions.length * k ∧
      volume c.lattice = (a * b * k : ℕ) * volume g.lattice := by
  set h : M3 ℤ := ((-a, 0, 0), (0, -b, 0), (0, 0, k)) with hh
  have hdet : det h = a * b * k := by simp only [hh, det]; ring
  have hpd : (0 : ℤ) < a * b * k := by
    have h1 : (0 : ℤ) < a := by omega
    have h2 : (0 : ℤ) < b := by omega
    have h3 : (0 : ℤ) < k := by omega
    positivity
  have h0 : det h ≠ 0 := by rw [hdet]; exact hpd.ne'
  have hdiag : diagProd h = a * b * k := by simp only [hh, diagProd]; ring
  have hmax : amax h = k := by
    simp only [hh, amax]
    omega
  have hfr : ∀ v : V3 ℤ, toFrac h (castV v) =
      ((1 / ((a : ℤ) : ℚ)) * ((-v.1 : ℤ) : ℚ), (1 / ((b : ℤ) : ℚ)) * ((-v.2.1 : ℤ) : ℚ), (1 / ((k : ℤ) : ℚ)) * ((v.2.2 : ℤ) : ℚ)) := by
    intro v
    have qa : (a : ℚ) ≠ 0 := by have : a ≠ 0 := by omega
                                exact_mod_cast this
    have qb : (b : ℚ) ≠ 0 := by have : b ≠ 0 := by omega
                                exact_mod_cast this
    have qk : (k : ℚ) ≠ 0 := by have : k ≠ 0 := by omega
                                exact_mod_cast this
    rw [toFrac_int, hdet]
    simp only [hh, adj, vecMul, V3.map]
    refine Prod.ext ?_ (Prod.ext ?_ ?_) <;> push_cast <;> field_simp <;> ring
  have hmem : ∀ v, v ∈ ((intCoords (amax h * 3).toNat).filter fun v => inCell (toFrac h (castV v))) ↔
      v ∈ (List.range k).map fun z : ℕ => ((0 : ℤ), (0 : ℤ), (z : ℤ)) := by
    intro v
    rw [List.mem_filter, mem_intCoords, hmax, hfr]
    unfold inCell
    rw [Bool.and_eq_true, Bool.and_eq_true, inCell1_iff (by omega) (by omega), inCell1_iff (by omega) (by omega),
      inCell1_iff (by omega) (by omega), List.mem_map]
    obtain ⟨x, y, z⟩ := v
    simp only [List.mem_range, Prod.mk.injEq]
    constructor
    · rintro ⟨h1, h2⟩
      exact ⟨z.toNat, by omega, by omega, by omega, by omega⟩
    · rintro ⟨w, hw, rfl, rfl, rfl⟩
      omega
  have hl : ((intCoords (amax h * 3).toNat).filter fun v => inCell (toFrac h (castV v))).length = k := by
    have hp := (List.perm_ext_iff_of_nodup ((nodup_intCoords _).filter _) (List.Nodup.map (f := fun z : ℕ => ((0 : ℤ), (0 : ℤ), (z : ℤ)))
      (fun x y e => by simpa using e) List.nodup_range)).2 hmem
    rw [hp.length_eq, List.length_map, List.length_range]
  have he := enlarge_new g.lattice g.positions g.numbers hpos h h0 (by rw [hdiag]; exact hpd.le)
    (fracFrom_filter h0 (by rw [hmax]; omega))
  set pts := (intCoords (amax h * 3).toNat).filter fun v => inCell (toFrac h (castV v))
  have hN : 0 < g.positions.length := List.length_pos_iff.2 hpos
  have hpl : (copies h pts g.positions).length = g.positions.length * k := by rw [length_copies, hl]
  have hdn : (diagProd h).toNat = a * b * k := by rw [hdiag]; exact_mod_cast Int.toNat_natCast (a * b * k)
  obtain ⟨c, hc⟩ := (C09_constructor_domain (matMul (castM h) g.lattice) (copies h pts g.positions)
    (g.numbers.flatMap fun z => List.replicate (diagProd h).toNat z)).1.2 (by
      constructor
      · intro e
        rw [e, List.length_nil] at hpl
        have := Nat.mul_pos hN hk.1
        omega
      · rw [hpl, length_repeated, hdn, ← hlen]
        refine Nat.mul_le_mul_left _ ?_
        exact Nat.le_mul_of_pos_left _ (Nat.mul_pos ha.1 hb.1))
  obtain ⟨p1, _, p3, _, _⟩ := C09_sites_rearranged _ _ _ c hc
  refine ⟨c, by unfold GCell.supercell; rw [he, hc], by rw [p3, hpl], ?_⟩
  rw [p1, volume_matMul, hdet]
  push_cast
  rfl

/-! ## examples -/

/-- a cell of two species -/
def twoSpecies : GCell := ⟨((4, 0, 0), (0, 4, 0), (0, 0, 4)), [(0, 0, 0), (1 / 2, 1 / 2, 1 / 2)], [11, 17], [11, 17], 2⟩

/-- a matrix that is not triangular, with the product of the diagonal equal to the determinant, meets the hypotheses -/
example : NonNegM ((1, 1, 0), (0, 2, 0), (1, 0, 3)) ∧ det ((1, 1, 0), (0, 2, 0), (1, 0, 3)) = (6 : ℤ) ∧
    (1 * 2 * 3 : ℤ) = 6 := by
  unfold NonNegM; decide

/-- index 3 with diagonal product 4: four atoms of the first species and two of the second one -/
theorem C113_two_species_false :
    (fun c : GCell => (c.numbers.count 11, c.numbers.count 17, c.positions.length)) <$>
      twoSpecies.supercell ((2, 1, 0), (1, 2, 0), (0, 0, 1)) = .ok (4, 2, 6) := by
  decide +kernel

/-- the matrix of the face-centred cell, `((0,1,1),(1,0,1),(1,1,0))`: the index is 2 and the product of the diagonal 0 -/
example : twoSpecies.supercell ((0, 1, 1), (1, 0, 1), (1, 1, 0)) = .error .indexError := by decide +kernel

/-- a left-handed choice of rows whose diagonal says the index: `det = -4` and the product of the diagonal is 4 -/
example : NonNegM ((1, 2, 0), (2, 4, 1), (0, 4, 1)) ∧ det ((1, 2, 0), (2, 4, 1), (0, 4, 1)) = (-4 : ℤ) := by
  unfold NonNegM; decide

/-- the factors `-2 -1 1`: one copy of each atom in twice the volume -/
example : (fun c : GCell => (c.positions.length, volume c.lattice)) <$>
    twoSpecies.supercell ((-2, 0, 0), (0, -1, 0), (0, 0, 1)) = .ok (2, 2 * volume twoSpecies.lattice) := by
  decide +kernel

end Verif
