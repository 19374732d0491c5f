import Verif.Lemmas.Frac
import Verif.Props.Hnf

/-! # C32, C33, C34: superlattice cells and supercells describe the same crystal -/

namespace Verif

open Spec

/-- C32: the interior points. There are `det h` of them, they lie in `[0,1)³`, no two are congruent, and their Cartesian
images are integer vectors that represent every coset of `ℤ³` modulo the superlattice exactly once. -/
theorem C32_interior_points (h : M3 ℤ) (ht : Triangular h) (n : ℕ) (hn : n = h.1.1 * h.2.1.2.1 * h.2.2.2.2) (hb : n < 100000) :
    ∃ fr, fracFrom h = .ok fr ∧ fr.length = n ∧
      (∀ o ∈ fr, (0 ≤ o.1 ∧ o.1 < 1) ∧ (0 ≤ o.2.1 ∧ o.2.1 < 1) ∧ (0 ≤ o.2.2 ∧ o.2.2 < 1)) ∧
      fr.Pairwise (fun o o' => ¬ Cong o o') ∧
      (∀ o ∈ fr, ∃ p : V3 ℤ, cartesian (castM h) o = castV p) ∧
      ∀ v : V3 ℤ, ∃! o, o ∈ fr ∧ ∃ p : V3 ℤ, cartesian (castM h) o = castV p ∧ v - p ∈ rowLattice h := by
  have h0 := det_pos ht
  have hd : det h = n := by rw [det_triangular ht, hn]
  obtain ⟨pts, h1, h2, h3, h4⟩ := fracFrom_eq ht (by rw [hd]; exact_mod_cast hb)
  refine ⟨_, h1, by rw [List.length_map, h4, hd]; simp, ?_, ?_, ?_, ?_⟩
  · intro o ho
    obtain ⟨v, hv, rfl⟩ := List.mem_map.1 ho
    exact toFrac_unit h0 ((h3 v).1 hv)
  · rw [List.pairwise_map]
    refine h2.imp_of_mem ?_
    intro a b ha hb' hab hc
    obtain ⟨k, hk⟩ := (cong_toFrac h0.ne' _ _).1 hc
    rw [← castV_add] at hk
    have := castV_inj hk
    exact hab (inside_unique h0 ((h3 b).1 hb') ((h3 a).1 ha) (k := k) (by rw [this]; abel)).symm
  · intro o ho
    obtain ⟨v, hv, rfl⟩ := List.mem_map.1 ho
    exact ⟨v, toFrac_cartesian h0.ne' _⟩
  · intro v
    obtain ⟨p, k, hp, rfl⟩ := inside_rep h0 v
    refine ⟨toFrac h (castV p), ⟨List.mem_map.2 ⟨p, (h3 p).2 hp, rfl⟩, p, toFrac_cartesian h0.ne' _,
      (mem_rowLattice _ _).2 ⟨k, by simp⟩⟩, ?_⟩
    rintro o ⟨ho, q, hq, hm⟩
    obtain ⟨r, hr, rfl⟩ := List.mem_map.1 ho
    rw [toFrac_cartesian h0.ne'] at hq
    obtain rfl := castV_inj hq
    obtain ⟨j, hj⟩ := (mem_rowLattice _ _).1 hm
    have : r = p := inside_unique h0 ((h3 r).1 hr) hp (k := k - j) (by
      have : vecMul (k - j) h = vecMul k h - vecMul j h := by ext <;> simp [vecMul] <;> ring
      rw [this, ← hj]; abel)
    rw [this]

theorem zip_repeat (ps : List (V3 ℚ)) (ns : List ℤ) (F : V3 ℚ → List (V3 ℚ)) (n : ℕ) (hF : ∀ p, (F p).length = n)
    (hl : ps.length = ns.length) :
    (ps.flatMap F).zip (ns.flatMap fun z => List.replicate n z) = (ps.zip ns).flatMap fun s => (F s.1).map fun q => (q, s.2) := by
  induction ps generalizing ns with
  | nil => simp
  | cons p ps ih =>
    cases ns with
    | nil => simp at hl
    | cons z ns =>
      simp only [List.flatMap_cons, List.zip_cons_cons]
      rw [List.zip_append (by simp [hF]), ih ns (by simpa using hl)]
      congr 1
      have : ∀ (l : List (V3 ℚ)) (n : ℕ), l.length = n → l.zip (List.replicate n z) = l.map fun q => (q, z) := by
        intro l
        induction l with
        | nil => intro n h; simp at h; subst h; rfl
        | cons a l ih =>
          intro n h
          cases n with
          | zero => simp at h
          | succ n => simp [List.replicate_succ, ih n (by simpa using h)]
      exact this _ _ (hF p)

theorem length_flatMap_const {α β} (l : List α) (F : α → List β) (n : ℕ) (h : ∀ a, (F a).length = n) :
    (l.flatMap F).length = l.length * n := by
  induction l with
  | nil => simp
  | cons a l ih => simp [ih, h, Nat.add_mul, add_comm]

theorem cartesian_matMul (h : M3 ℤ) (B : M3 ℚ) (x : V3 ℚ) :
    cartesian (matMul (castM h) B) x = cartesian B (cartesian (castM h) x) := (vecMul_matMul x (castM h) B).symm

theorem volume_matMul (h : M3 ℤ) (B : M3 ℚ) : volume (matMul (castM h) B) = ((det h : ℤ) : ℚ) * volume B := by
  rw [castM_det]; exact det_matMul _ _

theorem crystal_congr {L : M3 ℚ} {l m : List (V3 ℚ × ℤ)} (h : ∀ s, s ∈ l ↔ s ∈ m) : CartCrystal L l = CartCrystal L m := by
  ext s
  simp only [CartCrystal, Set.mem_ofPred_eq, h]

theorem cartesian_add (B : M3 ℚ) (u v : V3 ℚ) : cartesian B (u + v) = cartesian B u + cartesian B v := vecMul_add u v B

theorem cong_castV {p q : V3 ℚ} : Cong p q ↔ ∃ z : V3 ℤ, q = p + castV z := Iff.rfl

/-- the sites produced by enlarging a cell: one copy of every site per interior point -/
theorem enlarge_sites (B : M3 ℚ) (ps : List (V3 ℚ)) (ns : List ℤ) (hps : ps ≠ []) (hl : ps.length = ns.length)
    (h : M3 ℤ) (ht : Triangular h) (n : ℕ) (hn : n = h.1.1 * h.2.1.2.1 * h.2.2.2.2) (hb : n < 100000) :
    ∃ (c : GCell) (pts : List (V3 ℤ)), enlarge B ps ns h = .ok c ∧ c.lattice = matMul (castM h) B ∧ pts.Nodup ∧ (∀ v, v ∈ pts ↔ Inside h v) ∧
      pts.length = n ∧ c.positions.length = ps.length * n ∧ c.numbers.length = ps.length * n ∧
      (c.positions.zip c.numbers).Perm
        ((ps.zip ns).flatMap fun s => (pts.map (fun v => toFrac h (s.1 + castV v))).map fun q => (q, s.2)) ∧
      c.positions.Perm (ps.flatMap fun p => pts.map (fun v => toFrac h (p + castV v))) := by
  have h0 := det_pos ht
  have hd : det h = n := by rw [det_triangular ht, hn]
  obtain ⟨pts, f1, f2, f3, f4⟩ := fracFrom_eq ht (by rw [hd]; exact_mod_cast hb)
  have hlen : pts.length = n := by rw [f4, hd]; simp
  set F : V3 ℚ → List (V3 ℚ) := fun p => pts.map (fun v => toFrac h (p + castV v)) with hF
  have hFl : ∀ p, (F p).length = n := fun p => by simp [hF, hlen]
  set pos := ps.flatMap F with hpos
  set nums := ns.flatMap (fun z => List.replicate n z) with hnums
  have hposl : pos.length = ps.length * n := length_flatMap_const ps F n hFl
  have hnumsl : nums.length = ps.length * n := by
    rw [hnums, length_flatMap_const ns _ n (fun z => by simp), hl]
  have hn0 : 0 < n := by have := hd ▸ h0; exact_mod_cast this
  have hposne : pos ≠ [] := by
    intro he
    rw [he] at hposl
    have : 0 < ps.length * n := Nat.mul_pos (List.length_pos_iff.2 hps) hn0
    rw [List.length_nil] at hposl
    exact absurd hposl this.ne
  obtain ⟨qs, ms, _, _, hnew⟩ := new_spec (matMul (castM h) B) hposne (nums := nums) (by omega)
  set c : GCell := ⟨matMul (castM h) B, qs, ms, ms, nums.length⟩ with hc
  have henl : enlarge B ps ns h = .ok c := by
    unfold enlarge
    rw [f1, inv_castM h0.ne']
    have hdiag : diagProd h = n := by rw [hn]; rfl
    simp only [bind, Except.bind, repeatNumbers, hdiag]
    rw [if_neg (by simpa using hps), if_neg (by simp)]
    simp only [Int.toNat_natCast]
    rw [← hnew, hpos, hnums]
    refine congrArg (fun l => GCell.new _ l _) ?_
    rw [List.flatMap_map]
    refine List.flatMap_congr ?_
    intro p _
    rw [hF, List.map_map]
    refine List.map_congr_left ?_
    intro v _
    exact (toFrac_add h p (castV v)).symm
  obtain ⟨p1, p2, p3, p4, _⟩ := C09_sites_rearranged _ _ _ c hnew
  have hzip : pos.zip nums = (ps.zip ns).flatMap fun s => (F s.1).map fun q => (q, s.2) := zip_repeat ps ns F n hFl hl
  have hpp : c.positions.Perm pos := by
    have e1 : (c.positions.zip c.numbers).map Prod.fst = c.positions := List.map_fst_zip (by omega)
    have e2 : (pos.zip nums).map Prod.fst = pos := List.map_fst_zip (by omega)
    rw [← e1, ← e2]
    exact p2.map _
  exact ⟨c, pts, henl, rfl, f2, f3, hlen, by rw [p3, hposl], by rw [p4, hposl], hzip ▸ p2, hpp⟩

/-- the properties of an enlarged cell -/
theorem enlarge_spec (B : M3 ℚ) (ps : List (V3 ℚ)) (ns : List ℤ) (hps : ps ≠ []) (hl : ps.length = ns.length)
    (h : M3 ℤ) (ht : Triangular h) (n : ℕ) (hn : n = h.1.1 * h.2.1.2.1 * h.2.2.2.2) (hb : n < 100000) :
    ∃ c, enlarge B ps ns h = .ok c ∧ Spec.cartesian c.lattice = (fun x => cartesian B (cartesian (castM h) x)) ∧
      c.positions.length = ps.length * n ∧ c.numbers.length = ps.length * n ∧
      CartCrystal c.lattice (c.positions.zip c.numbers) = CartCrystal B (ps.zip ns) ∧
      volume c.lattice = n * volume B ∧
      (ps.Pairwise (fun p q => ¬ Cong p q) → c.positions.Pairwise (fun p q => ¬ Cong p q)) := by
  have h0 := det_pos ht
  have hd : det h = n := by rw [det_triangular ht, hn]
  obtain ⟨c, pts, henl, hlat, f2, f3, hlen, p3, p4, p2, hpp⟩ := enlarge_sites B ps ns hps hl h ht n hn hb
  have hcart : cartesian c.lattice = (fun x => cartesian B (cartesian (castM h) x)) := by
    funext x; rw [hlat]; exact cartesian_matMul h B x
  refine ⟨c, henl, hcart, p3, p4, ?_, ?_, ?_⟩
  · rw [crystal_congr (fun s => p2.mem_iff)]
    ext s
    simp only [CartCrystal, Set.mem_ofPred_eq, List.mem_flatMap, List.mem_map]
    constructor
    · rintro ⟨t, ⟨u, hu, q, ⟨v, hv, rfl⟩, rfl⟩, k, rfl⟩
      refine ⟨u, hu, v + vecMul k h, ?_⟩
      simp only [Prod.mk.injEq, and_true]
      rw [congrFun hcart]
      congr 1
      have e1 : ((toFrac h (u.1 + castV v)).1 + (k.1 : ℚ), (toFrac h (u.1 + castV v)).2.1 + (k.2.1 : ℚ),
          (toFrac h (u.1 + castV v)).2.2 + (k.2.2 : ℚ)) = toFrac h (u.1 + castV v + castV (vecMul k h)) := by
        rw [toFrac_add h (u.1 + castV v), toFrac_lattice h0.ne']; rfl
      rw [e1, toFrac_cartesian h0.ne', add_assoc, ← castV_add]; rfl
    · rintro ⟨u, hu, w, rfl⟩
      obtain ⟨v, k, hv, rfl⟩ := inside_rep h0 w
      refine ⟨(toFrac h (u.1 + castV v), u.2), ⟨u, hu, _, ⟨v, (f3 v).2 hv, rfl⟩, rfl⟩, k, ?_⟩
      simp only [Prod.mk.injEq, and_true]
      rw [congrFun hcart]
      congr 1
      have e1 : ((toFrac h (u.1 + castV v)).1 + (k.1 : ℚ), (toFrac h (u.1 + castV v)).2.1 + (k.2.1 : ℚ),
          (toFrac h (u.1 + castV v)).2.2 + (k.2.2 : ℚ)) = toFrac h (u.1 + castV v + castV (vecMul k h)) := by
        rw [toFrac_add h (u.1 + castV v), toFrac_lattice h0.ne']; rfl
      rw [e1, toFrac_cartesian h0.ne', add_assoc, ← castV_add]; rfl
  · have := volume_matMul h B
    rw [hd] at this
    rw [hlat]
    exact this
  · intro hp
    refine (hpp.pairwise_iff (fun {x y} h h' => h (h'.symm))).2 ?_
    rw [List.pairwise_flatMap]
    constructor
    · intro p _
      rw [List.pairwise_map]
      refine f2.imp_of_mem ?_
      intro a b ha hb' hab hcg
      obtain ⟨k, hk⟩ := (cong_toFrac h0.ne' _ _).1 hcg
      rw [add_assoc, add_right_inj, ← castV_add] at hk
      have := castV_inj hk
      exact hab (inside_unique h0 ((f3 b).1 hb') ((f3 a).1 ha) (k := k) (by rw [this]; abel)).symm
    · refine hp.imp ?_
      intro p q hpq x hx y hy hcg
      obtain ⟨v, _, rfl⟩ := List.mem_map.1 hx
      obtain ⟨w, _, rfl⟩ := List.mem_map.1 hy
      obtain ⟨k, hk⟩ := (cong_toFrac h0.ne' _ _).1 hcg
      refine hpq ⟨v + vecMul k h - w, ?_⟩
      have : q = p + (castV v + castV (vecMul k h) - castV w) := by
        rw [← add_sub_assoc, ← add_assoc, ← hk]; abel
      rw [this]
      ext <;> simp [castV, V3.map]

/-- C33: `to_general_cell()` describes the same infinite decorated crystal as the unit cell, with `N·n` sites, `n` times
the volume, and without repeating a site. -/
theorem C33_superlattice_cell (s : SLCell) (hpos : s.upositions ≠ []) (hlen : s.upositions.length = s.unumbers.length)
    (ht : Triangular s.latCoeff) (n : ℕ) (hn : n = s.latCoeff.1.1 * s.latCoeff.2.1.2.1 * s.latCoeff.2.2.2.2)
    (hb : n < 100000) :
    ∃ c, s.toGeneralCell = .ok c ∧
      CartCrystal c.lattice (c.positions.zip c.numbers) = CartCrystal s.ub (s.upositions.zip s.unumbers) ∧
      c.positions.length = s.upositions.length * n ∧ c.numbers.length = s.upositions.length * n ∧
      volume c.lattice = n * volume s.ub ∧
      (s.upositions.Pairwise (fun p q => ¬ Cong p q) → c.positions.Pairwise (fun p q => ¬ Cong p q)) := by
  obtain ⟨c, h1, _, h3, h4, h5, h6, h7⟩ := enlarge_spec s.ub s.upositions s.unumbers hpos hlen s.latCoeff ht n hn hb
  exact ⟨c, h1, h5, h3, h4, h6, h7⟩

/-- every Hermite normal form is in the class covered by C32 and C33 -/
theorem isHnf_triangular {n : ℕ} {m : M3 ℤ} (h : IsHnf n m) : Triangular m ∧ (n : ℤ) = m.1.1 * m.2.1.2.1 * m.2.2.2.2 := by
  obtain ⟨a, b, d, c, e, f, rfl, ha, hc, hf, hn, hb, hd, he⟩ := h
  exact ⟨⟨rfl, rfl, rfl, ha, hc, hf, hb.1, hd.1, he.1⟩, hn.symm⟩

/-- C33 composed with the enumeration: every listed superlattice of every index below 100000 converts correctly. -/
theorem C33_enumerated (setList : List ℕ → List ℕ) (hs : SetOrder setList) (unit : GCell) (hpos : unit.positions ≠ [])
    (hlen : unit.positions.length = unit.numbers.length) (rots : List (M3 ℤ)) (n : ℕ) (hn : 0 < n) (hb : n < 100000) :
    ∃ l, hnfsFromNDups setList unit rots n = .ok l ∧ ∀ s ∈ l, ∃ c, s.toGeneralCell = .ok c ∧
      CartCrystal c.lattice (c.positions.zip c.numbers) = CartCrystal unit.lattice (unit.positions.zip unit.numbers) ∧
      c.positions.length = unit.positions.length * n := by
  obtain ⟨l, h1, _, h3, h4⟩ := C28_hnf_exact setList hs unit rots n hn
  refine ⟨l, h1, fun s hs' => ?_⟩
  obtain ⟨t1, t2⟩ := isHnf_triangular ((h3 _).1 (List.mem_map_of_mem hs'))
  obtain ⟨u1, u2, u3, u4⟩ := h4 s hs'
  obtain ⟨c, c1, c2, c3, _⟩ := C33_superlattice_cell s (by rw [u2]; exact hpos) (by rw [u2, u3]; exact hlen) t1 n t2 hb
  exact ⟨c, c1, by rw [c2, u1, u2, u3], by rw [c3, u2]⟩

/-- C34: `supercell(M)` for an upper triangular `M` with non-negative entries and positive diagonal. -/
theorem C34_supercell (g : GCell) (hpos : g.positions ≠ []) (hlen : g.positions.length = g.numbers.length)
    (h : M3 ℤ) (ht : Triangular h) (n : ℕ) (hn : n = h.1.1 * h.2.1.2.1 * h.2.2.2.2) (hb : n < 100000) :
    ∃ c, g.supercell h = .ok c ∧
      CartCrystal c.lattice (c.positions.zip c.numbers) = CartCrystal g.lattice (g.positions.zip g.numbers) ∧
      c.positions.length = g.positions.length * n ∧ c.numbers.length = g.positions.length * n ∧
      volume c.lattice = n * volume g.lattice ∧
      (g.positions.Pairwise (fun p q => ¬ Cong p q) → c.positions.Pairwise (fun p q => ¬ Cong p q)) := by
  obtain ⟨c, h1, _, h3, h4, h5, h6, h7⟩ := enlarge_spec g.lattice g.positions g.numbers hpos hlen h ht n hn hb
  exact ⟨c, h1, h5, h3, h4, h6, h7⟩

/-- Beyond the tolerance bound the claim fails: in the `1 × 1 × 200000` supercell the point `(0, 0, 199999)` is dropped
(its last coordinate `0.999995` is not below `0.99999`), so its coset has no representative. -/
theorem C32_false_at_200000 : ∃ (h : M3 ℤ) (fr : List (V3 ℚ)) (v : V3 ℤ), Triangular h ∧ fracFrom h = .ok fr ∧
    ∀ o ∈ fr, ∀ p : V3 ℤ, cartesian (castM h) o = castV p → v - p ∉ rowLattice h := by
  have hi : inv (castM ((1, 0, 0), (0, 1, 0), (0, 0, 200000))) = .ok ((1, 0, 0), (0, 1, 0), (0, 0, 1 / 200000)) := by
    decide +kernel
  have ha : amax ((1, 0, 0), (0, 1, 0), (0, 0, 200000)) = 200000 := by decide +kernel
  refine ⟨((1, 0, 0), (0, 1, 0), (0, 0, 200000)),
    ((intCoords ((200000 : ℤ) * 3).toNat).map (fun v => vecMul (castV v) ((1, 0, 0), (0, 1, 0), (0, 0, 1 / 200000)))).filter
      inCell, (0, 0, 199999), by unfold Triangular; decide, ?_, ?_⟩
  · unfold fracFrom
    rw [hi]
    simp only [bind, Except.bind]
    rw [ha, if_neg (by norm_num)]
    rfl
  · intro o ho p hp hm
    obtain ⟨ho1, ho2⟩ := List.mem_filter.1 ho
    obtain ⟨w, hw, rfl⟩ := List.mem_map.1 ho1
    obtain ⟨k, hk⟩ := (mem_rowLattice _ _).1 hm
    obtain ⟨_, _, hw0, _⟩ := (mem_intCoords _ _).1 hw
    simp only [inCell, inCell1, Bool.and_eq_true, vecMul, castV, V3.map] at ho2
    have h2 := ho2.2.2
    have hp3 := congrArg (fun q : V3 ℚ => q.2.2) hp
    have hk3 := congrArg (fun q : V3 ℤ => q.2.2) hk
    simp only [cartesian, castM, castV, vecMul, V3.map, Prod.snd_sub] at hp3 hk3
    norm_num at h2 hp3 hk3
    have e : w.2.2 = p.2.2 := by
      have : (w.2.2 : ℚ) = p.2.2 := by linarith
      exact_mod_cast this
    have l1 : (w.2.2 : ℚ) < 199998 := by linarith
    have l2 : w.2.2 < 199998 := by exact_mod_cast l1
    omega

/-! ## examples -/

/-- a two-atom unit cell and a superlattice of index 4 meet the hypotheses -/
def exSL : SLCell := ⟨((2, 0, 0), (0, 3, 0), (1, 0, 4)), [(0, 0, 0), (1/2, 1/4, 1/2)], [29, 79], ((1, 0, 1), (0, 2, 1), (0, 0, 2)), []⟩

example : Triangular exSL.latCoeff := by unfold Triangular; decide
example : exSL.upositions.Pairwise (fun p q => ¬ Cong p q) := by decide +kernel
example : (exSL.toGeneralCell.map fun c => (c.positions.length, c.numbers)) =
    .ok (8, [29, 29, 29, 29, 79, 79, 79, 79]) := by decide +kernel

end Verif
