import Verif.Model.Arrange
import Verif.Props.Mlearn
import Verif.Props.ScaffoldArr
import Mathlib.Tactic.IntervalCases

/-! # C80, C81: two-dimensional grids and the shipped arrangement problems -/

namespace Verif

/-! ## the walk with neighbours that may fail -/

section walk
variable {α : Type} [DecidableEq α]

theorem walkE_eq {start : α} {goal : ℕ → Bool} {nbrs : α → Py (List α)} {N : α → List α} {G : α → Prop}
    (hN : ∀ p, G p → nbrs p = .ok (N p) ∧ ∀ q ∈ N p, G q) (rand : List ℕ) : ∀ {path : List α} {f : RPS α}, WalkInv start N path f →
    (∀ x ∈ path, G x) → (∀ x ∈ f.toSet, G x) →
    ∃ rand', rand'.length = rand.length ∧ walkE goal nbrs rand path f = walkLoop goal N rand' path f ∧
      walkE goal nbrs rand path f ≠ some (.error .indexError) := by
  induction rand with
  | nil =>
    intro path f h hp hf
    refine ⟨[], rfl, ?_, ?_⟩
    · rw [walkE, walkLoop]
    · rw [walkE]; split <;> simp
  | cons i rand ih =>
    intro path f h hp hf
    by_cases hg : goal path.length = true
    · refine ⟨i :: rand, rfl, ?_, ?_⟩
      · rw [walkE, walkLoop, if_pos hg, if_pos hg]
      · rw [walkE, if_pos hg]; simp
    · by_cases he : f.list = []
      · refine ⟨i :: rand, rfl, ?_, ?_⟩
        · rw [walkE, walkLoop, if_neg hg, if_neg hg]
          simp only [RPS.randomPop_empty he]
        · rw [walkE, if_neg hg]
          simp only [RPS.randomPop_empty he]
          simp
      · have hi : i % f.list.length < f.list.length := Nat.mod_lt _ (List.length_pos_iff.2 he)
        obtain ⟨f', e1, h1, h2⟩ := RPS.randomPop_spec h.inv (List.getElem?_eq_getElem hi)
        have hmem : f.list[i % f.list.length] ∈ f.toSet := by simp [RPS.toSet]
        have hn := h.next h1 hmem h2
        have hG := hf _ hmem
        obtain ⟨n1, n2⟩ := hN _ hG
        obtain ⟨rand', r1, r2, r3⟩ := ih hn (by
            intro x hx
            rcases List.mem_append.1 hx with hx | hx
            · exact hp x hx
            · rw [List.mem_singleton] at hx; rw [hx]; exact hG) (by
            intro x hx
            obtain ⟨y, hy, hxy⟩ := hn.near x hx
            rcases List.mem_append.1 hy with hy | hy
            · exact (hN y (hp y hy)).2 x hxy
            · rw [List.mem_singleton] at hy; subst hy; exact n2 x hxy)
        refine ⟨(i % f.list.length) :: rand', by simp [r1], ?_, ?_⟩
        · rw [walkE, walkLoop, if_neg hg, if_neg hg]
          simp only [e1, n1]
          exact r2
        · rw [walkE, if_neg hg]
          simp only [e1, n1]
          exact r3

/-- a problem whose neighbours never fail on a set `G` of positions large enough: the walk returns a path, whatever the random numbers -/
theorem problemWalk_spec {start : α} {n : ℕ} {nbrs : α → Py (List α)} {N : α → List α} {G : α → Prop}
    (hN : ∀ p, G p → nbrs p = .ok (N p) ∧ ∀ q ∈ N p, G q) (hs : G start) (hs' : start ∉ N start) (hn : 1 ≤ n) (rand : List ℕ)
    (hr : n ≤ rand.length + 1) (hbig : ∀ S : Finset α, start ∈ S → (∀ y ∈ S, ∀ x ∈ N y, x ∈ S) → n ≤ S.card) :
    ∃ path, problemWalk start (fun k => decide (k = n)) nbrs rand = some (.ok path) ∧ path.length = n ∧ path.Nodup ∧
      path.head? = some start ∧ (∀ p ∈ path, G p) ∧
      ∀ i x, 0 < i → path[i]? = some x → ∃ j < i, ∃ y, path[j]? = some y ∧ x ∈ N y := by
  have hinv := walkInv_start hs'
  have hset : ∀ x ∈ ((N start).foldl RPS.add RPS.empty).toSet, G x := by
    intro x hx
    obtain ⟨y, hy, hxy⟩ := hinv.near x hx
    rw [List.mem_singleton] at hy; subst hy
    exact (hN _ hs).2 x hxy
  obtain ⟨rand', r1, r2, r3⟩ := walkE_eq (goal := fun k => decide (k = n)) hN rand hinv (by simpa using hs) hset
  have hp : problemWalk start (fun k => decide (k = n)) nbrs rand = randomWalkArrange start (fun k => decide (k = n)) N rand' := by
    unfold problemWalk randomWalkArrange
    rw [(hN _ hs).1]
    exact r2
  rcases C54_ends hs' hn (rand := rand') (by omega) hbig with ⟨path, h1, h2⟩ | h
  · obtain ⟨p1, p2, p3, p4, p5⟩ := C54_path hs' h2
    refine ⟨path, by rw [hp, h2], h1, p1, p2, ?_, p5⟩
    have : ∀ (i : ℕ) (x : α), path[i]? = some x → G x := by
      intro i
      induction i using Nat.strong_induction_on with
      | _ i ih =>
        intro x hx
        rcases Nat.eq_zero_or_pos i with rfl | hi
        · rw [← List.head?_eq_getElem?, p2] at hx
          injection hx with hx
          rw [← hx]; exact hs
        · obtain ⟨j, hj, y, hy, hxy⟩ := p5 i x hi hx
          exact (hN y (ih j hj y hy)).2 x hxy
    intro p hp
    obtain ⟨i, hi⟩ := List.mem_iff_getElem?.1 hp
    exact this i p hi
  · exfalso
    apply r3
    rw [r2]
    exact h

end walk

/-! ## C80: two-dimensional grids -/

/-- a point of a `w × l` grid -/
def Point2 (w l : ℕ) (p : ℤ × ℤ) : Prop := (0 ≤ p.1 ∧ p.1 < w) ∧ 0 ≤ p.2 ∧ p.2 < l

/-- squared Cartesian distance of two integer points of the lattice with rows `m` -/
def distSq2 (m : M2) (p q : ℤ × ℤ) : ℚ :=
  (m.1.1 * (q.1 - p.1) + m.2.1 * (q.2 - p.2)) ^ 2 + (m.1.2 * (q.1 - p.1) + m.2.2 * (q.2 - p.2)) ^ 2

/-- the neighbours of `p` in a `w × l` grid: the other points at Cartesian distance at most `delta` -/
def Neighbour2 (m : M2) (w l : ℕ) (delta : ℚ) (p q : ℤ × ℤ) : Prop := Point2 w l q ∧ q ≠ p ∧ 0 ≤ delta ∧ distSq2 m p q ≤ delta ^ 2

theorem mem_pGen2 (s : CStru2d) (p : ℤ × ℤ) : p ∈ s.pGen ↔ Point2 s.width s.length p := by
  obtain ⟨x, y⟩ := p
  simp only [CStru2d.pGen, Point2, List.mem_flatMap, List.mem_range, List.mem_map, Prod.mk.injEq]
  constructor
  · rintro ⟨x', hx, y', hy, rfl, rfl⟩; omega
  · rintro ⟨⟨a, b⟩, c, d⟩
    exact ⟨x.toNat, by omega, y.toNat, by omega, by omega, by omega⟩

theorem pGen2_eq (s : CStru2d) : s.pGen = (List.range s.width ×ˢ List.range s.length).map fun p => ((p.1 : ℤ), (p.2 : ℤ)) := by
  simp only [CStru2d.pGen, SProd.sprod, List.product, List.map_flatMap, List.map_map]
  rfl

theorem pGen2_nodup (s : CStru2d) : s.pGen.Nodup := by
  rw [pGen2_eq]
  refine List.Nodup.map ?_ (List.nodup_range.product List.nodup_range)
  rintro ⟨a, b⟩ ⟨a', b'⟩ h
  simp only [Prod.mk.injEq, Nat.cast_inj] at h ⊢
  exact h

theorem pGen2_length (s : CStru2d) : s.pGen.length = s.width * s.length := by
  rw [pGen2_eq, List.length_map, List.length_product, List.length_range, List.length_range]

/-- the candidates the tree search selects -/
theorem neighbours2_core (s : CStru2d) (pos : ℤ × ℤ) (delta : ℚ) (hpos : Point2 s.width s.length pos) :
    ∃ sel : List (ℤ × ℤ), sel.Nodup ∧ (∀ q, q ∈ sel ↔ Neighbour2 s.m s.width s.length delta pos q) ∧
      (s.width * s.length ≠ 1 → s.getNeighbors pos delta = selectNeighbours2 sel) ∧
      (s.width * s.length = 1 → s.getNeighbors pos delta = .error .valueError) := by
  have hmem := (mem_pGen2 s pos).2 hpos
  have hnd := pGen2_nodup s
  have hel : (s.pGen.erase pos).length = s.width * s.length - 1 := by
    rw [List.length_erase_of_mem hmem, pGen2_length]
  have hpos1 : 0 < s.width * s.length := by rw [← pGen2_length]; exact List.length_pos_of_mem hmem
  refine ⟨(s.pGen.erase pos).filter fun q => decide (0 ≤ delta) &&
      decide (((pos2coor2 s.m q).1 - (pos2coor2 s.m pos).1) ^ 2 + ((pos2coor2 s.m q).2 - (pos2coor2 s.m pos).2) ^ 2 ≤ delta ^ 2),
    (hnd.erase pos).filter _, ?_, ?_, ?_⟩
  · intro q
    rw [List.mem_filter, hnd.mem_erase_iff, mem_pGen2, Bool.and_eq_true, decide_eq_true_eq, decide_eq_true_eq]
    have : ((pos2coor2 s.m q).1 - (pos2coor2 s.m pos).1) ^ 2 + ((pos2coor2 s.m q).2 - (pos2coor2 s.m pos).2) ^ 2 = distSq2 s.m pos q := by
      unfold pos2coor2 distSq2; ring
    rw [this]
    unfold Neighbour2
    tauto
  · intro h1
    unfold CStru2d.getNeighbors
    simp only
    rw [if_pos hmem, if_neg (by
      intro h0
      rw [h0, List.length_nil] at hel
      omega)]
  · intro h1
    unfold CStru2d.getNeighbors
    simp only
    rw [if_pos hmem, if_pos (by
      rw [← List.length_eq_zero_iff, hel]; omega)]

/-- **C80 (neighbours).** For every lattice, grid size, radius and position: the result is decided by the number of neighbours. With two
or more it is exactly the set of neighbours; with one, the set of the coordinates of that neighbour; with none a TypeError (ValueError
on the grid of one point). A position outside the grid is a KeyError. -/
theorem C80_neighbours (s : CStru2d) (pos : ℤ × ℤ) (delta : ℚ) :
    (¬ Point2 s.width s.length pos → s.getNeighbors pos delta = .error .keyError) ∧
    (Point2 s.width s.length pos →
      (s.width * s.length = 1 → s.getNeighbors pos delta = .error .valueError) ∧
      (s.width * s.length ≠ 1 → (¬ ∃ q, Neighbour2 s.m s.width s.length delta pos q) → s.getNeighbors pos delta = .error .typeError) ∧
      (∀ q, (∀ x, Neighbour2 s.m s.width s.length delta pos x ↔ x = q) →
        ∃ ns, s.getNeighbors pos delta = .ok (.coordinates ns) ∧ ∀ k, k ∈ ns ↔ k = q.1 ∨ k = q.2) ∧
      (∀ p q, p ≠ q → Neighbour2 s.m s.width s.length delta pos p → Neighbour2 s.m s.width s.length delta pos q →
        ∃ ns, s.getNeighbors pos delta = .ok (.positions ns) ∧ ns.Nodup ∧ ∀ x, x ∈ ns ↔ Neighbour2 s.m s.width s.length delta pos x)) := by
  refine ⟨fun h => ?_, fun h => ?_⟩
  · unfold CStru2d.getNeighbors
    simp only
    rw [if_neg (by rw [mem_pGen2]; exact h)]
  · obtain ⟨sel, k1, k2, k3, k4⟩ := neighbours2_core s pos delta h
    have hsz : ∀ q, Neighbour2 s.m s.width s.length delta pos q → s.width * s.length ≠ 1 := by
      intro q hq h1
      have hw1 : s.width = 1 := Nat.eq_one_of_mul_eq_one_right h1
      have hl1 : s.length = 1 := Nat.eq_one_of_mul_eq_one_left h1
      obtain ⟨⟨⟨a, b⟩, c, d⟩, hne, _⟩ := hq
      obtain ⟨⟨a', b'⟩, c', d'⟩ := h
      rw [hw1] at b b'; rw [hl1] at d d'
      apply hne
      ext <;> omega
    refine ⟨k4, fun h1 h0 => ?_, fun q hq => ?_, fun p q hpq hp hq => ?_⟩
    · rw [k3 h1]
      match sel, k2 with
      | [], _ => rfl
      | x :: _, k2 => exact absurd ⟨x, (k2 x).1 (by simp)⟩ h0
    · have hsel : sel = [q] := by
        have hqm : q ∈ sel := (k2 q).2 ((hq q).2 rfl)
        match sel, k1, k2, hqm with
        | [], _, _, hqm => simp at hqm
        | [x], _, _, hqm => simp at hqm; rw [hqm]
        | x :: y :: rest, k1, k2, _ =>
          have e1 := (hq x).1 ((k2 x).1 (by simp))
          have e2 := (hq y).1 ((k2 y).1 (by simp))
          rw [e1, e2] at k1
          simp at k1
      rw [k3 (hsz q ((hq q).2 rfl)), hsel]
      refine ⟨_, rfl, fun k => ?_⟩
      rw [List.mem_dedup]
      simp
    · rw [k3 (hsz p hp)]
      refine ⟨sel, ?_, k1, k2⟩
      have hps := (k2 p).2 hp
      have hqs := (k2 q).2 hq
      match sel, hps, hqs with
      | [], hps, _ => simp at hps
      | [x], hps, hqs => simp at hps hqs; exact absurd (hps.trans hqs.symm) hpq
      | x :: y :: rest, _, _ => rfl

/-- **C80 (arrays).** A sea of `w ≥ 1` rows has the given size, and its array is `w × l` copies of the species' number; without rows the
constructor fails; `from_array` fails for every array. -/
theorem C80_arrays (w l : ℤ) (sp : Specie) (m : M2) :
    (1 ≤ w → 1 ≤ l → ∃ g, Grid2d.sea w l sp = .ok g ∧ (g.width : ℤ) = w ∧ (g.length : ℤ) = l ∧
      (CStru2d.new m g).getMidpoint = (w / 2, l / 2) ∧
      ∃ arr, g.getArray = .ok arr ∧ (CStru2d.new m g).getArray = .ok arr ∧ (arr.length : ℤ) = w ∧
        ∀ r ∈ arr, (r.length : ℤ) = l ∧ ∀ z ∈ r, z = sp.Z) ∧
    (w ≤ 0 → Grid2d.sea w l sp = .error .indexError) ∧
    ∀ arr, ∃ e, Grid2d.fromArray arr = .error e := by
  refine ⟨fun hw hl => ?_, fun hw => ?_, fun arr => ?_⟩
  · obtain ⟨k, rfl⟩ : ∃ k : ℕ, w = ((k + 1 : ℕ) : ℤ) := ⟨(w - 1).toNat, by omega⟩
    obtain ⟨j, rfl⟩ : ∃ j : ℕ, l = ((j + 1 : ℕ) : ℤ) := ⟨(l - 1).toNat, by omega⟩
    refine ⟨⟨List.replicate (k + 1) (List.replicate (j + 1) sp), k + 1, j + 1⟩, ?_, rfl, rfl, ?_, List.replicate (k + 1) (List.replicate (j + 1) sp.Z), ?_, ?_, ?_, ?_⟩
    · unfold Grid2d.sea
      rw [Int.toNat_natCast, Int.toNat_natCast]
      simp [Grid2d.new, List.replicate_succ]
    · simp [CStru2d.getMidpoint, CStru2d.new]
    · simp [Grid2d.getArray]
    · simp [CStru2d.getArray, CStru2d.new, Grid2d.getArray]
    · simp
    · intro r hr
      rw [(List.mem_replicate.1 hr).2]
      refine ⟨by simp, fun z hz => (List.mem_replicate.1 hz).2⟩
  · unfold Grid2d.sea
    rw [show w.toNat = 0 by omega]
    rfl
  · unfold Grid2d.fromArray
    split <;> exact ⟨_, rfl⟩

/-- **C80 (entries).** A grid made from a rectangular list of rows with at least one site has as many rows and columns as the list, and
entry `(i, j)` of its array is the number of site `(i, j)`. `from_array` raises AttributeError for every array with elements and ValueError
for the others. -/
theorem C80_entries (sites : List (List Specie)) (l : ℕ) (h0 : sites ≠ []) (hl : 0 < l) (hr : ∀ r ∈ sites, r.length = l) (m : M2) :
    (∃ g arr, Grid2d.new sites = .ok g ∧ g.width = sites.length ∧ g.length = l ∧ g.getArray = .ok arr ∧ (CStru2d.new m g).getArray = .ok arr ∧
      arr.length = sites.length ∧ ∀ i j : ℕ, ((arr[i]?).bind fun r => r[j]?) = ((sites[i]?).bind fun r => r[j]?).map (·.Z)) ∧
    ∀ arr : List (List ℤ), ((∃ r ∈ arr, r ≠ []) → Grid2d.fromArray arr = .error .attributeError) ∧
      ((∀ r ∈ arr, r = []) → Grid2d.fromArray arr = .error .valueError) := by
  constructor
  · cases sites with
    | nil => exact absurd rfl h0
    | cons r rs =>
      have hlen : r.length = l := hr r (by simp)
      have hne : ¬ ((r :: rs).flatten.length = 0) := by rw [List.flatten_cons, List.length_append]; omega
      refine ⟨⟨r :: rs, rs.length + 1, r.length⟩, (r :: rs).map fun r => r.map (·.Z), rfl, rfl, hlen, ?_, ?_, by simp, ?_⟩
      · unfold Grid2d.getArray; rw [if_neg hne]
      · unfold CStru2d.getArray CStru2d.new Grid2d.getArray; rw [if_neg hne]
      · intro i j
        rw [List.getElem?_map]
        cases (r :: rs)[i]? <;> simp
  · intro arr
    unfold Grid2d.fromArray
    constructor
    · rintro ⟨r, hr, hne⟩
      rw [if_neg]
      intro h
      have := List.length_eq_zero_iff.1 h
      rw [List.flatten_eq_nil_iff] at this
      exact hne (this r hr)
    · intro h
      rw [if_pos]
      rw [List.length_eq_zero_iff, List.flatten_eq_nil_iff]
      exact h

/-- **C80 (equality).** Two grids are equal iff they have the same shape and the same atomic numbers; no grid equals `None`. -/
theorem C80_equal (g h : Grid2d) :
    g.pyEq none = false ∧ (g.pyEq (some h) = true ↔ g.sites.map (fun r => r.map (·.Z)) = h.sites.map (fun r => r.map (·.Z))) := by
  refine ⟨rfl, ?_⟩
  have key : ∀ {β γ : Type} (eq : β → β → Bool) (f : β → γ), (∀ a b, eq a b = true ↔ f a = f b) → ∀ xs ys : List β,
      pyListEq eq xs ys = true ↔ xs.map f = ys.map f := by
    intro β γ eq f hf xs
    induction xs with
    | nil => intro ys; cases ys <;> simp [pyListEq]
    | cons x xs ih =>
      intro ys
      cases ys with
      | nil => simp [pyListEq]
      | cons y ys =>
        have := ih ys
        simp only [pyListEq, Bool.and_eq_true, beq_iff_eq, List.length_cons, List.zip_cons_cons, List.all_cons, List.map_cons,
          List.cons.injEq, Nat.add_right_cancel_iff] at this ⊢
        rw [← this, hf]
        tauto
  exact key _ _ (fun a b => key _ _ (fun x y => by simp [Specie.pyEq]) a b) _ _

/-! ## C81: the arrangement problems -/

theorem boronStru_ok (n : ℕ) : boronStru ((n + 1 : ℕ) : ℤ) =
    .ok ⟨boronM, ⟨List.replicate (n + 1) (List.replicate (n + 1) .ghost), n + 1, n + 1⟩, n + 1, n + 1⟩ := by
  unfold boronStru
  rw [Int.toNat_natCast]
  simp [Grid2d.new, List.replicate_succ, CStru2d.new, bind, Except.bind, pure, Except.pure]

/-- the six directions of the triangular lattice -/
def hexDirs : List (ℤ × ℤ) := [(1, 0), (-1, 0), (0, 1), (0, -1), (1, -1), (-1, 1)]

/-- within distance 2.1 on the boron lattice: exactly the six nearest lattice points -/
theorem boron_near (p q : ℤ × ℤ) : (q ≠ p ∧ distSq2 boronM p q ≤ (21 / 10) ^ 2) ↔ (q.1 - p.1, q.2 - p.2) ∈ hexDirs := by
  obtain ⟨a, b⟩ := p
  obtain ⟨c, d⟩ := q
  obtain ⟨x, rfl⟩ : ∃ x, c = a + x := ⟨c - a, by ring⟩
  obtain ⟨y, rfl⟩ : ∃ y, d = b + y := ⟨d - b, by ring⟩
  have e : distSq2 boronM (a, b) (a + x, b + y) = ((2 * x + y : ℤ) : ℚ) ^ 2 + (1732058 / 1000000) ^ 2 * (y : ℚ) ^ 2 := by
    unfold distSq2 boronM
    push_cast
    ring
  simp only [add_sub_cancel_left]
  rw [e]
  constructor
  · rintro ⟨hne, h⟩
    have h1 : ((2 * x + y : ℤ) : ℚ) ^ 2 < 9 := by nlinarith [sq_nonneg (y : ℚ)]
    have h2 : (y : ℚ) ^ 2 < 4 := by nlinarith [sq_nonneg ((2 * x + y : ℤ) : ℚ)]
    have h1' : (2 * x + y) ^ 2 < 9 := by exact_mod_cast h1
    have h2' : y ^ 2 < 4 := by exact_mod_cast h2
    have y1 : -1 ≤ y := by nlinarith
    have y2 : y ≤ 1 := by nlinarith
    have x1 : -2 ≤ 2 * x + y := by nlinarith
    have x2 : 2 * x + y ≤ 2 := by nlinarith
    have x3 : -1 ≤ x := by omega
    have x4 : x ≤ 1 := by omega
    interval_cases y <;> interval_cases x <;>
      first | decide | (exfalso; omega) | (exfalso; exact hne (by simp))
  · intro h
    simp only [hexDirs, List.mem_cons, Prod.mk.injEq, List.not_mem_nil, or_false] at h
    rcases h with ⟨rfl, rfl⟩ | ⟨rfl, rfl⟩ | ⟨rfl, rfl⟩ | ⟨rfl, rfl⟩ | ⟨rfl, rfl⟩ | ⟨rfl, rfl⟩ <;>
      refine ⟨by simp, by norm_num⟩

/-- **C81 (boron).** For every `n ≥ 2`, every iteration order of sets and every outcome of the random numbers, the walk on
`Boron2dArrangeProblem(n)` returns `n` different positions of the `n × n` grid, starting in the middle, each later one next to an
earlier one on the triangular lattice. -/
theorem C81_boron (iter : List (ℤ × ℤ) → List (ℤ × ℤ)) (hi : ∀ l, (iter l).Perm l) (n : ℕ) (hn : 2 ≤ n) (rand : List ℕ)
    (hr : n ≤ rand.length + 1) :
    ∃ path, boronWalk iter n rand = some (.ok path) ∧ path.length = n ∧ path.Nodup ∧
      path.head? = some (((n / 2 : ℕ) : ℤ), ((n / 2 : ℕ) : ℤ)) ∧ (∀ p ∈ path, Point2 n n p) ∧
      ∀ (i : ℕ) (x : ℤ × ℤ), 0 < i → path[i]? = some x → ∃ j < i, ∃ y, path[j]? = some y ∧ (x.1 - y.1, x.2 - y.2) ∈ hexDirs := by
  obtain ⟨k, rfl⟩ : ∃ k, n = k + 1 := ⟨n - 1, by omega⟩
  set s : CStru2d := ⟨boronM, ⟨List.replicate (k + 1) (List.replicate (k + 1) .ghost), k + 1, k + 1⟩, k + 1, k + 1⟩ with hs
  have hnb : ∀ p, Point2 (k + 1) (k + 1) p → ∃ ns, iterPositions2 iter (s.getNeighbors p (21 / 10)) = .ok ns ∧
      ∀ q, q ∈ ns ↔ Point2 (k + 1) (k + 1) q ∧ (q.1 - p.1, q.2 - p.2) ∈ hexDirs := by
    intro p hp
    have hN : ∀ q, Neighbour2 boronM (k + 1) (k + 1) (21 / 10) p q ↔ Point2 (k + 1) (k + 1) q ∧ (q.1 - p.1, q.2 - p.2) ∈ hexDirs := by
      intro q
      rw [← boron_near]
      unfold Neighbour2
      constructor
      · rintro ⟨h1, h2, h3, h4⟩; exact ⟨h1, h2, h4⟩
      · rintro ⟨h1, h2, h4⟩; exact ⟨h1, h2, by norm_num, h4⟩
    have step : ∀ z : ℤ, 0 ≤ z → z < (k + 1 : ℕ) → ∃ u : ℤ, (u = 1 ∨ u = -1) ∧ 0 ≤ z + u ∧ z + u < (k + 1 : ℕ) := by
      intro z h1 h2
      by_cases h : z = 0
      · exact ⟨1, .inl rfl, by omega, by omega⟩
      · exact ⟨-1, .inr rfl, by omega, by omega⟩
    obtain ⟨u, hu, a1, a2⟩ := step p.1 hp.1.1 hp.1.2
    obtain ⟨v, hv, a3, a4⟩ := step p.2 hp.2.1 hp.2.2
    have n1 : Neighbour2 s.m s.width s.length (21 / 10) p (p.1 + u, p.2) := by
      refine (hN _).2 ⟨⟨⟨a1, a2⟩, hp.2⟩, ?_⟩
      simp only [add_sub_cancel_left, sub_self]
      rcases hu with rfl | rfl <;> decide
    have n2 : Neighbour2 s.m s.width s.length (21 / 10) p (p.1, p.2 + v) := by
      refine (hN _).2 ⟨⟨hp.1, a3, a4⟩, ?_⟩
      simp only [add_sub_cancel_left, sub_self]
      rcases hv with rfl | rfl <;> decide
    obtain ⟨ns, h1, -, h3⟩ := ((C80_neighbours s p (21 / 10)).2 hp).2.2.2 _ _ (by
      intro he
      rw [Prod.ext_iff] at he
      have := he.1
      simp only at this
      omega) n1 n2
    refine ⟨iter ns, by rw [h1]; rfl, fun q => ?_⟩
    rw [(hi ns).mem_iff, h3]
    exact hN q
  choose! N hN1 hN2 using hnb
  have hmid : Point2 (k + 1) (k + 1) s.getMidpoint := by
    refine ⟨⟨?_, ?_⟩, ?_, ?_⟩ <;> simp only [CStru2d.getMidpoint, hs] <;> omega
  have hgoal : (fun j : ℕ => decide ((j : ℤ) = ((k + 1 : ℕ) : ℤ))) = fun j => decide (j = k + 1) := by
    funext j; rw [decide_eq_decide]; omega
  obtain ⟨path, p1, p2, p3, p4, p5, p6⟩ := problemWalk_spec (start := s.getMidpoint) (n := k + 1)
    (nbrs := fun p => iterPositions2 iter (s.getNeighbors p (21 / 10))) (N := N) (G := Point2 (k + 1) (k + 1))
    (fun p hp => ⟨hN1 p hp, fun q hq => ((hN2 p hp q).1 hq).1⟩) hmid (by
      intro h
      have := ((hN2 _ hmid _).1 h).2
      simp [hexDirs] at this) (by omega) rand hr (by
      intro S h0 hS
      -- the whole line through the start along the first direction is in `S`
      have hup : ∀ j : ℕ, (k + 1) / 2 + j < k + 1 → ((((k + 1) / 2 + j : ℕ) : ℤ), (((k + 1) / 2 : ℕ) : ℤ)) ∈ S := by
        intro j
        induction j with
        | zero => intro _; exact h0
        | succ j ih =>
          intro hj
          have hp : Point2 (k + 1) (k + 1) ((((k + 1) / 2 + j : ℕ) : ℤ), (((k + 1) / 2 : ℕ) : ℤ)) := by
            refine ⟨⟨?_, ?_⟩, ?_, ?_⟩ <;> simp only <;> omega
          refine hS _ (ih (by omega)) _ ((hN2 _ hp _).2 ⟨?_, ?_⟩)
          · refine ⟨⟨?_, ?_⟩, ?_, ?_⟩ <;> simp only <;> omega
          · simp only [sub_self]
            rw [show (((k + 1) / 2 + (j + 1) : ℕ) : ℤ) - (((k + 1) / 2 + j : ℕ) : ℤ) = 1 by push_cast; ring]
            decide
      have hdown : ∀ j : ℕ, j ≤ (k + 1) / 2 → ((((k + 1) / 2 - j : ℕ) : ℤ), (((k + 1) / 2 : ℕ) : ℤ)) ∈ S := by
        intro j
        induction j with
        | zero => intro _; exact h0
        | succ j ih =>
          intro hj
          have hp : Point2 (k + 1) (k + 1) ((((k + 1) / 2 - j : ℕ) : ℤ), (((k + 1) / 2 : ℕ) : ℤ)) := by
            refine ⟨⟨?_, ?_⟩, ?_, ?_⟩ <;> simp only <;> omega
          refine hS _ (ih (by omega)) _ ((hN2 _ hp _).2 ⟨?_, ?_⟩)
          · refine ⟨⟨?_, ?_⟩, ?_, ?_⟩ <;> simp only <;> omega
          · simp only [sub_self]
            rw [show (((k + 1) / 2 - (j + 1) : ℕ) : ℤ) - (((k + 1) / 2 - j : ℕ) : ℤ) = -1 by omega]
            decide
      have hall : ((Finset.range (k + 1)).map ⟨fun x : ℕ => ((x : ℤ), (((k + 1) / 2 : ℕ) : ℤ)), fun a b h => by simpa using h⟩) ⊆ S := by
        intro z hz
        simp only [Finset.mem_map, Finset.mem_range] at hz
        obtain ⟨x, hx, rfl⟩ := hz
        rcases Nat.lt_or_ge x ((k + 1) / 2) with hlt | hge
        · have := hdown ((k + 1) / 2 - x) (by omega)
          rwa [show (k + 1) / 2 - ((k + 1) / 2 - x) = x by omega] at this
        · have := hup (x - (k + 1) / 2) (by omega)
          rwa [show (k + 1) / 2 + (x - (k + 1) / 2) = x by omega] at this
      simpa using Finset.card_le_card hall)
  refine ⟨path, ?_, p2, p3, p4, p5, ?_⟩
  · unfold boronWalk
    rw [boronStru_ok, ← hs]
    simp only [hgoal]
    exact p1
  · intro i x hi' hx
    obtain ⟨j, hj, y, hy, hxy⟩ := p6 i x hi' hx
    exact ⟨j, hj, y, hy, ((hN2 y (p5 y (List.mem_of_getElem? hy)) x).1 hxy).2⟩

/-- **C81 (boron, small sizes).** `n = 1` fails with ValueError although the path would be complete, `n ≤ 0` with IndexError. -/
theorem C81_boron_small (iter : List (ℤ × ℤ) → List (ℤ × ℤ)) (rand : List ℕ) :
    boronWalk iter 1 rand = some (.error .valueError) ∧ ∀ n ≤ 0, boronWalk iter n rand = some (.error .indexError) := by
  constructor
  · have h := boronStru_ok 0
    have hm : Point2 1 1 (0, 0) := by unfold Point2; decide
    unfold boronWalk
    rw [show (1 : ℤ) = ((0 + 1 : ℕ) : ℤ) from rfl, h]
    unfold problemWalk
    have := ((C80_neighbours ⟨boronM, ⟨List.replicate (0 + 1) (List.replicate (0 + 1) .ghost), 0 + 1, 0 + 1⟩, 0 + 1, 0 + 1⟩ (0, 0) (21 / 10)).2 hm).1 rfl
    simp only [show (CStru2d.getMidpoint ⟨boronM, ⟨List.replicate (0 + 1) (List.replicate (0 + 1) .ghost), 0 + 1, 0 + 1⟩, 0 + 1, 0 + 1⟩) = (0, 0) from rfl,
      this, iterPositions2]
  · intro n hn
    unfold boronWalk boronStru
    rw [show n.toNat = 0 by omega]
    rfl

theorem fcc_step1 (p : V3 ℤ) (u : ℤ) (hu : u = 1 ∨ u = -1) : Spec.distSq (cart fccM (p.1 + u, p.2.1, p.2.2)) (cart fccM p) ≤ (21 / 10) ^ 2 := by
  have : Spec.distSq (cart fccM (p.1 + u, p.2.1, p.2.2)) (cart fccM p) = (u : ℚ) ^ 2 / 2 := by
    unfold Spec.distSq cart Spec.cartesian fccM
    push_cast
    ring
  rw [this]
  rcases hu with rfl | rfl <;> norm_num

theorem fcc_step2 (p : V3 ℤ) (u : ℤ) (hu : u = 1 ∨ u = -1) : Spec.distSq (cart fccM (p.1, p.2.1 + u, p.2.2)) (cart fccM p) ≤ (21 / 10) ^ 2 := by
  have : Spec.distSq (cart fccM (p.1, p.2.1 + u, p.2.2)) (cart fccM p) = (u : ℚ) ^ 2 / 2 := by
    unfold Spec.distSq cart Spec.cartesian fccM
    push_cast
    ring
  rw [this]
  rcases hu with rfl | rfl <;> norm_num

/-- **C81 (FCC).** The same for `FCC3dArrangeProblem(n)` on the `n × n × n` grid: each later position is within distance 2.1 of an
earlier one on the face-centred cubic lattice. -/
theorem C81_fcc (iter : List (V3 ℤ) → List (V3 ℤ)) (hi : ∀ l, (iter l).Perm l) (n : ℕ) (hn : 2 ≤ n) (rand : List ℕ)
    (hr : n ≤ rand.length + 1) :
    ∃ path, fccWalk iter n rand = some (.ok path) ∧ path.length = n ∧ path.Nodup ∧
      path.head? = some (((n / 2 : ℕ) : ℤ), ((n / 2 : ℕ) : ℤ), ((n / 2 : ℕ) : ℤ)) ∧ (∀ p ∈ path, NPoint n n n p) ∧
      ∀ (i : ℕ) (x : V3 ℤ), 0 < i → path[i]? = some x → ∃ j < i, ∃ y, path[j]? = some y ∧ x ≠ y ∧
        Spec.distSq (cart fccM x) (cart fccM y) ≤ (21 / 10) ^ 2 := by
  obtain ⟨k, rfl⟩ : ∃ k, n = k + 1 := ⟨n - 1, by omega⟩
  set grid : Cube Specie := List.replicate (k + 1) (List.replicate (k + 1) (List.replicate (k + 1) .ghost)) with hgrid
  have hbox : Spec.Box (k + 1) (k + 1) (k + 1) grid := by
    refine ⟨by simp [hgrid], fun plane hp => ?_⟩
    rw [(List.mem_replicate.1 hp).2]
    refine ⟨by simp, fun row hrow => ?_⟩
    rw [(List.mem_replicate.1 hrow).2]
    simp
  set s : CStru := ⟨fccM, grid, k + 1, k + 1, k + 1⟩ with hs
  have hnew : fccStru ((k + 1 : ℕ) : ℤ) = .ok s := by
    unfold fccStru
    rw [Int.toNat_natCast]
    exact cstru_new fccM (Nat.succ_pos k) (Nat.succ_pos k) grid hbox
  have hnb : ∀ p, NPoint (k + 1) (k + 1) (k + 1) p → ∃ ns, iterPositions3 iter (s.getNeighbors p (21 / 10)) = .ok ns ∧
      ∀ q, q ∈ ns ↔ NPoint (k + 1) (k + 1) (k + 1) q ∧ q ≠ p ∧ Near fccM (21 / 10) p q := by
    intro p hp
    have step : ∀ z : ℤ, 0 ≤ z → z < (k + 1 : ℕ) → ∃ u : ℤ, (u = 1 ∨ u = -1) ∧ 0 ≤ z + u ∧ z + u < (k + 1 : ℕ) := by
      intro z h1 h2
      by_cases h : z = 0
      · exact ⟨1, .inl rfl, by omega, by omega⟩
      · exact ⟨-1, .inr rfl, by omega, by omega⟩
    obtain ⟨u, hu, a1, a2⟩ := step p.1 hp.1.1 hp.1.2
    obtain ⟨v, hv, a3, a4⟩ := step p.2.1 hp.2.1.1 hp.2.1.2
    have n1 : NPoint (k + 1) (k + 1) (k + 1) (p.1 + u, p.2.1, p.2.2) ∧ (p.1 + u, p.2.1, p.2.2) ≠ p ∧ Near fccM (21 / 10) p (p.1 + u, p.2.1, p.2.2) := by
      refine ⟨⟨⟨a1, a2⟩, hp.2⟩, ?_, by norm_num, ?_⟩
      · intro he
        have := congrArg Prod.fst he
        simp only at this
        omega
      · exact fcc_step1 p u hu
    have n2 : NPoint (k + 1) (k + 1) (k + 1) (p.1, p.2.1 + v, p.2.2) ∧ (p.1, p.2.1 + v, p.2.2) ≠ p ∧ Near fccM (21 / 10) p (p.1, p.2.1 + v, p.2.2) := by
      refine ⟨⟨hp.1, ⟨a3, a4⟩, hp.2.2⟩, ?_, by norm_num, ?_⟩
      · intro he
        have := congrArg (fun x : V3 ℤ => x.2.1) he
        simp only at this
        omega
      · exact fcc_step2 p v hv
    obtain ⟨s', ns, h0, h1, -, h3⟩ := C08_neighbours_partial fccM (Nat.succ_pos k) (Nat.succ_pos k) grid hbox p (21 / 10) hp _ _ (by
      intro he
      have := congrArg Prod.fst he
      simp only at this
      omega) n1 n2
    rw [cstru_new fccM (Nat.succ_pos k) (Nat.succ_pos k) grid hbox] at h0
    injection h0 with h0
    rw [← h0, ← hs] at h1
    refine ⟨iter ns, by rw [h1]; rfl, fun q => ?_⟩
    rw [(hi ns).mem_iff, h3]
  choose! N hN1 hN2 using hnb
  have hmideq : V3.map (fun k : ℕ => (k : ℤ)) s.getMidpoint = ((((k + 1) / 2 : ℕ) : ℤ), (((k + 1) / 2 : ℕ) : ℤ), (((k + 1) / 2 : ℕ) : ℤ)) := rfl
  have hpt : ∀ x : ℕ, x < k + 1 → NPoint (k + 1) (k + 1) (k + 1) ((x : ℤ), (((k + 1) / 2 : ℕ) : ℤ), (((k + 1) / 2 : ℕ) : ℤ)) := by
    intro x hx
    refine ⟨⟨?_, ?_⟩, ⟨?_, ?_⟩, ?_, ?_⟩ <;> simp only <;> omega
  have hmid := hpt ((k + 1) / 2) (by omega)
  have hgoal : (fun j : ℕ => decide ((j : ℤ) = ((k + 1 : ℕ) : ℤ))) = fun j => decide (j = k + 1) := by
    funext j; rw [decide_eq_decide]; omega
  obtain ⟨path, p1, p2, p3, p4, p5, p6⟩ := problemWalk_spec (n := k + 1)
    (nbrs := fun p => iterPositions3 iter (s.getNeighbors p (21 / 10))) (N := N) (G := NPoint (k + 1) (k + 1) (k + 1))
    (fun p hp => ⟨hN1 p hp, fun q hq => ((hN2 p hp q).1 hq).1⟩) hmid (by
      intro h
      exact ((hN2 _ hmid _).1 h).2.1 rfl) (by omega) rand hr (by
      intro S h0 hS
      have hnext : ∀ x y : ℕ, x < k + 1 → y < k + 1 → ((y : ℤ) - x = 1 ∨ (y : ℤ) - x = -1) →
          ((x : ℤ), (((k + 1) / 2 : ℕ) : ℤ), (((k + 1) / 2 : ℕ) : ℤ)) ∈ S → ((y : ℤ), (((k + 1) / 2 : ℕ) : ℤ), (((k + 1) / 2 : ℕ) : ℤ)) ∈ S := by
        intro x y hx hy hxy hm
        refine hS _ hm _ ((hN2 _ (hpt x hx) _).2 ⟨hpt y hy, ?_, by norm_num, ?_⟩)
        · intro he
          have := congrArg Prod.fst he
          simp only at this
          omega
        · have := fcc_step1 ((x : ℤ), (((k + 1) / 2 : ℕ) : ℤ), (((k + 1) / 2 : ℕ) : ℤ)) ((y : ℤ) - x) hxy
          simp only [add_sub_cancel] at this
          exact this
      have hup : ∀ j : ℕ, (k + 1) / 2 + j < k + 1 → ((((k + 1) / 2 + j : ℕ) : ℤ), (((k + 1) / 2 : ℕ) : ℤ), (((k + 1) / 2 : ℕ) : ℤ)) ∈ S := by
        intro j
        induction j with
        | zero => intro _; exact h0
        | succ j ih => intro hj; exact hnext _ _ (by omega) (by omega) (.inl (by push_cast; ring)) (ih (by omega))
      have hdown : ∀ j : ℕ, j ≤ (k + 1) / 2 → ((((k + 1) / 2 - j : ℕ) : ℤ), (((k + 1) / 2 : ℕ) : ℤ), (((k + 1) / 2 : ℕ) : ℤ)) ∈ S := by
        intro j
        induction j with
        | zero => intro _; exact h0
        | succ j ih => intro hj; exact hnext _ _ (by omega) (by omega) (.inr (by omega)) (ih (by omega))
      have hall : ((Finset.range (k + 1)).map ⟨fun x : ℕ => ((x : ℤ), (((k + 1) / 2 : ℕ) : ℤ), (((k + 1) / 2 : ℕ) : ℤ)), fun a b h => by simpa using h⟩) ⊆ S := by
        intro z hz
        simp only [Finset.mem_map, Finset.mem_range] at hz
        obtain ⟨x, hx, rfl⟩ := hz
        rcases Nat.lt_or_ge x ((k + 1) / 2) with hlt | hge
        · have := hdown ((k + 1) / 2 - x) (by omega)
          rwa [show (k + 1) / 2 - ((k + 1) / 2 - x) = x by omega] at this
        · have := hup (x - (k + 1) / 2) (by omega)
          rwa [show (k + 1) / 2 + (x - (k + 1) / 2) = x by omega] at this
      simpa using Finset.card_le_card hall)
  refine ⟨path, ?_, p2, p3, p4, p5, ?_⟩
  · unfold fccWalk
    rw [hnew]
    simp only [hgoal, hmideq]
    exact p1
  · intro i x hi' hx
    obtain ⟨j, hj, y, hy, hxy⟩ := p6 i x hi' hx
    have := (hN2 y (p5 y (List.mem_of_getElem? hy)) x).1 hxy
    exact ⟨j, hj, y, hy, this.2.1, this.2.2.2⟩

/-- **C81 (FCC, small sizes).** -/
theorem C81_fcc_small (iter : List (V3 ℤ) → List (V3 ℤ)) (rand : List ℕ) :
    fccWalk iter 1 rand = some (.error .valueError) ∧ ∀ n ≤ 0, fccWalk iter n rand = some (.error .indexError) := by
  constructor
  · have hm : NPoint 1 1 1 (0, 0, 0) := by unfold NPoint; decide
    have h := (C08_few fccM (List.replicate 1 (List.replicate 1 (List.replicate 1 .ghost))) (0, 0, 0) (21 / 10) (d := 1) (w := 1) (l := 1)).2.1 hm rfl
    have hn : fccStru 1 = .ok ⟨fccM, List.replicate 1 (List.replicate 1 (List.replicate 1 .ghost)), 1, 1, 1⟩ := rfl
    unfold fccWalk
    rw [hn]
    unfold problemWalk
    simp only [show V3.map (fun k : ℕ => (k : ℤ)) (CStru.getMidpoint ⟨fccM, List.replicate 1 (List.replicate 1 (List.replicate 1 .ghost)), 1, 1, 1⟩) = (0, 0, 0) from rfl,
      h, iterPositions3]
  · intro n hn
    unfold fccWalk fccStru
    rw [show n.toNat = 0 by omega]
    rfl

/-! ## concrete runs -/

example : boronWalk id 3 [0, 4] = some (.ok [(1, 1), (0, 1), (2, 0)]) := by decide +kernel
example : fccWalk id 2 [5] = some (.ok [(1, 1, 1), (0, 1, 1)]) := by decide +kernel
example : (CStru2d.mk ((1, 0), (0, 1)) ⟨[[.ghost], [.ghost]], 2, 1⟩ 2 1).getNeighbors (0, 0) 1 = .ok (.coordinates [1, 0]) := by decide +kernel
example : (Grid2d.mk [[.ghost, specieOf 5], [specieOf 6, .ghost]] 2 2).getArray = .ok [[0, 5], [6, 0]] := by decide +kernel
example : Grid2d.fromArray [[5]] = .error .attributeError := by decide +kernel

end Verif
