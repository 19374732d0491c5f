import Verif.Props.GridSym
import Verif.Spec.Periodic

/-! # C64: `is_speckle_disjunct` decides disjunction in the infinite periodic grid -/

namespace Verif

/-! ### minimum over pairs -/

/-- one step of the minimum -/
def minStep (m : ℚ) (pair : List (V3 ℚ)) : ℚ :=
  match pair with
  | [p, q] => if gridDistSq p q < m then gridDistSq p q else m
  | _ => m

theorem lt_foldl_minStep (T : ℚ) (pairs : List (List (V3 ℚ))) (m : ℚ) :
    T < pairs.foldl minStep m ↔ T < m ∧ ∀ p q, [p, q] ∈ pairs → T < gridDistSq p q := by
  induction pairs generalizing m with
  | nil => simp
  | cons a l ih =>
    rw [List.foldl_cons, ih]
    constructor
    · rintro ⟨h1, h2⟩
      have key : T < m ∧ ∀ p q, [p, q] = a → T < gridDistSq p q := by
        unfold minStep at h1
        split at h1
        · rename_i p q
          split at h1
          · exact ⟨by linarith, fun p' q' e => by injection e with e1 e2; injection e2 with e2 _; subst e1 e2; exact h1⟩
          · exact ⟨h1, fun p' q' e => by injection e with e1 e2; injection e2 with e2 _; subst e1 e2; linarith⟩
        · rename_i hne
          exact ⟨h1, fun p q e => absurd e.symm (hne p q)⟩
      refine ⟨key.1, fun p q h => ?_⟩
      rcases List.mem_cons.1 h with h | h
      · exact key.2 p q h
      · exact h2 p q h
    · rintro ⟨h1, h2⟩
      refine ⟨?_, fun p q h => h2 p q (List.mem_cons_of_mem _ h)⟩
      unfold minStep
      split
      · rename_i p q
        split
        · exact h2 p q (by simp)
        · exact h1
      · exact h1

theorem lt_minDistSq (T : ℚ) (hT : T < 9999 ^ 2) (pts : List (V3 ℚ)) : T < minDistSq pts ↔ pts.Pairwise fun p q => T < gridDistSq p q := by
  have h0 : minDistSq pts = (combinations pts 2).foldl minStep (9999 ^ 2) := rfl
  rw [h0, lt_foldl_minStep, List.pairwise_iff_forall_sublist]
  constructor
  · rintro ⟨_, h⟩ p q hs
    exact h p q ((mem_combinations pts 2 _).2 ⟨hs, rfl⟩)
  · intro h
    exact ⟨hT, fun p q hm => h ((mem_combinations pts 2 _).1 hm).1⟩

/-! ### the pooled array -/

theorem wrapFirst_get {α} (l : List α) (_hl : 0 < l.length) (i : ℕ) :
    (wrapFirst l)[i]? = if i ≤ l.length then l[i % l.length]? else none := by
  unfold wrapFirst
  rw [List.getElem?_append]
  split
  · rename_i h
    rw [if_pos h.le, Nat.mod_eq_of_lt h]
  · rename_i h
    rw [List.getElem?_take]
    split
    · rename_i h1
      have : i = l.length := by omega
      subst this
      rw [if_pos le_rfl]; simp
    · rename_i h1
      rw [if_neg (by omega)]

theorem pool_entry {d w l : ℕ} (hd : 0 < d) (hw : 0 < w) (hl : 0 < l) {arr : Cube ℤ} (hb : Spec.Box d w l arr) (i j k : ℕ) :
    Spec.entry (poolSites arr) i j k = if i ≤ d ∧ j ≤ w ∧ k ≤ l then Spec.entry arr (i % d) (j % w) (k % l) else none := by
  unfold Spec.entry poolSites
  rw [List.getElem?_map, wrapFirst_get arr (by rw [hb.1]; exact hd), hb.1]
  by_cases hi : i ≤ d
  · rw [if_pos hi]
    cases hp : arr[i % d]? with
    | none =>
      rw [List.getElem?_eq_none_iff, hb.1] at hp
      exact absurd (Nat.mod_lt i hd) (by omega)
    | some plane =>
      have hpl := hb.2 plane (List.mem_of_getElem? hp)
      rw [Option.map_some, Option.bind_some, Option.bind_some, List.getElem?_map, wrapFirst_get plane (by rw [hpl.1]; exact hw), hpl.1]
      by_cases hj : j ≤ w
      · rw [if_pos hj]
        cases hr : plane[j % w]? with
        | none =>
          rw [List.getElem?_eq_none_iff, hpl.1] at hr
          exact absurd (Nat.mod_lt j hw) (by omega)
        | some row =>
          have hrl := hpl.2 row (List.mem_of_getElem? hr)
          rw [Option.map_some, Option.bind_some, Option.bind_some, wrapFirst_get row (by rw [hrl]; exact hl), hrl]
          by_cases hk : k ≤ l
          · rw [if_pos hk, if_pos ⟨hi, hj, hk⟩]
          · rw [if_neg hk, if_neg (by tauto)]
      · rw [if_neg hj, if_neg (by tauto)]; rfl
  · rw [if_neg hi, if_neg (by tauto)]; rfl

theorem mem_argwhere (pool : Cube ℤ) (ele : ℤ) (i j k : ℕ) : (i, j, k) ∈ argwhere pool ele ↔ Spec.entry pool i j k = some ele := by
  unfold argwhere Spec.entry
  simp only [List.mem_flatMap, List.mem_filterMap, Prod.exists, List.mem_zipIdx_iff_getElem?]
  constructor
  · rintro ⟨plane, i', h1, row, j', h2, x, k', h3, h4⟩
    split at h4
    · rename_i hx
      simp only [Option.some.injEq, Prod.mk.injEq] at h4
      obtain ⟨rfl, rfl, rfl⟩ := h4
      rw [h1, Option.bind_some, h2, Option.bind_some, h3, hx]
    · cases h4
  · intro h
    rw [Option.bind_eq_some_iff] at h
    obtain ⟨row, h, h3⟩ := h
    rw [Option.bind_eq_some_iff] at h
    obtain ⟨plane, h1, h2⟩ := h
    exact ⟨plane, i, h1, row, j, h2, ele, k, h3, by simp⟩

theorem zipIdx_snd_pairwise {α} (l : List α) : l.zipIdx.Pairwise fun a b => a.2 ≠ b.2 := by
  have := List.nodup_range' (s := 0) (n := l.length) (step := 1)
  rw [← List.zipIdx_map_snd, List.Nodup, List.pairwise_map] at this
  exact this

theorem argwhere_nodup (pool : Cube ℤ) (ele : ℤ) : (argwhere pool ele).Nodup := by
  unfold argwhere List.Nodup
  rw [List.pairwise_flatMap]
  refine ⟨fun pi _ => ?_, (zipIdx_snd_pairwise _).imp fun {a b} hab p hp q hq => ?_⟩
  · rw [List.pairwise_flatMap]
    refine ⟨fun rj _ => ?_, (zipIdx_snd_pairwise _).imp fun {a b} hab p hp q hq => ?_⟩
    · rw [List.pairwise_filterMap]
      refine (zipIdx_snd_pairwise _).imp fun {a b} hab p hp q hq => ?_
      split at hp
      · split at hq
        · rw [Option.some.injEq] at hp hq
          rw [← hp, ← hq]
          intro e; exact hab (by simpa using e)
        · cases hq
      · cases hp
    · obtain ⟨x, _, hx⟩ := List.mem_filterMap.1 hp
      obtain ⟨y, _, hy⟩ := List.mem_filterMap.1 hq
      split at hx
      · split at hy
        · rw [Option.some.injEq] at hx hy
          rw [← hx, ← hy]
          intro e; exact hab (by simp only [Prod.mk.injEq] at e; exact e.2.1)
        · cases hy
      · cases hx
  · obtain ⟨x', _, hx⟩ := List.mem_flatMap.1 hp
    obtain ⟨y', _, hy⟩ := List.mem_flatMap.1 hq
    obtain ⟨x, _, hx⟩ := List.mem_filterMap.1 hx
    obtain ⟨y, _, hy⟩ := List.mem_filterMap.1 hy
    split at hx
    · split at hy
      · rw [Option.some.injEq] at hx hy
        rw [← hx, ← hy]
        intro e; exact hab (by simp only [Prod.mk.injEq] at e; exact e.1)
      · cases hy
    · cases hx

theorem pairwise_iff_forall_ne {α} {R : α → α → Prop} (hR : ∀ a b, R a b → R b a) {l : List α} (hl : l.Nodup) :
    l.Pairwise R ↔ ∀ a ∈ l, ∀ b ∈ l, a ≠ b → R a b := by
  induction l with
  | nil => simp
  | cons x l ih =>
    rw [List.nodup_cons] at hl
    rw [List.pairwise_cons, ih hl.2]
    constructor
    · rintro ⟨h1, h2⟩ a ha b hb hab
      rcases List.mem_cons.1 ha with rfl | ha'
      · rcases List.mem_cons.1 hb with rfl | hb'
        · exact absurd rfl hab
        · exact h1 b hb'
      · rcases List.mem_cons.1 hb with rfl | hb'
        · exact hR _ _ (h1 a ha')
        · exact h2 a ha' b hb' hab
    · intro h
      refine ⟨fun b hb => h x (by simp) b (List.mem_cons_of_mem _ hb) (by rintro rfl; exact hl.1 hb), fun a ha b hb => ?_⟩
      exact h a (List.mem_cons_of_mem _ ha) b (List.mem_cons_of_mem _ hb)

/-! ### what the code computes -/

theorem index2coor_eq (m : M3 ℚ) (i j k : ℕ) : index2coor m (i, j, k) = Spec.latticeSite m ((i : ℤ), (j : ℤ), (k : ℤ)) := by
  simp only [index2coor, Spec.latticeSite, Spec.cartesian, Int.cast_natCast, mul_comm]

theorem gridDistSq_eq (p q : V3 ℚ) : gridDistSq p q = Spec.distSq p q := rfl

theorem distSq_comm' (p q : V3 ℚ) : Spec.distSq p q = Spec.distSq q p := by unfold Spec.distSq; ring

/-- the function looks at all pairs of sites in the box `0..d × 0..w × 0..l` of the periodic grid -/
theorem isSpeckleDisjunct_core (m : M3 ℚ) {d w l : ℕ} (hd : 0 < d) (hw : 0 < w) (hl : 0 < l) (grid : Cube Specie) (hb : Spec.Box d w l grid)
    (hr : ∀ x ∈ grid.flatten.flatten, ReachableSpecie x) (sp : Specie) (hsp : ReachableSpecie sp) :
    ∃ b, isSpeckleDisjunct (CStru.mk m grid d w l) sp = .ok b ∧
      (b = true ↔ ∀ p q : V3 ℤ, (0 ≤ p.1 ∧ p.1 ≤ d) → (0 ≤ p.2.1 ∧ p.2.1 ≤ w) → (0 ≤ p.2.2 ∧ p.2.2 ≤ l) →
        (0 ≤ q.1 ∧ q.1 ≤ d) → (0 ≤ q.2.1 ∧ q.2.1 ≤ w) → (0 ≤ q.2.2 ∧ q.2.2 ≤ l) → p ≠ q →
        Spec.Holds d w l grid sp p → Spec.Holds d w l grid sp q →
        (101 / 100) ^ 2 < Spec.distSq (Spec.latticeSite m p) (Spec.latticeSite m q)) := by
  have harr : cubeToArray grid = .ok (cubeMap (·.Z) grid) := by
    unfold cubeToArray; rw [if_neg (box_size_pos hb hd hw hl)]
  refine ⟨_, by unfold isSpeckleDisjunct CStru.getArray; simp only [harr, okBind]; rfl, ?_⟩
  rw [decide_eq_true_eq, gt_iff_lt, lt_minDistSq _ (by norm_num), List.pairwise_map,
    pairwise_iff_forall_ne (fun a b h => by rw [gridDistSq_eq, distSq_comm']; exact h) (argwhere_nodup _ _)]
  have hmem : ∀ i j k : ℕ, (i, j, k) ∈ argwhere (poolSites (cubeMap (·.Z) grid)) sp.Z ↔
      (i ≤ d ∧ j ≤ w ∧ k ≤ l) ∧ Spec.Holds d w l grid sp ((i : ℤ), (j : ℤ), (k : ℤ)) := by
    intro i j k
    rw [mem_argwhere, pool_entry hd hw hl (cubeMap_box _ hb), cubeMap_entry]
    have e : ∀ a n : ℕ, ((a : ℤ) % (n : ℤ)).toNat = a % n := by intro a n; omega
    unfold Spec.Holds
    simp only [e]
    split
    · rename_i h
      simp only [h, and_self, true_and]
      cases hx : Spec.entry grid (i % d) (j % w) (k % l) with
      | none => simp
      | some x =>
        have hxm : x ∈ grid.flatten.flatten := by
          rw [← box_getElem? hb _ _ _ (Nat.mod_lt _ hw) (Nat.mod_lt _ hl)] at hx
          exact List.mem_of_getElem? hx
        simp only [Option.map_some, Option.some.injEq]
        constructor
        · intro hz
          rw [← (reachable_known (hr x hxm)).2, ← (reachable_known hsp).2, hz]
        · rintro rfl; rfl
    · rename_i h
      simp [h]
  constructor
  · rintro H ⟨p1, p2, p3⟩ ⟨q1, q2, q3⟩ ⟨a1, a1'⟩ ⟨a2, a2'⟩ ⟨a3, a3'⟩ ⟨b1, b1'⟩ ⟨b2, b2'⟩ ⟨b3, b3'⟩ hne hp hq
    simp only at a1 a1' a2 a2' a3 a3' b1 b1' b2 b2' b3 b3'
    lift p1 to ℕ using a1
    lift p2 to ℕ using a2
    lift p3 to ℕ using a3
    lift q1 to ℕ using b1
    lift q2 to ℕ using b2
    lift q3 to ℕ using b3
    have := H (p1, p2, p3) ((hmem _ _ _).2 ⟨⟨by omega, by omega, by omega⟩, hp⟩) (q1, q2, q3)
      ((hmem _ _ _).2 ⟨⟨by omega, by omega, by omega⟩, hq⟩) (by
        intro e; apply hne
        simp only [Prod.mk.injEq] at e
        rw [e.1, e.2.1, e.2.2])
    rwa [gridDistSq_eq, index2coor_eq, index2coor_eq] at this
  · rintro H ⟨p1, p2, p3⟩ hp ⟨q1, q2, q3⟩ hq hne
    obtain ⟨⟨a1, a2, a3⟩, hp⟩ := (hmem _ _ _).1 hp
    obtain ⟨⟨b1, b2, b3⟩, hq⟩ := (hmem _ _ _).1 hq
    rw [gridDistSq_eq, index2coor_eq, index2coor_eq]
    refine H _ _ ⟨by simp, by simpa using a1⟩ ⟨by simp, by simpa using a2⟩ ⟨by simp, by simpa using a3⟩ ⟨by simp, by simpa using b1⟩
      ⟨by simp, by simpa using b2⟩ ⟨by simp, by simpa using b3⟩ ?_ hp hq
    intro e; apply hne
    simp only [Prod.mk.injEq, Nat.cast_inj] at e
    rw [e.1, e.2.1, e.2.2]

/-! ### translation into the box -/

/-- two integers at most 1 apart can be moved together by a multiple of `n` into `0..n` -/
theorem shift_pair {n : ℕ} (hn : 0 < n) (p q : ℤ) (h : -1 ≤ p - q ∧ p - q ≤ 1) :
    ∃ t : ℤ, (0 ≤ p + n * t ∧ p + n * t ≤ n) ∧ (0 ≤ q + n * t ∧ q + n * t ≤ n) := by
  have hn' : (0 : ℤ) < n := by exact_mod_cast hn
  have h1 := Int.emod_add_mul_ediv (min p q) n
  have h2 := Int.emod_nonneg (min p q) hn'.ne'
  have h3 := Int.emod_lt_of_pos (min p q) hn'
  refine ⟨-(min p q / n), ?_⟩
  rw [mul_neg]
  generalize (n : ℤ) * (min p q / n) = s at *
  generalize min p q % (n : ℤ) = r at *
  rcases le_total p q with hpq | hpq
  · rw [min_eq_left hpq] at h1; omega
  · rw [min_eq_right hpq] at h1; omega

theorem holds_shift {α} {d w l : ℕ} (c : Cube α) (x : α) (p : V3 ℤ) (a b e : ℤ) :
    Spec.Holds d w l c x (p.1 + d * a, p.2.1 + w * b, p.2.2 + l * e) ↔ Spec.Holds d w l c x p := by
  unfold Spec.Holds
  simp only [Int.add_mul_emod_self_left]

theorem distSq_shift (m : M3 ℚ) (p q : V3 ℤ) (a b c : ℤ) :
    Spec.distSq (Spec.latticeSite m (p.1 + a, p.2.1 + b, p.2.2 + c)) (Spec.latticeSite m (q.1 + a, q.2.1 + b, q.2.2 + c)) =
      Spec.distSq (Spec.latticeSite m p) (Spec.latticeSite m q) := by
  simp only [Spec.distSq, Spec.latticeSite, Spec.cartesian, Int.cast_add]; ring

/-- **C64 (any lattice).** For every lattice whose vectors of length at most 1.01 all have coefficients −1, 0 or 1 – and
every grid of reachable elements – `is_speckle_disjunct` is True iff no two `sp` sites of the infinite periodic grid are within distance 1.01. -/
theorem C64_any_lattice (m : M3 ℚ) (hshort : ∀ x y z : ℤ, Spec.distSq (Spec.latticeSite m (x, y, z)) (0, 0, 0) ≤ (101 / 100) ^ 2 →
      (-1 ≤ x ∧ x ≤ 1) ∧ (-1 ≤ y ∧ y ≤ 1) ∧ (-1 ≤ z ∧ z ≤ 1))
    {d w l : ℕ} (hd : 0 < d) (hw : 0 < w) (hl : 0 < l) (grid : Cube Specie) (hb : Spec.Box d w l grid)
    (hr : ∀ x ∈ grid.flatten.flatten, ReachableSpecie x) (sp : Specie) (hsp : ReachableSpecie sp) :
    ∃ s b, CStru.new m grid = .ok s ∧ isSpeckleDisjunct s sp = .ok b ∧ (b = true ↔ Spec.Disjunct m (101 / 100) d w l grid sp) := by
  obtain ⟨b, hb1, hb2⟩ := isSpeckleDisjunct_core m hd hw hl grid hb hr sp hsp
  refine ⟨_, b, cstru_new m hd hw grid hb, hb1, hb2.trans ⟨fun H p q hne hp hq => ?_, fun H p q _ _ _ _ _ _ hne hp hq => H p q hne hp hq⟩⟩
  by_contra hlt
  rw [not_lt] at hlt
  have e : Spec.distSq (Spec.latticeSite m (p.1 - q.1, p.2.1 - q.2.1, p.2.2 - q.2.2)) (0, 0, 0) =
      Spec.distSq (Spec.latticeSite m p) (Spec.latticeSite m q) := by
    simp only [Spec.distSq, Spec.latticeSite, Spec.cartesian, Int.cast_sub]; ring
  obtain ⟨h1, h2, h3⟩ := hshort _ _ _ (e.le.trans hlt)
  obtain ⟨t1, a1, b1⟩ := shift_pair hd _ _ h1
  obtain ⟨t2, a2, b2⟩ := shift_pair hw _ _ h2
  obtain ⟨t3, a3, b3⟩ := shift_pair hl _ _ h3
  have := H (p.1 + d * t1, p.2.1 + w * t2, p.2.2 + l * t3) (q.1 + d * t1, q.2.1 + w * t2, q.2.2 + l * t3) a1 a2 a3 b1 b2 b3
    (by
      intro e
      simp only [Prod.mk.injEq, add_left_inj] at e
      exact hne (Prod.ext e.1 (Prod.ext e.2.1 e.2.2)))
    ((holds_shift _ _ p _ _ _).2 hp) ((holds_shift _ _ q _ _ _).2 hq)
  rw [distSq_shift m p q] at this
  linarith

/-! ### the four lattices -/

theorem int_sq_le_four {n : ℤ} (h : n ^ 2 ≤ 4) : -2 ≤ n ∧ n ≤ 2 := by
  constructor <;> nlinarith

theorem short_of_named (s : ℚ) (hs : |s ^ 2 - 3 / 4| ≤ 1 / 10 ^ 9) {name : String} {m : M3 ℚ} (h : latDict s name = .ok m) (x y z : ℤ)
    (hv : Spec.distSq (Spec.latticeSite m (x, y, z)) (0, 0, 0) ≤ (101 / 100) ^ 2) :
    (-1 ≤ x ∧ x ≤ 1) ∧ (-1 ≤ y ∧ y ≤ 1) ∧ (-1 ≤ z ∧ z ≤ 1) := by
  have fin : ∀ n : ℤ, (2 * n) ^ 2 ≤ 12 → -1 ≤ n ∧ n ≤ 1 := by
    intro n hn; constructor <;> nlinarith
  unfold latDict at h
  split at h
  · injection h with h; subst h
    simp only [Spec.distSq, Spec.latticeSite, Spec.cartesian] at hv
    have hq : ((-x - y + z : ℤ) : ℚ) ^ 2 + ((-x + y - z : ℤ) : ℚ) ^ 2 + ((-x + y + z : ℤ) : ℚ) ^ 2 < 5 := by
      push_cast; nlinarith
    have hz : (-x - y + z) ^ 2 + (-x + y - z) ^ 2 + (-x + y + z) ^ 2 < 5 := by exact_mod_cast hq
    refine ⟨fin x ?_, fin y ?_, fin z ?_⟩
    · nlinarith [sq_nonneg ((-x - y + z) - (-x + y - z)), sq_nonneg (-x + y + z)]
    · nlinarith [sq_nonneg ((-x - y + z) + (-x + y + z)), sq_nonneg (-x + y - z)]
    · nlinarith [sq_nonneg ((-x + y - z) + (-x + y + z)), sq_nonneg (-x - y + z)]
  · split at h
    · injection h with h; subst h
      simp only [Spec.distSq, Spec.latticeSite, Spec.cartesian] at hv
      have hq : ((y + z : ℤ) : ℚ) ^ 2 + ((x + z : ℤ) : ℚ) ^ 2 + ((x + y : ℤ) : ℚ) ^ 2 < 5 := by
        push_cast; nlinarith
      have hz : (y + z) ^ 2 + (x + z) ^ 2 + (x + y) ^ 2 < 5 := by exact_mod_cast hq
      refine ⟨fin x ?_, fin y ?_, fin z ?_⟩
      · nlinarith [sq_nonneg ((x + z) - (x + y)), sq_nonneg ((x + z) + (y + z)), sq_nonneg ((x + y) + (y + z))]
      · nlinarith [sq_nonneg ((y + z) - (x + y)), sq_nonneg ((x + z) + (y + z)), sq_nonneg ((x + y) + (x + z))]
      · nlinarith [sq_nonneg ((y + z) - (x + z)), sq_nonneg ((x + y) + (y + z)), sq_nonneg ((x + y) + (x + z))]
    · split at h
      · injection h with h; subst h
        simp only [Spec.distSq, Spec.latticeSite, Spec.cartesian] at hv
        have hq : (x : ℚ) ^ 2 + (y : ℚ) ^ 2 + (z : ℚ) ^ 2 < 2 := by nlinarith
        have hz : x ^ 2 + y ^ 2 + z ^ 2 < 2 := by exact_mod_cast hq
        refine ⟨fin x ?_, fin y ?_, fin z ?_⟩
        · nlinarith [sq_nonneg y, sq_nonneg z]
        · nlinarith [sq_nonneg x, sq_nonneg z]
        · nlinarith [sq_nonneg x, sq_nonneg y]
      · split at h
        · injection h with h; subst h
          simp only [Spec.distSq, Spec.latticeSite, Spec.cartesian] at hv
          have hs' := abs_le.1 hs
          have hv' : (400 : ℚ) * (x : ℚ) ^ 2 + ((y : ℚ) + z / 2) ^ 2 + s ^ 2 * (z : ℚ) ^ 2 ≤ (101 / 100) ^ 2 := by
            refine le_trans (le_of_eq ?_) hv; ring
          have hzz : (z : ℚ) ^ 2 < 2 := by
            by_contra hcon
            rw [not_lt] at hcon
            nlinarith [sq_nonneg (x : ℚ), sq_nonneg ((y : ℚ) + z / 2), hs'.1]
          have hxx : (x : ℚ) ^ 2 < 1 := by
            nlinarith [sq_nonneg (s * (z : ℚ)), sq_nonneg ((y : ℚ) + z / 2)]
          have hz2 : z ^ 2 < 2 := by exact_mod_cast hzz
          have hx2 : x ^ 2 < 1 := by exact_mod_cast hxx
          have hz1 := fin z (by nlinarith)
          refine ⟨fin x (by nlinarith), ?_, hz1⟩
          have hy : ((y : ℚ) + z / 2) ^ 2 < 9 / 4 := by
            nlinarith [sq_nonneg (s * (z : ℚ)), sq_nonneg (x : ℚ)]
          have hy' : (2 * (y : ℚ) + z) ^ 2 < 9 := by nlinarith
          have hy2 : (2 * y + z) ^ 2 < 9 := by exact_mod_cast hy'
          have hb : -3 < 2 * y + z ∧ 2 * y + z < 3 := by constructor <;> nlinarith
          omega
        · cases h

/-- **C64.** For the lattices `bcc`, `fcc`, `scc` and `triflat` (`s` is the computed `sqrt(3)/2`, whose square is within `1e-9` of 3/4), every grid size,
every content and every element: `is_speckle_disjunct` is True iff no two `sp` sites of the infinite periodic grid are within distance 1.01. -/
theorem C64_disjunct (s : ℚ) (hs : |s ^ 2 - 3 / 4| ≤ 1 / 10 ^ 9) (name : String) (hn : name = "bcc" ∨ name = "fcc" ∨ name = "scc" ∨ name = "triflat")
    {d w l : ℕ} (hd : 0 < d) (hw : 0 < w) (hl : 0 < l) (grid : Cube Specie) (hb : Spec.Box d w l grid)
    (hr : ∀ x ∈ grid.flatten.flatten, ReachableSpecie x) (sp : Specie) (hsp : ReachableSpecie sp) :
    ∃ m stru b, latDict s name = .ok m ∧ CStru.new m grid = .ok stru ∧ isSpeckleDisjunct stru sp = .ok b ∧
      (b = true ↔ Spec.Disjunct m (101 / 100) d w l grid sp) := by
  obtain ⟨m, hm⟩ : ∃ m, latDict s name = .ok m := by
    rcases hn with rfl | rfl | rfl | rfl <;> exact ⟨_, rfl⟩
  obtain ⟨stru, b, h1, h2, h3⟩ := C64_any_lattice m (fun x y z => short_of_named s hs hm x y z) hd hw hl grid hb hr sp hsp
  exact ⟨m, stru, b, hm, h1, h2, h3⟩

/-- an unknown lattice name is rejected -/
theorem C64_unknown (s : ℚ) (name : String) (hn : name ≠ "bcc" ∧ name ≠ "fcc" ∧ name ≠ "scc" ∧ name ≠ "triflat") :
    latDict s name = .error .keyError := by
  unfold latDict
  rw [if_neg hn.1, if_neg hn.2.1, if_neg hn.2.2.1, if_neg hn.2.2.2]

/-- the lattices are the body-centred, face-centred and simple cubic ones with cube edge 1, and the flat triangular one with edge 1 -/
theorem C64_lattices (s : ℚ) :
    latDict s "bcc" = .ok ((-1/2, -1/2, -1/2), (-1/2, 1/2, 1/2), (1/2, -1/2, 1/2)) ∧
    latDict s "fcc" = .ok ((0, 1/2, 1/2), (1/2, 0, 1/2), (1/2, 1/2, 0)) ∧
    latDict s "scc" = .ok ((1, 0, 0), (0, 1, 0), (0, 0, 1)) ∧
    latDict s "triflat" = .ok ((0, 0, 20), (1, 0, 0), (1/2, s, 0)) := ⟨rfl, rfl, rfl, rfl⟩

/-- the restriction to those lattices matters: with a skewed lattice, a pair of sites `(0,0,0)`, `(-2,4,0)` at squared distance 8/25 is missed -/
theorem C64_skewed : isSpeckleDisjunct ⟨((3, 0, 0), (7/5, 1/10, 0), (0, 0, 3)), [[[exTi], [.ghost], [.ghost], [.ghost]]], 1, 4, 1⟩ exTi = .ok true ∧
    ¬ Spec.Disjunct ((3, 0, 0), (7/5, 1/10, 0), (0, 0, 3)) (101 / 100) 1 4 1 [[[exTi], [.ghost], [.ghost], [.ghost]]] exTi := by
  refine ⟨by decide +kernel, fun h => ?_⟩
  have := h (0, 0, 0) (-2, 4, 0) (by decide) (by unfold Spec.Holds; decide +kernel) (by unfold Spec.Holds; decide +kernel)
  revert this
  decide +kernel

/-! ## Non-vacuity -/

example : |(8660254 / 10000000 : ℚ) ^ 2 - 3 / 4| ≤ 1 / 10 ^ 6 := by norm_num [abs_le]
example : |(866025403784 / 1000000000000 : ℚ) ^ 2 - 3 / 4| ≤ 1 / 10 ^ 9 := by norm_num [abs_le]

/-- neighbours across the boundary of the box are seen -/
example : isSpeckleDisjunct ⟨((1, 0, 0), (0, 1, 0), (0, 0, 1)), [[[exTi, .ghost, exTi]]], 1, 1, 3⟩ exTi = .ok false := by decide +kernel
example : isSpeckleDisjunct ⟨((0, 1/2, 1/2), (1/2, 0, 1/2), (1/2, 1/2, 0)), [[[exTi, .ghost], [.ghost, .ghost]], [[.ghost, .ghost], [.ghost, .ghost]]], 2, 2, 2⟩ exTi = .ok true := by decide +kernel

end Verif
