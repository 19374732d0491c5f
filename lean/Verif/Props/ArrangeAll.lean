import Verif.Spec.Growth
import Verif.Props.Arrange

/-! # C106: which arrangements a random walk can return, and how likely each is -/

namespace Verif

section walk
variable {α : Type} [DecidableEq α]

theorem WalkInv.rim {start : α} {N : α → List α} {path : List α} {f : RPS α} (h : WalkInv start N path f) :
    Spec.rim (fun y x => x ∈ N y) path = (f.toSet : Set α) ∧ (Spec.rim (fun y x => x ∈ N y) path).ncard = f.list.length := by
  have e : Spec.rim (fun y x => x ∈ N y) path = (f.toSet : Set α) := by
    ext x
    constructor
    · rintro ⟨hx, y, hy, hxy⟩
      exact (h.closed y hy x hxy).resolve_left hx
    · intro hx
      exact ⟨fun hp => h.fresh x hp hx, h.near x hx⟩
  exact ⟨e, by rw [e, Set.ncard_coe_finset, h.inv.card]⟩

/-- the walk only appends to the path -/
theorem walkE_prefix {start : α} {goal : ℕ → Bool} {nbrs : α → Py (List α)} {N : α → List α} {G : α → Prop}
    (hN : ∀ p, G p → nbrs p = .ok (N p) ∧ ∀ q ∈ N p, G q) (rand : List ℕ) : ∀ {path : List α} {f : RPS α} {res : List α}, WalkInv start N path f →
    (∀ x ∈ path, G x) → walkE goal nbrs rand path f = some (.ok res) → path <+: res := by
  induction rand with
  | nil =>
    intro path f res _ _ h
    rw [walkE] at h
    split at h
    · simp only [Option.some.injEq, Except.ok.injEq] at h
      rw [h]
    · simp at h
  | cons i rand ih =>
    intro path f res h hp hr
    rw [walkE] at hr
    split at hr
    · simp only [Option.some.injEq, Except.ok.injEq] at hr
      rw [hr]
    · by_cases he : f.list = []
      · simp only [RPS.randomPop_empty he] at hr
        simp at hr
      · have hi : i % f.list.length < f.list.length := Nat.mod_lt _ (List.length_pos_iff.2 he)
        obtain ⟨f', e1, h1, h2⟩ := RPS.randomPop_spec h.inv (List.getElem?_eq_getElem hi)
        have hmem : f.list[i % f.list.length] ∈ f.toSet := by simp [RPS.toSet]
        have hG : G f.list[i % f.list.length] := by
          obtain ⟨y, hy, hxy⟩ := h.near _ hmem
          exact (hN y (hp y hy)).2 _ hxy
        simp only [e1, (hN _ hG).1] at hr
        refine (List.prefix_append _ _).trans (ih (h.next h1 hmem h2) ?_ hr)
        intro z hz
        rcases List.mem_append.1 hz with hz | hz
        · exact hp z hz
        · rw [List.mem_singleton] at hz; rw [hz]; exact hG

/-- from any state of the loop: every growth sequence that continues the path comes from exactly one list of draws -/
theorem walkE_unique {start : α} {goal : ℕ → Bool} {nbrs : α → Py (List α)} {N : α → List α} {G : α → Prop}
    (hN : ∀ p, G p → nbrs p = .ok (N p) ∧ ∀ q ∈ N p, G q) {target : List α} (hg : Spec.Growth start (fun y x => x ∈ N y) target)
    (hgoal : ∀ k, goal k = true ↔ k = target.length) (tail : List α) : ∀ {path : List α} {f : RPS α}, WalkInv start N path f →
    (∀ x ∈ path, G x) → target = path ++ tail →
    ∃! rand : List ℕ, (rand.length = tail.length ∧
      ∀ k i, rand[k]? = some i → i < (Spec.rim (fun y x => x ∈ N y) (target.take (path.length + k))).ncard) ∧
      walkE goal nbrs rand path f = some (.ok target) := by
  induction tail with
  | nil =>
    intro path f h hp ht
    rw [List.append_nil] at ht
    refine ⟨[], ⟨⟨rfl, by simp⟩, ?_⟩, ?_⟩
    · rw [walkE, if_pos ((hgoal _).2 (by rw [ht])), ht]
    · rintro rand ⟨⟨hl, -⟩, -⟩
      simpa using hl
  | cons x tail ih =>
    intro path f h hp ht
    have hng : ¬ goal path.length = true := by
      rw [hgoal, ht]; simp
    have hpne : path ≠ [] := by rintro e; have := h.head; rw [e] at this; simp at this
    have hxr : x ∈ Spec.rim (fun y x => x ∈ N y) path := by
      refine ⟨?_, ?_⟩
      · have := hg.nodup
        rw [ht, List.nodup_append] at this
        intro hx
        exact this.2.2 x hx x (by simp) rfl
      · obtain ⟨j, hj, y, hy, hxy⟩ := hg.steps path.length x (List.length_pos_iff.2 hpne) (by rw [ht]; simp)
        rw [ht, List.getElem?_append_left hj] at hy
        exact ⟨y, List.mem_of_getElem? hy, hxy⟩
    obtain ⟨r1, r2⟩ := h.rim
    have hxf : x ∈ f.toSet := by
      have := hxr
      rw [r1] at this
      exact this
    have hxl : x ∈ f.list := by simpa [RPS.toSet] using hxf
    obtain ⟨i, hi⟩ := List.mem_iff_getElem?.1 hxl
    have hil := (List.getElem?_eq_some_iff.1 hi).1
    obtain ⟨f', e1, h1, h2⟩ := RPS.randomPop_spec h.inv hi
    have hn := h.next h1 hxf h2
    have hGx : G x := by
      obtain ⟨y, hy, hxy⟩ := hxr.2
      exact (hN y (hp y hy)).2 x hxy
    obtain ⟨n1, n2⟩ := hN x hGx
    obtain ⟨rand, ⟨⟨q1, q2⟩, q3⟩, q4⟩ := ih hn (by
      intro z hz
      rcases List.mem_append.1 hz with hz | hz
      · exact hp z hz
      · rw [List.mem_singleton] at hz; rw [hz]; exact hGx) (by rw [ht]; simp)
    have htake : target.take path.length = path := by rw [ht]; simp
    refine ⟨i :: rand, ⟨⟨by simp [q1], ?_⟩, ?_⟩, ?_⟩
    · intro k j hk
      cases k with
      | zero =>
        simp only [List.getElem?_cons_zero, Option.some.injEq] at hk
        subst hk
        rw [Nat.add_zero, htake, r2]
        exact hil
      | succ k =>
        rw [List.getElem?_cons_succ] at hk
        have := q2 k j hk
        rw [List.length_append, List.length_singleton] at this
        rw [show path.length + (k + 1) = path.length + 1 + k by omega]
        exact this
    · rw [walkE, if_neg hng]
      simp only [Nat.mod_eq_of_lt hil, e1, n1]
      exact q3
    · rintro rand' ⟨⟨s1, s2⟩, s3⟩
      cases rand' with
      | nil => simp at s1
      | cons i' rand' =>
        have hi' : i' < f.list.length := by
          have := s2 0 i' rfl
          rwa [Nat.add_zero, htake, r2] at this
        obtain ⟨f'', e1', h1', h2'⟩ := RPS.randomPop_spec h.inv (List.getElem?_eq_getElem hi')
        rw [walkE, if_neg hng] at s3
        simp only [Nat.mod_eq_of_lt hi', e1'] at s3
        have hmem : f.list[i'] ∈ f.toSet := by simp [RPS.toSet]
        have hG' : G f.list[i'] := by
          obtain ⟨y, hy, hxy⟩ := h.near _ hmem
          exact (hN y (hp y hy)).2 _ hxy
        rw [(hN _ hG').1] at s3
        simp only at s3
        -- the walk keeps the path it has
        have hpre := walkE_prefix hN rand' (h.next h1' hmem h2') (by
          intro z hz
          rcases List.mem_append.1 hz with hz | hz
          · exact hp z hz
          · rw [List.mem_singleton] at hz; rw [hz]; exact hG') s3
        rw [ht, List.prefix_append_right_inj] at hpre
        have hx' : f.list[i'] = x := by
          obtain ⟨t, htt⟩ := hpre
          simp at htt
          exact htt.1
        have hii : i' = i := by
          have h3 : f.list[i']? = f.list[i]? := by rw [hi, List.getElem?_eq_getElem hi', hx']
          exact (h.inv.nodup.getElem_inj_iff).1 (by
            rw [List.getElem?_eq_getElem hi', List.getElem?_eq_getElem hil] at h3
            exact Option.some.inj h3)
        subst hii
        rw [e1] at e1'
        injection e1' with e1'
        injection e1' with e1' _
        subst e1'
        congr 1
        apply q4
        refine ⟨⟨by simpa using s1, ?_⟩, ?_⟩
        · intro k j hk
          have := s2 (k + 1) j (by rw [List.getElem?_cons_succ]; exact hk)
          rw [List.length_append, List.length_singleton]
          rw [show path.length + (k + 1) = path.length + 1 + k by omega] at this
          exact this
        · rw [hx'] at s3
          exact s3

/-- a problem whose neighbours are `near` on a set `G` of positions: the results are the growth sequences of length `n`, and each comes
from exactly one list of draws -/
theorem problemWalk_all {start : α} {n : ℕ} {nbrs : α → Py (List α)} {near : α → α → Prop} {G : α → Prop}
    (hN : ∀ p, G p → ∃ ns, nbrs p = .ok ns ∧ ∀ q, q ∈ ns ↔ near p q) (hG : ∀ p q, G p → near p q → G q) (hs : G start) (hs' : ¬ near start start)
    (path : List α) :
    ((∃ rand, problemWalk start (fun k => decide (k = n)) nbrs rand = some (.ok path)) ↔ path.length = n ∧ Spec.Growth start near path) ∧
    (path.length = n → Spec.Growth start near path →
      ∃! rand, Spec.Draws near path rand ∧ problemWalk start (fun k => decide (k = n)) nbrs rand = some (.ok path)) := by
  choose! N hN1 hN2 using hN
  have hN' : ∀ p, G p → nbrs p = .ok (N p) ∧ ∀ q ∈ N p, G q := fun p hp => ⟨hN1 p hp, fun q hq => hG p q hp ((hN2 p hp q).1 hq)⟩
  have hs'' : start ∉ N start := fun h => hs' ((hN2 _ hs _).1 h)
  have hinv := walkInv_start hs''
  have hset : ∀ x ∈ ((N start).foldl RPS.add RPS.empty).toSet, G x := by
    intro x hx
    obtain ⟨y, hy, hxy⟩ := hinv.near x hx
    rw [List.mem_singleton] at hy; subst hy
    exact (hN' _ hs).2 x hxy
  have hw : ∀ rand, problemWalk start (fun k => decide (k = n)) nbrs rand =
      walkE (fun k => decide (k = n)) nbrs rand [start] ((N start).foldl RPS.add RPS.empty) := by
    intro rand
    unfold problemWalk
    rw [hN1 _ hs]
  -- a growth sequence for `near` stays in `G`, so that both notions of neighbour agree on it
  have inG : ∀ {near' : α → α → Prop}, (∀ p q, G p → near' p q → G q) → Spec.Growth start near' path → ∀ x ∈ path, G x := by
    intro near' hG' hgr
    have : ∀ (i : ℕ) (x : α), path[i]? = some x → G x := by
      intro i
      induction i using Nat.strong_induction_on with
      | _ i ih =>
        intro x hx
        rcases Nat.eq_zero_or_pos i with rfl | hi
        · rw [← List.head?_eq_getElem?, hgr.head] at hx
          injection hx with hx
          rw [← hx]; exact hs
        · obtain ⟨j, hj, y, hy, hxy⟩ := hgr.steps i x hi hx
          exact hG' y x (ih j hj y hy) hxy
    intro x hx
    obtain ⟨i, hi⟩ := List.mem_iff_getElem?.1 hx
    exact this i x hi
  have toN : Spec.Growth start near path → Spec.Growth start (fun y x => x ∈ N y) path := by
    intro h
    refine ⟨h.head, h.nodup, fun i x hi hx => ?_⟩
    obtain ⟨j, hj, y, hy, hxy⟩ := h.steps i x hi hx
    exact ⟨j, hj, y, hy, (hN2 y (inG hG h y (List.mem_of_getElem? hy)) x).2 hxy⟩
  have fromN : Spec.Growth start (fun y x => x ∈ N y) path → Spec.Growth start near path := by
    intro h
    refine ⟨h.head, h.nodup, fun i x hi hx => ?_⟩
    obtain ⟨j, hj, y, hy, hxy⟩ := h.steps i x hi hx
    exact ⟨j, hj, y, hy, (hN2 y (inG (fun p q hp hq => (hN' p hp).2 q hq) h y (List.mem_of_getElem? hy)) x).1 hxy⟩
  have key : path.length = n → Spec.Growth start near path →
      ∃! rand, Spec.Draws near path rand ∧ problemWalk start (fun k => decide (k = n)) nbrs rand = some (.ok path) := by
    intro hl h
    obtain ⟨x, tail, hpath⟩ : ∃ x tail, path = x :: tail := by
      cases hp : path with
      | nil => have := h.head; rw [hp] at this; simp at this
      | cons x tail => exact ⟨x, tail, rfl⟩
    have hx : x = start := by have := h.head; rw [hpath] at this; simpa using this
    have hrim : ∀ k, Spec.rim near (path.take (k + 1)) = Spec.rim (fun y x => x ∈ N y) (path.take (k + 1)) := by
      intro k
      ext z
      have hg : ∀ y ∈ path.take (k + 1), G y := fun y hy => inG hG h y (List.mem_of_mem_take hy)
      constructor
      · rintro ⟨h1, y, hy, hzy⟩; exact ⟨h1, y, hy, (hN2 y (hg y hy) z).2 hzy⟩
      · rintro ⟨h1, y, hy, hzy⟩; exact ⟨h1, y, hy, (hN2 y (hg y hy) z).1 hzy⟩
    obtain ⟨rand, ⟨⟨q1, q2⟩, q3⟩, q4⟩ := walkE_unique (goal := fun k => decide (k = n)) hN' (toN h) (by intro k; rw [decide_eq_true_iff, hl]) tail hinv
      (by simpa using hs) (by rw [hpath, hx]; rfl)
    simp only [List.length_singleton] at q2 q4
    have hd : ∀ r : List ℕ, Spec.Draws near path r ↔ r.length = tail.length ∧
        ∀ k i, r[k]? = some i → i < (Spec.rim (fun y x => x ∈ N y) (path.take (1 + k))).ncard := by
      intro r
      unfold Spec.Draws
      simp only [hrim, Nat.add_comm 1]
      rw [show path.length = tail.length + 1 by rw [hpath]; rfl, Nat.add_right_cancel_iff]
    refine ⟨rand, ⟨(hd rand).2 ⟨q1, q2⟩, by rw [hw]; exact q3⟩, ?_⟩
    rintro r ⟨r1, r2⟩
    exact q4 r ⟨(hd r).1 r1, by rw [← hw]; exact r2⟩
  refine ⟨⟨?_, fun ⟨hl, h⟩ => ?_⟩, key⟩
  · rintro ⟨rand, h⟩
    obtain ⟨rand', r1, r2, r3⟩ := walkE_eq (goal := fun k => decide (k = n)) hN' rand hinv (by simpa using hs) hset
    rw [hw, r2] at h
    obtain ⟨p1, p2, p3, p4, p5⟩ := C54_path hs'' (rand := rand') (goal := fun k => decide (k = n)) h
    exact ⟨by simpa using p3, fromN ⟨p2, p1, p5⟩⟩
  · obtain ⟨rand, ⟨-, h2⟩, -⟩ := key hl h
    exact ⟨rand, h2⟩

end walk

/-! ## the two shipped problems -/

/-- next to each other on the `n × n` triangular grid -/
def hexNear (n : ℕ) (p q : ℤ × ℤ) : Prop := Point2 n n q ∧ (q.1 - p.1, q.2 - p.2) ∈ [((1 : ℤ), (0 : ℤ)), (-1, 0), (0, 1), (0, -1), (1, -1), (-1, 1)]

/-- two points of the `n × n × n` grid within distance 2.1 on the face-centred cubic lattice -/
def fccNear (n : ℕ) (p q : V3 ℤ) : Prop := NPoint n n n q ∧ q ≠ p ∧ Spec.distSq (cart fccM q) (cart fccM p) ≤ (21 / 10) ^ 2

theorem boron_nbrs (iter : List (ℤ × ℤ) → List (ℤ × ℤ)) (hi : ∀ l, (iter l).Perm l) (k : ℕ) (hk : 1 ≤ k) (p : ℤ × ℤ) (hp : Point2 (k + 1) (k + 1) p) :
    ∃ ns, iterPositions2 iter ((CStru2d.mk boronM ⟨List.replicate (k + 1) (List.replicate (k + 1) .ghost), k + 1, k + 1⟩ (k + 1) (k + 1)).getNeighbors p (21 / 10)) = .ok ns ∧
      ∀ q, q ∈ ns ↔ hexNear (k + 1) p q := by
  set s : CStru2d := ⟨boronM, ⟨List.replicate (k + 1) (List.replicate (k + 1) .ghost), k + 1, k + 1⟩, k + 1, k + 1⟩ with hs
  have hN : ∀ q, Neighbour2 boronM (k + 1) (k + 1) (21 / 10) p q ↔ hexNear (k + 1) p q := by
    intro q
    unfold hexNear
    rw [show [((1 : ℤ), (0 : ℤ)), (-1, 0), (0, 1), (0, -1), (1, -1), (-1, 1)] = hexDirs from rfl, ← boron_near]
    unfold Neighbour2
    constructor
    · rintro ⟨h1, h2, h3, h4⟩; exact ⟨h1, h2, h4⟩
    · rintro ⟨h1, h2, h4⟩; exact ⟨h1, h2, by norm_num, h4⟩
  have step : ∀ z : ℤ, 0 ≤ z → z < (k + 1 : ℕ) → ∃ u : ℤ, (u = 1 ∨ u = -1) ∧ 0 ≤ z + u ∧ z + u < (k + 1 : ℕ) := by
    intro z h1 h2
    by_cases h : z = 0
    · exact ⟨1, .inl rfl, by omega, by omega⟩
    · exact ⟨-1, .inr rfl, by omega, by omega⟩
  obtain ⟨u, hu, a1, a2⟩ := step p.1 hp.1.1 hp.1.2
  obtain ⟨v, hv, a3, a4⟩ := step p.2 hp.2.1 hp.2.2
  have n1 : Neighbour2 s.m s.width s.length (21 / 10) p (p.1 + u, p.2) := by
    refine (hN _).2 ⟨⟨⟨a1, a2⟩, hp.2⟩, ?_⟩
    simp only [add_sub_cancel_left, sub_self]
    rcases hu with rfl | rfl <;> decide
  have n2 : Neighbour2 s.m s.width s.length (21 / 10) p (p.1, p.2 + v) := by
    refine (hN _).2 ⟨⟨hp.1, a3, a4⟩, ?_⟩
    simp only [add_sub_cancel_left, sub_self]
    rcases hv with rfl | rfl <;> decide
  obtain ⟨ns, h1, -, h3⟩ := ((C80_neighbours s p (21 / 10)).2 hp).2.2.2 _ _ (by
    intro he
    rw [Prod.ext_iff] at he
    have := he.1
    simp only at this
    omega) n1 n2
  refine ⟨iter ns, by rw [h1]; rfl, fun q => ?_⟩
  rw [(hi ns).mem_iff, h3]
  exact hN q

/-- **C106 (boron).** For `n ≥ 2` the possible results of `random_walk_arrange(Boron2dArrangeProblem(n))` are exactly the clusters of `n`
positions of the `n × n` triangular grid grown from the middle one position at a time, in any order of growth; and each of these sequences
comes from exactly one list of draws, where the `k`-th draw is among as many numbers as there are free positions next to the cluster: at
every step all free positions next to the cluster are equally likely. -/
theorem C106_boron (iter : List (ℤ × ℤ) → List (ℤ × ℤ)) (hi : ∀ l, (iter l).Perm l) (n : ℕ) (hn : 2 ≤ n) (path : List (ℤ × ℤ)) :
    ((∃ rand, boronWalk iter n rand = some (.ok path)) ↔
      path.length = n ∧ Spec.Growth (((n / 2 : ℕ) : ℤ), ((n / 2 : ℕ) : ℤ)) (hexNear n) path) ∧
    (path.length = n → Spec.Growth (((n / 2 : ℕ) : ℤ), ((n / 2 : ℕ) : ℤ)) (hexNear n) path →
      ∃! rand, Spec.Draws (hexNear n) path rand ∧ boronWalk iter n rand = some (.ok path)) := by
  obtain ⟨k, rfl⟩ : ∃ k, n = k + 1 := ⟨n - 1, by omega⟩
  have hgoal : (fun j : ℕ => decide ((j : ℤ) = ((k + 1 : ℕ) : ℤ))) = fun j => decide (j = k + 1) := by
    funext j; rw [decide_eq_decide]; omega
  have hw : ∀ rand, boronWalk iter ((k + 1 : ℕ) : ℤ) rand = problemWalk ((((k + 1) / 2 : ℕ) : ℤ), (((k + 1) / 2 : ℕ) : ℤ))
      (fun j => decide (j = k + 1)) (fun p => iterPositions2 iter ((CStru2d.mk boronM
        ⟨List.replicate (k + 1) (List.replicate (k + 1) .ghost), k + 1, k + 1⟩ (k + 1) (k + 1)).getNeighbors p (21 / 10))) rand := by
    intro rand
    unfold boronWalk
    rw [boronStru_ok]
    simp only [hgoal]
    rfl
  simp only [hw]
  refine problemWalk_all (G := Point2 (k + 1) (k + 1)) (fun p hp => boron_nbrs iter hi k (by omega) p hp) (fun p q _ h => h.1) ?_ ?_ path
  · refine ⟨⟨?_, ?_⟩, ?_, ?_⟩ <;> simp only <;> omega
  · rintro ⟨-, h⟩
    simp at h

theorem fcc_nbrs (iter : List (V3 ℤ) → List (V3 ℤ)) (hi : ∀ l, (iter l).Perm l) (k : ℕ) (hk : 1 ≤ k) (p : V3 ℤ) (hp : NPoint (k + 1) (k + 1) (k + 1) p) :
    ∃ ns, iterPositions3 iter ((CStru.mk fccM (List.replicate (k + 1) (List.replicate (k + 1) (List.replicate (k + 1) .ghost))) (k + 1) (k + 1) (k + 1)).getNeighbors
        p (21 / 10)) = .ok ns ∧
      ∀ q, q ∈ ns ↔ fccNear (k + 1) p q := by
  set grid : Cube Specie := List.replicate (k + 1) (List.replicate (k + 1) (List.replicate (k + 1) .ghost)) with hgrid
  have hbox : Spec.Box (k + 1) (k + 1) (k + 1) grid := by
    refine ⟨by simp [hgrid], fun plane hp => ?_⟩
    rw [(List.mem_replicate.1 hp).2]
    refine ⟨by simp, fun row hrow => ?_⟩
    rw [(List.mem_replicate.1 hrow).2]
    simp
  set s : CStru := ⟨fccM, grid, k + 1, k + 1, k + 1⟩ with hs
  have step : ∀ z : ℤ, 0 ≤ z → z < (k + 1 : ℕ) → ∃ u : ℤ, (u = 1 ∨ u = -1) ∧ 0 ≤ z + u ∧ z + u < (k + 1 : ℕ) := by
    intro z h1 h2
    by_cases h : z = 0
    · exact ⟨1, .inl rfl, by omega, by omega⟩
    · exact ⟨-1, .inr rfl, by omega, by omega⟩
  obtain ⟨u, hu, a1, a2⟩ := step p.1 hp.1.1 hp.1.2
  obtain ⟨v, hv, a3, a4⟩ := step p.2.1 hp.2.1.1 hp.2.1.2
  have n1 : NPoint (k + 1) (k + 1) (k + 1) (p.1 + u, p.2.1, p.2.2) ∧ (p.1 + u, p.2.1, p.2.2) ≠ p ∧ Near fccM (21 / 10) p (p.1 + u, p.2.1, p.2.2) := by
    refine ⟨⟨⟨a1, a2⟩, hp.2⟩, ?_, by norm_num, ?_⟩
    · intro he
      have := congrArg Prod.fst he
      simp only at this
      omega
    · exact fcc_step1 p u hu
  have n2 : NPoint (k + 1) (k + 1) (k + 1) (p.1, p.2.1 + v, p.2.2) ∧ (p.1, p.2.1 + v, p.2.2) ≠ p ∧ Near fccM (21 / 10) p (p.1, p.2.1 + v, p.2.2) := by
    refine ⟨⟨hp.1, ⟨a3, a4⟩, hp.2.2⟩, ?_, by norm_num, ?_⟩
    · intro he
      have := congrArg (fun x : V3 ℤ => x.2.1) he
      simp only at this
      omega
    · exact fcc_step2 p v hv
  obtain ⟨s', ns, h0, h1, -, h3⟩ := C08_neighbours_partial fccM (Nat.succ_pos k) (Nat.succ_pos k) grid hbox p (21 / 10) hp _ _ (by
    intro he
    have := congrArg Prod.fst he
    simp only at this
    omega) n1 n2
  rw [cstru_new fccM (Nat.succ_pos k) (Nat.succ_pos k) grid hbox] at h0
  injection h0 with h0
  rw [← h0, ← hs] at h1
  refine ⟨iter ns, by rw [h1]; rfl, fun q => ?_⟩
  rw [(hi ns).mem_iff, h3]
  unfold fccNear
  constructor
  · rintro ⟨b1, b2, b3⟩; exact ⟨b1, b2, b3.2⟩
  · rintro ⟨b1, b2, b3⟩; exact ⟨b1, b2, by norm_num, b3⟩

/-- **C106 (FCC).** The same for `FCC3dArrangeProblem(n)` on the `n × n × n` grid with neighbours within distance 2.1. -/
theorem C106_fcc (iter : List (V3 ℤ) → List (V3 ℤ)) (hi : ∀ l, (iter l).Perm l) (n : ℕ) (hn : 2 ≤ n) (path : List (V3 ℤ)) :
    ((∃ rand, fccWalk iter n rand = some (.ok path)) ↔
      path.length = n ∧ Spec.Growth (((n / 2 : ℕ) : ℤ), ((n / 2 : ℕ) : ℤ), ((n / 2 : ℕ) : ℤ)) (fccNear n) path) ∧
    (path.length = n → Spec.Growth (((n / 2 : ℕ) : ℤ), ((n / 2 : ℕ) : ℤ), ((n / 2 : ℕ) : ℤ)) (fccNear n) path →
      ∃! rand, Spec.Draws (fccNear n) path rand ∧ fccWalk iter n rand = some (.ok path)) := by
  obtain ⟨k, rfl⟩ : ∃ k, n = k + 1 := ⟨n - 1, by omega⟩
  have hbox : Spec.Box (k + 1) (k + 1) (k + 1) (List.replicate (k + 1) (List.replicate (k + 1) (List.replicate (k + 1) Specie.ghost))) := by
    refine ⟨by simp, fun plane hp => ?_⟩
    rw [(List.mem_replicate.1 hp).2]
    refine ⟨by simp, fun row hrow => ?_⟩
    rw [(List.mem_replicate.1 hrow).2]
    simp
  have hgoal : (fun j : ℕ => decide ((j : ℤ) = ((k + 1 : ℕ) : ℤ))) = fun j => decide (j = k + 1) := by
    funext j; rw [decide_eq_decide]; omega
  have hnew : fccStru ((k + 1 : ℕ) : ℤ) = .ok ⟨fccM, List.replicate (k + 1) (List.replicate (k + 1) (List.replicate (k + 1) .ghost)), k + 1, k + 1, k + 1⟩ := by
    unfold fccStru
    rw [Int.toNat_natCast]
    exact cstru_new fccM (Nat.succ_pos k) (Nat.succ_pos k) _ hbox
  have hw : ∀ rand, fccWalk iter ((k + 1 : ℕ) : ℤ) rand = problemWalk ((((k + 1) / 2 : ℕ) : ℤ), (((k + 1) / 2 : ℕ) : ℤ), (((k + 1) / 2 : ℕ) : ℤ))
      (fun j => decide (j = k + 1)) (fun p => iterPositions3 iter ((CStru.mk fccM
        (List.replicate (k + 1) (List.replicate (k + 1) (List.replicate (k + 1) .ghost))) (k + 1) (k + 1) (k + 1)).getNeighbors p (21 / 10))) rand := by
    intro rand
    unfold fccWalk
    rw [hnew]
    simp only [hgoal]
    rfl
  simp only [hw]
  refine problemWalk_all (G := NPoint (k + 1) (k + 1) (k + 1)) (fun p hp => fcc_nbrs iter hi k (by omega) p hp) (fun p q _ h => h.1) ?_ ?_ path
  · refine ⟨⟨?_, ?_⟩, ⟨?_, ?_⟩, ?_, ?_⟩ <;> simp only <;> omega
  · rintro ⟨-, h, -⟩
    exact h rfl

/-! ## a concrete cluster -/

/-- three positions on the 3 × 3 grid, the last one next to the first -/
example : Spec.Growth (1, 1) (hexNear 3) [(1, 1), (0, 1), (2, 0)] := by
  refine ⟨rfl, by decide, ?_⟩
  intro i x hi hx
  have hlt := (List.getElem?_eq_some_iff.1 hx).1
  simp only [List.length_cons, List.length_nil] at hlt
  refine ⟨0, hi, (1, 1), rfl, ?_⟩
  rcases (show i = 1 ∨ i = 2 by omega) with rfl | rfl <;> simp at hx <;> subst hx <;> unfold hexNear Point2 <;> decide

example : ∃! rand, Spec.Draws (hexNear 3) [(1, 1), (0, 1), (2, 0)] rand ∧ boronWalk id 3 rand = some (.ok [(1, 1), (0, 1), (2, 0)]) := by
  refine (C106_boron id (fun l => List.Perm.refl l) 3 (by omega) _).2 rfl ⟨rfl, by decide, ?_⟩
  intro i x hi hx
  have hlt := (List.getElem?_eq_some_iff.1 hx).1
  simp only [List.length_cons, List.length_nil] at hlt
  refine ⟨0, hi, (1, 1), rfl, ?_⟩
  rcases (show i = 1 ∨ i = 2 by omega) with rfl | rfl <;> simp at hx <;> subst hx <;> unfold hexNear Point2 <;> decide

end Verif
