import Verif.Model.Restriction
import Verif.Spec.Distance
import Verif.Lemmas.Text
import Verif.Props.Super

/-! # C36, C37, C38: restrictions -/

namespace Verif

open Spec

theorem sqDist_eq (u v : V3 ℚ) : sqDist u v = distSq u v := by
  simp only [sqDist, dot, distSq, Prod.fst_sub, Prod.snd_sub]; ring

theorem distSq_comm (u v : V3 ℚ) : distSq u v = distSq v u := by unfold distSq; ring

theorem Farther.symm {d : ℚ} {u v : V3 ℚ} (h : Farther d u v) : Farther d v u := by
  unfold Farther at *; rw [distSq_comm]; exact h

theorem sqrtGt_iff (d : ℚ) (u v : V3 ℚ) : sqrtGt (sqDist u v) d = true ↔ Farther d u v := by
  simp [sqrtGt, Farther, sqDist_eq, pow_two]

theorem foldl_min_spec (xs : List ℚ) (x : ℚ) : (xs.foldl min x = x ∨ xs.foldl min x ∈ xs) ∧ xs.foldl min x ≤ x ∧ ∀ y ∈ xs, xs.foldl min x ≤ y := by
  induction xs generalizing x with
  | nil => simp
  | cons a xs ih =>
    obtain ⟨h1, h2, h3⟩ := ih (min x a)
    refine ⟨?_, h2.trans (min_le_left _ _), ?_⟩
    · simp only [List.foldl_cons, List.mem_cons]
      rcases h1 with h1 | h1
      · rcases min_choice x a with h | h
        · left; rw [h1, h]
        · right; left; rw [h1, h]
      · right; right; exact h1
    · intro y hy
      rcases List.mem_cons.1 hy with rfl | hy
      · exact h2.trans (min_le_right _ _)
      · exact h3 y hy

theorem npMin_spec (l : List ℚ) (hl : l ≠ []) : ∃ m, npMin l = .ok m ∧ m ∈ l ∧ ∀ x ∈ l, m ≤ x := by
  cases l with
  | nil => exact absurd rfl hl
  | cons x xs =>
    obtain ⟨h1, h2, h3⟩ := foldl_min_spec xs x
    refine ⟨_, rfl, ?_, ?_⟩
    · rcases h1 with h | h
      · exact List.mem_cons.2 (Or.inl h)
      · exact List.mem_cons.2 (Or.inr h)
    · intro y hy
      rcases List.mem_cons.1 hy with rfl | hy
      · exact h2
      · exact h3 y hy

theorem pdistSq_all (l : List (V3 ℚ)) (d : ℚ) : (∀ x ∈ pdistSq l, sqrtGt x d = true) ↔ l.Pairwise (Farther d) := by
  induction l with
  | nil => simp [pdistSq]
  | cons p ps ih =>
    simp only [pdistSq, List.mem_append, List.mem_map, List.pairwise_cons]
    rw [← ih]
    constructor
    · intro h
      exact ⟨fun q hq => (sqrtGt_iff _ _ _).1 (h _ (Or.inl ⟨q, hq, rfl⟩)), fun x hx => h x (Or.inr hx)⟩
    · rintro ⟨h1, h2⟩ x (⟨q, hq, rfl⟩ | hx)
      · exact (sqrtGt_iff _ _ _).2 (h1 q hq)
      · exact h2 x hx

theorem sqrtGt_mono {a b d : ℚ} (h : a ≤ b) (ha : sqrtGt a d = true) : sqrtGt b d = true := by
  simp only [sqrtGt, Bool.or_eq_true, decide_eq_true_eq] at *
  rcases ha with ha | ha
  · exact Or.inl ha
  · exact Or.inr (ha.trans_le h)

theorem npMin_gt (l : List (V3 ℚ)) (d : ℚ) (hl : pdistSq l ≠ []) :
    ∃ m, npMin (pdistSq l) = .ok m ∧ (sqrtGt m d = true ↔ l.Pairwise (Farther d)) := by
  obtain ⟨m, h1, h2, h3⟩ := npMin_spec _ hl
  refine ⟨m, h1, ?_⟩
  rw [← pdistSq_all]
  exact ⟨fun h x hx => sqrtGt_mono (h3 x hx) h, fun h => h m h2⟩

/-- positions of the sites holding `z`, in order -/
def elePositions (sites : List (V3 ℚ × ℤ)) (z : ℤ) : List (V3 ℚ) := (sites.filter (fun s => s.2 == z)).map (·.1)

theorem getCartesian_some (c : GCell) (e : Specie) (hl : c.positions.length = c.numbers.length) :
    c.getCartesian (some e) = .ok ((elePositions (c.positions.zip c.numbers) e.Z).map (fun p => vecMul p c.lattice)) := by
  set l : List (V3 ℚ × ℕ) := (((c.positions.zip c.numbers).zipIdx).filter (fun x => x.1.2 == e.Z)).map (fun x => (x.1.1, x.2)) with hl'
  have h1 : (c.numbers.zipIdx.filter (fun p => p.1 == e.Z)).map (·.2) = l.map (·.2) := by
    have : c.numbers.zipIdx = (c.positions.zip c.numbers).zipIdx.map (fun x => (x.1.2, x.2)) := by
      have h2 : c.numbers = (c.positions.zip c.numbers).map Prod.snd := (List.map_snd_zip (by omega)).symm
      conv_lhs => rw [h2]
      rw [List.zipIdx_map]; rfl
    rw [this, List.filter_map, List.map_map, hl', List.map_map]
    rfl
  have h2 : fancy c.positions (l.map (·.2)) = .ok (l.map (·.1)) := by
    refine fancy_of_pairs _ _ ?_
    intro p hp
    obtain ⟨x, hx, rfl⟩ := List.mem_map.1 hp
    have hx := (List.mem_filter.1 hx).1
    have := List.mem_zipIdx_iff_getElem?.1 hx
    rw [List.getElem?_zip_eq_some] at this
    exact this.1
  have h3 : l.map (·.1) = elePositions (c.positions.zip c.numbers) e.Z := by
    rw [hl', List.map_map, elePositions]
    have : (c.positions.zip c.numbers).filter (fun s => s.2 == e.Z)
        = (((c.positions.zip c.numbers).zipIdx).filter (fun x => x.1.2 == e.Z)).map Prod.fst := by
      conv_lhs => rw [← List.zipIdx_map_fst 0 (c.positions.zip c.numbers)]
      rw [List.filter_map]; rfl
    rw [this, List.map_map]; rfl
  simp only [GCell.getCartesian, h1, h2, h3, bind, Except.bind, pure, Except.pure]

/-- the doubling matrix of the restriction -/
def twoM : M3 ℤ := ((2, 0, 0), (0, 2, 0), (0, 0, 2))

theorem inside_two (v : V3 ℤ) : Inside twoM v ↔ (0 ≤ v.1 ∧ v.1 ≤ 1) ∧ (0 ≤ v.2.1 ∧ v.2.1 ≤ 1) ∧ (0 ≤ v.2.2 ∧ v.2.2 ≤ 1) := by
  simp only [Inside, vecMul, adj, det, twoM]
  omega

theorem cart_shift (L : M3 ℚ) (p q : V3 ℚ) (v w : V3 ℤ) :
    distSq (cartesian L (p + castV v)) (cartesian L (q + castV w)) = distSq (cartesian L p) (cartesian L (shift q (w - v))) := by
  simp only [distSq, cartesian, shift, castV, V3.map, Prod.fst_add, Prod.snd_add, Prod.fst_sub, Prod.snd_sub, Int.cast_sub]
  ring

theorem far_shift (d : ℚ) (L : M3 ℚ) (p q : V3 ℚ) (v w : V3 ℤ) :
    Farther d (cartesian L (p + castV v)) (cartesian L (q + castV w)) ↔ Farther d (cartesian L p) (cartesian L (shift q (w - v))) := by
  unfold Farther; rw [cart_shift]

/-- the pairs the restriction looks at, one list entry per site of the element -/
theorem pairs_iff (P : ℚ → Prop) (L : M3 ℚ) (E : List (V3 ℚ)) (pts : List (V3 ℤ)) (hn : pts.Nodup) (hm : ∀ v, v ∈ pts ↔ Inside twoM v) :
    (E.flatMap fun p => pts.map fun v => cartesian L (p + castV v)).Pairwise (fun u v => P (distSq u v)) ↔
      (∀ p ∈ E, ∀ t, Near t → t ≠ 0 → P (distSq (cartesian L p) (cartesian L (shift p t)))) ∧
      E.Pairwise (fun p q => ∀ t, Near t → P (distSq (cartesian L p) (cartesian L (shift q t)))) := by
  have split : ∀ t : V3 ℤ, Near t → ∃ v w, v ∈ pts ∧ w ∈ pts ∧ t = w - v := by
    intro t ht
    refine ⟨(max (-t.1) 0, max (-t.2.1) 0, max (-t.2.2) 0), (max t.1 0, max t.2.1 0, max t.2.2 0), ?_, ?_, ?_⟩
    · rw [hm, inside_two]; simp only [Near] at ht; simp only; omega
    · rw [hm, inside_two]; simp only [Near] at ht; simp only; omega
    · ext <;> simp only [Prod.fst_sub, Prod.snd_sub] <;> omega
  have near : ∀ v ∈ pts, ∀ w ∈ pts, Near (w - v) := by
    intro v hv w hw
    rw [hm, inside_two] at hv hw
    simp only [Near, Prod.fst_sub, Prod.snd_sub]; omega
  rw [List.pairwise_flatMap]
  refine and_congr (forall₂_congr fun p _ => ?_) ?_
  · rw [List.pairwise_map]
    constructor
    · intro h t ht ht0
      obtain ⟨v, w, hv, hw, rfl⟩ := split t ht
      have hne : v ≠ w := fun e => ht0 (by rw [e, sub_self])
      have : Std.Symm (fun v w : V3 ℤ => P (distSq (cartesian L (p + castV v)) (cartesian L (p + castV w)))) :=
        ⟨fun _ _ h => by rwa [distSq_comm]⟩
      exact (cart_shift L p p v w) ▸ h.forall hv hw hne
    · intro h
      refine hn.imp_of_mem ?_
      intro v w hv hw hne
      exact (cart_shift L p p v w) ▸ h _ (near v hv w hw) (sub_ne_zero.2 fun e => hne e.symm)
  · refine ⟨fun h => h.imp ?_, fun h => h.imp ?_⟩
    · intro p q hpq t ht
      obtain ⟨v, w, hv, hw, rfl⟩ := split t ht
      exact (cart_shift L p q v w) ▸ hpq _ (List.mem_map_of_mem hv) _ (List.mem_map_of_mem hw)
    · intro p q hpq x hx y hy
      obtain ⟨v, hv, rfl⟩ := List.mem_map.1 hx
      obtain ⟨w, hw, rfl⟩ := List.mem_map.1 hy
      exact (cart_shift L p q v w) ▸ hpq _ (near v hv w hw)

theorem elePositions_flatMap (sites : List (V3 ℚ × ℤ)) (F : V3 ℚ → List (V3 ℚ)) (z : ℤ) :
    elePositions (sites.flatMap fun s => (F s.1).map fun q => (q, s.2)) z = (elePositions sites z).flatMap F := by
  induction sites with
  | nil => rfl
  | cons s sites ih =>
    simp only [elePositions] at ih ⊢
    rw [List.flatMap_cons, List.filter_append, List.map_append, ih]
    by_cases h : s.2 = z
    · rw [List.filter_cons_of_pos (by simpa using h)]
      simp [List.filter_map, h, Function.comp_def]
    · rw [List.filter_cons_of_neg (by simpa using h)]
      simp [List.filter_map, h, Function.comp_def]

/-- the Cartesian coordinates the restriction computes -/
theorem restriction_points (c : GCell) (hpos : c.positions ≠ []) (hlen : c.positions.length = c.numbers.length) (e : Specie) :
    ∃ (s : GCell) (cart : List (V3 ℚ)) (pts : List (V3 ℤ)), c.supercell twoM = .ok s ∧ s.getCartesian (some e) = .ok cart ∧
      pts.Nodup ∧ (∀ v, v ∈ pts ↔ Inside twoM v) ∧ pts.length = 8 ∧
      cart.Perm ((elePositions (c.positions.zip c.numbers) e.Z).flatMap fun p => pts.map fun v => cartesian c.lattice (p + castV v)) := by
  have ht : Triangular twoM := by unfold Triangular; decide
  obtain ⟨s, pts, h1, h2, h3, h4, h5, h6, h7, h8, h9⟩ := enlarge_sites c.lattice c.positions c.numbers hpos hlen twoM ht 8 (by decide) (by decide)
  refine ⟨s, _, pts, h1, getCartesian_some s e (by omega), h3, h4, h5, ?_⟩
  have p1 : (elePositions (s.positions.zip s.numbers) e.Z).Perm
      ((elePositions (c.positions.zip c.numbers) e.Z).flatMap fun p => pts.map (fun v => toFrac twoM (p + castV v))) := by
    rw [← elePositions_flatMap (c.positions.zip c.numbers) (fun p => pts.map (fun v => toFrac twoM (p + castV v))) e.Z]
    exact (h8.filter (fun s : V3 ℚ × ℤ => s.2 == e.Z)).map (fun s : V3 ℚ × ℤ => s.1)
  refine (p1.map _).trans (List.Perm.of_eq ?_)
  rw [List.map_flatMap]
  refine List.flatMap_congr ?_
  intro p _
  rw [List.map_map]
  refine List.map_congr_left ?_
  intro v _
  have := cartesian_matMul twoM c.lattice (toFrac twoM (p + castV v))
  rw [toFrac_cartesian (by decide)] at this
  rw [← this, ← h2]
  rfl

theorem pdistSq_length (l : List (V3 ℚ)) (h : 2 ≤ l.length) : pdistSq l ≠ [] := by
  match l, h with
  | a :: b :: l, _ => simp [pdistSq]

/-- the same, by the indices of the sites -/
theorem element_pairs (P : ℚ → Prop) (c : GCell) (e : Specie) (pts : List (V3 ℤ)) (hn : pts.Nodup) (hm : ∀ v, v ∈ pts ↔ Inside twoM v) :
    ((elePositions (c.positions.zip c.numbers) e.Z).flatMap fun p => pts.map fun v => cartesian c.lattice (p + castV v)).Pairwise
        (fun u v => P (distSq u v)) ↔
      ∀ (i j : ℕ) (p q : V3 ℚ) (t : V3 ℤ), c.positions[i]? = some p → c.numbers[i]? = some e.Z →
        c.positions[j]? = some q → c.numbers[j]? = some e.Z → Near t → (i ≠ j ∨ t ≠ 0) →
        P (distSq (cartesian c.lattice p) (cartesian c.lattice (shift q t))) := by
  rw [pairs_iff P c.lattice _ pts hn hm]
  set E := elePositions (c.positions.zip c.numbers) e.Z with hE
  have hsym : ∀ p q : V3 ℚ, (∀ t, Near t → P (distSq (cartesian c.lattice p) (cartesian c.lattice (shift q t)))) →
      ∀ t, Near t → P (distSq (cartesian c.lattice q) (cartesian c.lattice (shift p t))) := by
    intro p q h t ht
    have := h (-t) (by simp only [Near, Prod.fst_neg, Prod.snd_neg] at ht ⊢; omega)
    have e3 : distSq (cartesian c.lattice p) (cartesian c.lattice (shift q (-t))) = distSq (cartesian c.lattice q) (cartesian c.lattice (shift p t)) := by
      simp only [distSq, cartesian, shift, Prod.fst_neg, Prod.snd_neg, Int.cast_neg]; ring
    rwa [e3] at this
  constructor
  · rintro ⟨a, b⟩ i j p q t hp hi hq hj ht hne
    have hzi : (c.positions.zip c.numbers)[i]? = some (p, e.Z) := List.getElem?_zip_eq_some.2 ⟨hp, hi⟩
    have hzj : (c.positions.zip c.numbers)[j]? = some (q, e.Z) := List.getElem?_zip_eq_some.2 ⟨hq, hj⟩
    by_cases hij : i = j
    · subst hij
      obtain rfl : p = q := by rw [hp] at hq; exact Option.some.inj hq
      refine a p (List.mem_map.2 ⟨(p, e.Z), List.mem_filter.2 ⟨List.mem_of_getElem? hzi, by simp⟩, rfl⟩) t ht ?_
      rcases hne with h | h
      · exact absurd rfl h
      · exact h
    · rw [hE, elePositions, List.pairwise_map, List.pairwise_filter, List.pairwise_iff_getElem] at b
      obtain ⟨li, ei⟩ := List.getElem?_eq_some_iff.1 hzi
      obtain ⟨lj, ej⟩ := List.getElem?_eq_some_iff.1 hzj
      rcases Nat.lt_or_gt_of_ne hij with hlt | hgt
      · have := b i j li lj hlt
        rw [ei, ej] at this
        exact this (by simp) (by simp) t ht
      · have := b j i lj li hgt
        rw [ei, ej] at this
        exact hsym _ _ (this (by simp) (by simp)) t ht
  · intro h
    constructor
    · intro p hp t ht ht0
      obtain ⟨x, hx, rfl⟩ := List.mem_map.1 hp
      obtain ⟨hx1, hx2⟩ := List.mem_filter.1 hx
      obtain ⟨i, hi⟩ := List.getElem?_of_mem hx1
      obtain ⟨h1, h2⟩ := List.getElem?_zip_eq_some.1 hi
      rw [show x.2 = e.Z by simpa using hx2] at h2
      exact h i i _ _ t h1 h2 h1 h2 ht (Or.inr ht0)
    · rw [hE, elePositions, List.pairwise_map, List.pairwise_filter, List.pairwise_iff_getElem]
      intro i j hi hj hlt e1 e2 t ht
      obtain ⟨a1, a2⟩ := List.getElem?_zip_eq_some.1 (List.getElem?_eq_getElem hi)
      obtain ⟨b1, b2⟩ := List.getElem?_zip_eq_some.1 (List.getElem?_eq_getElem hj)
      rw [show ((c.positions.zip c.numbers)[i]).2 = e.Z by simpa using e1] at a2
      rw [show ((c.positions.zip c.numbers)[j]).2 = e.Z by simpa using e2] at b2
      exact h i j _ _ t a1 a2 b1 b2 ht (Or.inl hlt.ne)

/-- C36: the verdict of the minimum-distance restriction. -/
theorem C36_min_distance (c : GCell) (hpos : c.positions ≠ []) (hlen : c.positions.length = c.numbers.length) (e : Specie) (d : ℚ) :
    (e.Z ∉ c.numbers → minDistSatisfied e d c = .error .valueError) ∧
    (e.Z ∈ c.numbers → ∃ b, minDistSatisfied e d c = .ok b ∧ (b = true ↔
      ∀ (i j : ℕ) (p q : V3 ℚ) (t : V3 ℤ), c.positions[i]? = some p → c.numbers[i]? = some e.Z →
        c.positions[j]? = some q → c.numbers[j]? = some e.Z → Near t → (i ≠ j ∨ t ≠ 0) →
        Farther d (cartesian c.lattice p) (cartesian c.lattice (shift q t)))) := by
  obtain ⟨s, cart, pts, h1, h2, h3, h4, h5, h6⟩ := restriction_points c hpos hlen e
  set E := elePositions (c.positions.zip c.numbers) e.Z with hE
  have hcl : cart.length = E.length * 8 := by
    rw [h6.length_eq]
    exact length_flatMap_const E _ 8 (fun p => by simp [h5])
  have hEmem : e.Z ∈ c.numbers ↔ E ≠ [] := by
    constructor
    · intro h he
      obtain ⟨i, hi⟩ := List.getElem?_of_mem h
      have hi' := (List.getElem?_eq_some_iff.1 hi).1
      obtain ⟨p, hp⟩ : ∃ p, c.positions[i]? = some p := ⟨c.positions[i], List.getElem?_eq_getElem (by omega)⟩
      have hz : (c.positions.zip c.numbers)[i]? = some (p, e.Z) := List.getElem?_zip_eq_some.2 ⟨hp, hi⟩
      have : p ∈ E := List.mem_map.2 ⟨(p, e.Z), List.mem_filter.2 ⟨List.mem_of_getElem? hz, by simp⟩, rfl⟩
      rw [he] at this
      exact absurd this (by simp)
    · intro h
      obtain ⟨p, hp⟩ := List.exists_mem_of_ne_nil _ h
      obtain ⟨x, hx, rfl⟩ := List.mem_map.1 hp
      obtain ⟨hx1, hx2⟩ := List.mem_filter.1 hx
      have := (List.of_mem_zip hx1).2
      rwa [show x.2 = e.Z by simpa using hx2] at this
  have hrun : minDistSatisfied e d c = (do let m ← npMin (pdistSq cart); return sqrtGt m d) := by
    unfold minDistSatisfied
    have : c.supercell ((2, 0, 0), (0, 2, 0), (0, 0, 2)) = .ok s := h1
    rw [this]
    simp only [bind, Except.bind, h2]
  rw [hrun]
  constructor
  · intro hno
    have : E = [] := by by_contra h; exact hno (hEmem.2 h)
    have : cart = [] := List.length_eq_zero_iff.1 (by rw [hcl, this]; rfl)
    subst this
    rfl
  · intro hyes
    have hE0 : 0 < E.length := List.length_pos_iff.2 (hEmem.1 hyes)
    obtain ⟨m, m1, m2⟩ := npMin_gt cart d (pdistSq_length _ (by omega))
    refine ⟨sqrtGt m d, by rw [m1]; rfl, ?_⟩
    rw [m2, h6.pairwise_iff (fun {x y} h => Farther.symm h)]
    exact element_pairs (fun x => d < 0 ∨ d ^ 2 < x) c e pts h3 h4

/-- The full claim C37: a satisfied restriction bounds the distance of every two atoms of the infinite crystal. -/
def TruePeriodicBound (c : GCell) (e : Specie) (d : ℚ) : Prop :=
  ∀ (i j : ℕ) (p q : V3 ℚ) (k : V3 ℤ), c.positions[i]? = some p → c.numbers[i]? = some e.Z →
    c.positions[j]? = some q → c.numbers[j]? = some e.Z → (i ≠ j ∨ k ≠ 0) →
    Farther d (cartesian c.lattice p) (cartesian c.lattice (shift q k))

/-- every point with some fractional coordinate of absolute value at least 1 is farther than `d` from the origin
(`d` is smaller than the three heights of the cell) -/
def WideCell (L : M3 ℚ) (d : ℚ) : Prop :=
  ∀ x : V3 ℚ, 1 ≤ |x.1| ∨ 1 ≤ |x.2.1| ∨ 1 ≤ |x.2.2| → Farther d (cartesian L x) 0

theorem far_of_wide {L : M3 ℚ} {d : ℚ} (hW : WideCell L d) {p q : V3 ℚ} {k : V3 ℤ}
    (hp : (0 ≤ p.1 ∧ p.1 < 1) ∧ (0 ≤ p.2.1 ∧ p.2.1 < 1) ∧ (0 ≤ p.2.2 ∧ p.2.2 < 1))
    (hq : (0 ≤ q.1 ∧ q.1 < 1) ∧ (0 ≤ q.2.1 ∧ q.2.1 < 1) ∧ (0 ≤ q.2.2 ∧ q.2.2 < 1)) (hk : ¬ Near k) :
    Farther d (cartesian L p) (cartesian L (shift q k)) := by
  have key : ∀ (a b : ℚ) (m : ℤ), 0 ≤ a → a < 1 → 0 ≤ b → b < 1 → ¬ (-1 ≤ m ∧ m ≤ 1) → 1 ≤ |a - (b + m)| := by
    intro a b m ha ha' hb hb' hm
    rcases (by omega : m ≤ -2 ∨ 2 ≤ m) with h | h
    · have : (m : ℚ) ≤ -2 := by exact_mod_cast h
      exact le_trans (by linarith) (le_abs_self _)
    · have : (2 : ℚ) ≤ m := by exact_mod_cast h
      exact le_trans (by linarith) (neg_le_abs _)
  have h1 : 1 ≤ |(p - shift q k).1| ∨ 1 ≤ |(p - shift q k).2.1| ∨ 1 ≤ |(p - shift q k).2.2| := by
    simp only [Prod.fst_sub, Prod.snd_sub, shift]
    by_contra hcon
    push Not at hcon
    refine hk ⟨?_, ?_, ?_⟩
    · by_contra hm; exact absurd (key _ _ _ hp.1.1 hp.1.2 hq.1.1 hq.1.2 hm) (not_le.2 hcon.1)
    · by_contra hm; exact absurd (key _ _ _ hp.2.1.1 hp.2.1.2 hq.2.1.1 hq.2.1.2 hm) (not_le.2 hcon.2.1)
    · by_contra hm; exact absurd (key _ _ _ hp.2.2.1 hp.2.2.2 hq.2.2.1 hq.2.2.2 hm) (not_le.2 hcon.2.2)
  have h2 := hW _ h1
  unfold Farther at h2 ⊢
  have e1 : distSq (cartesian L (p - shift q k)) 0 = distSq (cartesian L p) (cartesian L (shift q k)) := by
    simp only [distSq, cartesian, Prod.fst_sub, Prod.snd_sub, Prod.fst_zero, Prod.snd_zero]; ring
  rwa [e1] at h2

/-- C37 (partial): for cells that are wide compared to `d`, with coordinates in `[0,1)`, a satisfied restriction does bound
the distance in the infinite crystal. Missing: skewed cells (refuted by `C37_false_skew`) and coordinates outside `[0,1)`
(refuted by `C37_false_unwrapped`). -/
theorem C37_wide_cells_partial (c : GCell) (hlen : c.positions.length = c.numbers.length) (e : Specie) (d : ℚ)
    (hin : ∀ p ∈ c.positions, (0 ≤ p.1 ∧ p.1 < 1) ∧ (0 ≤ p.2.1 ∧ p.2.1 < 1) ∧ (0 ≤ p.2.2 ∧ p.2.2 < 1))
    (hW : WideCell c.lattice d) (hsat : minDistSatisfied e d c = .ok true) : TruePeriodicBound c e d := by
  intro i j p q k hp hi hq hj hne
  have hpos : c.positions ≠ [] := fun h => by simp [h] at hp
  obtain ⟨b, hb, hiff⟩ := (C36_min_distance c hpos hlen e d).2 (List.mem_of_getElem? hi)
  rw [hsat] at hb
  have hall := hiff.1 (Except.ok.inj hb).symm
  by_cases hk : Near k
  · exact hall i j p q k hp hi hq hj hk hne
  · exact far_of_wide hW (hin p (List.mem_of_getElem? hp)) (hin q (List.mem_of_getElem? hq)) hk

/-- a cell is wide if `d` times the area of each face is less than the volume -/
theorem wide_of_heights (L : M3 ℚ) (d : ℚ)
    (h1 : d ^ 2 * distSq (L.2.1.2.1 * L.2.2.2.2 - L.2.1.2.2 * L.2.2.2.1, L.2.1.2.2 * L.2.2.1 - L.2.1.1 * L.2.2.2.2, L.2.1.1 * L.2.2.2.1 - L.2.1.2.1 * L.2.2.1) 0 < volume L ^ 2)
    (h2 : d ^ 2 * distSq (L.1.2.1 * L.2.2.2.2 - L.1.2.2 * L.2.2.2.1, L.1.2.2 * L.2.2.1 - L.1.1 * L.2.2.2.2, L.1.1 * L.2.2.2.1 - L.1.2.1 * L.2.2.1) 0 < volume L ^ 2)
    (h3 : d ^ 2 * distSq (L.1.2.1 * L.2.1.2.2 - L.1.2.2 * L.2.1.2.1, L.1.2.2 * L.2.1.1 - L.1.1 * L.2.1.2.2, L.1.1 * L.2.1.2.1 - L.1.2.1 * L.2.1.1) 0 < volume L ^ 2) :
    WideCell L d := by
  -- Cauchy-Schwarz with the normal of a face
  have cs : ∀ (v n : V3 ℚ) (V y : ℚ), dot v n = V * y ∨ dot v n = -(V * y) → 1 ≤ |y| → d ^ 2 * distSq n 0 < V ^ 2 → d ^ 2 < distSq v 0 := by
    intro v n V y hd hy hlt
    have hy2 : 1 ≤ y ^ 2 := by
      have := mul_le_mul hy hy zero_le_one (abs_nonneg y)
      rw [abs_mul_abs_self] at this
      linarith [pow_two y]
    have hd2 : dot v n ^ 2 = V ^ 2 * y ^ 2 := by rcases hd with h | h <;> rw [h] <;> ring
    have c : dot v n ^ 2 ≤ distSq v 0 * distSq n 0 := by
      simp only [dot, distSq, Prod.fst_zero, Prod.snd_zero, sub_zero]
      nlinarith [sq_nonneg (v.1 * n.2.1 - v.2.1 * n.1), sq_nonneg (v.1 * n.2.2 - v.2.2 * n.1), sq_nonneg (v.2.1 * n.2.2 - v.2.2 * n.2.1)]
    have hn0 : 0 ≤ distSq n 0 := by unfold distSq; positivity
    have hV : V ^ 2 ≤ V ^ 2 * y ^ 2 := by nlinarith [sq_nonneg V]
    have : d ^ 2 * distSq n 0 < distSq v 0 * distSq n 0 := by linarith
    exact lt_of_mul_lt_mul_right this hn0
  intro x hx
  right
  rcases hx with h | h | h
  · exact cs (cartesian L x) _ (volume L) x.1 (Or.inl (by simp only [dot, cartesian, volume]; ring)) h h1
  · exact cs (cartesian L x) _ (volume L) x.2.1 (Or.inr (by simp only [dot, cartesian, volume]; ring)) h h2
  · exact cs (cartesian L x) _ (volume L) x.2.2 (Or.inl (by simp only [dot, cartesian, volume]; ring)) h h3

/-- C37 (partial) for cells with orthogonal edges: no condition on `d` is needed. -/
theorem C37_orthogonal_partial (c : GCell) (hlen : c.positions.length = c.numbers.length) (e : Specie) (d : ℚ)
    (hin : ∀ p ∈ c.positions, (0 ≤ p.1 ∧ p.1 < 1) ∧ (0 ≤ p.2.1 ∧ p.2.1 < 1) ∧ (0 ≤ p.2.2 ∧ p.2.2 < 1))
    (ho : dot c.lattice.1 c.lattice.2.1 = 0 ∧ dot c.lattice.1 c.lattice.2.2 = 0 ∧ dot c.lattice.2.1 c.lattice.2.2 = 0)
    (hsat : minDistSatisfied e d c = .ok true) : TruePeriodicBound c e d := by
  intro i j p q k hp hi hq hj hne
  have hpos : c.positions ≠ [] := fun h => by simp [h] at hp
  obtain ⟨b, hb, hiff⟩ := (C36_min_distance c hpos hlen e d).2 (List.mem_of_getElem? hi)
  rw [hsat] at hb
  have hall := hiff.1 (Except.ok.inj hb).symm
  rcases lt_or_ge d 0 with hd | hd
  · exact Or.inl hd
  obtain ⟨o1, o2, o3⟩ := ho
  have nrm : ∀ x : V3 ℚ, distSq (cartesian c.lattice x) 0 =
      x.1 ^ 2 * dot c.lattice.1 c.lattice.1 + x.2.1 ^ 2 * dot c.lattice.2.1 c.lattice.2.1 + x.2.2 ^ 2 * dot c.lattice.2.2 c.lattice.2.2 := by
    intro x
    simp only [dot] at o1 o2 o3
    simp only [distSq, cartesian, dot, Prod.fst_zero, Prod.snd_zero]
    linear_combination 2 * x.1 * x.2.1 * o1 + 2 * x.1 * x.2.2 * o2 + 2 * x.2.1 * x.2.2 * o3
  have nn : ∀ v : V3 ℚ, 0 ≤ dot v v := by intro v; simp only [dot]; nlinarith [sq_nonneg v.1, sq_nonneg v.2.1, sq_nonneg v.2.2]
  have self : ∀ t : V3 ℤ, Near t → t ≠ 0 → d ^ 2 < distSq (cartesian c.lattice (castV t)) 0 := by
    intro t ht h0
    rcases hall i i p p t hp hi hp hi ht (Or.inr h0) with h | h
    · exact absurd hd (not_le.2 h)
    · have : distSq (cartesian c.lattice p) (cartesian c.lattice (shift p t)) = distSq (cartesian c.lattice (castV t)) 0 := by
        simp only [distSq, cartesian, shift, castV, V3.map, Prod.fst_zero, Prod.snd_zero]; ring
      rwa [this] at h
  have a1 := self (1, 0, 0) (by unfold Near; decide) (by decide)
  have a2 := self (0, 1, 0) (by unfold Near; decide) (by decide)
  have a3 := self (0, 0, 1) (by unfold Near; decide) (by decide)
  rw [nrm] at a1 a2 a3
  simp only [castV, V3.map, Int.cast_one, Int.cast_zero] at a1 a2 a3
  refine C37_wide_cells_partial c hlen e d hin ?_ hsat i j p q k hp hi hq hj hne
  intro x hx
  right
  rw [nrm]
  have sq1 : ∀ y : ℚ, 1 ≤ |y| → 1 ≤ y ^ 2 := by
    intro y hy
    have := mul_le_mul hy hy zero_le_one (abs_nonneg y)
    rw [abs_mul_abs_self] at this
    linarith [pow_two y]
  have b1 := mul_nonneg (sq_nonneg x.1) (nn c.lattice.1)
  have b2 := mul_nonneg (sq_nonneg x.2.1) (nn c.lattice.2.1)
  have b3 := mul_nonneg (sq_nonneg x.2.2) (nn c.lattice.2.2)
  rcases hx with h | h | h
  · have := mul_le_mul_of_nonneg_right (sq1 _ h) (nn c.lattice.1); linarith
  · have := mul_le_mul_of_nonneg_right (sq1 _ h) (nn c.lattice.2.1); linarith
  · have := mul_le_mul_of_nonneg_right (sq1 _ h) (nn c.lattice.2.2); linarith

/-- a skewed cell: the second edge minus twice the first has length 1/10 -/
def exSkew : GCell := ⟨((1, 0, 0), (2, 1/10, 0), (0, 0, 1)), [(0, 0, 0)], [29], [29], 1⟩

/-- C37 is false: in a skewed cell the restriction accepts `d = 1/2` although two atoms are 1/10 apart. -/
theorem C37_false_skew : ∃ (c : GCell) (e : Specie) (d : ℚ), minDistSatisfied e d c = .ok true ∧ ¬ TruePeriodicBound c e d := by
  refine ⟨exSkew, ⟨"Cu", 29⟩, 1/2, by decide +kernel, fun h => ?_⟩
  have := h 0 0 (0, 0, 0) (0, 0, 0) (-2, 1, 0) rfl rfl rfl rfl (Or.inr (by decide))
  revert this
  unfold Farther
  decide +kernel

/-- two copper atoms given as `x = 0` and `x = 5.1`: 0.1 apart in the crystal -/
def exUnwrapped : GCell := ⟨((1, 0, 0), (0, 1, 0), (0, 0, 1)), [(0, 0, 0), (51/10, 0, 0)], [29, 29], [29, 29], 2⟩

/-- C37 is also false for a cubic cell when coordinates are not reduced to `[0,1)`. -/
theorem C37_false_unwrapped : ∃ (c : GCell) (e : Specie) (d : ℚ), minDistSatisfied e d c = .ok true ∧ ¬ TruePeriodicBound c e d := by
  refine ⟨exUnwrapped, ⟨"Cu", 29⟩, 1/2, by decide +kernel, fun h => ?_⟩
  have := h 0 1 (0, 0, 0) (51/10, 0, 0) (-5, 0, 0) rfl rfl rfl rfl (Or.inl (by decide))
  revert this
  unfold Farther
  decide +kernel

/-! ### C38 -/

/-- the space-group string `'Symbol (N)'` -/
def spgString (symbol : List Char) (n : ℕ) : List Char := symbol ++ " (".toList ++ natStr n ++ ")".toList

/-- C38 (partial): for symbols without digits the verdict is membership of the number in parentheses. Missing: symbols that
contain a digit (`C38_first_number`, `C38_false_screw_axis`). -/
theorem C38_digit_free_partial (symbol : List Char) (hs : ∀ c ∈ symbol, isDig c = false) (n : ℕ) (lsp : List ℤ) :
    ∃ b, spaceGroupSatisfied lsp (spgString symbol n) = .ok b ∧ (b = true ↔ (n : ℤ) ∈ lsp) := by
  have : firstDigits (spgString symbol n) = some (natStr n) := by
    refine firstDigits_eq (symbol ++ " (".toList) (natStr n) ")".toList ?_ (natStr_dig n) (natStr_ne n) ?_
    · intro c hc
      rcases List.mem_append.1 hc with h | h
      · exact hs c h
      · have h2 : ∀ c ∈ " (".toList, isDig c = false := by decide
        exact h2 c h
    · decide
  unfold spaceGroupSatisfied
  rw [this]
  exact ⟨_, rfl, by simp [natOfDigits_natStr]⟩

/-- What the code really tests: if the symbol contains digits, the first run of digits of the symbol decides, whatever the
number in parentheses is. -/
theorem C38_first_number (pre post : List Char) (m n : ℕ) (hp : ∀ c ∈ pre, isDig c = false)
    (hq : ∀ c ∈ post.head?, isDig c = false) (lsp : List ℤ) :
    spaceGroupSatisfied lsp (spgString (pre ++ natStr m ++ post) n) = .ok (lsp.contains (m : ℤ)) := by
  have : firstDigits (spgString (pre ++ natStr m ++ post) n) = some (natStr m) := by
    have e : spgString (pre ++ natStr m ++ post) n = pre ++ natStr m ++ (post ++ " (".toList ++ natStr n ++ ")".toList) := by
      simp [spgString]
    rw [e]
    refine firstDigits_eq pre (natStr m) _ hp (natStr_dig m) (natStr_ne m) ?_
    cases post with
    | nil => intro c hc; have : c = ' ' := by simpa using hc.symm
             subst this; decide
    | cons x xs => simpa using hq
  unfold spaceGroupSatisfied
  rw [this]
  simp [natOfDigits_natStr]

/-- C38 is false: `P2_1 (4)` is rejected by `[4]` and accepted by `[2]`; `Fm-3m (225)` is rejected by `[225]`. -/
theorem C38_false_screw_axis :
    spaceGroupSatisfied [4] (spgString "P2_1".toList 4) = .ok false ∧ spaceGroupSatisfied [2] (spgString "P2_1".toList 4) = .ok true ∧
    spaceGroupSatisfied [225] (spgString "Fm-3m".toList 225) = .ok false := by decide +kernel

/-! ## examples -/

/-- a wide orthorhombic cell with two copper atoms and one gold atom: hypotheses of C36 and C37 -/
def exOrtho : GCell := ⟨((3, 0, 0), (0, 4, 0), (0, 0, 5)), [(0, 0, 0), (1/2, 1/2, 0), (1/2, 1/2, 1/2)], [29, 79, 29], [29, 79, 29], 3⟩

example : minDistSatisfied ⟨"Cu", 29⟩ 2 exOrtho = .ok true := by decide +kernel
example : minDistSatisfied ⟨"Cu", 29⟩ 3 exOrtho = .ok false := by decide +kernel
example : minDistSatisfied ⟨"Zn", 30⟩ 3 exOrtho = .error .valueError := by decide +kernel
example : WideCell exOrtho.lattice 2 := by
  refine wide_of_heights _ _ ?_ ?_ ?_ <;> decide +kernel
example : ∀ p ∈ exOrtho.positions, (0 ≤ p.1 ∧ p.1 < 1) ∧ (0 ≤ p.2.1 ∧ p.2.1 < 1) ∧ (0 ≤ p.2.2 ∧ p.2.2 < 1) := by decide +kernel
example : dot exOrtho.lattice.1 exOrtho.lattice.2.1 = 0 ∧ dot exOrtho.lattice.1 exOrtho.lattice.2.2 = 0 ∧
    dot exOrtho.lattice.2.1 exOrtho.lattice.2.2 = 0 := by decide +kernel
example : spaceGroupSatisfied [6, 8] (spgString "Pm".toList 6) = .ok true := by decide +kernel

end Verif
