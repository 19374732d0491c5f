import Verif.Model.ModifiedMore
import Verif.Props.Modified
import Mathlib.Tactic.NormNum

/-! # C68–C70: ModifiedCell: equality, assignment to sites, inherited list methods -/

namespace Verif

/-! ## C69: assignment to a site -/

/-- **C69.** After `site.element = e` every cell shows what it showed before, except that the occurrences of this site have the new element
(and the position they had). Nothing else changes. -/
theorem C69_set_element {w : World} (s : ℕ) (e : Specie) :
    (∀ c, (w.step (.setElement s e)).1.sitesOf c = w.sitesOf c ∧
      ((w.step (.setElement s e)).1.cell c).lattice = (w.cell c).lattice ∧
      (w.step (.setElement s e)).1.positions c = w.positions c ∧
      (w.step (.setElement s e)).1.numbers c = (w.sitesOf c).map fun r => if r = s then e.Z else (w.site r).element.Z) ∧
    ((w.step (.setElement s e)).1.site s).element = e ∧
    ∀ r, r ≠ s → (w.step (.setElement s e)).1.site r = w.site r := by
  have hs : ∀ r, (w.step (.setElement s e)).1.site r = if r = s then { w.site s with element := e } else w.site r := by
    intro r
    simp only [World.step, World.setElement, Function.update_apply]
  refine ⟨fun c => ⟨rfl, rfl, ?_, ?_⟩, by rw [hs, if_pos rfl], fun r hr => by rw [hs, if_neg hr]⟩
  · unfold World.positions
    apply List.map_congr_left
    intro r _
    rw [hs]
    split
    · rename_i h; rw [h]
    · rfl
  · unfold World.numbers
    apply List.map_congr_left
    intro r _
    rw [hs]
    split <;> rfl

/-- **C69.** The same for `site.position = p`. -/
theorem C69_set_position {w : World} (s : ℕ) (p : V3 ℚ) :
    (∀ c, (w.step (.setPosition s p)).1.sitesOf c = w.sitesOf c ∧
      ((w.step (.setPosition s p)).1.cell c).lattice = (w.cell c).lattice ∧
      (w.step (.setPosition s p)).1.numbers c = w.numbers c ∧
      (w.step (.setPosition s p)).1.positions c = (w.sitesOf c).map fun r => if r = s then p else (w.site r).position) ∧
    ((w.step (.setPosition s p)).1.site s).position = p ∧
    ∀ r, r ≠ s → (w.step (.setPosition s p)).1.site r = w.site r := by
  have hs : ∀ r, (w.step (.setPosition s p)).1.site r = if r = s then { w.site s with position := p } else w.site r := by
    intro r
    simp only [World.step, World.setPosition, Function.update_apply]
  refine ⟨fun c => ⟨rfl, rfl, ?_, ?_⟩, by rw [hs, if_pos rfl], fun r hr => by rw [hs, if_neg hr]⟩
  · unfold World.numbers
    apply List.map_congr_left
    intro r _
    rw [hs]
    split
    · rename_i h; rw [h]
    · rfl
  · unfold World.positions
    apply List.map_congr_left
    intro r _
    rw [hs]
    split <;> rfl

/-- in the example heap the site 2 occurs in both cells -/
example : ((exWorld.step (.setElement 2 ⟨"Cu", 29⟩)).1.numbers 0, (exWorld.step (.setElement 2 ⟨"Cu", 29⟩)).1.numbers 1) = ([29, 29], [29, 29, 30]) := by
  decide +kernel

/-! ## C70: the inherited methods -/

theorem reverseLoop_spec (l0 : List ℕ) : ∀ (k j : ℕ) (l : List ℕ), j + k = l0.length / 2 → l.length = l0.length →
    (∀ i, i < l0.length → l[i]? = if i < j ∨ l0.length - j ≤ i then l0[l0.length - 1 - i]? else l0[i]?) →
    reverseLoop l0.length (List.range' j k) l = .ok l0.reverse := by
  intro k
  induction k with
  | zero =>
    intro j l hj hl h
    simp only [List.range'_zero, reverseLoop]
    congr 1
    apply List.ext_getElem?
    intro i
    by_cases hi : i < l0.length
    · rw [h i hi, List.getElem?_reverse hi]
      split
      · rfl
      · have : i = l0.length - 1 - i := by omega
        rw [← this]
    · rw [List.getElem?_eq_none (by omega), List.getElem?_eq_none (by simp; omega)]
  | succ k ih =>
    intro j l hj hl h
    have h1 : j < l0.length := by omega
    rw [List.range'_succ, reverseLoop]
    have ha : l[l0.length - j - 1]? = l0[l0.length - j - 1]? := by
      rw [h _ (by omega), if_neg (by omega)]
    have hb : l[j]? = l0[j]? := by rw [h _ h1, if_neg (by omega)]
    rw [ha, hb, List.getElem?_eq_getElem (by omega : l0.length - j - 1 < l0.length), List.getElem?_eq_getElem h1]
    simp only
    apply ih
    · omega
    · simp [hl]
    · intro i hi
      rw [List.getElem?_set]
      by_cases e1 : l0.length - j - 1 = i
      · rw [if_pos e1, if_pos (by simp; omega), if_pos (by omega)]
        rw [← List.getElem?_eq_getElem h1]
        congr 1
        omega
      · rw [if_neg e1, List.getElem?_set]
        by_cases e2 : j = i
        · rw [if_pos e2, if_pos (by omega), if_pos (by omega), ← List.getElem?_eq_getElem (by omega : l0.length - j - 1 < l0.length)]
          congr 1
          omega
        · rw [if_neg e2, h i hi]
          by_cases e3 : i < j ∨ l0.length - j ≤ i
          · rw [if_pos e3, if_pos (by omega)]
          · rw [if_neg e3, if_neg (by omega)]

/-- **C70.** `cell.reverse()` never fails and reverses the list of sites (the same `Site` objects), in every heap. -/
theorem C70_reverse (w : World) (c : ℕ) : w.reverse c = .ok (w.setSites c (w.sitesOf c).reverse) := by
  unfold World.reverse
  have := reverseLoop_spec (w.sitesOf c) ((w.sitesOf c).length / 2) 0 (w.sitesOf c) (by omega) rfl (by
    intro i hi
    rw [if_neg (by omega)])
  rw [← List.range_eq_range'] at this
  simp only [this]
  rfl

theorem specie_pyEq_refl (a : Specie) : a.pyEq a = true := by simp [Specie.pyEq]

/-- the site of the list is the given site, or has equal position and atomic number -/
theorem sameSite_iff (w : World) (v value : ℕ) :
    w.sameSite v value = true ↔ (w.site v).position = (w.site value).position ∧ (w.site v).element.pyEq (w.site value).element = true := by
  unfold World.sameSite Site.pyEq
  rw [Bool.or_eq_true, Bool.and_eq_true, decide_eq_true_iff, decide_eq_true_iff]
  constructor
  · rintro (rfl | h)
    · exact ⟨rfl, specie_pyEq_refl _⟩
    · exact h
  · exact Or.inr

theorem indexLoop_spec (w : World) (value : ℕ) (l : List ℕ) : ∀ i,
    (∀ k, w.indexLoop value i l = .ok k ↔ ∃ m, k = i + m ∧ m < l.length ∧ (∃ v, l[m]? = some v ∧ w.sameSite v value = true) ∧
      ∀ m' v, m' < m → l[m']? = some v → w.sameSite v value = false) ∧
    ((∀ v ∈ l, w.sameSite v value = false) → w.indexLoop value i l = .error .valueError) := by
  induction l with
  | nil =>
    intro i
    refine ⟨fun k => ?_, fun _ => rfl⟩
    simp [World.indexLoop]
  | cons x l ih =>
    intro i
    rw [World.indexLoop]
    by_cases hx : w.sameSite x value = true
    · rw [if_pos hx]
      refine ⟨fun k => ?_, fun h => ?_⟩
      · constructor
        · intro e
          injection e with e
          exact ⟨0, by omega, by simp, ⟨x, rfl, hx⟩, fun m' v hm' => by omega⟩
        · rintro ⟨m, rfl, _, _, hmin⟩
          rcases Nat.eq_zero_or_pos m with rfl | hm
          · rfl
          · have := hmin 0 x hm rfl
            rw [hx] at this; cases this
      · have := h x (by simp)
        rw [hx] at this; cases this
    · rw [if_neg hx]
      rw [Bool.not_eq_true] at hx
      obtain ⟨i1, i2⟩ := ih (i + 1)
      refine ⟨fun k => ?_, fun h => i2 fun v hv => h v (List.mem_cons_of_mem _ hv)⟩
      rw [i1]
      constructor
      · rintro ⟨m, rfl, hm, ⟨v, hv, hs⟩, hmin⟩
        refine ⟨m + 1, by omega, by simpa using hm, ⟨v, by simpa using hv, hs⟩, ?_⟩
        intro m' v' hm' hv'
        cases m' with
        | zero => simp at hv'; rw [← hv']; exact hx
        | succ m' => exact hmin m' v' (by omega) (by simpa using hv')
      · rintro ⟨m, rfl, hm, ⟨v, hv, hs⟩, hmin⟩
        cases m with
        | zero => simp at hv; rw [← hv, hx] at hs; cases hs
        | succ m =>
          refine ⟨m, by omega, by simpa using hm, ⟨v, by simpa using hv, hs⟩, ?_⟩
          intro m' v' hm' hv'
          exact hmin (m' + 1) v' (by omega) (by simpa using hv')

/-- **C70.** `cell.index(site)` returns the first index whose site has equal position and element; `ValueError` exactly if there is none. -/
theorem C70_index (w : World) (c value : ℕ) :
    (∀ k, w.index c value = .ok k ↔ k < (w.sitesOf c).length ∧
      (∃ v, (w.sitesOf c)[k]? = some v ∧ (w.site v).position = (w.site value).position ∧ (w.site v).element.pyEq (w.site value).element = true) ∧
      ∀ m v, m < k → (w.sitesOf c)[m]? = some v →
        ¬ ((w.site v).position = (w.site value).position ∧ (w.site v).element.pyEq (w.site value).element = true)) ∧
    ((∀ v ∈ w.sitesOf c, ¬ ((w.site v).position = (w.site value).position ∧ (w.site v).element.pyEq (w.site value).element = true)) →
      w.index c value = .error .valueError) := by
  obtain ⟨h1, h2⟩ := indexLoop_spec w value (w.sitesOf c) 0
  constructor
  · intro k
    unfold World.index
    rw [h1]
    simp only [← sameSite_iff, Bool.not_eq_true]
    constructor
    · rintro ⟨m, rfl, hm, hv, hmin⟩
      rw [Nat.zero_add]
      exact ⟨hm, hv, fun m' v hm' hv' => hmin m' v hm' hv'⟩
    · rintro ⟨hm, hv, hmin⟩
      exact ⟨k, by omega, hm, hv, hmin⟩
  · intro h
    apply h2
    intro v hv
    have := h v hv
    rw [← sameSite_iff, Bool.not_eq_true] at this
    exact this

/-- **C70.** `cell.remove(site)` deletes that first site, or raises `ValueError` if there is none. -/
theorem C70_remove (w : World) (c value : ℕ) :
    (∀ k, w.index c value = .ok k → w.remove c value = .ok (w.setSites c ((w.sitesOf c).eraseIdx k))) ∧
    (w.index c value = .error .valueError → w.remove c value = .error .valueError) := by
  constructor
  · intro k hk
    have hlt := (((C70_index w c value).1 k).1 hk).1
    have hd : pyDel (w.sitesOf c) (k : ℤ) = .ok ((w.sitesOf c).eraseIdx k) := by
      unfold pyDel pyIndex
      simp only
      rw [if_neg (by omega : ¬ (k : ℤ) < 0), if_pos ⟨by omega, by omega⟩]
      simp
    unfold World.remove
    rw [hk]
    change (do let l ← pyDel (w.sitesOf c) (k : ℤ); return w.setSites c l) = _
    rw [hd]; rfl
  · intro h
    unfold World.remove
    rw [h]; rfl

/-- **C70.** `site in cell` and `cell.count(site)`: whether, and how many, sites have equal position and element. -/
theorem C70_contains_count (w : World) (c value : ℕ) :
    (w.contains c value = true ↔ ∃ v ∈ w.sitesOf c, (w.site v).position = (w.site value).position ∧ (w.site v).element.pyEq (w.site value).element = true) ∧
    w.count c value = ((w.sitesOf c).filter fun v => decide ((w.site v).position = (w.site value).position) && (w.site v).element.pyEq (w.site value).element).length := by
  constructor
  · unfold World.contains
    rw [List.any_eq_true]
    simp only [sameSite_iff]
  · unfold World.count
    have : ∀ (l : List ℕ) (n : ℕ), l.foldl (fun n v => if w.sameSite v value then n + 1 else n) n =
        n + (l.filter fun v => decide ((w.site v).position = (w.site value).position) && (w.site v).element.pyEq (w.site value).element).length := by
      intro l
      induction l with
      | nil => intro n; rfl
      | cons v l ih =>
        intro n
        rw [List.foldl_cons, ih, List.filter_cons]
        by_cases h : w.sameSite v value = true
        · rw [if_pos h]
          rw [sameSite_iff] at h
          simp [h.1, h.2]; omega
        · rw [if_neg h]
          rw [sameSite_iff] at h
          rw [if_neg]
          simpa using h
    rw [this]; omega

/-- **C70.** `reversed(cell)` lists the sites from the last to the first. -/
theorem C70_reversed (w : World) (c : ℕ) : w.reversed c = .ok (w.sitesOf c).reverse := by
  unfold World.reversed
  generalize w.sitesOf c = l
  have hget : ∀ i, i < l.length → ∀ x, l[i]? = some x → pyGet l (i : ℤ) = .ok x := by
    intro i hi x hx
    unfold pyGet pyIndex
    simp only
    rw [if_neg (by omega : ¬ (i : ℤ) < 0), if_pos ⟨by omega, by omega⟩]
    simp [hx]
  have key : ∀ (is : List ℕ), (∀ i ∈ is, i < l.length) → is.mapM (fun i : ℕ => pyGet l (i : ℤ)) = .ok (is.map fun i => l.getD i 0) := by
    intro is
    induction is with
    | nil => intro _; rfl
    | cons i is ih =>
      intro h
      have hi := h i (by simp)
      rw [List.mapM_cons, hget i hi _ (List.getElem?_eq_getElem hi), ih fun j hj => h j (List.mem_cons_of_mem _ hj)]
      simp [List.getD, List.getElem?_eq_getElem hi]
      rfl
  rw [key _ (by simp), List.map_reverse]
  congr 2
  apply List.ext_getElem?
  intro i
  rw [List.getElem?_map]
  by_cases hi : i < l.length
  · rw [List.getElem?_range hi]; simp [List.getD, List.getElem?_eq_getElem hi]
  · rw [List.getElem?_eq_none (by simpa using hi), List.getElem?_eq_none (by omega)]; rfl

theorem pyDel_last {l : List ℕ} (h : l ≠ []) : pyDel l (-1) = .ok l.dropLast := by
  have hl : 0 < l.length := List.length_pos_iff.2 h
  unfold pyDel pyIndex
  simp only
  rw [if_pos (by omega : (-1 : ℤ) < 0), if_pos ⟨by omega, by omega⟩]
  simp only
  congr 1
  have : (-1 + (l.length : ℤ)).toNat = l.length - 1 := by omega
  rw [this, List.eraseIdx_length_sub_one]

/-- **C70.** `cell.clear()` leaves the cell without sites. -/
theorem C70_clear (w : World) (c : ℕ) : w.clear c = w.setSites c [] := by
  unfold World.clear
  have : ∀ (n : ℕ) (w : World), (w.sitesOf c).length < n → World.clearLoop c n w = w.setSites c [] := by
    intro n
    induction n with
    | zero => intro w h; omega
    | succ n ih =>
      intro w h
      rw [World.clearLoop]
      by_cases he : w.sitesOf c = []
      · have hd : pyDel (w.sitesOf c) (-1) = .error .indexError := by rw [he]; rfl
        rw [hd]
        simp only
        rw [World.setSites]
        have : Function.update w.list (w.cell c).sitesRef [] = w.list := by
          rw [← he]; exact Function.update_eq_self _ _
        rw [this]
      · rw [pyDel_last he]
        simp only
        rw [ih]
        · simp only [World.setSites]
          rw [Function.update_idem]
        · rw [sitesOf_setSites_self, List.length_dropLast]
          have := List.length_pos_iff.2 he
          omega
  exact this _ w (by omega)

example : (exWorld.step (.newSite (1/4, 1/4, 0) (.symbol "Zn"))).1.index 1 6 = .ok 1 := by decide +kernel
example : (exWorld.reverse 1).toOption.map (fun w => w.sitesOf 1) = some [5, 2, 4] := by decide +kernel

/-- **C73.** `cell.extend(cell)` never returns on a cell with sites (a plain list would be doubled); on a cell without sites it does nothing. -/
theorem C73_extend_self (w : World) (c : ℕ) :
    (w.sitesOf c ≠ [] → ∀ fuel, World.extendSelf c fuel 0 w = none) ∧ (w.sitesOf c = [] → ∀ fuel, World.extendSelf c (fuel + 1) 0 w = some w) := by
  refine ⟨fun h fuel => ?_, fun h fuel => by simp [World.extendSelf, h]⟩
  have : ∀ fuel k (w : World), k < (w.sitesOf c).length → World.extendSelf c fuel k w = none := by
    intro fuel
    induction fuel with
    | zero => intro k w _; rfl
    | succ f ih =>
      intro k w hk
      rw [World.extendSelf, List.getElem?_eq_getElem hk]
      simp only
      apply ih
      rw [sitesOf_setSites_self, List.length_append]
      simp
      omega
  exact this fuel 0 w (List.length_pos_iff.2 h)

example : exWorld.sitesOf 0 ≠ [] := by decide +kernel

/-! ## C68: equality -/

theorem close_refl (a : ℚ) : close a a = true := by
  unfold close
  rw [decide_eq_true_iff, sub_self, abs_zero]
  positivity

/-- three numbers equal up to numpy's default tolerances, relative to the second -/
def Spec.AllClose (a b : V3 ℚ) : Prop :=
  |a.1 - b.1| ≤ 1 / 100000000 + |b.1| / 100000 ∧ |a.2.1 - b.2.1| ≤ 1 / 100000000 + |b.2.1| / 100000 ∧
  |a.2.2 - b.2.2| ≤ 1 / 100000000 + |b.2.2| / 100000

instance (a b : V3 ℚ) : Decidable (Spec.AllClose a b) := by unfold Spec.AllClose; infer_instance

theorem closeV_iff (a b : V3 ℚ) : closeV a b = true ↔ Spec.AllClose a b := by
  have e : ∀ t : ℚ, 1 / 10 ^ 8 + 1 / 10 ^ 5 * t = 1 / 100000000 + t / 100000 := fun t => by ring
  simp only [closeV, close, Bool.and_eq_true, decide_eq_true_iff, Spec.AllClose, e, and_assoc]

theorem closeV_refl (a : V3 ℚ) : closeV a a = true := by simp [closeV, close_refl]

/-- `close` on integers below 99998 is equality -/
theorem close_int {a b : ℤ} (hb : |b| < 99998) : close (a : ℚ) (b : ℚ) = true ↔ a = b := by
  constructor
  · intro h
    unfold close at h
    rw [decide_eq_true_iff] at h
    by_contra hne
    have h1 : (1 : ℤ) ≤ |a - b| := Int.one_le_abs (sub_ne_zero.2 hne)
    have h2 : (1 : ℚ) ≤ |(a : ℚ) - b| := by exact_mod_cast h1
    have h3 : |(b : ℚ)| ≤ 99997 := by
      have : |b| ≤ 99997 := by omega
      exact_mod_cast this
    have : (1 : ℚ) ≤ 1 / 10 ^ 8 + 1 / 10 ^ 5 * 99997 := le_trans h2 (le_trans h (by gcongr))
    norm_num at this
  · rintro rfl; exact close_refl _

/-- same lattice up to the tolerance -/
def LatticeClose (L K : M3 ℚ) : Prop := Spec.AllClose L.1 K.1 ∧ Spec.AllClose L.2.1 K.2.1 ∧ Spec.AllClose L.2.2 K.2.2

theorem all_zip_iff {α : Type} {f : α × α → Bool} : ∀ {a b : List α}, a.length = b.length →
    ((a.zip b).all f = true ↔ ∀ (i : ℕ) x y, a[i]? = some x → b[i]? = some y → f (x, y) = true) := by
  intro a
  induction a with
  | nil => intro b _; simp
  | cons x a ih =>
    intro b h
    cases b with
    | nil => simp at h
    | cons y b =>
      rw [List.zip_cons_cons, List.all_cons, Bool.and_eq_true, ih (by simpa using h)]
      constructor
      · rintro ⟨h1, h2⟩ i x' y' hx hy
        cases i with
        | zero => simp at hx hy; subst hx hy; exact h1
        | succ i => exact h2 i x' y' (by simpa using hx) (by simpa using hy)
      · intro h'
        exact ⟨h' 0 x y rfl rfl, fun i x' y' hx hy => h' (i + 1) x' y' (by simpa using hx) (by simpa using hy)⟩

/-- **C68 (the part that holds).** Cells with the same number of sites (and atomic numbers below 99998): `==` does not fail, and holds exactly if the
lattices are equal up to the tolerance and the sites, in order, have the same element and positions equal up to the tolerance. -/
theorem C68_same_size_partial {w : World} {a b : ℕ} (hl : (w.sitesOf a).length = (w.sitesOf b).length) (hz : ∀ n ∈ w.numbers b, |n| < 99998) :
    ∃ r, w.cellEq a b = .ok r ∧ (r = true ↔ LatticeClose (w.cell a).lattice (w.cell b).lattice ∧
      ∀ (i s t : ℕ), (w.sitesOf a)[i]? = some s → (w.sitesOf b)[i]? = some t →
        Spec.AllClose (w.site s).position (w.site t).position ∧ (w.site s).element.Z = (w.site t).element.Z) := by
  unfold LatticeClose
  simp only [← closeV_iff]
  have hp : (w.positions a).length = (w.positions b).length := by simpa [World.positions] using hl
  have hn : (w.numbers a).length = (w.numbers b).length := by simpa [World.numbers] using hl
  have hb1 : broadcastRows (w.positions a) (w.positions b) = .ok ((w.positions a).zip (w.positions b)) := by
    unfold broadcastRows broadcast
    rw [if_neg, if_pos hp]
    rw [ne_eq, not_not, Bool.eq_iff_iff, List.isEmpty_iff_length_eq_zero, List.isEmpty_iff_length_eq_zero, hp]
  have hb2 : broadcast (w.numbers a) (w.numbers b) = .ok ((w.numbers a).zip (w.numbers b)) := by
    unfold broadcast; rw [if_pos hn]
  unfold World.cellEq
  simp only [hb1, hb2]
  by_cases hL : closeV (w.cell a).lattice.1 (w.cell b).lattice.1 = true ∧ closeV (w.cell a).lattice.2.1 (w.cell b).lattice.2.1 = true ∧
      closeV (w.cell a).lattice.2.2 (w.cell b).lattice.2.2 = true
  · have hL' : (closeV (w.cell a).lattice.1 (w.cell b).lattice.1 && closeV (w.cell a).lattice.2.1 (w.cell b).lattice.2.1 &&
        closeV (w.cell a).lattice.2.2 (w.cell b).lattice.2.2) = true := by simp [hL.1, hL.2.1, hL.2.2]
    rw [if_pos hL']
    have e1 := all_zip_iff (f := fun p : V3 ℚ × V3 ℚ => closeV p.1 p.2) hp
    have e2 := all_zip_iff (f := fun n : ℤ × ℤ => close (n.1 : ℚ) (n.2 : ℚ)) hn
    have g1 : (∀ (i : ℕ) x y, (w.positions a)[i]? = some x → (w.positions b)[i]? = some y → closeV x y = true) ↔
        ∀ (i s t : ℕ), (w.sitesOf a)[i]? = some s → (w.sitesOf b)[i]? = some t → closeV (w.site s).position (w.site t).position = true := by
      simp only [World.positions, List.getElem?_map, Option.map_eq_some_iff]
      constructor
      · intro h i s t hs ht
        exact h i _ _ ⟨s, hs, rfl⟩ ⟨t, ht, rfl⟩
      · rintro h i x y ⟨s, hs, rfl⟩ ⟨t, ht, rfl⟩
        exact h i s t hs ht
    have g2 : (∀ (i : ℕ) (x y : ℤ), (w.numbers a)[i]? = some x → (w.numbers b)[i]? = some y → close (x : ℚ) (y : ℚ) = true) ↔
        ∀ (i s t : ℕ), (w.sitesOf a)[i]? = some s → (w.sitesOf b)[i]? = some t → (w.site s).element.Z = (w.site t).element.Z := by
      constructor
      · intro h i s t hs ht
        have hmem : (w.site t).element.Z ∈ w.numbers b := by
          unfold World.numbers; exact List.mem_map.2 ⟨t, List.mem_of_getElem? ht, rfl⟩
        rw [← close_int (hz _ hmem)]
        exact h i _ _ (by simp [World.numbers, hs]) (by simp [World.numbers, ht])
      · intro h i x y hx hy
        simp only [World.numbers, List.getElem?_map, Option.map_eq_some_iff] at hx hy
        obtain ⟨s, hs, rfl⟩ := hx
        obtain ⟨t, ht, rfl⟩ := hy
        rw [h i s t hs ht]
        exact close_refl _
    by_cases hpos : (((w.positions a).zip (w.positions b)).all fun p => closeV p.1 p.2) = true
    · rw [if_pos hpos]
      refine ⟨_, rfl, ?_⟩
      rw [e2, g2]
      rw [e1, g1] at hpos
      constructor
      · intro h; exact ⟨hL, fun i s t hs ht => ⟨hpos i s t hs ht, h i s t hs ht⟩⟩
      · rintro ⟨_, h⟩ i s t hs ht; exact (h i s t hs ht).2
    · rw [if_neg hpos]
      refine ⟨_, rfl, ?_⟩
      rw [e1, g1] at hpos
      constructor
      · intro h; cases h
      · rintro ⟨_, h⟩; exact absurd (fun i s t hs ht => (h i s t hs ht).1) hpos
  · have hL' : (closeV (w.cell a).lattice.1 (w.cell b).lattice.1 && closeV (w.cell a).lattice.2.1 (w.cell b).lattice.2.1 &&
        closeV (w.cell a).lattice.2.2 (w.cell b).lattice.2.2) ≠ true := by
      intro h
      simp only [Bool.and_eq_true] at h
      exact hL ⟨h.1.1, h.1.2, h.2⟩
    rw [if_neg hL']
    exact ⟨_, rfl, by simp [hL]⟩

theorem all_zip_self {α : Type} {f : α × α → Bool} (hf : ∀ x, f (x, x) = true) (a : List α) : (a.zip a).all f = true := by
  rw [all_zip_iff rfl]
  intro i x y hx hy
  rw [hx] at hy
  injection hy with hy
  rw [← hy]; exact hf x

theorem cellEq_of_view {w : World} {a b : ℕ} (h : w.view a = w.view b) : w.cellEq a b = .ok true := by
  have hp : w.positions a = w.positions b := by rw [positions_view, positions_view, h]
  have hn : w.numbers a = w.numbers b := by rw [numbers_view, numbers_view, h]
  have hL : (w.cell a).lattice = (w.cell b).lattice := congrArg Prod.fst h
  unfold World.cellEq
  simp only [hp, hn, hL, closeV_refl, Bool.and_self, if_true]
  have hb1 : broadcastRows (w.positions b) (w.positions b) = .ok ((w.positions b).zip (w.positions b)) := by
    unfold broadcastRows broadcast
    rw [if_neg (by simp), if_pos rfl]
  have hb2 : broadcast (w.numbers b) (w.numbers b) = .ok ((w.numbers b).zip (w.numbers b)) := by
    unfold broadcast; rw [if_pos rfl]
  simp only [hb1, hb2]
  rw [if_pos (all_zip_self (fun x => closeV_refl x) _), all_zip_self (fun x => close_refl _)]

/-- **C68.** A cell equals itself and its copy. -/
theorem C68_copy_equal {w : World} (hw : WF w) {m : ℕ} (hm : m < w.nCell) :
    w.cellEq m m = .ok true ∧ (w.copy m).1.cellEq m (w.copy m).2 = .ok true := by
  refine ⟨cellEq_of_view rfl, cellEq_of_view ?_⟩
  obtain ⟨h1, _, _, h4, _, h6, _⟩ := C45_copy_equal hw hm
  rw [h1, h4, (h6 m hm).1]

/-- **C68.** Cells with close lattices and different numbers of sites, both at least two: `==` raises `ValueError` instead of answering. -/
theorem C68_raises {w : World} {a b : ℕ} (hL : LatticeClose (w.cell a).lattice (w.cell b).lattice)
    (hl : (w.sitesOf a).length ≠ (w.sitesOf b).length) (ha : 2 ≤ (w.sitesOf a).length) (hb : 2 ≤ (w.sitesOf b).length) :
    w.cellEq a b = .error .valueError := by
  have hpa : (w.positions a).length = (w.sitesOf a).length := by simp [World.positions]
  have hpb : (w.positions b).length = (w.sitesOf b).length := by simp [World.positions]
  unfold LatticeClose at hL
  simp only [← closeV_iff] at hL
  unfold World.cellEq
  simp only [hL.1, hL.2.1, hL.2.2, Bool.and_self, if_true]
  have : broadcastRows (w.positions a) (w.positions b) = .error .valueError := by
    unfold broadcastRows broadcast
    generalize w.positions a = x at *
    generalize w.positions b = y at *
    match x, y, hpa, hpb with
    | [], _, hpa, _ => simp at hpa; omega
    | [_], _, hpa, _ => simp at hpa; omega
    | _ :: _ :: _, [], _, hpb => simp at hpb; omega
    | _ :: _ :: _, [_], _, hpb => simp at hpb; omega
    | x1 :: x2 :: x, y1 :: y2 :: y, hpa, hpb =>
      have : (x1 :: x2 :: x).length ≠ (y1 :: y2 :: y).length := by rw [hpa, hpb]; exact hl
      rw [if_neg (by simp), if_neg this]
  rw [this]

/-- three cells: one ghost site; two ghost sites on the same spot; one site moved by a bit more than the tolerance of its own coordinate -/
def exEqHist : List MOp :=
  [.newCell ((2, 0, 0), (0, 2, 0), (0, 0, 2)) [(1, 0, 0)] [5], .newCell ((2, 0, 0), (0, 2, 0), (0, 0, 2)) [(1, 0, 0), (1, 0, 0)] [5, 5],
   .newCell ((2, 0, 0), (0, 2, 0), (0, 0, 2)) [(1 + 1 / 10 ^ 5 + 1 / 10 ^ 8 + 1 / 10 ^ 11, 0, 0)] [5]]

/-- **C68 fails in general**: a cell with one site equals a cell with two sites; and `==` is not symmetric. -/
theorem C68_general_false :
    ValidRun World.empty exEqHist ∧
    ((World.empty.run exEqHist).1.sitesOf 0).length = 1 ∧ ((World.empty.run exEqHist).1.sitesOf 1).length = 2 ∧
    (World.empty.run exEqHist).1.cellEq 0 1 = .ok true ∧
    (World.empty.run exEqHist).1.cellEq 0 2 = .ok true ∧ (World.empty.run exEqHist).1.cellEq 2 0 = .ok false := by
  refine ⟨⟨⟨?_, ?_⟩, ⟨?_, ?_⟩, ⟨?_, ?_⟩, trivial⟩, ?_, ?_, ?_, ?_, ?_⟩ <;> decide +kernel

/-- the hypotheses of `C68_same_size_partial` and `C68_raises` on the example heap -/
example : ((exWorld.copy 0).1.sitesOf 0).length = ((exWorld.copy 0).1.sitesOf 2).length ∧ (∀ n ∈ (exWorld.copy 0).1.numbers 2, |n| < 99998) ∧
    LatticeClose (exWorld.cell 0).lattice (exWorld.cell 1).lattice ∧ (exWorld.sitesOf 0).length ≠ (exWorld.sitesOf 1).length := by
  unfold LatticeClose
  decide +kernel

end Verif
