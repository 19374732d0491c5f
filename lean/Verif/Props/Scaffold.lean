import Verif.Model.Scaffold
import Verif.Spec.Grid
import Verif.Props.Element
import Verif.Lemmas.Lazy
import Mathlib.Data.List.Nodup
import Mathlib.Data.List.GetD

/-! # C03, C04: `SitesGrid` objects -/

namespace Verif

theorem okBind {α β} (a : α) (f : α → Py β) : ((.ok a : Py α) >>= f) = f a := rfl

/-- a rectangular grid whose rows are separate lists -/
structure SGrid.WF (h : RowHeap) (g : SGrid) : Prop where
  depth : g.sites.length = g.depth
  width : ∀ plane ∈ g.sites, plane.length = g.width
  nodup : g.sites.flatten.Nodup
  row : ∀ r ∈ g.sites.flatten, r < h.length ∧ (h.row r).length = g.length

theorem pyIndex_spec (n : ℕ) (i : ℤ) :
    (Spec.InRange n i → pyIndex n i = some (i % (n : ℤ)).toNat ∧ (i % (n : ℤ)).toNat < n) ∧
    (¬ Spec.InRange n i → pyIndex n i = none) := by
  unfold Spec.InRange pyIndex
  constructor
  · rintro ⟨h1, h2⟩
    have hn : (0 : ℤ) < n := by omega
    by_cases h0 : i < 0
    · have e : i % (n : ℤ) = i + n := by
        rw [← Int.add_emod_right, Int.emod_eq_of_lt (by omega) (by omega)]
      rw [e]
      simp only [h0, if_true]
      rw [if_pos (by omega)]
      exact ⟨rfl, by omega⟩
    · have e : i % (n : ℤ) = i := Int.emod_eq_of_lt (by omega) h2
      rw [e]
      simp only [h0, if_false]
      rw [if_pos (by omega)]
      exact ⟨rfl, by omega⟩
  · intro h
    by_cases h0 : i < 0
    · simp only [h0, if_true]; rw [if_neg (by omega)]
    · simp only [h0, if_false]; rw [if_neg (by omega)]

theorem pyGet_in {α} {l : List α} {i : ℤ} (h : Spec.InRange l.length i) :
    ∃ x, l[(i % (l.length : ℤ)).toNat]? = some x ∧ pyGet l i = .ok x := by
  obtain ⟨h1, h2⟩ := (pyIndex_spec l.length i).1 h
  refine ⟨_, List.getElem?_eq_getElem h2, ?_⟩
  unfold pyGet
  rw [h1]
  simp only [List.getElem?_eq_getElem h2]

theorem pyGet_out {α} {l : List α} {i : ℤ} (h : ¬ Spec.InRange l.length i) : pyGet l i = .error .indexError := by
  unfold pyGet
  rw [(pyIndex_spec l.length i).2 h]

theorem pySet_in {α} {l : List α} {i : ℤ} (x : α) (h : Spec.InRange l.length i) :
    pySet l i x = .ok (l.set (i % (l.length : ℤ)).toNat x) := by
  unfold pySet
  rw [((pyIndex_spec l.length i).1 h).1]

theorem pySet_out {α} {l : List α} {i : ℤ} (x : α) (h : ¬ Spec.InRange l.length i) : pySet l i x = .error .indexError := by
  unfold pySet
  rw [(pyIndex_spec l.length i).2 h]

/-- slot number of an index -/
def slot (n : ℕ) (i : ℤ) : ℕ := (i % (n : ℤ)).toNat

theorem slot_eq {n : ℕ} {i j : ℤ} (hi : Spec.InRange n i) : slot n i = slot n j ↔ Spec.SamePlace n i j := by
  unfold slot Spec.SamePlace
  have hn : (0 : ℤ) < n := by unfold Spec.InRange at hi; omega
  have h1 := Int.emod_nonneg i (by omega : (n : ℤ) ≠ 0)
  have h2 := Int.emod_nonneg j (by omega : (n : ℤ) ≠ 0)
  omega

/-- address of the row of a position -/
def SGrid.ref (g : SGrid) (p : V3 ℤ) : ℕ := (g.sites.getD (slot g.depth p.1) []).getD (slot g.width p.2.1) 0

theorem SGrid.WF.ref_spec {h : RowHeap} {g : SGrid} (wf : g.WF h) {p : V3 ℤ} (hp : Spec.InRange g.depth p.1 ∧ Spec.InRange g.width p.2.1) :
    (∃ plane, pyGet g.sites p.1 = .ok plane ∧ pyGet plane p.2.1 = .ok (g.ref p) ∧
      g.sites[slot g.depth p.1]? = some plane ∧ plane[slot g.width p.2.1]? = some (g.ref p)) ∧ g.ref p ∈ g.sites.flatten := by
  obtain ⟨plane, e1, e2⟩ := pyGet_in (l := g.sites) (i := p.1) (by rw [wf.depth]; exact hp.1)
  have hpl := List.mem_of_getElem? e1
  have hw := wf.width plane hpl
  obtain ⟨r, f1, f2⟩ := pyGet_in (l := plane) (i := p.2.1) (by rw [hw]; exact hp.2)
  rw [wf.depth] at e1
  rw [hw] at f1
  have hr : g.ref p = r := by
    unfold SGrid.ref slot
    rw [List.getD_eq_getElem?_getD, List.getD_eq_getElem?_getD (l := g.sites), e1, Option.getD_some, f1, Option.getD_some]
  rw [hr]
  exact ⟨⟨plane, e2, f2, e1, f1⟩, List.mem_flatten.2 ⟨plane, hpl, List.mem_of_getElem? f1⟩⟩

/-- different rows have different addresses -/
theorem SGrid.WF.ref_inj {h : RowHeap} {g : SGrid} (wf : g.WF h) {p q : V3 ℤ}
    (hp : Spec.InRange g.depth p.1 ∧ Spec.InRange g.width p.2.1) (hq : Spec.InRange g.depth q.1 ∧ Spec.InRange g.width q.2.1) :
    g.ref p = g.ref q ↔ slot g.depth p.1 = slot g.depth q.1 ∧ slot g.width p.2.1 = slot g.width q.2.1 := by
  constructor
  · intro he
    obtain ⟨⟨P, _, _, e1, e2⟩, _⟩ := wf.ref_spec hp
    obtain ⟨⟨Q, _, _, f1, f2⟩, _⟩ := wf.ref_spec hq
    rw [← he] at f2
    have hnd := List.nodup_flatten.1 wf.nodup
    have hPQ : slot g.depth p.1 = slot g.depth q.1 := by
      by_contra hne
      have hd := List.pairwise_iff_getElem.1 hnd.2
      obtain ⟨hi, e1'⟩ := List.getElem?_eq_some_iff.1 e1
      obtain ⟨hj, f1'⟩ := List.getElem?_eq_some_iff.1 f1
      rcases Nat.lt_or_gt_of_ne hne with hlt | hlt
      · have := hd _ _ hi hj hlt
        rw [e1', f1'] at this
        exact this (List.mem_of_getElem? e2) (List.mem_of_getElem? f2)
      · have := hd _ _ hj hi hlt
        rw [e1', f1'] at this
        exact this (List.mem_of_getElem? f2) (List.mem_of_getElem? e2)
    refine ⟨hPQ, ?_⟩
    rw [hPQ, f1] at e1
    injection e1 with e1
    subst e1
    exact (List.getElem?_inj (List.getElem?_eq_some_iff.1 e2).1 (hnd.1 _ (List.mem_of_getElem? f1))).1 (e2.trans f2.symm)
  · rintro ⟨h1, h2⟩
    unfold SGrid.ref
    rw [h1, h2]

theorem SGrid.WF.get_in {h : RowHeap} {g : SGrid} (wf : g.WF h) {p : V3 ℤ} (hp : Spec.InGrid g.depth g.width g.length p) :
    ∃ sp, g.getItem h p = .ok sp ∧ (h.row (g.ref p))[slot g.length p.2.2]? = some sp := by
  obtain ⟨⟨plane, e1, e2, _, _⟩, hm⟩ := wf.ref_spec ⟨hp.1, hp.2.1⟩
  have hl := (wf.row _ hm).2
  obtain ⟨sp, f1, f2⟩ := pyGet_in (l := h.row (g.ref p)) (i := p.2.2) (by rw [hl]; exact hp.2.2)
  rw [hl] at f1
  refine ⟨sp, ?_, f1⟩
  unfold SGrid.getItem
  rw [e1, okBind, e2, okBind, f2]

theorem SGrid.WF.get_out {h : RowHeap} {g : SGrid} (wf : g.WF h) {p : V3 ℤ} (hp : ¬ Spec.InGrid g.depth g.width g.length p) :
    g.getItem h p = .error .indexError := by
  unfold SGrid.getItem
  by_cases h1 : Spec.InRange g.depth p.1
  · by_cases h2 : Spec.InRange g.width p.2.1
    · obtain ⟨⟨plane, e1, e2, _, _⟩, hm⟩ := wf.ref_spec ⟨h1, h2⟩
      rw [e1, okBind, e2, okBind]
      exact pyGet_out (by rw [(wf.row _ hm).2]; exact fun h3 => hp ⟨h1, h2, h3⟩)
    · obtain ⟨plane, e1, e2⟩ := pyGet_in (l := g.sites) (i := p.1) (by rw [wf.depth]; exact h1)
      rw [e2, okBind, pyGet_out (l := plane) (by rw [wf.width plane (List.mem_of_getElem? e1)]; exact h2)]
      rfl
  · rw [pyGet_out (l := g.sites) (by rw [wf.depth]; exact h1)]
    rfl

theorem SGrid.WF.set_in {h : RowHeap} {g : SGrid} (wf : g.WF h) {p : V3 ℤ} (sp : Specie) (hp : Spec.InGrid g.depth g.width g.length p) :
    g.setItem h p sp = .ok (h.set (g.ref p) ((h.row (g.ref p)).set (slot g.length p.2.2) sp)) := by
  obtain ⟨⟨plane, e1, e2, _, _⟩, hm⟩ := wf.ref_spec ⟨hp.1, hp.2.1⟩
  have hl := (wf.row _ hm).2
  unfold SGrid.setItem
  rw [e1, okBind, e2, okBind, pySet_in sp (by rw [hl]; exact hp.2.2), okBind, hl]
  rfl

theorem SGrid.WF.set_out {h : RowHeap} {g : SGrid} (wf : g.WF h) {p : V3 ℤ} (sp : Specie) (hp : ¬ Spec.InGrid g.depth g.width g.length p) :
    g.setItem h p sp = .error .indexError := by
  unfold SGrid.setItem
  by_cases h1 : Spec.InRange g.depth p.1
  · by_cases h2 : Spec.InRange g.width p.2.1
    · obtain ⟨⟨plane, e1, e2, _, _⟩, hm⟩ := wf.ref_spec ⟨h1, h2⟩
      rw [e1, okBind, e2, okBind, pySet_out sp (by rw [(wf.row _ hm).2]; exact fun h3 => hp ⟨h1, h2, h3⟩)]
      rfl
    · obtain ⟨plane, e1, e2⟩ := pyGet_in (l := g.sites) (i := p.1) (by rw [wf.depth]; exact h1)
      rw [e2, okBind, pyGet_out (l := plane) (by rw [wf.width plane (List.mem_of_getElem? e1)]; exact h2)]
      rfl
  · rw [pyGet_out (l := g.sites) (by rw [wf.depth]; exact h1)]
    rfl

theorem row_set (h : RowHeap) (r s : ℕ) (row : List Specie) (hr : r < h.length) :
    RowHeap.row (h.set r row) s = if r = s then row else h.row s := by
  unfold RowHeap.row
  rw [List.getD_eq_getElem?_getD, List.getD_eq_getElem?_getD]
  by_cases e : r = s
  · subst e; rw [if_pos rfl, List.getElem?_set_self hr]; rfl
  · rw [if_neg e, List.getElem?_set_ne e]

theorem SGrid.WF.of_set {h : RowHeap} {g : SGrid} (wf : g.WF h) {r : ℕ} {row : List Specie} (hl : row.length = (h.row r).length) (hr : r < h.length) :
    g.WF (h.set r row) := by
  refine ⟨wf.depth, wf.width, wf.nodup, fun s hs => ⟨by rw [List.length_set]; exact (wf.row s hs).1, ?_⟩⟩
  rw [row_set _ _ _ _ hr]
  split
  · next e => subst e; rw [hl]; exact (wf.row _ hs).2
  · exact (wf.row s hs).2

/-- **C03 (one access).** On every rectangular grid whose rows are separate lists (all grids made by `sea`, `from_array` or a nested
list display, see `C03_sea`): an access raises IndexError exactly when a coordinate is outside `[-dim, dim)`. After `g[p] = sp`
the entry `p` reads `sp` under all its names, all other entries read as before, and the grid is still such a grid with the same
dimensions. Another grid `g'` that shares no row is not affected. -/
theorem C03_write (h : RowHeap) (g : SGrid) (wf : g.WF h) (p : V3 ℤ) (sp : Specie) :
    (¬ Spec.InGrid g.depth g.width g.length p → g.setItem h p sp = .error .indexError ∧ g.getItem h p = .error .indexError) ∧
    (Spec.InGrid g.depth g.width g.length p → (∃ v, g.getItem h p = .ok v) ∧ ∃ h', g.setItem h p sp = .ok h' ∧ g.WF h' ∧
      (∀ q, Spec.InGrid g.depth g.width g.length q →
        g.getItem h' q = if Spec.SameEntry g.depth g.width g.length p q then .ok sp else g.getItem h q) ∧
      ∀ g' : SGrid, g'.WF h → (∀ r ∈ g'.sites.flatten, r ∉ g.sites.flatten) → g'.WF h' ∧ ∀ q, g'.getItem h' q = g'.getItem h q) := by
  refine ⟨fun hp => ⟨wf.set_out sp hp, wf.get_out hp⟩, fun hp => ?_⟩
  obtain ⟨v, hv, _⟩ := wf.get_in hp
  have hm := (wf.ref_spec ⟨hp.1, hp.2.1⟩).2
  have hlt := (wf.row _ hm).1
  have wf' : g.WF (h.set (g.ref p) ((h.row (g.ref p)).set (slot g.length p.2.2) sp)) := wf.of_set (List.length_set) hlt
  refine ⟨⟨v, hv⟩, _, wf.set_in sp hp, wf', ?_, ?_⟩
  · intro q hq
    obtain ⟨x, hx, hx'⟩ := wf.get_in hq
    obtain ⟨y, hy, hy'⟩ := wf'.get_in hq
    rw [hx, hy]
    rw [row_set _ _ _ _ hlt] at hy'
    by_cases hr : g.ref p = g.ref q
    · rw [if_pos hr] at hy'
      obtain ⟨s1, s2⟩ := (wf.ref_inj ⟨hp.1, hp.2.1⟩ ⟨hq.1, hq.2.1⟩).1 hr
      have e1 := (slot_eq hp.1).1 s1
      have e2 := (slot_eq hp.2.1).1 s2
      by_cases hs : slot g.length p.2.2 = slot g.length q.2.2
      · have e3 := (slot_eq hp.2.2).1 hs
        rw [if_pos (show Spec.SameEntry g.depth g.width g.length p q from ⟨e1, e2, e3⟩)]
        rw [hs, List.getElem?_set_self (by
          rw [hr]; exact (List.getElem?_eq_some_iff.1 hx').1)] at hy'
        injection hy' with hy'
        rw [hy']
      · rw [if_neg (show ¬ Spec.SameEntry g.depth g.width g.length p q from fun hS => hs ((slot_eq hp.2.2).2 hS.2.2))]
        rw [List.getElem?_set_ne hs, hr, hx'] at hy'
        injection hy' with hy'
        rw [hy']
    · rw [if_neg hr, hx'] at hy'
      injection hy' with hy'
      rw [if_neg (show ¬ Spec.SameEntry g.depth g.width g.length p q from fun hS => hr ((wf.ref_inj ⟨hp.1, hp.2.1⟩ ⟨hq.1, hq.2.1⟩).2
        ⟨(slot_eq hp.1).2 hS.1, (slot_eq hp.2.1).2 hS.2.1⟩)), hy']
  · intro g' w' hdis
    have wf'' : g'.WF (h.set (g.ref p) ((h.row (g.ref p)).set (slot g.length p.2.2) sp)) := w'.of_set (List.length_set) hlt
    refine ⟨wf'', fun q => ?_⟩
    by_cases hq : Spec.InGrid g'.depth g'.width g'.length q
    · obtain ⟨x, hx, hx'⟩ := w'.get_in hq
      obtain ⟨y, hy, hy'⟩ := wf''.get_in hq
      rw [row_set _ _ _ _ hlt, if_neg (fun (he : g.ref p = g'.ref q) => hdis _ (w'.ref_spec ⟨hq.1, hq.2.1⟩).2 (he ▸ hm)), hx'] at hy'
      injection hy' with hy'
      rw [hx, hy, hy']
    · rw [w'.get_out hq, wf''.get_out hq]

/-! ### fresh grids -/

theorem allocCube_spec (cube : Cube Specie) (h : RowHeap) :
    (allocCube h cube).1 = h ++ cube.flatten ∧
    (allocCube h cube).2.flatten = List.range' h.length cube.flatten.length ∧
    List.Forall₂ (fun (plane : List (List Specie)) (refs : List ℕ) => plane.length = refs.length ∧ refs.map (allocCube h cube).1.row = plane)
      cube (allocCube h cube).2 := by
  induction cube generalizing h with
  | nil => simp [allocCube]
  | cons plane rest ih =>
    obtain ⟨h1, h2, h3⟩ := ih (h ++ plane)
    unfold allocCube
    simp only
    rw [h1, List.flatten_cons, List.flatten_cons, h2]
    refine ⟨by simp, ?_, ?_⟩
    · rw [List.length_append, List.length_append, List.range'_append_1]
    · rw [h1] at h3
      refine .cons ⟨by simp, ?_⟩ h3
      apply List.ext_getElem?
      intro i
      rw [List.getElem?_map]
      by_cases hi : i < plane.length
      · rw [List.getElem?_range' hi, Option.map_some, RowHeap.row, List.getD_eq_getElem?_getD,
          List.getElem?_append_left (by simp; omega), List.getElem?_append_right (by omega)]
        rw [show h.length + 1 * i - h.length = i by omega, List.getElem?_eq_getElem hi]; rfl
      · rw [List.getElem?_eq_none (by simp; omega), List.getElem?_eq_none (by omega)]; rfl

theorem forall₂_map_right {α β} {R : α → β → Prop} {f : β → α} {l : List α} {m : List β} (h : List.Forall₂ R l m)
    (hf : ∀ a b, R a b → f b = a) : m.map f = l := by
  induction h with
  | nil => rfl
  | cons h _ ih => rw [List.map_cons, hf _ _ h, ih]

theorem ofCube_spec (h : RowHeap) {d w l : ℕ} (cube : Cube Specie) (hc : Spec.Box d w l cube) (hd : 0 < d) (hw : 0 < w) :
    ∃ g, SGrid.ofCube h cube = .ok (h ++ cube.flatten, g) ∧ g.WF (h ++ cube.flatten) ∧ g.depth = d ∧ g.width = w ∧ g.length = l ∧
      g.contents (h ++ cube.flatten) = cube ∧ (∀ r ∈ g.sites.flatten, h.length ≤ r) := by
  obtain ⟨h1, h2, h3⟩ := allocCube_spec cube h
  have hcont : (allocCube h cube).2.map (fun refs => refs.map (h ++ cube.flatten).row) = cube :=
    forall₂_map_right h3 (by intro a b hab; rw [← h1]; exact hab.2)
  have hmem : ∀ refs ∈ (allocCube h cube).2, refs.map (h ++ cube.flatten).row ∈ cube := by
    intro refs hr
    have := List.mem_map.2 ⟨refs, hr, (rfl : (fun refs : List ℕ => refs.map (RowHeap.row (h ++ cube.flatten))) refs = _)⟩
    rwa [hcont] at this
  have hlen : (allocCube h cube).2.length = d := by rw [← h3.length_eq, hc.1]
  have hwid : ∀ refs ∈ (allocCube h cube).2, refs.length = w := by
    intro refs hr
    have : refs.map (h ++ cube.flatten).row ∈ cube := by
      exact hmem refs hr
    have := (hc.2 _ this).1
    rwa [List.length_map] at this
  have hrow : ∀ r ∈ (allocCube h cube).2.flatten, r < (h ++ cube.flatten).length ∧ (RowHeap.row (h ++ cube.flatten) r).length = l := by
    intro r hr
    obtain ⟨refs, hrefs, hr'⟩ := List.mem_flatten.1 hr
    refine ⟨?_, ?_⟩
    · rw [h2, List.mem_range'_1] at hr
      rw [List.length_append]; omega
    · have : refs.map (h ++ cube.flatten).row ∈ cube := by
        exact hmem refs hrefs
      exact (hc.2 _ this).2 _ (List.mem_map.2 ⟨r, hr', rfl⟩)
  have hnd : (allocCube h cube).2.flatten.Nodup := by rw [h2]; exact List.nodup_range'
  have hge : ∀ r ∈ (allocCube h cube).2.flatten, h.length ≤ r := by
    intro r hr
    rw [h2, List.mem_range'_1] at hr; exact hr.1
  unfold SGrid.ofCube
  simp only [h1]
  generalize (allocCube h cube).2 = sites at *
  match sites, hlen, hwid, hrow, hnd, hge, hcont with
  | [], hlen, _, _, _, _, _ => simp at hlen; omega
  | [] :: rest, _, hwid, _, _, _, _ => have := hwid [] (by simp); simp at this; omega
  | (r :: rs) :: rest, hlen, hwid, hrow, hnd, hge, hcont =>
    refine ⟨⟨(r :: rs) :: rest, d, w, l⟩, ?_, ⟨hlen, hwid, hnd, hrow⟩, rfl, rfl, rfl, hcont, hge⟩
    have e1 : rest.length + 1 = d := by simpa using hlen
    have e2 : rs.length + 1 = w := by simpa using hwid (r :: rs) (by simp)
    have e3 := (hrow r (by simp)).2
    simp only [SGrid.new, bind, Except.bind, pure, Except.pure, e1, e2, e3]

theorem WF_append {h : RowHeap} {g : SGrid} (wf : g.WF h) (new : RowHeap) :
    g.WF (h ++ new) ∧ ∀ q, g.getItem (h ++ new) q = g.getItem h q := by
  have hrow : ∀ r, r < h.length → RowHeap.row (h ++ new) r = h.row r := by
    intro r hr
    rw [RowHeap.row, RowHeap.row, List.getD_eq_getElem?_getD, List.getD_eq_getElem?_getD, List.getElem?_append_left hr]
  have wf' : g.WF (h ++ new) := ⟨wf.depth, wf.width, wf.nodup, fun r hr => ⟨by
    rw [List.length_append]; have := (wf.row r hr).1; omega, by rw [hrow r (wf.row r hr).1]; exact (wf.row r hr).2⟩⟩
  refine ⟨wf', fun q => ?_⟩
  by_cases hq : Spec.InGrid g.depth g.width g.length q
  · obtain ⟨x, hx, hx'⟩ := wf.get_in hq
    obtain ⟨y, hy, hy'⟩ := wf'.get_in hq
    rw [hrow _ (wf.row _ (wf.ref_spec ⟨hq.1, hq.2.1⟩).2).1, hx'] at hy'
    injection hy' with hy'
    rw [hx, hy, hy']
  · rw [wf.get_out hq, wf'.get_out hq]

theorem sea_rect (d w l : ℕ) (sp : Specie) : Spec.Box d w l (seaCube d w l sp) := by
  refine ⟨by simp [seaCube], ?_⟩
  intro plane hp
  obtain ⟨_, _, rfl⟩ := List.mem_map.1 hp
  refine ⟨by simp, ?_⟩
  intro row hr
  obtain ⟨_, _, rfl⟩ := List.mem_map.1 hr
  simp

theorem contents_entry {h : RowHeap} {g : SGrid} (wf : g.WF h) {p : V3 ℤ} (hp : Spec.InGrid g.depth g.width g.length p) :
    ∃ plane row sp, (g.contents h)[slot g.depth p.1]? = some plane ∧ plane[slot g.width p.2.1]? = some row ∧
      row[slot g.length p.2.2]? = some sp ∧ g.getItem h p = .ok sp := by
  obtain ⟨sp, h1, h2⟩ := wf.get_in hp
  obtain ⟨⟨plane, _, _, e1, e2⟩, _⟩ := wf.ref_spec ⟨hp.1, hp.2.1⟩
  exact ⟨plane.map h.row, h.row (g.ref p), sp, by unfold SGrid.contents; rw [List.getElem?_map, e1]; rfl,
    by rw [List.getElem?_map, e2]; rfl, h2, h1⟩

/-- **C03 (fresh grids).** `sea(d, w, l, sp)` raises IndexError when `d` or `w` is `0`; otherwise it gives a `d × w × l` grid with
separate rows reading `sp` everywhere, and grids that existed before read as before and share no row with it. -/
theorem C03_sea (h : RowHeap) (d w l : ℕ) (sp : Specie) :
    (d = 0 ∨ w = 0 → SGrid.sea h d w l sp = .error .indexError) ∧
    (0 < d → 0 < w → ∃ h' g, SGrid.sea h d w l sp = .ok (h', g) ∧ g.WF h' ∧ g.depth = d ∧ g.width = w ∧ g.length = l ∧
      (∀ p, Spec.InGrid d w l p → g.getItem h' p = .ok sp) ∧
      ∀ g' : SGrid, g'.WF h → g'.WF h' ∧ (∀ r ∈ g'.sites.flatten, r ∉ g.sites.flatten) ∧ ∀ q, g'.getItem h' q = g'.getItem h q) := by
  constructor
  · intro h0
    unfold SGrid.sea SGrid.ofCube
    by_cases hd : d = 0
    · subst hd; simp [seaCube, allocCube, SGrid.new, bind, Except.bind]
    · have hw : w = 0 := by tauto
      subst hw
      obtain ⟨d, rfl⟩ := Nat.exists_eq_succ_of_ne_zero hd
      simp [seaCube, allocCube, SGrid.new, bind, Except.bind, List.range_succ_eq_map]
  · intro hd hw
    obtain ⟨g, h1, wf, rfl, rfl, rfl, hcont, hge⟩ := ofCube_spec h (seaCube d w l sp) (sea_rect d w l sp) hd hw
    refine ⟨_, g, h1, wf, rfl, rfl, rfl, ?_, ?_⟩
    · intro p hp
      obtain ⟨plane, row, x, e1, e2, e3, e4⟩ := contents_entry wf hp
      rw [e4]
      rw [hcont] at e1
      obtain ⟨_, _, rfl⟩ := List.mem_map.1 (List.mem_of_getElem? e1)
      obtain ⟨_, _, rfl⟩ := List.mem_map.1 (List.mem_of_getElem? e2)
      obtain ⟨_, _, rfl⟩ := List.mem_map.1 (List.mem_of_getElem? e3)
      rfl
    · intro g' w'
      obtain ⟨f1, f2⟩ := WF_append w' (seaCube g.depth g.width g.length sp).flatten
      refine ⟨f1, fun r hr hr' => ?_, f2⟩
      have := hge r hr'
      have := (w'.row r hr).1
      omega

/-- a caller writing entry after entry; a rejected write (IndexError) changes nothing and is skipped -/
def writeAll (g : SGrid) : RowHeap → List (V3 ℤ × Specie) → RowHeap
  | h, [] => h
  | h, (p, sp) :: ws => match g.setItem h p sp with
    | .ok h' => writeAll g h' ws
    | .error _ => writeAll g h ws

theorem writeAll_spec (g : SGrid) (ws : List (V3 ℤ × Specie)) : ∀ h : RowHeap, g.WF h →
    g.WF (writeAll g h ws) ∧ ∀ p, Spec.InGrid g.depth g.width g.length p → ∀ v, g.getItem h p = .ok v →
      g.getItem (writeAll g h ws) p = .ok (Spec.lastWritten g.depth g.width g.length v ws p) := by
  induction ws with
  | nil => intro h wf; exact ⟨wf, fun p _ v hv => hv⟩
  | cons e ws ih =>
    obtain ⟨q, sp⟩ := e
    intro h wf
    by_cases hq : Spec.InGrid g.depth g.width g.length q
    · obtain ⟨_, h', h1, wf', h2, _⟩ := (C03_write h g wf q sp).2 hq
      obtain ⟨i1, i2⟩ := ih h' wf'
      have hw : writeAll g h ((q, sp) :: ws) = writeAll g h' ws := by conv_lhs => unfold writeAll; rw [h1]
      rw [hw]
      refine ⟨i1, fun p hp v hv => ?_⟩
      have hr := h2 p hp
      rw [hv] at hr
      unfold Spec.lastWritten
      by_cases hs : Spec.SameEntry g.depth g.width g.length q p
      · rw [if_pos hs] at hr; rw [if_pos ⟨hq, hs⟩]; exact i2 p hp _ hr
      · rw [if_neg hs] at hr; rw [if_neg (fun h => hs h.2)]; exact i2 p hp _ hr
    · have h1 := ((C03_write h g wf q sp).1 hq).1
      obtain ⟨i1, i2⟩ := ih h wf
      have hw : writeAll g h ((q, sp) :: ws) = writeAll g h ws := by conv_lhs => unfold writeAll; rw [h1]
      rw [hw]
      refine ⟨i1, fun p hp v hv => ?_⟩
      unfold Spec.lastWritten
      rw [if_neg (fun h => hq h.1)]
      exact i2 p hp v hv

/-- **C03 (any history).** After any sequence of writes to a grid made by `sea`, every entry reads what was last written to it (under any
of its names), or the initial species; positions outside raise IndexError. -/
theorem C03_history (h : RowHeap) (d w l : ℕ) (hd : 0 < d) (hw : 0 < w) (sp : Specie) (ws : List (V3 ℤ × Specie)) :
    ∃ h' g, SGrid.sea h d w l sp = .ok (h', g) ∧ ∀ p,
      (Spec.InGrid d w l p → g.getItem (writeAll g h' ws) p = .ok (Spec.lastWritten d w l sp ws p)) ∧
      (¬ Spec.InGrid d w l p → g.getItem (writeAll g h' ws) p = .error .indexError) := by
  obtain ⟨h', g, h1, wf, rfl, rfl, rfl, h2, _⟩ := (C03_sea h d w l sp).2 hd hw
  obtain ⟨i1, i2⟩ := writeAll_spec g ws h' wf
  exact ⟨h', g, h1, fun p => ⟨fun hp => i2 p hp sp (h2 p hp), fun hp => i1.get_out hp⟩⟩

/-! ## C04 -/

theorem pyListEq_refl {α} {eq : α → α → Bool} (h : ∀ a, eq a a = true) (l : List α) : pyListEq eq l l = true := by
  unfold pyListEq
  rw [Bool.and_eq_true, beq_self_eq_true, List.all_eq_true]
  refine ⟨rfl, ?_⟩
  induction l with
  | nil => simp
  | cons a l ih =>
    intro p hp
    rw [List.zip_cons_cons] at hp
    rcases List.mem_cons.1 hp with rfl | hp
    · exact h a
    · exact ih p hp

theorem pyEq_refl (a : Specie) : a.pyEq a = true := by simp [Specie.pyEq]

theorem cubeEq_refl (c : Cube Specie) : cubeEq c c = true :=
  pyListEq_refl (fun _ => pyListEq_refl (fun _ => pyListEq_refl pyEq_refl _) _) c

theorem deepCopy_eq {h : RowHeap} {g : SGrid} (wf : g.WF h) (hd : 0 < g.depth) (hw : 0 < g.width) : g.deepCopy h = .ok g := by
  obtain ⟨sites, d, w, l⟩ := g
  have hlen := wf.depth
  have hwid := wf.width
  have hrow := wf.row
  simp only at hd hw hlen hwid hrow
  unfold SGrid.deepCopy
  match sites, hlen, hwid, hrow with
  | [], hlen, _, _ => simp at hlen; omega
  | [] :: rest, _, hwid, _ => have := hwid [] (by simp); simp at this; omega
  | (r :: rs) :: rest, hlen, hwid, hrow =>
    have e1 : rest.length + 1 = d := by simpa using hlen
    have e2 : rs.length + 1 = w := by simpa using hwid (r :: rs) (by simp)
    have e3 := (hrow r (by simp)).2
    simp only [SGrid.new, bind, Except.bind, pure, Except.pure, e1, e2, e3, List.map_id']

/-- **C04 (the part that holds).** The copy exists, has the same dimensions, reads the same everywhere and compares equal. -/
theorem C04_equal_partial (h : RowHeap) (g : SGrid) (wf : g.WF h) (hd : 0 < g.depth) (hw : 0 < g.width) :
    ∃ c, g.deepCopy h = .ok c ∧ c.WF h ∧ c.depth = g.depth ∧ c.width = g.width ∧ c.length = g.length ∧
      (∀ p, c.getItem h p = g.getItem h p) ∧ g.pyEq h (some c) = true ∧ c.pyEq h (some g) = true := by
  refine ⟨g, deepCopy_eq wf hd hw, wf, rfl, rfl, rfl, fun _ => rfl, ?_, ?_⟩ <;> exact cubeEq_refl _

/-- **C04 is false**: for every grid, every position and every species, a write to the copy is visible through the original, and a
write to the original through the copy – the "deep" copy shares all its rows. -/
theorem C04_false (h : RowHeap) (g : SGrid) (wf : g.WF h) (hd : 0 < g.depth) (hw : 0 < g.width) (p : V3 ℤ)
    (hp : Spec.InGrid g.depth g.width g.length p) (sp : Specie) :
    ∃ c, g.deepCopy h = .ok c ∧
      (∃ h', c.setItem h p sp = .ok h' ∧ g.getItem h' p = .ok sp) ∧ (∃ h', g.setItem h p sp = .ok h' ∧ c.getItem h' p = .ok sp) := by
  obtain ⟨_, h', h1, wf', h2, _⟩ := (C03_write h g wf p sp).2 hp
  have := h2 p hp
  rw [if_pos (show Spec.SameEntry g.depth g.width g.length p p from ⟨rfl, rfl, rfl⟩)] at this
  exact ⟨g, deepCopy_eq wf hd hw, ⟨h', h1, this⟩, ⟨h', h1, this⟩⟩

/-! ## Non-vacuity -/

def exTi : Specie := ⟨"Ti", 22⟩
def exGrid : Cube Specie := [[[exTi, .ghost], [.ghost, exTi]], [[.ghost, .ghost], [exTi, exTi]], [[.ghost, exTi], [exTi, .ghost]]]

example : ∃ h g, SGrid.ofCube [] exGrid = .ok (h, g) ∧ g.WF h ∧ g.depth = 3 ∧ g.width = 2 ∧ g.length = 2 := by
  have hr : Spec.Box 3 2 2 exGrid := ⟨rfl, by decide⟩
  obtain ⟨g, h1, h2, h3, h4, h5, _⟩ := ofCube_spec [] exGrid hr (by decide) (by decide)
  exact ⟨_, g, h1, h2, h3, h4, h5⟩

example : (do let (h, g) ← SGrid.sea [] 2 2 2 .ghost
              let h ← g.setItem h (1, 0, -1) exTi
              let a ← g.getItem h (-1, -2, 1)
              let b ← g.getItem h (1, 0, 0)
              return (a, b)) = .ok (exTi, Specie.ghost) := by decide

example : Spec.InGrid 2 2 2 (1, 0, -1) ∧ ¬ Spec.InGrid 2 2 2 (2, 0, 0) := by decide

end Verif
