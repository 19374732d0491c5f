import Verif.Props.Scaffold
import Verif.Props.ScaffoldMore

/-! # C110: `==` of grids and structures -/

namespace Verif

/-- the atomic numbers of a nested list of species -/
def Spec.zs (c : List (List (List Specie))) : List (List (List ℤ)) := c.map fun p => p.map fun r => r.map fun s => s.Z

theorem pyListEq_iff_map {α β : Type} {eq : α → α → Bool} {f : α → β} (h : ∀ a b, eq a b = true ↔ f a = f b) :
    ∀ {xs ys : List α}, pyListEq eq xs ys = true ↔ xs.map f = ys.map f := by
  intro xs
  induction xs with
  | nil => intro ys; cases ys <;> simp [pyListEq]
  | cons x xs ih =>
    intro ys
    cases ys with
    | nil => simp [pyListEq]
    | cons y ys =>
      have := ih (ys := ys)
      unfold pyListEq at this ⊢
      simp only [List.length_cons, List.zip_cons_cons, List.all_cons, Bool.and_eq_true, List.map_cons, List.cons.injEq, beq_iff_eq,
        Nat.add_right_cancel_iff, h] at this ⊢
      rw [← this]
      tauto

theorem cubeEq_iff {a b : Cube Specie} : cubeEq a b = true ↔ Spec.zs a = Spec.zs b := by
  have h1 : ∀ x y : Specie, Specie.pyEq x y = true ↔ x.Z = y.Z := fun x y => by simp [Specie.pyEq]
  have h2 : ∀ x y : List Specie, pyListEq Specie.pyEq x y = true ↔ x.map (fun s => s.Z) = y.map (fun s => s.Z) := fun x y => pyListEq_iff_map h1
  have h3 : ∀ x y : List (List Specie), pyListEq (pyListEq Specie.pyEq) x y = true ↔
      x.map (fun r => r.map fun s => s.Z) = y.map (fun r => r.map fun s => s.Z) := fun x y => pyListEq_iff_map h2
  exact pyListEq_iff_map h3

/-- **C110, grids.** `SitesGrid.__eq__`: never equal to `None`; equal to another grid exactly if the nested lists have the same shape and the
same atomic numbers, in the present state of both. -/
theorem C110_grid (h : RowHeap) (g g' : SGrid) :
    g.pyEq h none = false ∧ (g.pyEq h (some g') = true ↔ Spec.zs (g.contents h) = Spec.zs (g'.contents h)) :=
  ⟨rfl, cubeEq_iff⟩

/-- **C110, structures.** `CStru.__eq__`: exactly the same lattice matrix and equal grids. -/
theorem C110_stru (s t : CStru) : s.pyEq t = true ↔ s.m = t.m ∧ Spec.zs s.grid = Spec.zs t.grid := by
  unfold CStru.pyEq
  rw [Bool.and_eq_true, decide_eq_true_iff, cubeEq_iff]
  exact ⟨fun h => ⟨h.1.symm, h.2.symm⟩, fun h => ⟨h.1.symm, h.2.symm⟩⟩

/-- **C110, an equivalence.** Both are reflexive, symmetric and transitive. -/
theorem C110_equivalence (h : RowHeap) :
    Equivalence (fun g g' : SGrid => g.pyEq h (some g') = true) ∧ Equivalence (fun s t : CStru => s.pyEq t = true) := by
  constructor
  · simp only [C110_grid]
    exact ⟨fun _ => rfl, fun e => e.symm, fun e f => e.trans f⟩
  · simp only [C110_stru]
    exact ⟨fun _ => ⟨rfl, rfl⟩, fun e => ⟨e.1.symm, e.2.symm⟩, fun e f => ⟨e.1.trans f.1, e.2.trans f.2⟩⟩

theorem zs_cubeMap (c : Cube Specie) : Spec.zs c = cubeMap (fun s => s.Z) c := rfl

theorem cubeSize_zs (c : Cube Specie) : cubeSize (Spec.zs c) = cubeSize c := by
  unfold cubeSize Spec.zs
  induction c with
  | nil => rfl
  | cons p c ih =>
    simp only [List.map_cons, List.flatten_cons, List.flatten_append, List.length_append, ih]
    congr 1
    induction p with
    | nil => rfl
    | cons r p ih' => simp only [List.map_cons, List.flatten_cons, List.length_append, ih', List.length_map]

/-- **C110, arrays.** Grids with at least one entry are equal exactly if `to_array` gives the same array, and structures exactly if they
have the same lattice and `get_array` gives the same array; a grid without entries has no array. -/
theorem C110_arrays (h : RowHeap) (g g' : SGrid) (hg : (g.contents h).flatten.flatten ≠ []) (s t : CStru) (hs : s.grid.flatten.flatten ≠ []) :
    ((∃ a, g.toArray h = .ok a) ∧ (g.pyEq h (some g') = true ↔ g'.toArray h = g.toArray h)) ∧
    ((∃ a, s.getArray = .ok a) ∧ (s.pyEq t = true ↔ t.m = s.m ∧ t.getArray = s.getArray)) := by
  have key : ∀ a b : Cube Specie, a.flatten.flatten ≠ [] → (∃ x, cubeToArray a = .ok x) ∧ (Spec.zs a = Spec.zs b ↔ cubeToArray b = cubeToArray a) := by
    intro a b ha
    have h0 : cubeSize a ≠ 0 := by unfold cubeSize; exact fun e => ha (List.length_eq_zero_iff.1 e)
    have ea : cubeToArray a = .ok (Spec.zs a) := by unfold cubeToArray; rw [if_neg h0]; rfl
    refine ⟨⟨_, ea⟩, ?_⟩
    rw [ea]
    constructor
    · intro e
      have hb : cubeSize b ≠ 0 := by rw [← cubeSize_zs, ← e, cubeSize_zs]; exact h0
      unfold cubeToArray
      rw [if_neg hb, e]; rfl
    · intro e
      unfold cubeToArray at e
      split at e
      · cases e
      · exact (Except.ok.inj e).symm
  refine ⟨⟨(key _ (g.contents h) hg).1, ?_⟩, (key _ t.grid hs).1, ?_⟩
  · rw [(C110_grid h g g').2]; exact (key _ _ hg).2
  · rw [C110_stru, (key _ _ hs).2, eq_comm (a := s.m)]; rfl

/-- nested lists of one shape with the same entries are the same -/
theorem nested_ext {α : Type} {a b : List (List (List α))} {w l : ℕ} (hd : a.length = b.length) (ha : ∀ p ∈ a, p.length = w) (hb : ∀ p ∈ b, p.length = w)
    (ha' : ∀ p ∈ a, ∀ r ∈ p, r.length = l) (hb' : ∀ p ∈ b, ∀ r ∈ p, r.length = l)
    (he : ∀ i < a.length, ∀ j < w, ∀ k < l, Spec.entry a i j k = Spec.entry b i j k) : a = b := by
  refine List.ext_getElem hd fun i h1 h2 => ?_
  have w1 := ha _ (List.getElem_mem h1)
  have w2 := hb _ (List.getElem_mem h2)
  refine List.ext_getElem (w1.trans w2.symm) fun j h3 h4 => ?_
  have l1 := ha' _ (List.getElem_mem h1) _ (List.getElem_mem h3)
  have l2 := hb' _ (List.getElem_mem h2) _ (List.getElem_mem h4)
  refine List.ext_getElem (l1.trans l2.symm) fun k h5 h6 => ?_
  have := he i h1 j (w1 ▸ h3) k (l1 ▸ h5)
  unfold Spec.entry at this
  rw [List.getElem?_eq_getElem h1, List.getElem?_eq_getElem h2] at this
  simp only [Option.bind_some] at this
  rw [List.getElem?_eq_getElem h3, List.getElem?_eq_getElem h4] at this
  simp only [Option.bind_some] at this
  rw [List.getElem?_eq_getElem h5, List.getElem?_eq_getElem h6] at this
  exact Option.some.inj this

theorem entry_zs (c : Cube Specie) (i j k : ℕ) : Spec.entry (Spec.zs c) i j k = (Spec.entry c i j k).map fun s => s.Z := by
  unfold Spec.entry Spec.zs
  rw [List.getElem?_map]
  cases c[i]? with
  | none => rfl
  | some p =>
    simp only [Option.map_some, Option.bind_some, List.getElem?_map]
    cases p[j]? with
    | none => rfl
    | some r => simp only [Option.map_some, Option.bind_some, List.getElem?_map]

theorem contents_shape {h : RowHeap} {g : SGrid} (wf : g.WF h) :
    (Spec.zs (g.contents h)).length = g.depth ∧ (∀ p ∈ Spec.zs (g.contents h), p.length = g.width) ∧
    ∀ p ∈ Spec.zs (g.contents h), ∀ r ∈ p, r.length = g.length := by
  unfold Spec.zs SGrid.contents
  refine ⟨by simpa using wf.depth, fun p hp => ?_, fun p hp r hr => ?_⟩
  · simp only [List.map_map, List.mem_map, Function.comp] at hp
    obtain ⟨q, hq, rfl⟩ := hp
    simpa using wf.width q hq
  · rw [List.map_map, List.mem_map] at hp
    obtain ⟨q, hq, rfl⟩ := hp
    rw [Function.comp_apply, List.map_map, List.mem_map] at hr
    obtain ⟨y, hy, rfl⟩ := hr
    rw [Function.comp_apply, List.length_map]
    exact (wf.row y (List.mem_flatten.2 ⟨q, hq, hy⟩)).2

/-- **C110, entries.** Two rectangular grids with at least one row are equal exactly if they have the same dimensions and every position
inside reads the same atomic number in both. -/
theorem C110_entries (h : RowHeap) (g g' : SGrid) (wf : g.WF h) (wf' : g'.WF h) (hd : 0 < g.depth) (hw : 0 < g.width) :
    g.pyEq h (some g') = true ↔ (g'.depth = g.depth ∧ g'.width = g.width ∧ g'.length = g.length) ∧
      ∀ p, Spec.InGrid g.depth g.width g.length p → ∃ a b, g.getItem h p = .ok a ∧ g'.getItem h p = .ok b ∧ a.Z = b.Z := by
  rw [(C110_grid h g g').2]
  obtain ⟨s1, s2, s3⟩ := contents_shape wf
  obtain ⟨t1, t2, t3⟩ := contents_shape wf'
  constructor
  · intro e
    rw [← e] at t1 t2 t3
    have dd : g'.depth = g.depth := t1.symm.trans s1
    have hpos : 0 < (Spec.zs (g.contents h)).length := by omega
    have m1 := List.getElem_mem hpos
    have ww : g'.width = g.width := (t2 _ m1).symm.trans (s2 _ m1)
    have hpos2 : 0 < ((Spec.zs (g.contents h))[0]).length := by rw [s2 _ m1]; exact hw
    have m2 := List.getElem_mem hpos2
    have ll : g'.length = g.length := (t3 _ m1 _ m2).symm.trans (s3 _ m1 _ m2)
    refine ⟨⟨dd, ww, ll⟩, fun p hp => ?_⟩
    obtain ⟨P, R, a, a1, a2, a3, a4⟩ := contents_entry wf hp
    obtain ⟨Q, S, b, b1, b2, b3, b4⟩ := contents_entry wf' (p := p) (by rw [dd, ww, ll]; exact hp)
    refine ⟨a, b, a4, b4, ?_⟩
    rw [dd] at b1; rw [ww] at b2; rw [ll] at b3
    have ea : Spec.entry (g.contents h) (slot g.depth p.1) (slot g.width p.2.1) (slot g.length p.2.2) = some a := by
      unfold Spec.entry; rw [a1, Option.bind_some, a2, Option.bind_some, a3]
    have eb : Spec.entry (g'.contents h) (slot g.depth p.1) (slot g.width p.2.1) (slot g.length p.2.2) = some b := by
      unfold Spec.entry; rw [b1, Option.bind_some, b2, Option.bind_some, b3]
    have := entry_zs (g.contents h) (slot g.depth p.1) (slot g.width p.2.1) (slot g.length p.2.2)
    rw [e, entry_zs, ea, eb] at this
    exact (Option.some.inj this).symm
  · rintro ⟨⟨dd, ww, ll⟩, he⟩
    refine nested_ext (w := g.width) (l := g.length) (s1.trans (dd.symm.trans t1.symm)) s2 (ww ▸ t2) s3 (ll ▸ t3) fun i hi j hj k hk => ?_
    rw [s1] at hi
    obtain ⟨a, a1, a2⟩ := getItem_contents wf hi hj hk
    obtain ⟨b, b1, b2⟩ := getItem_contents wf' (dd ▸ hi) (ww ▸ hj) (ll ▸ hk)
    obtain ⟨a', b', c1, c2, c3⟩ := he ((i : ℤ), (j : ℤ), (k : ℤ)) (by refine ⟨⟨?_, ?_⟩, ⟨?_, ?_⟩, ⟨?_, ?_⟩⟩ <;> simp only <;> omega)
    rw [entry_zs, entry_zs, a2, b2]
    rw [a1] at c1; rw [b1] at c2
    cases c1; cases c2
    exact congrArg some c3

/-- **C110, one write.** Two equal grids without a common row; a species of another atomic number is written into one: they are no longer
equal, and they are equal again when the old species is written back. -/
theorem C110_write (h : RowHeap) (g g' : SGrid) (wf : g.WF h) (wf' : g'.WF h) (hd : 0 < g.depth) (hw : 0 < g.width)
    (hsep : ∀ r ∈ g'.sites.flatten, r ∉ g.sites.flatten) (heq : g.pyEq h (some g') = true) (p : V3 ℤ) (hp : Spec.InGrid g.depth g.width g.length p)
    (old sp : Specie) (hold : g.getItem h p = .ok old) (hne : sp.Z ≠ old.Z) :
    ∃ h1 h2, g.setItem h p sp = .ok h1 ∧ g.pyEq h1 (some g') = false ∧ g.setItem h1 p old = .ok h2 ∧ g.pyEq h2 (some g') = true := by
  obtain ⟨_, h1, e1, w1, r1, o1⟩ := (C03_write h g wf p sp).2 hp
  obtain ⟨w1', k1⟩ := o1 g' wf' hsep
  obtain ⟨_, h2, e2, w2, r2, o2⟩ := (C03_write h1 g w1 p old).2 hp
  obtain ⟨w2', k2⟩ := o2 g' w1' hsep
  obtain ⟨dims, hent⟩ := (C110_entries h g g' wf wf' hd hw).1 heq
  have same : Spec.SameEntry g.depth g.width g.length p p :=
    ⟨(slot_eq hp.1).1 rfl, (slot_eq hp.2.1).1 rfl, (slot_eq hp.2.2).1 rfl⟩
  refine ⟨h1, h2, e1, ?_, e2, ?_⟩
  · rw [← Bool.not_eq_true, C110_entries h1 g g' w1 w1' hd hw]
    rintro ⟨-, hall⟩
    obtain ⟨a, b, a1, a2, a3⟩ := hall p hp
    obtain ⟨a', b', c1, c2, c3⟩ := hent p hp
    rw [r1 p hp, if_pos same] at a1
    rw [k1 p, c2] at a2
    rw [hold] at c1
    cases a1; cases a2; cases c1
    exact hne (a3.trans c3.symm)
  · rw [C110_entries h2 g g' w2 w2' hd hw]
    refine ⟨dims, fun q hq => ?_⟩
    obtain ⟨a, b, c1, c2, c3⟩ := hent q hq
    rw [k2 q, k1 q, r2 q hq, r1 q hq]
    by_cases hs : Spec.SameEntry g.depth g.width g.length p q
    · refine ⟨old, b, if_pos hs, c2, ?_⟩
      have hold' : g.getItem h q = .ok old := by
        obtain ⟨P, R, x, x1, x2, x3, x4⟩ := contents_entry wf hp
        obtain ⟨Q, S, y, y1, y2, y3, y4⟩ := contents_entry wf hq
        rw [← (slot_eq hp.1).2 hs.1, x1] at y1
        cases y1
        rw [← (slot_eq hp.2.1).2 hs.2.1, x2] at y2
        cases y2
        rw [← (slot_eq hp.2.2).2 hs.2.2, x3] at y3
        cases y3
        rw [y4, ← x4, hold]
      rw [hold'] at c1
      cases c1
      exact c3
    · exact ⟨a, b, by rw [if_neg hs, if_neg hs, c1], c2, c3⟩

/-- two grids of one array, a changed structure -/
example : (match SGrid.fromArray [] [[[5, 30]], [[30, 5]]] with
    | .ok (h, g) => (match SGrid.fromArray h [[[5, 30]], [[30, 5]]] with
      | .ok (h, g') => g.pyEq h (some g') && (match g.setItem h (-1, 0, 0) Specie.ghost with | .ok h => !(g.pyEq h (some g')) | _ => false)
      | _ => false)
    | _ => false) = true := by decide +kernel
example : (match CStru.fromArray ((1, 0, 0), (0, 1, 0), (0, 0, 1)) [[[5]]], CStru.fromArray ((1, 0, 0), (0, 1, 0), (0, 0, 2)) [[[5]]] with
    | .ok s, .ok t => s.pyEq s && !(s.pyEq t) | _, _ => false) = true := by decide +kernel

end Verif
