import Verif.Props.Scaffold
import Verif.Lemmas.Chunks
import Verif.Lemmas.Subst
import Verif.Spec.Distance
import Mathlib.Data.List.Count
import Mathlib.Data.List.Flatten
import Mathlib.Tactic.Positivity

/-! # C05–C08: grids and arrays, the speckle enumeration, `CStru` cells and neighbours -/

namespace Verif

/-! ## C05 -/

/-- the species of a number (arbitrary for unknown numbers) -/
def specieOf (n : ℤ) : Specie := match Specie.fromNum n with
  | .ok sp => sp
  | .error _ => .ghost

theorem specieOf_ok {n : ℤ} (h : Spec.KnownNumber n) : Specie.fromNum n = .ok (specieOf n) ∧ (specieOf n).Z = n := by
  obtain ⟨sp, hs⟩ := (C01_number_domain n).1.2 h
  have : specieOf n = sp := by unfold specieOf; rw [hs]
  rw [this]
  exact ⟨hs, (C01_number_roundtrip n sp hs).1⟩

theorem reachable_known {sp : Specie} (h : ReachableSpecie sp) : Spec.KnownNumber sp.Z ∧ specieOf sp.Z = sp := by
  have hm := reachable_mem h
  have hk := ptDb_numbers _ hm
  refine ⟨hk, ?_⟩
  have : Specie.fromNum sp.Z = .ok sp := (fromNum_ok_iff _ _).2 ⟨rfl, hm⟩
  unfold specieOf
  rw [this]

theorem mapM_err {α β} (f : α → Py β) (e : PyErr) (l : List α) (hf : ∀ a ∈ l, (∃ b, f a = .ok b) ∨ f a = .error e)
    (h : ∃ a ∈ l, f a = .error e) : l.mapM f = .error e := by
  induction l with
  | nil => obtain ⟨a, ha, _⟩ := h; simp at ha
  | cons a l ih =>
    rw [List.mapM_cons]
    rcases hf a (by simp) with ⟨b, hb⟩ | ha
    · rw [hb]
      obtain ⟨a', ha', he⟩ := h
      rcases List.mem_cons.1 ha' with rfl | ha'
      · rw [hb] at he; cases he
      · change (do let bs ← l.mapM f; pure (b :: bs)) = _
        rw [ih (fun c hc => hf c (List.mem_cons_of_mem _ hc)) ⟨a', ha', he⟩]
        rfl
    · rw [ha]; rfl

theorem mapM_dichotomy {α β} (f : α → Py β) (e : PyErr) (l : List α) (hf : ∀ a ∈ l, (∃ b, f a = .ok b) ∨ f a = .error e) :
    (∃ bs, l.mapM f = .ok bs) ∨ l.mapM f = .error e := by
  by_cases h : ∃ a ∈ l, f a = .error e
  · exact .inr (mapM_err f e l hf h)
  · obtain ⟨bs, hbs, _⟩ := mapM_forall₂ f (fun _ _ => True) l (fun a ha => by
      rcases hf a ha with ⟨b, hb⟩ | hb
      · exact ⟨b, hb, trivial⟩
      · exact absurd ⟨a, ha, hb⟩ h)
    exact .inl ⟨bs, hbs⟩

theorem fromNum_dichotomy (n : ℤ) : (∃ sp, Specie.fromNum n = .ok sp) ∨ Specie.fromNum n = .error .indexError := by
  by_cases h : Spec.KnownNumber n
  · exact .inl ⟨_, (specieOf_ok h).1⟩
  · exact .inr ((C01_number_domain n).2 h).1

theorem cubeFromArray_ok (arr : Cube ℤ) (hne : cubeSize arr ≠ 0) (hk : ∀ n ∈ arr.flatten.flatten, Spec.KnownNumber n) :
    cubeFromArray arr = .ok (cubeMap specieOf arr) := by
  unfold cubeFromArray
  rw [if_neg hne]
  refine mapM_ok _ _ _ fun p hp => mapM_ok _ _ _ fun r hr => mapM_ok _ _ _ fun x hx => ?_
  exact (specieOf_ok (hk x (List.mem_flatten.2 ⟨r, List.mem_flatten.2 ⟨p, hp, hr⟩, hx⟩))).1

theorem cubeFromArray_err (arr : Cube ℤ) (h : ∃ n ∈ arr.flatten.flatten, ¬ Spec.KnownNumber n) :
    cubeFromArray arr = .error .indexError := by
  obtain ⟨n, hn, hk⟩ := h
  have hne : cubeSize arr ≠ 0 := fun h => by
    rw [cubeSize, List.length_eq_zero_iff] at h
    rw [h] at hn; simp at hn
  obtain ⟨r, hr, hx⟩ := List.mem_flatten.1 hn
  obtain ⟨p, hp, hr⟩ := List.mem_flatten.1 hr
  unfold cubeFromArray
  rw [if_neg hne]
  have d1 : ∀ r : List ℤ, (∃ bs, r.mapM Specie.fromNum = .ok bs) ∨ r.mapM Specie.fromNum = .error .indexError :=
    fun r => mapM_dichotomy _ _ _ fun a _ => fromNum_dichotomy a
  have d2 : ∀ p : List (List ℤ), (∃ bs, p.mapM (fun r => r.mapM Specie.fromNum) = .ok bs) ∨
      p.mapM (fun r => r.mapM Specie.fromNum) = .error .indexError :=
    fun p => mapM_dichotomy _ _ _ fun a _ => d1 a
  refine mapM_err _ _ _ (fun a _ => d2 a) ⟨p, hp, mapM_err _ _ _ (fun a _ => d1 a) ⟨r, hr, ?_⟩⟩
  exact mapM_err _ _ _ (fun a _ => fromNum_dichotomy a) ⟨n, hx, ((C01_number_domain n).2 hk).1⟩

theorem box_size_pos {α} {d w l : ℕ} {c : Cube α} (h : Spec.Box d w l c) (hd : 0 < d) (hw : 0 < w) (hl : 0 < l) : cubeSize c ≠ 0 := by
  rw [cubeSize, box_length h]; positivity

/-- **C05 (arrays to grids).** For every `d × w × l` integer array with at least one entry: `from_array` raises IndexError exactly when
some entry is not a known atomic number; otherwise it gives a grid of that size with separate rows, and `to_array` gives the array back. -/
theorem C05_from_array (h : RowHeap) {d w l : ℕ} (hd : 0 < d) (hw : 0 < w) (hl : 0 < l) (arr : Cube ℤ) (hb : Spec.Box d w l arr) :
    ((∃ n ∈ arr.flatten.flatten, ¬ Spec.KnownNumber n) → SGrid.fromArray h arr = .error .indexError) ∧
    ((∀ n ∈ arr.flatten.flatten, Spec.KnownNumber n) → ∃ h' g, SGrid.fromArray h arr = .ok (h', g) ∧ g.WF h' ∧
      g.depth = d ∧ g.width = w ∧ g.length = l ∧ g.toArray h' = .ok arr ∧
      ∀ i j k : ℕ, i < d → j < w → k < l → ∃ sp, g.getItem h' (i, j, k) = .ok sp ∧ Spec.entry arr i j k = some sp.Z) := by
  constructor
  · intro hx
    unfold SGrid.fromArray
    rw [cubeFromArray_err arr hx]; rfl
  · intro hk
    obtain ⟨g, h1, wf, rfl, rfl, rfl, hcont, _⟩ := ofCube_spec h (cubeMap specieOf arr) (cubeMap_box _ hb) hd hw
    refine ⟨_, g, ?_, wf, rfl, rfl, rfl, ?_, ?_⟩
    · unfold SGrid.fromArray
      rw [cubeFromArray_ok arr (box_size_pos hb hd hw hl) hk, okBind]
      exact h1
    · unfold SGrid.toArray cubeToArray
      rw [hcont, if_neg (box_size_pos (cubeMap_box specieOf hb) hd hw hl), cubeMap_cubeMap]
      congr 1
      exact cubeMap_id _ _ fun x hx => (specieOf_ok (hk x hx)).2
    · intro i j k hi hj hk'
      have hp : Spec.InGrid g.depth g.width g.length ((i : ℤ), (j : ℤ), (k : ℤ)) := by
        refine ⟨⟨?_, ?_⟩, ⟨?_, ?_⟩, ⟨?_, ?_⟩⟩ <;> simp only <;> omega
      obtain ⟨plane, row, sp, e1, e2, e3, e4⟩ := contents_entry wf hp
      refine ⟨sp, e4, ?_⟩
      have s1 : slot g.depth ((i : ℤ), (j : ℤ), (k : ℤ)).1 = i := by
        unfold slot; simp only; rw [Int.emod_eq_of_lt (by omega) (by omega)]; rfl
      have s2 : slot g.width ((i : ℤ), (j : ℤ), (k : ℤ)).2.1 = j := by
        unfold slot; simp only; rw [Int.emod_eq_of_lt (by omega) (by omega)]; rfl
      have s3 : slot g.length ((i : ℤ), (j : ℤ), (k : ℤ)).2.2 = k := by
        unfold slot; simp only; rw [Int.emod_eq_of_lt (by omega) (by omega)]; rfl
      rw [s1, hcont] at e1; rw [s2] at e2; rw [s3] at e3
      have he : Spec.entry (cubeMap specieOf arr) i j k = some sp := by
        unfold Spec.entry; rw [e1, Option.bind_some, e2, Option.bind_some, e3]
      rw [cubeMap_entry] at he
      obtain ⟨n, hn, hsp⟩ := Option.map_eq_some_iff.1 he
      rw [hn, ← hsp]
      have hmem : n ∈ arr.flatten.flatten := by
        rw [← box_getElem? hb i j k hj hk'] at hn
        exact List.mem_of_getElem? hn
      rw [(specieOf_ok (hk n hmem)).2]

/-- **C05 (grids to arrays).** For every grid of size at least `1 × 1 × 1` whose entries are species the program can hold, `to_array`
succeeds, and `from_array` of the result is a new grid that compares equal to the old one, entry by entry the same species. -/
theorem C05_to_array (h : RowHeap) (g : SGrid) (wf : g.WF h) (hd : 0 < g.depth) (hw : 0 < g.width) (hl : 0 < g.length)
    (hr : ∀ sp ∈ (g.contents h).flatten.flatten, ReachableSpecie sp) :
    ∃ arr h' g', g.toArray h = .ok arr ∧ Spec.Box g.depth g.width g.length arr ∧ SGrid.fromArray h arr = .ok (h', g') ∧
      g'.WF h' ∧ g.WF h' ∧ g.pyEq h' (some g') = true ∧ g'.pyEq h' (some g) = true ∧ (∀ q, g.getItem h' q = g.getItem h q) ∧
      g'.contents h' = g.contents h := by
  have hb : Spec.Box g.depth g.width g.length (g.contents h) := by
    refine ⟨by rw [SGrid.contents, List.length_map, wf.depth], ?_⟩
    intro plane hp
    obtain ⟨refs, hrefs, rfl⟩ := List.mem_map.1 hp
    refine ⟨by rw [List.length_map, wf.width refs hrefs], ?_⟩
    intro row hrow
    obtain ⟨r, hr, rfl⟩ := List.mem_map.1 hrow
    exact (wf.row r (List.mem_flatten.2 ⟨refs, hrefs, hr⟩)).2
  have hid : cubeMap specieOf (cubeMap (·.Z) (g.contents h)) = g.contents h := by
    rw [cubeMap_cubeMap]
    exact cubeMap_id _ _ fun x hx => (reachable_known (hr x hx)).2
  obtain ⟨g', h1, wf', _, _, _, hcont, _⟩ := ofCube_spec h (g.contents h) hb hd hw
  obtain ⟨w1, w2⟩ := WF_append wf (g.contents h).flatten
  have hold : g.contents (h ++ (g.contents h).flatten) = g.contents h := by
    conv_lhs => unfold SGrid.contents
    conv_rhs => unfold SGrid.contents
    refine List.map_congr_left fun refs hrefs => List.map_congr_left fun r hr => ?_
    have hlt := (wf.row r (List.mem_flatten.2 ⟨refs, hrefs, hr⟩)).1
    rw [RowHeap.row, RowHeap.row, List.getD_eq_getElem?_getD, List.getD_eq_getElem?_getD, List.getElem?_append_left hlt]
  refine ⟨cubeMap (·.Z) (g.contents h), _, g', ?_, cubeMap_box _ hb, ?_, wf', w1, ?_, ?_, w2, hcont⟩
  · unfold SGrid.toArray cubeToArray
    rw [if_neg (box_size_pos hb hd hw hl)]
  · unfold SGrid.fromArray
    rw [cubeFromArray_ok _ (box_size_pos (cubeMap_box _ hb) hd hw hl), okBind, hid]
    · exact h1
    · intro n hn
      rw [cubeMap_flatten] at hn
      obtain ⟨sp, hsp, rfl⟩ := List.mem_map.1 hn
      exact (reachable_known (hr sp hsp)).1
  · change cubeEq _ _ = true
    rw [hcont, hold]; exact cubeEq_refl _
  · change cubeEq _ _ = true
    rw [hcont, hold]; exact cubeEq_refl _

/-- **C05 (nothing to convert).** `from_array` of an array with an empty axis and `to_array` of a grid of length 0 raise ValueError. -/
theorem C05_no_entries (h : RowHeap) {d w l : ℕ} (h0 : d = 0 ∨ w = 0 ∨ l = 0) (arr : Cube ℤ) (hb : Spec.Box d w l arr) (sp : Specie) :
    SGrid.fromArray h arr = .error .valueError ∧
    ∀ h' g, SGrid.sea h d w l sp = .ok (h', g) → g.toArray h' = .error .valueError := by
  have hz : ∀ {α : Type} (c : Cube α), Spec.Box d w l c → cubeSize c = 0 := by
    intro α c hc
    unfold cubeSize
    rw [List.length_eq_zero_iff, List.flatten_eq_nil_iff]
    intro row hrow
    obtain ⟨plane, hp, hr⟩ := List.mem_flatten.1 hrow
    obtain ⟨h1, h2⟩ := hc.2 plane hp
    rcases h0 with rfl | rfl | rfl
    · rw [List.length_eq_zero_iff.1 hc.1] at hp; simp at hp
    · rw [List.length_eq_zero_iff.1 h1] at hr; simp at hr
    · exact List.length_eq_zero_iff.1 (h2 row hr)
  refine ⟨?_, fun h' g hg => ?_⟩
  · unfold SGrid.fromArray cubeFromArray
    rw [if_pos (hz arr hb)]
    rfl
  · have hd : 0 < d ∧ 0 < w := by
      by_contra hn
      rw [(C03_sea h d w l sp).1 (by omega)] at hg
      cases hg
    obtain ⟨g', h1, -, -, -, -, hcont, -⟩ := ofCube_spec h (seaCube d w l sp) (sea_rect d w l sp) hd.1 hd.2
    unfold SGrid.sea at hg
    rw [h1] at hg
    injection hg with hg
    injection hg with hg1 hg2
    subst hg1 hg2
    unfold SGrid.toArray cubeToArray
    rw [hcont, if_pos (hz _ (sea_rect d w l sp))]

example : SGrid.fromArray [] [[[], []]] = .error .valueError ∧ (do let (h, g) ← SGrid.sea [] 1 2 0 .ghost; g.toArray h) = .error .valueError := by
  decide +kernel

/-! ## C06 -/

theorem speckle_list (n noa : ℕ) (s z : ℤ) (hne : s ≠ z) :
    ((combinations (List.range n) noa).map fun c => overwrite (List.replicate n s) c z).Nodup ∧
    ∀ m : List ℤ, m ∈ ((combinations (List.range n) noa).map fun c => overwrite (List.replicate n s) c z) ↔
      m.length = n ∧ (∀ x ∈ m, x = s ∨ x = z) ∧ m.count z = noa := by
  obtain ⟨c1, c2⟩ := combinations_subsets (List.range n) List.nodup_range noa
  have hbase : ∀ (c : List ℕ), c ∈ combinations (List.range n) noa → ∀ i ∈ c.toFinset,
      ∃ v, (List.replicate n s)[i]? = some v ∧ v ≠ z := by
    intro c hc i hi
    rw [mem_combinations] at hc
    have hlt : i < n := by
      have := hc.1.subset (List.mem_toFinset.1 hi)
      simpa using this
    exact ⟨s, by rw [List.getElem?_replicate, if_pos hlt], hne⟩
  constructor
  · have hnd : (combinations (List.range n) noa).Nodup := nodup_combinations _ List.nodup_range _
    apply List.Nodup.map_on _ hnd
    intro a ha b hb hab
    have hs := Spec.Subst.inj (overwrite_subst (List.replicate n s) a z) (hab ▸ overwrite_subst (List.replicate n s) b z)
      (hbase a ha) (hbase b hb)
    exact List.inj_on_of_nodup_map c1 ha hb hs
  · intro m
    rw [List.mem_map]
    constructor
    · rintro ⟨c, hc, rfl⟩
      have hsub := overwrite_subst (List.replicate n s) c z
      refine ⟨by rw [overwrite_length, List.length_replicate], ?_, ?_⟩
      · intro x hx
        obtain ⟨i, hi, rfl⟩ := List.getElem_of_mem hx
        have hi' : i < (List.replicate n s).length := by rw [overwrite_length] at hi; exact hi
        have := hsub.2 i hi'
        rw [List.getElem?_eq_getElem hi] at this
        split at this
        · injection this with this; exact .inr this
        · rw [List.getElem?_replicate, if_pos (by simpa using hi')] at this
          injection this with this; exact .inl this
      · rw [hsub.count (hbase c hc), List.count_replicate, if_neg (by simpa using hne), Nat.zero_add]
        have := (c2 c.toFinset).1 (List.mem_map.2 ⟨c, hc, rfl⟩)
        exact this.2
    · rintro ⟨h1, h2, h3⟩
      have hT : ((Finset.range m.length).filter (fun i => m[i]? = some z)) ∈ (combinations (List.range n) noa).map List.toFinset := by
        rw [c2]
        refine ⟨fun i hi => ?_, by rw [← h3, count_eq_card]⟩
        rw [List.mem_toFinset, List.mem_range, ← h1]
        exact Finset.mem_range.1 (Finset.mem_filter.1 hi).1
      obtain ⟨c, hc, hcS⟩ := List.mem_map.1 hT
      refine ⟨c, hc, ?_⟩
      have hsub := overwrite_subst (List.replicate n s) c z
      refine Spec.Subst.unique hsub ⟨by rw [h1, List.length_replicate], fun i hi => ?_⟩
      rw [List.length_replicate] at hi
      rw [hcS]
      have hi' : i < m.length := by omega
      by_cases hm : m[i]? = some z
      · rw [if_pos (Finset.mem_filter.2 ⟨Finset.mem_range.2 hi', hm⟩), hm]
      · rw [if_neg (show i ∉ _ from fun h => hm (Finset.mem_filter.1 h).2), List.getElem?_replicate, if_pos hi]
        rw [List.getElem?_eq_getElem hi'] at hm ⊢
        rcases h2 _ (List.getElem_mem hi') with h | h
        · rw [h]
        · exact absurd (by rw [h]) hm

theorem count_map_Z (l : List Specie) (sp : Specie) (hr : ∀ x ∈ l, ReachableSpecie x) (hsp : ReachableSpecie sp) :
    (l.map (·.Z)).count sp.Z = l.count sp := by
  induction l with
  | nil => rfl
  | cons a l ih =>
    rw [List.map_cons, List.count_cons, List.count_cons, ih (fun x hx => hr x (List.mem_cons_of_mem _ hx))]
    have : (a.Z == sp.Z) = (a == sp) := by
      rw [Bool.eq_iff_iff, beq_iff_eq, beq_iff_eq]
      refine ⟨fun h => ?_, fun h => by rw [h]⟩
      rw [← (reachable_known (hr a (by simp))).2, ← (reachable_known hsp).2, h]
    rw [this]

/-- **C06.** For two different species and a size with at least one site, `gen_speckle` yields exactly the `d × w × l` grids over the two
species with exactly `noa` entries `sp`, each once, `C(dwl, noa)` in total. On a size without sites the one empty array (for `noa = 0`)
is rejected with ValueError, and nothing is yielded otherwise. -/
theorem C06_gen_speckle (ssp sp : Specie) (hs : ReachableSpecie ssp) (hp : ReachableSpecie sp) (hne : ssp ≠ sp) (d w l noa : ℕ) :
    (0 < d * w * l → ∃ grids, sgGenSpeckle ssp (d, w, l) sp noa = .ok grids ∧ grids.Nodup ∧ grids.length = (d * w * l).choose noa ∧
      ∀ c : Cube Specie, c ∈ grids ↔ Spec.Box d w l c ∧ (∀ x ∈ c.flatten.flatten, x = ssp ∨ x = sp) ∧ c.flatten.flatten.count sp = noa) ∧
    (d * w * l = 0 → sgGenSpeckle ssp (d, w, l) sp noa = if noa = 0 then .error .valueError else .ok []) := by
  have hZ : ssp.Z ≠ sp.Z := fun h => hne (by rw [← (reachable_known hs).2, ← (reachable_known hp).2, h])
  obtain ⟨k1, k2⟩ := reachable_known hs
  obtain ⟨k3, k4⟩ := reachable_known hp
  constructor
  · intro hpos
    obtain ⟨s1, s2⟩ := speckle_list (d * w * l) noa ssp.Z sp.Z hZ
    have hok : sgGenSpeckle ssp (d, w, l) sp noa = .ok ((combinations (List.range (d * w * l)) noa).map fun c =>
        cubeMap specieOf (reshape3 d w l (overwrite (List.replicate (d * w * l) ssp.Z) c sp.Z))) := by
      refine mapM_ok _ _ _ fun c hc => ?_
      obtain ⟨m1, m2, _⟩ := (s2 _).1 (List.mem_map.2 ⟨c, hc, rfl⟩)
      refine cubeFromArray_ok _ ?_ ?_
      · rw [cubeSize]
        change (reshape3 d w l (overwrite (List.replicate (d * w * l) ssp.Z) c sp.Z)).flatten.flatten.length ≠ 0
        rw [reshape3_flatten _ _ _ _ m1, m1]; omega
      · intro n hn
        change n ∈ (reshape3 d w l (overwrite (List.replicate (d * w * l) ssp.Z) c sp.Z)).flatten.flatten at hn
        rw [reshape3_flatten _ _ _ _ m1] at hn
        rcases m2 n hn with rfl | rfl
        · exact k1
        · exact k3
    refine ⟨_, hok, ?_, ?_, ?_⟩
    · have hnd : ((combinations (List.range (d * w * l)) noa).map fun c => overwrite (List.replicate (d * w * l) ssp.Z) c sp.Z).Nodup := s1
      have : ((combinations (List.range (d * w * l)) noa).map fun c =>
        cubeMap specieOf (reshape3 d w l (overwrite (List.replicate (d * w * l) ssp.Z) c sp.Z))) =
        ((combinations (List.range (d * w * l)) noa).map fun c => overwrite (List.replicate (d * w * l) ssp.Z) c sp.Z).map
          fun m => cubeMap specieOf (reshape3 d w l m) := by rw [List.map_map]; rfl
      rw [this]
      apply List.Nodup.map_on _ hnd
      intro a ha b hb hab
      obtain ⟨a1, a2, _⟩ := (s2 a).1 ha
      obtain ⟨b1, b2, _⟩ := (s2 b).1 hb
      have e := congrArg (fun c : Cube Specie => (c.flatten.flatten).map (·.Z)) hab
      simp only [cubeMap_flatten, reshape3_flatten _ _ _ _ a1, reshape3_flatten _ _ _ _ b1, List.map_map] at e
      have hid : ∀ m : List ℤ, (∀ x ∈ m, x = ssp.Z ∨ x = sp.Z) → m.map ((·.Z) ∘ specieOf) = m := by
        intro m hm
        conv_rhs => rw [← List.map_id m]
        refine List.map_congr_left fun x hx => ?_
        rcases hm x hx with rfl | rfl
        · simp [k2]
        · simp [k4]
      rw [hid a a2, hid b b2] at e
      exact e
    · rw [List.length_map, length_combinations, List.length_range]
    · intro c
      rw [List.mem_map]
      constructor
      · rintro ⟨x, hx, rfl⟩
        obtain ⟨m1, m2, m3⟩ := (s2 _).1 (List.mem_map.2 ⟨x, hx, rfl⟩)
        generalize overwrite (List.replicate (d * w * l) ssp.Z) x sp.Z = m at m1 m2 m3
        have hmem : ∀ y ∈ m.map specieOf, y = ssp ∨ y = sp := by
          intro y hy
          obtain ⟨n, hn, rfl⟩ := List.mem_map.1 hy
          rcases m2 n hn with rfl | rfl
          · exact .inl k2
          · exact .inr k4
        refine ⟨cubeMap_box _ (reshape3_box _ _ _ _ m1), ?_, ?_⟩
        · rw [cubeMap_flatten, reshape3_flatten _ _ _ _ m1]
          exact hmem
        · rw [cubeMap_flatten, reshape3_flatten _ _ _ _ m1, ← count_map_Z _ _ (fun y hy => by
            rcases hmem y hy with rfl | rfl
            · exact hs
            · exact hp) hp, List.map_map, ← m3]
          congr 1
          conv_rhs => rw [← List.map_id m]
          refine List.map_congr_left fun y hy => ?_
          rcases m2 y hy with rfl | rfl
          · simp [k2]
          · simp [k4]
      · rintro ⟨b1, b2, b3⟩
        have hre : ∀ x ∈ c.flatten.flatten, ReachableSpecie x := by
          intro x hx
          rcases b2 x hx with rfl | rfl
          · exact hs
          · exact hp
        obtain ⟨x, hx, hxe⟩ := List.mem_map.1 ((s2 (c.flatten.flatten.map (·.Z))).2 ⟨by rw [List.length_map, box_length b1], by
            intro z hz
            obtain ⟨y, hy, rfl⟩ := List.mem_map.1 hz
            rcases b2 y hy with rfl | rfl
            · exact .inl rfl
            · exact .inr rfl, by rw [count_map_Z _ _ hre hp, b3]⟩)
        refine ⟨x, hx, ?_⟩
        rw [hxe]
        refine box_inj (cubeMap_box _ (reshape3_box _ _ _ _ (by rw [List.length_map, box_length b1]))) b1 ?_
        rw [cubeMap_flatten, reshape3_flatten _ _ _ _ (by rw [List.length_map, box_length b1]), List.map_map]
        conv_rhs => rw [← List.map_id c.flatten.flatten]
        exact List.map_congr_left fun y hy => (reachable_known (hre y hy)).2
  · intro h0
    have hsz : cubeSize (reshape3 d w l ([] : List ℤ)) = 0 := by
      rw [cubeSize, reshape3_flatten _ _ _ _ (by rw [h0]; rfl)]; rfl
    unfold sgGenSpeckle
    simp only [h0]
    cases noa with
    | zero =>
      have : combinations (List.range 0) 0 = [[]] := rfl
      rw [this, List.mapM_cons]
      unfold cubeFromArray putAll
      simp only [List.replicate_zero, List.foldl_nil, hsz]
      rfl
    | succ k => rfl

/-! ## C07 -/

theorem yieldPosition_eq (d w l : ℕ) : yieldPosition d w l =
    (((List.range d).map fun c => (List.range w).map fun b => (List.range l).map fun a => (c, b, a)) : Cube (V3 ℕ)).flatten.flatten := by
  unfold yieldPosition
  rw [List.flatMap_def, List.flatten_flatten, List.map_map]
  rfl

theorem posCube_box (d w l : ℕ) : Spec.Box d w l
    (((List.range d).map fun c => (List.range w).map fun b => (List.range l).map fun a => (c, b, a)) : Cube (V3 ℕ)) := by
  refine ⟨by simp, ?_⟩
  intro p hp
  obtain ⟨c, _, rfl⟩ := List.mem_map.1 hp
  refine ⟨by simp, ?_⟩
  intro r hr
  obtain ⟨b, _, rfl⟩ := List.mem_map.1 hr
  simp

theorem yieldPosition_length (d w l : ℕ) : (yieldPosition d w l).length = d * w * l := by
  rw [yieldPosition_eq, box_length (posCube_box d w l)]

theorem yieldPosition_get (d w l c b a : ℕ) (hc : c < d) (hb : b < w) (ha : a < l) :
    (yieldPosition d w l)[(c * w + b) * l + a]? = some (c, b, a) := by
  rw [yieldPosition_eq, box_getElem? (posCube_box d w l) c b a hb ha]
  unfold Spec.entry
  simp [hc, hb, ha]

theorem mem_yieldPosition (d w l : ℕ) (p : V3 ℕ) : p ∈ yieldPosition d w l ↔ p.1 < d ∧ p.2.1 < w ∧ p.2.2 < l := by
  obtain ⟨c, b, a⟩ := p
  simp only [yieldPosition, List.mem_flatMap, List.mem_range, List.mem_map, Prod.mk.injEq]
  constructor
  · rintro ⟨c', hc, b', hb, a', ha, rfl, rfl, rfl⟩; exact ⟨hc, hb, ha⟩
  · rintro ⟨hc, hb, ha⟩; exact ⟨c, hc, b, hb, a, ha, rfl, rfl, rfl⟩

theorem yieldPosition_nodup (d w l : ℕ) : (yieldPosition d w l).Nodup := by
  unfold yieldPosition
  rw [List.nodup_flatMap]
  refine ⟨fun c _ => ?_, ?_⟩
  · rw [List.nodup_flatMap]
    refine ⟨fun b _ => List.Nodup.map (fun x y h => by simpa using h) List.nodup_range, ?_⟩
    refine List.nodup_range.imp fun {x y} hxy => ?_
    rw [Function.onFun, List.disjoint_left]
    rintro ⟨c', b', a'⟩ h1 h2
    simp only [List.mem_map, Prod.mk.injEq] at h1 h2
    obtain ⟨_, _, _, e1, _⟩ := h1
    obtain ⟨_, _, _, e2, _⟩ := h2
    exact hxy (e1.trans e2.symm)
  · refine List.nodup_range.imp fun {x y} hxy => ?_
    rw [Function.onFun, List.disjoint_left]
    rintro ⟨c', b', a'⟩ h1 h2
    simp only [List.mem_flatMap, List.mem_map, Prod.mk.injEq] at h1 h2
    obtain ⟨_, _, _, _, e1, _⟩ := h1
    obtain ⟨_, _, _, _, e2, _⟩ := h2
    exact hxy (e1.trans e2.symm)

theorem cstru_new (m : M3 ℚ) {d w l : ℕ} (hd : 0 < d) (hw : 0 < w) (c : Cube Specie) (hb : Spec.Box d w l c) :
    CStru.new m c = .ok ⟨m, c, d, w, l⟩ := by
  obtain ⟨h1, h2⟩ := hb
  match c, h1, h2 with
  | [], h1, _ => simp at h1; omega
  | [] :: rest, _, h2 => have := (h2 [] (by simp)).1; simp at this; omega
  | (r :: rs) :: rest, h1, h2 =>
    have e2 := (h2 (r :: rs) (by simp)).1
    have e3 := (h2 (r :: rs) (by simp)).2 r (by simp)
    simp only [List.length_cons] at h1 e2
    unfold CStru.new
    simp only [h1, e2, e3]

/-- **C07.** The cell of a `d × w × l` structure: lattice rows scaled by the dimensions; `dwl` pairwise different positions with
coordinates in `[0, 1)`; position `(c/d, b/w, a/l)` carries the atomic number of grid entry `[c, b, a]`; `get_id_matrix` gives the array
of the grid back; the midpoint is a position of the grid. -/
theorem C07_get_cell (m : M3 ℚ) {d w l : ℕ} (hd : 0 < d) (hw : 0 < w) (hl : 0 < l) (grid : Cube Specie) (hb : Spec.Box d w l grid) :
    ∃ s cell, CStru.new m grid = .ok s ∧ s.getCell = .ok cell ∧
      cell.lattice = ((d * m.1.1, d * m.1.2.1, d * m.1.2.2), (w * m.2.1.1, w * m.2.1.2.1, w * m.2.1.2.2),
        (l * m.2.2.1, l * m.2.2.2.1, l * m.2.2.2.2)) ∧
      cell.positions.length = d * w * l ∧ cell.numbers.length = d * w * l ∧ cell.positions.Nodup ∧
      (∀ x ∈ cell.positions, (0 ≤ x.1 ∧ x.1 < 1) ∧ (0 ≤ x.2.1 ∧ x.2.1 < 1) ∧ (0 ≤ x.2.2 ∧ x.2.2 < 1)) ∧
      (∀ c b a : ℕ, c < d → b < w → a < l → ∃ k : ℕ, ∃ sp, Spec.entry grid c b a = some sp ∧
        cell.positions[k]? = some ((c : ℚ) / d, (b : ℚ) / w, (a : ℚ) / l) ∧ cell.numbers[k]? = some sp.Z) ∧
      getIdMatrix cell d w l = s.getArray ∧ s.getArray = .ok (cubeMap (·.Z) grid) ∧
      s.getMidpoint.1 < d ∧ s.getMidpoint.2.1 < w ∧ s.getMidpoint.2.2 < l := by
  have hnew := cstru_new m hd hw grid hb
  have harr : cubeToArray grid = .ok (cubeMap (·.Z) grid) := by
    unfold cubeToArray; rw [if_neg (box_size_pos hb hd hw hl)]
  have hfr : ∀ (n : ℕ) (i : ℕ), (i : ℚ) * (1 / n) = (i : ℚ) / n := fun n i => by ring
  have hnum : (cubeMap (·.Z) grid).flatten.flatten.length = d * w * l := box_length (cubeMap_box _ hb)
  refine ⟨_, ⟨_, (yieldPosition d w l).map fun p => ((p.1 : ℚ) * (1 / d), (p.2.1 : ℚ) * (1 / w), (p.2.2 : ℚ) * (1 / l)), _⟩,
    hnew, ?_, rfl, ?_, hnum, ?_, ?_, ?_, ?_, harr, ?_, ?_, ?_⟩
  · unfold CStru.getCell CStru.getArray
    simp only [harr, okBind]
    rfl
  · rw [List.length_map, yieldPosition_length]
  · apply List.Nodup.map_on _ (yieldPosition_nodup d w l)
    rintro ⟨c, b, a⟩ _ ⟨c', b', a'⟩ _ h
    simp only [Prod.mk.injEq] at h ⊢
    have hd' : (1 / (d : ℚ)) ≠ 0 := by positivity
    have hw' : (1 / (w : ℚ)) ≠ 0 := by positivity
    have hl' : (1 / (l : ℚ)) ≠ 0 := by positivity
    exact ⟨by exact_mod_cast mul_right_cancel₀ hd' h.1, by exact_mod_cast mul_right_cancel₀ hw' h.2.1,
      by exact_mod_cast mul_right_cancel₀ hl' h.2.2⟩
  · intro x hx
    obtain ⟨p, hp, rfl⟩ := List.mem_map.1 hx
    rw [mem_yieldPosition] at hp
    have key : ∀ n i : ℕ, 0 < n → i < n → (0 : ℚ) ≤ (i : ℚ) * (1 / n) ∧ (i : ℚ) * (1 / n) < 1 := by
      intro n i hn hi
      refine ⟨by positivity, ?_⟩
      rw [hfr, div_lt_one (by exact_mod_cast hn)]
      exact_mod_cast hi
    exact ⟨key d _ hd hp.1, key w _ hw hp.2.1, key l _ hl hp.2.2⟩
  · intro c b a hc hb' ha
    have hlt : (c * w + b) * l + a < grid.flatten.flatten.length := by
      rw [box_length hb]
      calc (c * w + b) * l + a < (c * w + b) * l + l := by omega
        _ = (c * w + b + 1) * l := by ring
        _ ≤ (d * w) * l := Nat.mul_le_mul_right _ (by
          calc c * w + b + 1 ≤ c * w + w := by omega
            _ = (c + 1) * w := by ring
            _ ≤ d * w := Nat.mul_le_mul_right _ hc)
    have he := box_getElem? hb c b a hb' ha
    rw [List.getElem?_eq_getElem hlt] at he
    refine ⟨(c * w + b) * l + a, _, he.symm, ?_, ?_⟩
    · rw [List.getElem?_map, yieldPosition_get d w l c b a hc hb' ha, Option.map_some, hfr, hfr, hfr]
    · rw [cubeMap_flatten, List.getElem?_map, List.getElem?_eq_getElem hlt]; rfl
  · unfold getIdMatrix CStru.getArray
    simp only [hnum, if_true]
    rw [harr, reshape3_of_box (cubeMap_box _ hb)]
  · exact Nat.div_lt_self hd (by decide)
  · exact Nat.div_lt_self hw (by decide)
  · exact Nat.div_lt_self hl (by decide)

/-! ## C08 -/

/-- the points `get_neighbors` knows: the first coordinate counts along the width, the second along the length, the third along the
depth of the grid -/
def NPoint (d w l : ℕ) (p : V3 ℤ) : Prop := (0 ≤ p.1 ∧ p.1 < w) ∧ (0 ≤ p.2.1 ∧ p.2.1 < l) ∧ (0 ≤ p.2.2 ∧ p.2.2 < d)

/-- Cartesian coordinates of an integer point -/
def cart (m : M3 ℚ) (p : V3 ℤ) : V3 ℚ := Spec.cartesian m ((p.1 : ℚ), (p.2.1 : ℚ), (p.2.2 : ℚ))

theorem mem_pGen (s : CStru) (p : V3 ℤ) : p ∈ s.pGen ↔ NPoint s.depth s.width s.length p := by
  obtain ⟨x, y, z⟩ := p
  simp only [CStru.pGen, NPoint, List.mem_flatMap, List.mem_range, List.mem_map, Prod.mk.injEq]
  constructor
  · rintro ⟨z', hz, x', hx, y', hy, rfl, rfl, rfl⟩; omega
  · rintro ⟨⟨a, b⟩, ⟨c, d⟩, e, f⟩
    exact ⟨z.toNat, by omega, x.toNat, by omega, y.toNat, by omega, by omega, by omega, by omega⟩

theorem pGen_nodup (s : CStru) : s.pGen.Nodup := by
  have : s.pGen = (yieldPosition s.depth s.width s.length).map fun p => ((p.2.1 : ℤ), (p.2.2 : ℤ), (p.1 : ℤ)) := by
    simp only [CStru.pGen, yieldPosition, List.map_flatMap, List.map_map]
    rfl
  rw [this]
  refine List.Nodup.map ?_ (yieldPosition_nodup _ _ _)
  rintro ⟨a, b, c⟩ ⟨a', b', c'⟩ h
  simp only [Prod.mk.injEq, Nat.cast_inj] at h ⊢
  tauto

theorem pos2coor_cart (m : M3 ℚ) (p : V3 ℤ) : pos2coor m p = cart m p := by
  unfold pos2coor cart Spec.cartesian
  ext <;> simp <;> ring

/-- being a neighbour within distance `delta` -/
def Near (m : M3 ℚ) (delta : ℚ) (p q : V3 ℤ) : Prop := 0 ≤ delta ∧ Spec.distSq (cart m q) (cart m p) ≤ delta ^ 2

/-- `Near` is the comparison of real numbers it stands for -/
theorem near_iff_real (m : M3 ℚ) (delta : ℚ) (p q : V3 ℤ) :
    Near m delta p q ↔ Real.sqrt (Spec.distSq (cart m q) (cart m p) : ℚ) ≤ (delta : ℝ) := by
  have := Spec.farther_iff_real delta (cart m q) (cart m p)
  rw [← not_lt, ← this]
  unfold Near Spec.Farther
  rw [not_or, not_lt, not_lt]

theorem near_symm (m : M3 ℚ) (delta : ℚ) (p q : V3 ℤ) (h : Near m delta p q) : Near m delta q p := by
  refine ⟨h.1, ?_⟩
  have : Spec.distSq (cart m p) (cart m q) = Spec.distSq (cart m q) (cart m p) := by unfold Spec.distSq; ring
  rw [this]; exact h.2

/-- the candidates the tree search selects -/
theorem neighbours_core (m : M3 ℚ) {d w l : ℕ} (grid : Cube Specie) (pos : V3 ℤ) (delta : ℚ) (hpos : NPoint d w l pos) :
    ∃ sel : List (V3 ℤ), sel.Nodup ∧ (∀ q, q ∈ sel ↔ NPoint d w l q ∧ q ≠ pos ∧ Near m delta pos q) ∧
      (d * w * l ≠ 1 → (CStru.mk m grid d w l).getNeighbors pos delta = selectNeighbours sel) ∧
      (d * w * l = 1 → (CStru.mk m grid d w l).getNeighbors pos delta = .error .valueError) := by
  have hmem := (mem_pGen (CStru.mk m grid d w l) pos).2 hpos
  have hnd := pGen_nodup (CStru.mk m grid d w l)
  have hlen : (CStru.mk m grid d w l).pGen.length = d * w * l := by
    have : (CStru.mk m grid d w l).pGen = (yieldPosition d w l).map fun p => ((p.2.1 : ℤ), (p.2.2 : ℤ), (p.1 : ℤ)) := by
      simp only [CStru.pGen, yieldPosition, List.map_flatMap, List.map_map]
      rfl
    rw [this, List.length_map, yieldPosition_length]
  have hel : ((CStru.mk m grid d w l).pGen.erase pos).length = d * w * l - 1 := by
    rw [List.length_erase_of_mem hmem, hlen]
  have hpos1 : 0 < d * w * l := by rw [← hlen]; exact List.length_pos_of_mem hmem
  refine ⟨((CStru.mk m grid d w l).pGen.erase pos).filter fun q => decide (0 ≤ delta) &&
    decide (gridDistSq (pos2coor m q) (pos2coor m pos) ≤ delta ^ 2), (hnd.erase pos).filter _, ?_, ?_, ?_⟩
  · intro q
    rw [List.mem_filter, hnd.mem_erase_iff, mem_pGen, Bool.and_eq_true, decide_eq_true_eq, decide_eq_true_eq,
      pos2coor_cart, pos2coor_cart]
    unfold Near
    change (q ≠ pos ∧ NPoint d w l q) ∧ 0 ≤ delta ∧ Spec.distSq _ _ ≤ _ ↔ _
    tauto
  · intro h1
    unfold CStru.getNeighbors
    simp only
    rw [if_pos hmem, if_neg (by
      intro h0
      rw [h0, List.length_nil] at hel
      omega)]
  · intro h1
    unfold CStru.getNeighbors
    simp only
    rw [if_pos hmem, if_pos (by
      rw [← List.length_eq_zero_iff, hel]; omega)]

/-- **C08 (two or more neighbours).** For every lattice, every grid size and every radius: when at least two points lie within the
radius, `get_neighbors` returns exactly the set of points other than `pos` at Cartesian distance at most `delta`. In particular it does
not contain `pos`. (Missing from the full claim: fewer than two neighbours, see `C08_few`, and grids that are not cubic, see
`C08_transposed`.) -/
theorem C08_neighbours_partial (m : M3 ℚ) {d w l : ℕ} (hd : 0 < d) (hw : 0 < w) (grid : Cube Specie) (hb : Spec.Box d w l grid)
    (pos : V3 ℤ) (delta : ℚ) (hpos : NPoint d w l pos) (p q : V3 ℤ) (hpq : p ≠ q)
    (hp : NPoint d w l p ∧ p ≠ pos ∧ Near m delta pos p) (hq : NPoint d w l q ∧ q ≠ pos ∧ Near m delta pos q) :
    ∃ s ns, CStru.new m grid = .ok s ∧ s.getNeighbors pos delta = .ok (.positions ns) ∧ ns.Nodup ∧
      ∀ x, x ∈ ns ↔ NPoint d w l x ∧ x ≠ pos ∧ Near m delta pos x := by
  obtain ⟨sel, h1, h2, h3, _⟩ := neighbours_core m grid pos delta hpos
  have hps := (h2 p).2 hp
  have hqs := (h2 q).2 hq
  refine ⟨_, sel, cstru_new m hd hw grid hb, ?_, h1, h2⟩
  have hsz : d * w * l ≠ 1 := by
    intro h
    have hd1 : d = 1 := Nat.eq_one_of_mul_eq_one_right (Nat.eq_one_of_mul_eq_one_right h)
    have hw1 : w = 1 := Nat.eq_one_of_mul_eq_one_left (Nat.eq_one_of_mul_eq_one_right h)
    have hl1 : l = 1 := Nat.eq_one_of_mul_eq_one_left h
    subst hd1 hw1 hl1
    obtain ⟨⟨⟨a, b⟩, ⟨c, d⟩, e, f⟩, hne, _⟩ := hp
    obtain ⟨⟨a', b'⟩, ⟨c', d'⟩, e', f'⟩ := hpos
    apply hne
    ext <;> omega
  rw [h3 hsz]
  match sel, hps, hqs with
  | [], hps, _ => simp at hps
  | [x], hps, hqs => simp at hps hqs; exact absurd (hps.trans hqs.symm) hpq
  | x :: y :: rest, _, _ => rfl

/-- **C08 (symmetry).** `q` is among the neighbours of `p` iff `p` is among those of `q` (when both calls return sets of points). -/
theorem C08_symmetric (m : M3 ℚ) {d w l : ℕ} (grid : Cube Specie) (p q : V3 ℤ) (delta : ℚ) (hp : NPoint d w l p) (hq : NPoint d w l q)
    (ns ns' : List (V3 ℤ)) (h1 : (CStru.mk m grid d w l).getNeighbors p delta = .ok (.positions ns))
    (h2 : (CStru.mk m grid d w l).getNeighbors q delta = .ok (.positions ns')) : q ∈ ns ↔ p ∈ ns' := by
  have key : ∀ (pos : V3 ℤ), NPoint d w l pos → ∀ ns, (CStru.mk m grid d w l).getNeighbors pos delta = .ok (.positions ns) →
      ∀ x, x ∈ ns ↔ NPoint d w l x ∧ x ≠ pos ∧ Near m delta pos x := by
    intro pos hpos ns hns x
    obtain ⟨sel, _, k2, k3, k4⟩ := neighbours_core m grid pos delta hpos
    by_cases hsz : d * w * l = 1
    · rw [k4 hsz] at hns; cases hns
    · rw [k3 hsz] at hns
      match sel, hns, k2 with
      | [], hns, _ => cases hns
      | [_], hns, _ => cases hns
      | a :: b :: rest, hns, k2 =>
        have : a :: b :: rest = ns := by
          unfold selectNeighbours at hns
          injection hns with hns; injection hns
        rw [← this]; exact k2 x
  rw [key p hp ns h1, key q hq ns' h2]
  constructor
  · rintro ⟨_, h, hn⟩; exact ⟨hp, h.symm, near_symm _ _ _ _ hn⟩
  · rintro ⟨_, h, hn⟩; exact ⟨hq, h.symm, near_symm _ _ _ _ hn⟩

/-- **C08 is false for fewer than two neighbours**: a one-point grid is a ValueError, no neighbour a TypeError, and for exactly one
neighbour the set of its three coordinates is returned instead of the set containing it. A position that is not a point is a KeyError. -/
theorem C08_few (m : M3 ℚ) {d w l : ℕ} (grid : Cube Specie) (pos : V3 ℤ) (delta : ℚ) :
    (¬ NPoint d w l pos → (CStru.mk m grid d w l).getNeighbors pos delta = .error .keyError) ∧
    (NPoint d w l pos → d * w * l = 1 → (CStru.mk m grid d w l).getNeighbors pos delta = .error .valueError) ∧
    (NPoint d w l pos → d * w * l ≠ 1 → (¬ ∃ q, NPoint d w l q ∧ q ≠ pos ∧ Near m delta pos q) →
      (CStru.mk m grid d w l).getNeighbors pos delta = .error .typeError) ∧
    (∀ q, NPoint d w l pos → (∀ x, NPoint d w l x ∧ x ≠ pos ∧ Near m delta pos x ↔ x = q) →
      ∃ ns, (CStru.mk m grid d w l).getNeighbors pos delta = .ok (.coordinates ns) ∧ ∀ k, k ∈ ns ↔ k = q.1 ∨ k = q.2.1 ∨ k = q.2.2) := by
  refine ⟨fun h => ?_, fun h h1 => ?_, fun h h1 h0 => ?_, fun q h hq => ?_⟩
  · unfold CStru.getNeighbors
    simp only
    rw [if_neg (by rw [mem_pGen]; exact h)]
  · obtain ⟨_, _, _, _, k4⟩ := neighbours_core m grid pos delta h
    exact k4 h1
  · obtain ⟨sel, _, k2, k3, _⟩ := neighbours_core m grid pos delta h
    rw [k3 h1]
    match sel, k2 with
    | [], _ => rfl
    | x :: _, k2 => exact absurd ⟨x, (k2 x).1 (by simp)⟩ h0
  · obtain ⟨sel, k1, k2, k3, _⟩ := neighbours_core m grid pos delta h
    have hsel : sel = [q] := by
      have hqm : q ∈ sel := (k2 q).2 ((hq q).2 rfl)
      match sel, k1, k2, hqm with
      | [], _, _, hqm => simp at hqm
      | [x], _, _, hqm => simp at hqm; rw [hqm]
      | x :: y :: rest, k1, k2, _ =>
        have e1 := (hq x).1 ((k2 x).1 (by simp))
        have e2 := (hq y).1 ((k2 y).1 (by simp))
        rw [e1, e2] at k1
        simp at k1
    have hsz : d * w * l ≠ 1 := by
      intro h1
      have hd1 : d = 1 := Nat.eq_one_of_mul_eq_one_right (Nat.eq_one_of_mul_eq_one_right h1)
      have hw1 : w = 1 := Nat.eq_one_of_mul_eq_one_left (Nat.eq_one_of_mul_eq_one_right h1)
      have hl1 : l = 1 := Nat.eq_one_of_mul_eq_one_left h1
      subst hd1 hw1 hl1
      obtain ⟨⟨⟨a, b⟩, ⟨c, d⟩, e, f⟩, hne, _⟩ := (hq q).2 rfl
      obtain ⟨⟨a', b'⟩, ⟨c', d'⟩, e', f'⟩ := h
      apply hne
      ext <;> omega
    rw [k3 hsz, hsel]
    refine ⟨_, rfl, fun k => ?_⟩
    rw [List.mem_dedup]
    simp

/-- **C08 is false for grids that are not cubic**: positions are taken as (width, length, depth) although every other method of the class
takes them as (depth, width, length). On a grid deeper than wide the last layer, a legal position of the grid, is a KeyError. On a cubic
grid the two conventions describe the same set of points. -/
theorem C08_transposed (m : M3 ℚ) {d w l : ℕ} (grid : Cube Specie) (delta : ℚ) :
    (w < d → 0 < w → 0 < l → Spec.InGrid d w l ((w : ℤ), 0, 0) ∧
      (CStru.mk m grid d w l).getNeighbors ((w : ℤ), 0, 0) delta = .error .keyError) ∧
    (d = w → w = l → ∀ p : V3 ℤ, NPoint d w l p ↔ (0 ≤ p.1 ∧ p.1 < d) ∧ (0 ≤ p.2.1 ∧ p.2.1 < w) ∧ (0 ≤ p.2.2 ∧ p.2.2 < l)) := by
  constructor
  · intro h1 h2 h3
    refine ⟨⟨⟨?_, ?_⟩, ⟨?_, ?_⟩, ⟨?_, ?_⟩⟩, (C08_few m grid _ delta).1 ?_⟩
    iterate 6 (simp only <;> omega)
    unfold NPoint
    simp only
    omega
  · rintro rfl rfl p
    rfl

/-! ## Non-vacuity -/

def exStru : CStru := ⟨((1, 0, 0), (0, 1, 0), (0, 0, 2)), seaCube 2 2 2 exTi, 2, 2, 2⟩

example : exStru.getNeighbors (0, 0, 0) 1 = .ok (.positions [(0, 1, 0), (1, 0, 0)]) := by decide +kernel
example : exStru.getNeighbors (0, 0, 0) (1 / 2) = .error .typeError := by decide +kernel
example : Near exStru.m 1 (0, 0, 0) (0, 1, 0) ∧ NPoint 2 2 2 (0, 1, 0) := by
  constructor
  · constructor <;> decide +kernel
  · unfold NPoint; decide
example : Spec.Box 3 2 2 exGrid ∧ (∀ sp ∈ exGrid.flatten.flatten, ReachableSpecie sp) := by
  refine ⟨⟨rfl, by decide⟩, ?_⟩
  have : ∀ sp ∈ exGrid.flatten.flatten, sp = exTi ∨ sp = .ghost := by decide
  intro sp hsp
  rcases this sp hsp with rfl | rfl
  · exact .symbol (s := "Ti") (by decide +kernel)
  · exact .ghost
example : (sgGenSpeckle .ghost (1, 2, 2) exTi 2).map (·.length) = .ok 6 := by decide +kernel

end Verif
