import Verif.Spec.Alloy
import Verif.Props.Unimodal
import Verif.Props.AppAborts

/-! # C117: alloys of several species by repeated substitution -/

namespace Verif

/-- Substituting one species after the other: a new `OccupyGenerator` for every structure found so far
(`OccupyGenerator(cell).gen_nodup_of_ele(ele, n, sp)`, ababe/stru/sogen.py:33-40, 107-109, applied again to each cell it yields). -/
def alloySteps (hash : List ℤ → ℕ) (spg : GCell → List (M3 ℤ × V3 ℚ)) (wy : GCell → List String) (ele : Specie) :
    List (Specie × ℕ) → GCell → Py (List GCell)
  | [], c => .ok [c]
  | (sp, n) :: rest, c => do
    let g ← OGen.new c (spg c) (wy c)
    let cells ← g.genNodupOfEle hash ele n sp
    let outs ← cells.mapM (alloySteps hash spg wy ele rest)
    return outs.flatten

/-! ### decorations -/

theorem count_sites {l : List ℤ} {z : ℤ} {S : Finset ℕ} (h : ∀ i : ℕ, l[i]? = some z ↔ i ∈ S) : l.count z = S.card := by
  rw [← card_sites l z l.length rfl]
  refine Finset.card_bij (fun i _ => (i : ℕ)) ?_ ?_ ?_
  · intro i hi; exact (h i).1 (Finset.mem_filter.1 hi).2
  · intro i _ j _ e; exact Fin.ext e
  · intro i hi
    have := (h i).2 hi
    exact ⟨⟨i, (List.getElem?_eq_some_iff.1 this).1⟩, Finset.mem_filter.2 ⟨Finset.mem_univ _, this⟩, rfl⟩

/-- forget everything but the species `z` -/
def keepOnly (z : ℤ) (base m : List ℤ) : List ℤ := List.zipWith (fun x y => if y = z then z else x) base m

theorem keepOnly_getElem? (z : ℤ) (base m : List ℤ) (i : ℕ) (x y : ℤ) (hx : base[i]? = some x) (hy : m[i]? = some y) :
    (keepOnly z base m)[i]? = some (if y = z then z else x) := by
  unfold keepOnly
  rw [List.getElem?_zipWith, hx, hy]

theorem keepOnly_length (z : ℤ) {base m : List ℤ} (h : m.length = base.length) : (keepOnly z base m).length = base.length := by
  unfold keepOnly; rw [List.length_zipWith, h, min_self]

theorem gather_keepOnly {z : ℤ} {base m : List ℤ} {p : List ℕ} (h : m.length = base.length) (hp : ∀ i ∈ p, i < base.length) :
    gather (keepOnly z base m) p = keepOnly z (gather base p) (gather m p) := by
  apply List.ext_getElem?
  intro k
  rw [gather_getElem? (by rw [keepOnly_length z h]; exact hp)]
  unfold keepOnly
  rw [List.getElem?_zipWith, gather_getElem? hp, gather_getElem? (by rw [h]; exact hp)]
  cases hk : p[k]? with
  | none => rfl
  | some i => simp only [Option.bind_some]; rw [List.getElem?_zipWith]

section
variable {base : List ℤ} {e z : ℤ} {n : ℕ} {L : List (ℤ × ℕ)} (hz : z ∉ base) (hze : z ≠ e) (hzL : z ∉ L.map Prod.fst)
include hz hze hzL

theorem keepOnly_alloy {S : Finset ℕ} {s m : List ℤ} (hs : Spec.Subst base S z s)
    (hm : Spec.Alloy s e L m) : keepOnly z base m = s := by
  have hl : m.length = base.length := by rw [hm.1, hs.1]
  apply List.ext_getElem?
  intro i
  by_cases hi : i < base.length
  · have hx := List.getElem?_eq_getElem hi
    have hy := List.getElem?_eq_getElem (l := m) (i := i) (by omega)
    rw [keepOnly_getElem? z base m i _ _ hx hy, hs.2 i hi]
    have hsi := hs.2 i hi
    have hmi := hm.2.1 i
    split at hsi
    · rename_i hiS
      rw [if_pos hiS]
      rw [(hmi _ _ hsi hy).1 hze, if_pos rfl]
    · rename_i hiS
      rw [if_neg hiS, hx]
      rw [hx] at hsi
      have hne : base[i] ≠ z := fun h => hz (h ▸ List.getElem_mem hi)
      rw [if_neg]
      intro hmz
      by_cases he : base[i] = e
      · rcases (hmi _ _ hsi hy).2 he with h | h
        · exact hze (hmz.symm.trans h)
        · exact hzL (hmz ▸ h)
      · exact hne (((hmi _ _ hsi hy).1 he).symm.trans hmz)
  · rw [List.getElem?_eq_none (by rw [keepOnly_length z hl]; omega), List.getElem?_eq_none (by rw [hs.1]; omega)]

/-- taking an alloy apart into the sites of `z` and the rest -/
theorem alloy_split {m : List ℤ} (hm : Spec.Alloy base e ((z, n) :: L) m) :
    (∃ S : Finset ℕ, (∀ i ∈ S, base[i]? = some e) ∧ S.card = n ∧ Spec.Subst base S z (keepOnly z base m)) ∧
      Spec.Alloy (keepOnly z base m) e L m := by
  have hl := hm.1
  have hkl := keepOnly_length z hl
  have hcase : ∀ (i : ℕ), i < base.length → ∃ x y, base[i]? = some x ∧ m[i]? = some y ∧ x ≠ z ∧ (x ≠ e → y = x) ∧
      (x = e → y = e ∨ y = z ∨ y ∈ L.map Prod.fst) := by
    intro i hi
    have hx := List.getElem?_eq_getElem hi
    have hy := List.getElem?_eq_getElem (l := m) (i := i) (by omega)
    obtain ⟨h1, h2⟩ := hm.2.1 i _ _ hx hy
    refine ⟨_, _, hx, hy, fun h => hz (h ▸ List.getElem_mem hi), h1, fun h => ?_⟩
    simpa using h2 h
  refine ⟨⟨(Finset.range base.length).filter fun i => m[i]? = some z, ?_, ?_, hkl, ?_⟩, ?_⟩
  · intro i hi
    obtain ⟨hi1, hi2⟩ := Finset.mem_filter.1 hi
    obtain ⟨x, y, hx, hy, hxz, h1, h2⟩ := hcase i (Finset.mem_range.1 hi1)
    rw [hy] at hi2
    obtain rfl := Option.some.inj hi2
    by_cases he : x = e
    · rw [hx, he]
    · exact absurd (h1 he).symm hxz
  · refine Eq.trans (Eq.symm ?_) (hm.2.2 (z, n) (by simp))
    refine count_sites fun i => ?_
    rw [Finset.mem_filter, Finset.mem_range]
    exact ⟨fun h => ⟨by rw [← hl]; exact (List.getElem?_eq_some_iff.1 h).1, h⟩, fun h => h.2⟩
  · intro i hi
    obtain ⟨x, y, hx, hy, _⟩ := hcase i hi
    rw [keepOnly_getElem? z base m i x y hx hy, hx]
    by_cases hyz : y = z
    · rw [if_pos hyz, if_pos (Finset.mem_filter.2 ⟨Finset.mem_range.2 hi, by rw [hy, hyz]⟩)]
    · rw [if_neg hyz, if_neg]
      intro h
      have h' := (Finset.mem_filter.1 h).2
      rw [hy] at h'
      exact hyz (Option.some.inj h')
  · refine ⟨by rw [hkl, hl], fun i u v hu hv => ?_, fun q hq => hm.2.2 q (List.mem_cons_of_mem _ hq)⟩
    have hi : i < base.length := by rw [← hkl]; exact (List.getElem?_eq_some_iff.1 hu).1
    obtain ⟨x, y, hx, hy, hxz, h1, h2⟩ := hcase i hi
    rw [hy] at hv
    obtain rfl := Option.some.inj hv
    rw [keepOnly_getElem? z base m i x y hx hy] at hu
    have hu' := Option.some.inj hu
    split at hu'
    · rename_i hyz
      exact ⟨fun _ => hyz.trans hu', fun h => absurd (hu'.trans h) hze⟩
    · rename_i hyz
      subst hu'
      refine ⟨h1, fun h => ?_⟩
      rcases h2 h with h | h | h
      · exact .inl h
      · exact absurd h hyz
      · exact .inr h

/-- putting it together again -/
theorem alloy_join {S : Finset ℕ} {s m : List ℤ} (hS : ∀ i ∈ S, base[i]? = some e) (hc : S.card = n) (hs : Spec.Subst base S z s)
    (hm : Spec.Alloy s e L m) : Spec.Alloy base e ((z, n) :: L) m := by
  have hl : m.length = base.length := by rw [hm.1, hs.1]
  have hsites : ∀ i, m[i]? = some z ↔ i ∈ S := by
    intro i
    constructor
    · intro h
      have hi : i < base.length := by rw [← hl]; exact (List.getElem?_eq_some_iff.1 h).1
      have h1 := hs.2 i hi
      by_contra hiS
      rw [if_neg hiS, List.getElem?_eq_getElem hi] at h1
      have hne : base[i] ≠ z := fun h => hz (h ▸ List.getElem_mem hi)
      obtain ⟨h2, h3⟩ := hm.2.1 i _ _ h1 h
      by_cases he : base[i] = e
      · rcases h3 he with h | h
        · exact hze h
        · exact hzL h
      · exact hne (h2 he).symm
    · intro hiS
      have hi : i < base.length := (List.getElem?_eq_some_iff.1 (hS i hiS)).1
      have h1 := hs.2 i hi
      rw [if_pos hiS] at h1
      have hy := List.getElem?_eq_getElem (l := m) (i := i) (by omega)
      rw [hy, (hm.2.1 i _ _ h1 hy).1 hze]
  refine ⟨hl, fun i x y hx hy => ?_, fun q hq => ?_⟩
  · have hi : i < base.length := (List.getElem?_eq_some_iff.1 hx).1
    have h1 := hs.2 i hi
    by_cases hiS : i ∈ S
    · have := (hsites i).2 hiS
      rw [hy] at this
      have h2 := hS i hiS
      rw [hx] at h2
      exact ⟨fun h => absurd (Option.some.inj h2) h, fun _ => .inr (by rw [Option.some.inj this]; simp)⟩
    · rw [if_neg hiS, hx] at h1
      obtain ⟨h2, h3⟩ := hm.2.1 i _ _ h1 hy
      refine ⟨h2, fun h => ?_⟩
      rcases h3 h with h | h
      · exact .inl h
      · exact .inr (by rw [List.map_cons]; exact List.mem_cons_of_mem _ h)
  · rcases List.mem_cons.1 hq with rfl | hq
    · rw [← hc]; exact count_sites hsites
    · exact hm.2.2 q hq

end

theorem alloy_gather {base : List ℤ} {e : ℤ} {L : List (ℤ × ℕ)} {m : List ℤ} (hm : Spec.Alloy base e L m) {p : List ℕ}
    (hp : IsPerm base.length p) : Spec.Alloy (gather base p) e L (gather m p) := by
  have hlt : ∀ i ∈ p, i < m.length := by rw [hm.1]; exact hp.lt
  refine ⟨by rw [gather_length hlt, gather_length hp.lt], fun k x y hx hy => ?_, fun q hq => ?_⟩
  · rw [gather_getElem? hp.lt] at hx
    rw [gather_getElem? hlt] at hy
    cases hk : p[k]? with
    | none => rw [hk] at hx; cases hx
    | some i =>
      rw [hk] at hx hy
      exact hm.2.1 i x y hx hy
  · rw [(gather_perm (by rw [hm.1]; exact hp)).count_eq]; exact hm.2.2 q hq

theorem alloy_nil {base : List ℤ} {e : ℤ} {m : List ℤ} : Spec.Alloy base e [] m ↔ m = base := by
  constructor
  · rintro ⟨h1, h2, -⟩
    apply List.ext_getElem h1
    intro i hi hi'
    have := h2 i _ _ (List.getElem?_eq_getElem hi') (List.getElem?_eq_getElem hi)
    by_cases he : base[i] = e
    · rcases this.2 he with h | h
      · rw [h, he]
      · simp at h
    · exact this.1 he
  · rintro rfl
    refine ⟨rfl, fun i x y hx hy => ?_, by simp⟩
    rw [hx] at hy
    obtain rfl := Option.some.inj hy
    exact ⟨fun _ => rfl, fun h => .inl h⟩

/-! ### the generators of the intermediate structures -/

theorem perms_mem {c : GCell} {ops : List Spec.Op} {wy : List String} {g : OGen} (h : GenSetup c ops wy g) {pos : List (V3 ℚ)}
    (hpos : c.positions = pos) (p : List ℕ) : p ∈ g.perms ↔ ∃ σ ∈ Spec.SiteSyms sameKey pos ops, toRow σ = p := by
  classical
  subst hpos
  obtain ⟨_, _, hF, _⟩ := h.rows
  rw [← List.mem_toFinset, rows_eq_image hF]
  simp

section
variable {hash : List ℤ → ℕ} {spg : GCell → List (M3 ℤ × V3 ℚ)} {wy : GCell → List String} {ele : Specie} {pos : List (V3 ℚ)}
  {all : List Spec.Op} (hk : (pos.map siteKey).Nodup)
  (hfind : ∀ c : GCell, c.positions = pos → c.numbers.length = pos.length → Spec.FindsAll sameKey pos all (spg c) c.numbers)
include hk hfind

theorem steps_setup {c : GCell} (hc : Built c) (hp : c.positions = pos) : ∃ g, GenSetup c (spg c) (wy c) g ∧
    ∀ p, p ∈ g.perms ↔ (∃ σ ∈ Spec.SiteSyms sameKey pos all, toRow σ = p) ∧ gather c.numbers p = c.numbers := by
  have hlen : c.numbers.length = pos.length := by rw [hc.length, hp]
  obtain ⟨h1, h2⟩ := hfind c hp hlen
  obtain ⟨rows, hnew, _, _⟩ := ogen_new (wy := wy c) hc (by rw [hp]; exact hk) (by rw [hp]; exact h1)
  have hs : GenSetup c (spg c) (wy c) ⟨c, rows, wy c⟩ := ⟨hc, by rw [hp]; exact hk, by rw [hp]; exact h1, hnew⟩
  refine ⟨_, hs, fun p => ?_⟩
  rw [perms_mem hs hp]
  constructor
  · rintro ⟨σ, hσ, rfl⟩
    obtain ⟨h3, h4⟩ := (h2 σ).1 hσ
    exact ⟨⟨σ, h3, rfl⟩, (gather_toRow σ hlen).2 h4⟩
  · rintro ⟨⟨σ, hσ, rfl⟩, h⟩
    exact ⟨σ, (h2 σ).2 ⟨hσ, (gather_toRow σ hlen).1 h⟩, rfl⟩

end

theorem forall₂_pairwise {α β : Type _} {R : α → β → Prop} {Q : α → α → Prop} {Q' : β → β → Prop}
    (h : ∀ a b a' b', R a b → R a' b' → Q a a' → Q' b b') {l : List α} {m : List β} (hF : List.Forall₂ R l m) (hl : l.Pairwise Q) :
    m.Pairwise Q' := by
  induction hF with
  | nil => exact .nil
  | cons hab hF ih =>
    rw [List.pairwise_cons] at hl ⊢
    refine ⟨fun b' hb' => ?_, ih hl.2⟩
    obtain ⟨a', ha', hR⟩ := forall₂_mem_right hF hb'
    exact h _ _ _ _ hab hR (hl.1 a' ha')

theorem subst_mem {base : List ℤ} {S : Finset ℕ} {z : ℤ} {m : List ℤ} (h : Spec.Subst base S z m) {x : ℤ} (hx : x ∈ m) : x ∈ base ∨ x = z := by
  obtain ⟨i, hi⟩ := List.mem_iff_getElem?.1 hx
  have hlt : i < base.length := by rw [← h.1]; exact (List.getElem?_eq_some_iff.1 hi).1
  have := h.2 i hlt
  rw [hi] at this
  split at this
  · exact .inr (Option.some.inj this)
  · exact .inl (List.mem_of_getElem? this.symm)

/-- undoing a substitution -/
theorem subst_erase {base : List ℤ} {e z : ℤ} {S : Finset ℕ} {m : List ℤ} (hz : z ∉ base) (hS : ∀ i ∈ S, base[i]? = some e)
    (h : Spec.Subst base S z m) : m.map (fun x => if x = z then e else x) = base := by
  apply List.ext_getElem?
  intro i
  rw [List.getElem?_map]
  by_cases hi : i < base.length
  · rw [h.2 i hi]
    split
    · rename_i hiS
      rw [hS i hiS]; simp
    · rw [List.getElem?_eq_getElem hi, Option.map_some, if_neg (fun h' : base[i] = z => hz (h' ▸ List.getElem_mem hi))]
  · rw [List.getElem?_eq_none (by rw [h.1]; omega), List.getElem?_eq_none (by omega)]
    rfl

/-- the species of the steps with their numbers -/
def stepList (L : List (Specie × ℕ)) : List (ℤ × ℕ) := L.map fun q => (q.1.Z, q.2)

theorem stepList_fst (L : List (Specie × ℕ)) : (stepList L).map Prod.fst = L.map (·.1.Z) := by
  unfold stepList; rw [List.map_map]; rfl

theorem steps_main {hash : List ℤ → ℕ} {spg : GCell → List (M3 ℤ × V3 ℚ)} {wy : GCell → List String} {ele : Specie} {pos : List (V3 ℚ)}
    {all : List Spec.Op} (hk : (pos.map siteKey).Nodup)
    (hfind : ∀ c : GCell, c.positions = pos → c.numbers.length = pos.length → Spec.FindsAll sameKey pos all (spg c) c.numbers) :
    ∀ (L : List (Specie × ℕ)) (c : GCell), Built c → c.positions = pos → (L.map (·.1.Z)).Nodup →
      (∀ z ∈ L.map (·.1.Z), z ∉ c.numbers ∧ z ≠ ele.Z) →
      Set.InjOn hash {m | m.length = pos.length ∧ ∀ x ∈ m, x ∈ c.numbers ∨ x ∈ L.map (·.1.Z)} →
      ∃ cells g, alloySteps hash spg wy ele L c = .ok cells ∧ GenSetup c (spg c) (wy c) g ∧
        (∀ d ∈ cells, Built d ∧ d.lattice = c.lattice ∧ d.positions = c.positions) ∧
        Spec.Transversal (Rel g.perms) {m | Spec.Alloy c.numbers ele.Z (stepList L) m} (cells.map (·.numbers))
  | [], c, hc, hp, _, _, _ => by
    obtain ⟨g, hs, _⟩ := steps_setup (wy := wy) hk hfind hc hp
    obtain ⟨_, _, _, hG⟩ := hs.rows
    refine ⟨[c], g, rfl, hs, fun d hd => ?_, ?_, ?_, ?_⟩
    · rw [List.mem_singleton.1 hd]; exact ⟨hc, rfl, rfl⟩
    · intro m hm
      rw [List.mem_singleton.1 hm]
      exact alloy_nil.2 rfl
    · intro m hm
      rw [alloy_nil.1 hm]
      exact ⟨c.numbers, by simp, Rel.refl hG hc.length⟩
    · simp
  | (sp, n) :: L, c, hc, hp, hnd, hfresh, hinj => by
    obtain ⟨g, hs, hperm⟩ := steps_setup (wy := wy) hk hfind hc hp
    obtain ⟨hi0, _, hF, hG⟩ := hs.rows
    rw [List.map_cons, List.nodup_cons] at hnd
    obtain ⟨hz, hze⟩ := hfresh sp.Z (by simp)
    have hzL : sp.Z ∉ (stepList L).map Prod.fst := by rw [stepList_fst]; exact hnd.1
    have hN : c.numbers.length = c.positions.length := hc.length
    -- the first step
    have hlen1 : ∀ m ∈ SubstOn c (fun i => c.numbers[i]? = some ele.Z) sp.Z n, m.length = c.positions.length := by
      rintro m ⟨S, _, _, h3⟩; rw [h3.1, hN]
    have hent1 : ∀ m ∈ SubstOn c (fun i => c.numbers[i]? = some ele.Z) sp.Z n, ∀ x ∈ m, x ∈ c.numbers ∨ x = sp.Z := by
      rintro m ⟨S, _, _, h3⟩ x hx; exact subst_mem h3 hx
    obtain ⟨out, o1, o2, o3⟩ := C21_nodup_of_ele hash c (spg c) (wy c) g hs ele n sp
      (SubstOn c (fun i => c.numbers[i]? = some ele.Z) sp.Z n) rfl (hinj.mono (by
        rintro m ⟨hm, d, hd, hdm⟩
        obtain ⟨p, hpp, rfl⟩ := (rel_iff_geom hs.distinct hs.contract hF d m (hlen1 d hd) hm).2 hdm
        refine ⟨by rw [hm, hp], fun x hx => ?_⟩
        have := (gather_perm (xs := d) (by rw [hlen1 d hd]; exact hG.perm p hpp)).subset hx
        rcases hent1 d hd x this with h | h
        · exact .inl h
        · exact .inr (by simp [h])))
    have o3' := o3.congr (R' := Rel g.perms) fun a ha b hb =>
      (rel_iff_geom hs.distinct hs.contract hF a b (hlen1 a ha) (hlen1 b hb)).symm
    have hbuilt : ∀ s ∈ out, Built s := by
      intro s hso
      have h1 := o1
      unfold OGen.genNodupOfEle at h1
      obtain ⟨dup, d1, d2⟩ := bind_ok h1
      obtain ⟨_, _, h3⟩ := mapM_mem_ok _ _ _ d1 s (gen2NodupLoop_subset hash g.perms dup [] out d2 s hso)
      exact ⟨_, _, _, h3⟩
    -- the later steps
    obtain ⟨outs, m1, m2⟩ := mapM_forall₂ (alloySteps hash spg wy ele L)
      (fun s o => s ∈ out ∧ ∃ gs, GenSetup s (spg s) (wy s) gs ∧ (∀ d ∈ o, Built d ∧ d.lattice = s.lattice ∧ d.positions = s.positions) ∧
        Spec.Transversal (Rel gs.perms) {m | Spec.Alloy s.numbers ele.Z (stepList L) m} (o.map (·.numbers))) out (by
      intro s hso
      have hsD := o3.1 s.numbers (List.mem_map_of_mem hso)
      obtain ⟨cells, gs, r1, r2, r3, r4⟩ := steps_main (hash := hash) (spg := spg) (wy := wy) (ele := ele) hk hfind L s (hbuilt s hso)
        ((o2 s hso).2.trans hp) hnd.2
        (fun z hzm => by
          obtain ⟨h1, h2⟩ := hfresh z (List.mem_cons_of_mem _ hzm)
          refine ⟨fun h => ?_, h2⟩
          rcases hent1 _ hsD z h with h | h
          · exact h1 h
          · exact hnd.1 (h ▸ hzm))
        (hinj.mono (by
          rintro m ⟨h1, h2⟩
          refine ⟨h1, fun x hx => ?_⟩
          rcases h2 x hx with h | h
          · rcases hent1 _ hsD x h with h | h
            · exact .inl h
            · exact .inr (by simp [h])
          · exact .inr (List.mem_cons_of_mem _ h)))
      exact ⟨cells, r1, hso, gs, r2, r3, r4⟩)
    have hsplit : ∀ s ∈ out, ∃ S : Finset ℕ, (∀ i ∈ S, c.numbers[i]? = some ele.Z) ∧ S.card = n ∧ Spec.Subst c.numbers S sp.Z s.numbers :=
      fun s hso => o3.1 s.numbers (List.mem_map_of_mem hso)
    -- an image of a member of one group is the image of the intermediate structure
    have hback : ∀ s ∈ out, ∀ s' ∈ out, ∀ r r' : List ℤ, Spec.Alloy s.numbers ele.Z (stepList L) r → Spec.Alloy s'.numbers ele.Z (stepList L) r' →
        ∀ p ∈ g.perms, gather r p = r' → gather s.numbers p = s'.numbers := by
      intro s hso s' hso' r r' hr hr' p hpp e
      obtain ⟨S, _, _, h3⟩ := hsplit s hso
      obtain ⟨S', _, _, h3'⟩ := hsplit s' hso'
      rw [← keepOnly_alloy hz hze hzL h3 hr, gather_keepOnly (by rw [hr.1, h3.1]) (by rw [hN]; exact (hG.perm p hpp).lt),
        ((hperm p).1 hpp).2, e, keepOnly_alloy hz hze hzL h3' hr']
    refine ⟨outs.flatten, g, ?_, hs, ?_, ?_, ?_, ?_⟩
    · unfold alloySteps
      simp only [hs.made, o1, m1, bind, Except.bind, pure, Except.pure]
    · intro d hd
      obtain ⟨o, ho, hdo⟩ := List.mem_flatten.1 hd
      obtain ⟨s, _, hso, gs, _, h3, _⟩ := forall₂_mem_right m2 ho
      obtain ⟨h4, h5, h6⟩ := h3 d hdo
      exact ⟨h4, h5.trans (o2 s hso).1, h6.trans (o2 s hso).2⟩
    · intro m hm
      obtain ⟨d, hd, rfl⟩ := List.mem_map.1 hm
      obtain ⟨o, ho, hdo⟩ := List.mem_flatten.1 hd
      obtain ⟨s, _, hso, gs, _, _, h4⟩ := forall₂_mem_right m2 ho
      obtain ⟨S, h5, h6, h7⟩ := hsplit s hso
      exact alloy_join hz hze hzL h5 h6 h7 (h4.1 _ (List.mem_map_of_mem hdo))
    · intro m hm
      have hm' : Spec.Alloy c.numbers ele.Z ((sp.Z, n) :: stepList L) m := hm
      obtain ⟨hS, hA⟩ := alloy_split hz hze hzL hm'
      obtain ⟨s', hs', hrel⟩ := o3'.2.1 _ hS
      obtain ⟨s, hso, rfl⟩ := List.mem_map.1 hs'
      obtain ⟨q, hq, hqe⟩ := hrel.symm hG (by rw [(hbuilt s hso).length, (o2 s hso).2])
      have hkl : (keepOnly sp.Z c.numbers m).length = c.positions.length := by rw [keepOnly_length _ hm'.1, hN]
      have hA' := alloy_gather hA (p := q) (by rw [hkl]; exact hG.perm q hq)
      rw [hqe] at hA'
      obtain ⟨o, ho, _, gs, k1, k2, k3⟩ := forall₂_mem_left m2 hso
      obtain ⟨r, hr, hrr⟩ := k3.2.1 _ hA'
      obtain ⟨d, hd, rfl⟩ := List.mem_map.1 hr
      refine ⟨d.numbers, List.mem_map_of_mem (List.mem_flatten.2 ⟨o, ho, hd⟩), ?_⟩
      have hdl : d.numbers.length = c.positions.length := by
        rw [((k2 d hd).1).length, (k2 d hd).2.2, (o2 s hso).2]
      have hsub : Rel g.perms d.numbers (gather m q) := by
        obtain ⟨p, hpp, e⟩ := hrr
        obtain ⟨gs', ks1, ks2⟩ := steps_setup (wy := wy) hk hfind (hbuilt s hso) ((o2 s hso).2.trans hp)
        have : gs' = gs := Except.ok.inj (ks1.made.symm.trans k1.made)
        subst this
        obtain ⟨u1, u2⟩ := (ks2 p).1 hpp
        refine ⟨p, (hperm p).2 ⟨u1, ?_⟩, e⟩
        obtain ⟨S, v1, _, v3⟩ := hsplit s hso
        have := congrArg (List.map fun x => if x = sp.Z then ele.Z else x) u2
        rwa [← gather_map, subst_erase hz v1 v3] at this
      have hmq : Rel g.perms m (gather m q) := ⟨q, hq, rfl⟩
      exact hsub.trans hG hdl (hmq.symm hG (by rw [hm'.1, hN]))
    · rw [List.map_flatten, List.pairwise_flatten]
      constructor
      · intro l hl
        obtain ⟨o, ho, rfl⟩ := List.mem_map.1 hl
        obtain ⟨s, _, hso, gs, k1, _, k3⟩ := forall₂_mem_right m2 ho
        refine k3.2.2.imp_of_mem ?_
        intro a b ha hb hab
        obtain ⟨gs', ks1, ks2⟩ := steps_setup (wy := wy) hk hfind (hbuilt s hso) ((o2 s hso).2.trans hp)
        have : gs' = gs := Except.ok.inj (ks1.made.symm.trans k1.made)
        subst this
        have key : ∀ a b : List ℤ, Spec.Alloy s.numbers ele.Z (stepList L) a → Spec.Alloy s.numbers ele.Z (stepList L) b → Rel g.perms a b → Rel gs'.perms a b := by
          rintro a b ha hb ⟨p, hpp, e⟩
          exact ⟨p, (ks2 p).2 ⟨((hperm p).1 hpp).1, hback s hso s hso a b ha hb p hpp e⟩, e⟩
        exact ⟨fun h => hab.1 (key a b (k3.1 a ha) (k3.1 b hb) h), fun h => hab.2 (key b a (k3.1 b hb) (k3.1 a ha) h)⟩
      · rw [List.pairwise_map]
        have hpw := o3'.2.2
        rw [List.pairwise_map] at hpw
        refine forall₂_pairwise ?_ m2 hpw
        rintro s o s' o' ⟨hso, gs, _, _, h4⟩ ⟨hso', gs', _, _, h4'⟩ hQ r hr r' hr'
        refine ⟨?_, ?_⟩
        · rintro ⟨p, hpp, e⟩
          exact hQ.1 ⟨p, hpp, hback s hso s' hso' r r' (h4.1 r hr) (h4'.1 r' hr') p hpp e⟩
        · rintro ⟨p, hpp, e⟩
          exact hQ.2 ⟨p, hpp, hback s' hso' s hso r' r (h4'.1 r' hr') (h4.1 r hr) p hpp e⟩

/-! ### theorems -/

section
variable {hash : List ℤ → ℕ} {spg : GCell → List (M3 ℤ × V3 ℚ)} {wy : GCell → List String} {ele : Specie} {c : GCell}
  {all : List Spec.Op}

theorem alloy_length {L : List (Specie × ℕ)} (hc : Built c) {m : List ℤ} (h : Spec.Alloy c.numbers ele.Z (stepList L) m) :
    m.length = c.positions.length := h.1.trans hc.length

/-- Substituting species after species, each step by `gen_nodup_of_ele` on every structure found so far, yields every alloy of the
composition up to symmetry, and no two equivalent ones. -/
theorem C117_exact (hash : List ℤ → ℕ) (spg : GCell → List (M3 ℤ × V3 ℚ)) (wy : GCell → List String) (ele : Specie)
    (L : List (Specie × ℕ)) (c : GCell) (all : List Spec.Op) (hc : Built c) (hk : (c.positions.map siteKey).Nodup)
    (hfind : ∀ d : GCell, d.positions = c.positions → d.numbers.length = c.positions.length →
      Spec.FindsAll sameKey c.positions all (spg d) d.numbers)
    (hnd : (L.map (·.1.Z)).Nodup) (hfresh : ∀ z ∈ L.map (·.1.Z), z ∉ c.numbers ∧ z ≠ ele.Z)
    (hinj : Set.InjOn hash {m | m.length = c.positions.length ∧ ∀ x ∈ m, x ∈ c.numbers ∨ x ∈ L.map (·.1.Z)}) :
    ∃ cells, alloySteps hash spg wy ele L c = .ok cells ∧
      (∀ d ∈ cells, d.lattice = c.lattice ∧ d.positions = c.positions) ∧
      Spec.Transversal (Spec.GeomEquiv siteKey c.positions (spg c))
        {m | Spec.Alloy c.numbers ele.Z (L.map fun q => (q.1.Z, q.2)) m} (cells.map (·.numbers)) := by
  obtain ⟨cells, g, h1, h2, h3, h4⟩ := steps_main (wy := wy) (ele := ele) hk hfind L c hc rfl hnd hfresh hinj
  obtain ⟨_, _, hF, _⟩ := h2.rows
  exact ⟨cells, h1, fun d hd => (h3 d hd).2, h4.congr fun a ha b hb =>
    rel_iff_geom h2.distinct h2.contract hF a b (alloy_length hc ha) (alloy_length hc hb)⟩

theorem rel_transversals {g : OGen} {ops : List Spec.Op} {w : List String} (h : GenSetup c ops w g) {D : Set (List ℤ)} (hD : ∀ m ∈ D, m.length = c.positions.length)
    {o₁ o₂ : List (List ℤ)} (h₁ : Spec.Transversal (Rel g.perms) D o₁) (h₂ : Spec.Transversal (Rel g.perms) D o₂) : o₁.length = o₂.length := by
  obtain ⟨_, _, _, hG⟩ := h.rows
  exact transversal_length (fun a ha b _ h => h.symm hG (hD a ha)) (fun a ha b _ d _ h h' => h.trans hG (hD a ha) h') h₁ h₂

/-- The number of structures does not depend on the order in which the species are substituted. -/
theorem C117_order (hash : List ℤ → ℕ) (spg : GCell → List (M3 ℤ × V3 ℚ)) (wy : GCell → List String) (ele : Specie)
    (L L' : List (Specie × ℕ)) (hL : L.Perm L') (c : GCell) (all : List Spec.Op) (hc : Built c) (hk : (c.positions.map siteKey).Nodup)
    (hfind : ∀ d : GCell, d.positions = c.positions → d.numbers.length = c.positions.length →
      Spec.FindsAll sameKey c.positions all (spg d) d.numbers)
    (hnd : (L.map (·.1.Z)).Nodup) (hfresh : ∀ z ∈ L.map (·.1.Z), z ∉ c.numbers ∧ z ≠ ele.Z)
    (hinj : Set.InjOn hash {m | m.length = c.positions.length ∧ ∀ x ∈ m, x ∈ c.numbers ∨ x ∈ L.map (·.1.Z)}) :
    ∃ cells cells', alloySteps hash spg wy ele L c = .ok cells ∧ alloySteps hash spg wy ele L' c = .ok cells' ∧
      cells.length = cells'.length := by
  have hp : (L.map (·.1.Z)).Perm (L'.map (·.1.Z)) := hL.map _
  obtain ⟨cells, g, h1, h2, _, h4⟩ := steps_main (wy := wy) (ele := ele) hk hfind L c hc rfl hnd hfresh hinj
  obtain ⟨cells', g', h1', h2', _, h4'⟩ := steps_main (hash := hash) (wy := wy) (ele := ele) hk hfind L' c hc rfl (hp.nodup_iff.1 hnd)
    (fun z hz => hfresh z (hp.mem_iff.2 hz)) (hinj.mono (by rintro m ⟨hm, hm'⟩; exact ⟨hm, fun x hx => (hm' x hx).imp_right hp.mem_iff.2⟩))
  have hg : g' = g := Except.ok.inj (h2'.made.symm.trans h2.made)
  subst hg
  have hD : {m | Spec.Alloy c.numbers ele.Z (stepList L) m} = {m | Spec.Alloy c.numbers ele.Z (stepList L') m} := by
    have hq : (stepList L).Perm (stepList L') := hL.map _
    ext m
    simp only [Set.mem_ofPred_eq, Spec.Alloy, hq.mem_iff, (hq.map Prod.fst).mem_iff]
  rw [← hD] at h4'
  have := rel_transversals h2 (fun m hm => alloy_length hc hm) h4 h4'
  rw [List.length_map, List.length_map] at this
  exact ⟨cells, cells', h1, h1', this⟩

theorem alloy_trinary {base : List ℤ} {e z w : ℤ} (hb : ∀ x ∈ base, x = e) (hz : z ≠ e) (hw : w ≠ e) (hzw : z ≠ w) (n k : ℕ) (m : List ℤ) :
    Spec.Alloy base e [(z, n), (w, k)] m ↔ ∃ S T : Finset ℕ, S ⊆ Finset.range base.length ∧ T ⊆ Finset.range base.length ∧
      Disjoint S T ∧ S.card = n ∧ T.card = k ∧ Spec.Subst2 base S z T w m := by
  have hbe : ∀ i < base.length, base[i]? = some e := fun i hi => by
    rw [List.getElem?_eq_getElem hi, hb _ (List.getElem_mem hi)]
  constructor
  · rintro ⟨hl, h1, h2⟩
    have hlt : ∀ (i : ℕ) (x : ℤ), m[i]? = some x → i < base.length := fun i x h => by
      rw [← hl]; exact (List.getElem?_eq_some_iff.1 h).1
    have hcount : ∀ x : ℤ, ((Finset.range base.length).filter fun i => m[i]? = some x).card = m.count x := fun x =>
      (count_sites fun i => by
        rw [Finset.mem_filter, Finset.mem_range]
        exact ⟨fun h => ⟨hlt i x h, h⟩, fun h => h.2⟩).symm
    refine ⟨(Finset.range base.length).filter fun i => m[i]? = some z, (Finset.range base.length).filter fun i => m[i]? = some w,
      Finset.filter_subset _ _, Finset.filter_subset _ _, ?_, ?_, ?_, hl, fun i hi => ?_⟩
    · rw [Finset.disjoint_left]
      intro i hi hi'
      have := (Finset.mem_filter.1 hi).2.symm.trans (Finset.mem_filter.1 hi').2
      exact hzw (Option.some.inj this)
    · rw [hcount]; exact h2 (z, n) (by simp)
    · rw [hcount]; exact h2 (w, k) (by simp)
    · have hy := List.getElem?_eq_getElem (l := m) (i := i) (by omega)
      simp only [Finset.mem_filter, Finset.mem_range, hi, true_and]
      have := (h1 i e _ (hbe i hi) hy).2 rfl
      rw [hy, hbe i hi]
      simp only [Option.some.injEq, List.map_cons, List.map_nil, List.mem_cons, List.not_mem_nil, or_false] at this ⊢
      split
      · rename_i h3
        rw [h3]
      · split
        · rename_i h4
          rw [h4]
        · rename_i h3 h4
          congr 1
          tauto
  · rintro ⟨S, T, hS, hT, hST, hn, hk, hl, hm⟩
    have hlt : ∀ (i : ℕ) (x : ℤ), m[i]? = some x → i < base.length := fun i x h => by
      rw [← hl]; exact (List.getElem?_eq_some_iff.1 h).1
    refine ⟨hl, fun i x y hx hy => ?_, ?_⟩
    · have hi := hlt i y hy
      rw [hbe i hi] at hx
      obtain rfl := Option.some.inj hx
      refine ⟨fun h => absurd rfl h, fun _ => ?_⟩
      rw [hm i hi, hbe i hi] at hy
      split at hy
      · exact .inr (by simp [← Option.some.inj hy])
      · split at hy
        · exact .inr (by simp [← Option.some.inj hy])
        · exact .inl (Option.some.inj hy).symm
    · intro q hq
      rw [List.mem_cons, List.mem_singleton] at hq
      rcases hq with rfl | rfl
      · rw [← hn]
        refine count_sites fun i => ⟨fun h => ?_, fun h => ?_⟩
        · have hi := hlt i _ h
          rw [hm i hi, hbe i hi] at h
          split at h
          · assumption
          · split at h
            · exact absurd (Option.some.inj h).symm hzw
            · exact absurd (Option.some.inj h).symm hz
        · rw [hm i (Finset.mem_range.1 (hS h)), if_pos h]
      · rw [← hk]
        refine count_sites fun i => ⟨fun h => ?_, fun h => ?_⟩
        · have hi := hlt i _ h
          rw [hm i hi, hbe i hi] at h
          split at h
          · exact absurd (Option.some.inj h) hzw
          · split at h
            · assumption
            · exact absurd (Option.some.inj h).symm hw
        · rw [hm i (Finset.mem_range.1 (hT h)), if_neg (fun h' => Finset.disjoint_left.1 hST h' h), if_pos h]

/-- For a crystal of one element, the two-step way and `gen_nodup_trinary_alloy` find equally many structures. -/
theorem C117_trinary (hash : List ℤ → ℕ) (spg : GCell → List (M3 ℤ × V3 ℚ)) (wy : GCell → List String) (ele sp1 sp2 : Specie)
    (n1 n2 : ℕ) (c : GCell) (all : List Spec.Op) (g : OGen) (hs : GenSetup c (spg c) (wy c) g)
    (hfind : ∀ d : GCell, d.positions = c.positions → d.numbers.length = c.positions.length →
      Spec.FindsAll sameKey c.positions all (spg d) d.numbers)
    (hpure : ∀ x ∈ c.numbers, x = ele.Z) (h1 : sp1.Z ≠ ele.Z) (h2 : sp2.Z ≠ ele.Z) (h12 : sp1.Z ≠ sp2.Z)
    (hinj : Set.InjOn hash {m | m.length = c.positions.length ∧ ∀ x ∈ m, x = ele.Z ∨ x = sp1.Z ∨ x = sp2.Z}) :
    ∃ cells cells', alloySteps hash spg wy ele [(sp1, n1), (sp2, n2)] c = .ok cells ∧
      g.genNodupTrinary hash sp1 n1 sp2 n2 = .ok cells' ∧ cells.length = cells'.length := by
  obtain ⟨_, _, hF, hG⟩ := hs.rows
  obtain ⟨cells, g', e1, e2, _, e4⟩ := steps_main (hash := hash) (wy := wy) (ele := ele) hs.distinct hfind [(sp1, n1), (sp2, n2)] c hs.built rfl
    (by simpa using h12)
    (by
      intro z hz
      simp only [List.map_cons, List.map_nil, List.mem_cons, List.not_mem_nil, or_false] at hz
      rcases hz with rfl | rfl
      · exact ⟨fun h => h1 (hpure _ h), h1⟩
      · exact ⟨fun h => h2 (hpure _ h), h2⟩)
    (hinj.mono (by rintro m ⟨hm, hm'⟩; exact ⟨hm, fun x hx => (hm' x hx).imp (hpure x) (by simp)⟩))
  have hg : g' = g := Except.ok.inj (e2.made.symm.trans hs.made)
  subst hg
  have hD : {m | Spec.Alloy c.numbers ele.Z (stepList [(sp1, n1), (sp2, n2)]) m} = {m | ∃ S T : Finset ℕ, S ⊆ Finset.range c.numbers.length ∧
      T ⊆ Finset.range c.numbers.length ∧ Disjoint S T ∧ S.card = n1 ∧ T.card = n2 ∧ Spec.Subst2 c.numbers S sp1.Z T sp2.Z m} := by
    ext m
    exact alloy_trinary hpure h1 h2 h12 n1 n2 m
  have hent : ∀ m ∈ {m | Spec.Alloy c.numbers ele.Z (stepList [(sp1, n1), (sp2, n2)]) m}, ∀ x ∈ m, x = ele.Z ∨ x = sp1.Z ∨ x = sp2.Z := by
    rintro m ⟨hl, hm, _⟩ x hx
    obtain ⟨i, hi⟩ := List.mem_iff_getElem?.1 hx
    have hlt : i < c.numbers.length := by rw [← hl]; exact (List.getElem?_eq_some_iff.1 hi).1
    have := (hm i _ _ (List.getElem?_eq_getElem hlt) hi).2 (hpure _ (List.getElem_mem hlt))
    simpa [stepList] using this
  obtain ⟨cells', u1, _, u3⟩ := C21_nodup_trinary hash c (spg c) (wy c) g' hs sp1 n1 sp2 n2 _ hD (hinj.mono (by
    rintro m ⟨hm, d, hd, hdm⟩
    have hdl : d.length = c.positions.length := alloy_length hs.built hd
    obtain ⟨p, hpp, rfl⟩ := (rel_iff_geom hs.distinct hs.contract hF d m hdl hm).2 hdm
    exact ⟨hm, fun x hx => hent d hd x ((gather_perm (xs := d) (by rw [hdl]; exact hG.perm p hpp)).subset hx)⟩))
  have u3' := u3.congr (R' := Rel g'.perms) fun a ha b hb =>
    (rel_iff_geom hs.distinct hs.contract hF a b (alloy_length hs.built ha) (alloy_length hs.built hb)).symm
  have := rel_transversals hs (fun m hm => alloy_length hs.built hm) e4 u3'
  rw [List.length_map, List.length_map] at this
  exact ⟨cells, cells', e1, u1, this⟩

end

/-! ### a symmetry finder as required: the operations of the empty lattice of sites which keep the decoration -/

/-- those operations which carry every atom onto an atom of the same element -/
def keepOps (all : List Spec.Op) (d : GCell) : List Spec.Op :=
  all.filter fun op => decide (∀ i j : Fin d.positions.length, siteKey (op.image d.positions[i]) = siteKey d.positions[j] →
    d.numbers[(i : ℕ)]? = d.numbers[(j : ℕ)]?)

theorem findsAll_keepOps {all : List Spec.Op} {d : GCell} (hk : (d.positions.map siteKey).Nodup)
    (hall : Spec.SymContract sameKey d.positions all) : Spec.FindsAll sameKey d.positions all (keepOps all d) d.numbers := by
  have hinj : ∀ i j : Fin d.positions.length, siteKey d.positions[i] = siteKey d.positions[j] → i = j := by
    intro i j h
    have := (List.Nodup.getElem_inj_iff hk (i := i) (j := j) (hi := by simp) (hj := by simp)).1 (by simpa using h)
    exact Fin.ext this
  have hidx : ∀ x ∈ d.positions, ∃ i : Fin d.positions.length, d.positions[i] = x := by
    intro x hx
    obtain ⟨i, hi, e⟩ := List.mem_iff_getElem.1 hx
    exact ⟨⟨i, hi⟩, e⟩
  have hmem : ∀ op, op ∈ keepOps all d ↔ op ∈ all ∧ ∀ i j : Fin d.positions.length,
      sameKey (op.image d.positions[i]) d.positions[j] → d.numbers[(i : ℕ)]? = d.numbers[(j : ℕ)]? := by
    intro op
    unfold keepOps sameKey
    rw [List.mem_filter, decide_eq_true_iff]
  have hin : ∀ i : Fin d.positions.length, d.positions[i] ∈ d.positions := fun i => List.getElem_mem _
  refine ⟨⟨?_, ?_, ?_, ?_, ?_⟩, fun σ => ?_⟩
  · intro g hg; exact hall.maps g ((hmem g).1 hg).1
  · intro g hg; exact hall.inj g ((hmem g).1 hg).1
  · obtain ⟨g, hg, h⟩ := hall.one
    refine ⟨g, (hmem g).2 ⟨hg, fun i j hij => ?_⟩, h⟩
    rw [hinj i j ((h _ (hin i)).symm.trans hij)]
  · intro f hf g hg
    obtain ⟨hf1, hf2⟩ := (hmem f).1 hf
    obtain ⟨hg1, hg2⟩ := (hmem g).1 hg
    obtain ⟨h, hh, hm⟩ := hall.mul f hf1 g hg1
    refine ⟨h, (hmem h).2 ⟨hh, fun i j hij => ?_⟩, hm⟩
    obtain ⟨y, hy, h1⟩ := hall.maps g hg1 _ (hin i)
    obtain ⟨k, rfl⟩ := hidx y hy
    obtain ⟨z, hz, h2⟩ := hall.maps f hf1 _ (hin k)
    obtain ⟨l, rfl⟩ := hidx z hz
    have h3 := hm _ (hin i) _ (hin k) _ (hin l) h1 h2
    rw [hg2 i k h1, hf2 k l h2, hinj l j (h3.symm.trans hij)]
  · intro f hf
    obtain ⟨hf1, hf2⟩ := (hmem f).1 hf
    obtain ⟨g, hg, hi⟩ := hall.inv f hf1
    refine ⟨g, (hmem g).2 ⟨hg, fun i j hij => ?_⟩, hi⟩
    obtain ⟨y, hy, h1⟩ := hall.maps f hf1 _ (hin j)
    have h2 := hi _ (hin j) y hy h1
    have h3 := hall.inj g hg y hy _ (hin i) (h2.trans hij.symm)
    rw [h3] at h1
    exact (hf2 j i h1).symm
  · constructor
    · rintro ⟨op, hop, h⟩
      obtain ⟨h1, h2⟩ := (hmem op).1 hop
      exact ⟨⟨op, h1, h⟩, fun i => (h2 i (σ i) (h i)).symm⟩
    · rintro ⟨⟨op, hop, h⟩, hfix⟩
      refine ⟨op, (hmem op).2 ⟨hop, fun i j hij => ?_⟩, h⟩
      rw [← hinj (σ i) j ((h i).symm.trans hij)]
      exact (hfix i).symm

def exTi' : Specie := ⟨"Ti", 22⟩

/-- every hypothesis holds for the chain of four copper atoms with gold and titanium: two structures, in whichever order -/
theorem exAlloy_finds (d : GCell) (hd : d.positions = exChain.positions) (_ : d.numbers.length = exChain.positions.length) :
    Spec.FindsAll sameKey exChain.positions exOps (keepOps exOps d) d.numbers := by
  rw [← hd]
  exact findsAll_keepOps (by rw [hd]; exact exChain_keys) (by rw [hd]; exact exGen_setup.contract)

example : ∃ cells, alloySteps exHash (keepOps exOps) (fun _ => []) exCu [(exAu, 1), (exTi', 2)] exChain = .ok cells ∧
    (∀ d ∈ cells, d.lattice = exChain.lattice ∧ d.positions = exChain.positions) ∧
    Spec.Transversal (Spec.GeomEquiv siteKey exChain.positions (keepOps exOps exChain))
      {m | Spec.Alloy exChain.numbers exCu.Z [(79, 1), (22, 2)] m} (cells.map (·.numbers)) :=
  C117_exact exHash (keepOps exOps) (fun _ => []) exCu [(exAu, 1), (exTi', 2)] exChain exOps exChain_built exChain_keys exAlloy_finds
    (by decide +kernel) (by decide +kernel) (exHash_inj _)

example : (alloySteps exHash (keepOps exOps) (fun _ => []) exCu [(exAu, 1), (exTi', 2)] exChain).map (·.map (·.numbers)) =
    .ok [[79, 22, 22, 29], [79, 22, 29, 22]] := by decide +kernel
example : (alloySteps exHash (keepOps exOps) (fun _ => []) exCu [(exTi', 2), (exAu, 1)] exChain).map (·.map (·.numbers)) =
    .ok [[22, 22, 79, 29], [22, 79, 22, 29]] := by decide +kernel
example : (exGen.genNodupTrinary exHash exAu 1 exTi' 2).map List.length = .ok 2 := by decide +kernel

end Verif
