import Verif.Lemmas.Modified
import Verif.Lemmas.Mat
import Verif.Spec.Distance
import Verif.Props.Cell
import Verif.Props.Element

/-! # C42–C45: ModifiedCell as a list of sites, conversion, translation, copying -/

namespace Verif

open Spec

/-! ### every call preserves well-formedness and respects its footprint -/

theorem wf_empty : WF World.empty :=
  ⟨fun _ h => absurd h (Nat.not_lt_zero _), fun _ h => absurd h (Nat.not_lt_zero _), fun _ h => absurd h (Nat.not_lt_zero _)⟩

theorem extend_eq (c : ℕ) (ss : List ℕ) : ∀ w : World,
    ss.foldl (fun w s => w.setSites c (w.sitesOf c ++ [s])) w = w.setSites c (w.sitesOf c ++ ss) := by
  induction ss with
  | nil =>
    intro w
    simp only [List.foldl_nil, List.append_nil, World.setSites, World.sitesOf]
    rw [Function.update_eq_self]
  | cons s ss ih =>
    intro w
    rw [List.foldl_cons, ih, sitesOf_setSites_self, List.append_assoc]
    simp only [World.setSites, List.singleton_append]
    rw [Function.update_idem]

theorem pyGet_mem {l : List ℕ} {i : ℤ} {r : ℕ} (h : pyGet l i = .ok r) : r ∈ l := by
  unfold pyGet at h
  split at h
  · split at h
    · rename_i hx
      obtain rfl := Except.ok.inj h
      exact List.mem_of_getElem? hx
    · exact absurd h (by simp)
  · exact absurd h (by simp)

theorem step_effect {w : World} (hw : WF w) {op : MOp} (hv : Valid w op) : Effect w (w.step op).1 op.cells op.siteArgs := by
  cases op with
  | newSite p e =>
    simp only [World.step]
    cases h : Site.new p e with
    | error e => exact Effect.refl hw _ _
    | ok s => exact (onlySites_alloc w s).effect hw _ _
  | newCell L ps ns =>
    simp only [World.step, World.newCell]
    cases h : (ps.zip ns).mapM fun s => Site.new s.1 (.num s.2) with
    | error e => exact Effect.refl hw _ _
    | ok ss =>
      obtain ⟨h1, h2, h3, -⟩ := allocSites_spec ss w
      refine effect_allocCell hw h1 L ?_ _ _ (by simp [MOp.cells])
      intro r hr
      rw [h3] at hr
      have := List.mem_range'_1.1 hr
      omega
  | setPosition s p => exact effect_setSite hw s _ (Or.inl (by simp [MOp.siteArgs]))
  | setElement s e => exact effect_setSite hw s _ (Or.inl (by simp [MOp.siteArgs]))
  | getItem c i =>
    simp only [World.step]
    cases h : pyGet (w.sitesOf c) i <;> exact Effect.refl hw _ _
  | setItem c i s =>
    simp only [World.step]
    rw [pySet_plain]
    cases h : slot (w.sitesOf c).length i with
    | error e => exact Effect.refl hw _ _
    | ok k =>
      refine effect_setSites hw (hv.1 c (by simp [MOp.cells])) ?_ hv.2
      intro r hr
      rcases List.mem_append.1 hr with h | h
      · exact Or.inl (List.mem_of_mem_take h)
      · rcases List.mem_cons.1 h with rfl | h
        · exact Or.inr (by simp [MOp.siteArgs])
        · exact Or.inl (List.mem_of_mem_drop h)
  | delItem c i =>
    simp only [World.step]
    rw [pyDel_plain]
    cases h : slot (w.sitesOf c).length i with
    | error e => exact Effect.refl hw _ _
    | ok k =>
      refine effect_setSites hw (hv.1 c (by simp [MOp.cells])) ?_ hv.2
      intro r hr
      rcases List.mem_append.1 hr with h | h
      · exact Or.inl (List.mem_of_mem_take h)
      · exact Or.inl (List.mem_of_mem_drop h)
  | append c s =>
    refine effect_setSites hw (hv.1 c (by simp [MOp.cells])) ?_ hv.2
    intro r hr
    rcases List.mem_append.1 hr with h | h
    · exact Or.inl h
    · exact Or.inr (by simpa [MOp.siteArgs] using h)
  | insert c i s =>
    simp only [World.step]
    rw [pyInsert_plain]
    refine effect_setSites hw (hv.1 c (by simp [MOp.cells])) ?_ hv.2
    intro r hr
    simp only [plain] at hr
    rcases List.mem_append.1 hr with h | h
    · exact Or.inl (List.mem_of_mem_take h)
    · rcases List.mem_cons.1 h with rfl | h
      · exact Or.inr (by simp [MOp.siteArgs])
      · exact Or.inl (List.mem_of_mem_drop h)
  | pop c i =>
    simp only [World.step]
    rw [pyGet_plain, pyDel_plain]
    cases h : slot (w.sitesOf c).length i with
    | error e => exact Effect.refl hw _ _
    | ok k =>
      refine effect_setSites hw (hv.1 c (by simp [MOp.cells])) ?_ hv.2
      intro r hr
      rcases List.mem_append.1 hr with h | h
      · exact Or.inl (List.mem_of_mem_take h)
      · exact Or.inl (List.mem_of_mem_drop h)
  | extend c ss =>
    simp only [World.step]
    rw [extend_eq]
    refine effect_setSites hw (hv.1 c (by simp [MOp.cells])) ?_ hv.2
    intro r hr
    rcases List.mem_append.1 hr with h | h
    · exact Or.inl h
    · exact Or.inr h
  | removeSites c idx =>
    refine effect_rebind hw (hv.1 c (by simp [MOp.cells])) ?_
    intro r hr
    simp only [pyDropIndices, List.mem_map, List.mem_filter] at hr
    obtain ⟨⟨a, b⟩, ⟨h1, -⟩, rfl⟩ := hr
    exact List.fst_mem_of_mem_zipIdx h1
  | len c => exact Effect.refl hw _ _
  | iter c => exact Effect.refl hw _ _
  | translate c i v =>
    simp only [World.step, World.translateSites]
    cases h : pyGet (w.sitesOf c) i with
    | error e => exact Effect.refl hw _ _
    | ok r =>
      cases h2 : inv (w.cell c).lattice with
      | error e => exact Effect.refl hw _ _
      | ok m =>
        exact effect_setSite hw r _ (Or.inr ⟨c, by simp [MOp.cells], pyGet_mem h⟩)
  | copy c =>
    have hc := hv.1 c (by simp [MOp.cells])
    obtain ⟨h1, h2, -⟩ := copyLoop_spec w (w.sitesOf c) w [] (OnlySites.rfl' w) (hw.live _ (hw.ref c hc))
      (fun _ _ h => by simp at h) (fun _ _ _ h => by simp at h)
    exact effect_allocCell hw h1 _ h2 _ _ hv.1

theorem run_append (w : World) (h k : List MOp) : (w.run (h ++ k)).1 = ((w.run h).1.run k).1 := by
  induction h generalizing w with
  | nil => rfl
  | cons op h ih => exact ih _

theorem run_wf {w : World} (hw : WF w) {h : List MOp} (hv : ValidRun w h) : WF (w.run h).1 := by
  induction h generalizing w with
  | nil => exact hw
  | cons op h ih => exact ih (step_effect hw hv.1).wf hv.2

/-- heaps that a program can reach -/
def Reachable (w : World) : Prop := ∃ h, ValidRun World.empty h ∧ w = (World.empty.run h).1

theorem Reachable.wf {w : World} (h : Reachable w) : WF w := by
  obtain ⟨k, hk, rfl⟩ := h
  exact run_wf wf_empty hk

/-! ### C42 -/

/-- the list operation that a call performs on cell `c` -/
def listOp (c : ℕ) : MOp → Option LOp
  | .getItem d i => if d = c then some (.get i) else none
  | .setItem d i s => if d = c then some (.set i s) else none
  | .delItem d i => if d = c then some (.del i) else none
  | .append d s => if d = c then some (.append s) else none
  | .insert d i s => if d = c then some (.insert i s) else none
  | .pop d i => if d = c then some (.pop i) else none
  | .extend d ss => if d = c then some (.extend ss) else none
  | .removeSites d idx => if d = c then some (.removeAt idx) else none
  | .len d => if d = c then some .len else none
  | .iter d => if d = c then some .items else none
  | _ => none

/-- the result of a call as the result of a list operation -/
def listVal : MVal → LVal
  | .unit => .unit
  | .site r => .elem r
  | .cell _ => .unit
  | .nat n => .nat n
  | .sites l => .elems l

theorem step_list {w : World} {op : MOp} {c : ℕ} {lop : LOp} (ho : listOp c op = some lop) :
    (w.step op).1.sitesOf c = (plain (w.sitesOf c) lop).1 ∧ (w.step op).2.map listVal = (plain (w.sitesOf c) lop).2 := by
  cases op <;> simp only [listOp, reduceCtorEq] at ho <;> split at ho <;> try (cases ho; done)
  all_goals
    rename_i hc
    subst hc
    obtain rfl := Option.some.inj ho
  · rename_i i
    simp only [World.step, plain]
    rw [pyGet_plain]
    cases slot (w.sitesOf _).length i <;> exact ⟨rfl, rfl⟩
  · rename_i i s
    simp only [World.step, plain]
    rw [pySet_plain]
    cases slot (w.sitesOf _).length i
    · exact ⟨rfl, rfl⟩
    · exact ⟨sitesOf_setSites_self _ _ _, rfl⟩
  · rename_i i
    simp only [World.step, plain]
    rw [pyDel_plain]
    cases slot (w.sitesOf _).length i
    · exact ⟨rfl, rfl⟩
    · exact ⟨sitesOf_setSites_self _ _ _, rfl⟩
  · exact ⟨sitesOf_setSites_self _ _ _, rfl⟩
  · simp only [World.step]
    rw [pyInsert_plain]
    exact ⟨sitesOf_setSites_self _ _ _, rfl⟩
  · rename_i i
    simp only [World.step, plain]
    rw [pyGet_plain, pyDel_plain]
    cases slot (w.sitesOf _).length i
    · exact ⟨rfl, rfl⟩
    · exact ⟨sitesOf_setSites_self _ _ _, rfl⟩
  · simp only [World.step]
    rw [extend_eq]
    exact ⟨sitesOf_setSites_self _ _ _, rfl⟩
  · simp only [World.step, World.removeSites]
    rw [pyDrop_plain]
    exact ⟨sitesOf_rebind_self _ _ _, rfl⟩
  · exact ⟨rfl, rfl⟩
  · exact ⟨rfl, rfl⟩

theorem step_not_list {w : World} (hw : WF w) {op : MOp} (hv : Valid w op) {c : ℕ} (hc : c < w.nCell) (ho : listOp c op = none) :
    (w.step op).1.sitesOf c = w.sitesOf c := by
  by_cases hm : c ∈ op.cells
  · cases op <;> simp only [MOp.cells, List.not_mem_nil, List.mem_singleton] at hm <;> subst hm <;>
      try (simp [listOp] at ho; done)
    · rename_i i v
      simp only [World.step, World.translateSites]
      cases h : pyGet (w.sitesOf _) i with
      | error e => rfl
      | ok r =>
        cases h2 : inv (w.cell _).lattice with
        | error e => rfl
        | ok m => rfl
    · obtain ⟨h1, -⟩ := copyLoop_spec w (w.sitesOf c) w [] (OnlySites.rfl' w) (hw.live _ (hw.ref _ hc))
        (fun _ _ h => by simp at h) (fun _ _ _ h => by simp at h)
      have := sitesOf_allocCell_old (h1.wf hw) (w.cell c).lattice (copyLoop w (w.sitesOf c) w []).2 (h1.nCell.symm ▸ hc)
      refine this.1.trans ?_
      show World.list _ _ = World.list _ _
      rw [h1.list, h1.cell]
  · exact (step_effect hw hv).others c hc hm

/-- the calls of a history that are list operations on `c`, with the results they returned -/
def listResults (c : ℕ) (h : List MOp) (vs : List (Py MVal)) : List (Py LVal) :=
  (h.zip vs).filterMap fun p => (listOp c p.1).map fun _ => p.2.map listVal

/-- C42. In every reachable heap and for every history of calls — on any number of cells, interleaved, with translations,
copies and constructions in between — the content of a cell and the results of the list operations on it are those of the
same operations on a plain list, failures included. -/
theorem C42_plain_list {w : World} (hr : Reachable w) (h : List MOp) (hv : ValidRun w h) {c : ℕ} (hc : c < w.nCell) :
    (w.run h).1.sitesOf c = (plainRun (w.sitesOf c) (h.filterMap (listOp c))).1 ∧
    listResults c h (w.run h).2 = (plainRun (w.sitesOf c) (h.filterMap (listOp c))).2 := by
  have hw := hr.wf
  clear hr
  induction h generalizing w with
  | nil => exact ⟨rfl, rfl⟩
  | cons op h ih =>
    have he := step_effect hw hv.1
    obtain ⟨i1, i2⟩ := ih hv.2 (lt_of_lt_of_le hc he.mono.2) he.wf
    have e1 : (w.run (op :: h)).1 = ((w.step op).1.run h).1 := rfl
    have e2 : (w.run (op :: h)).2 = (w.step op).2 :: ((w.step op).1.run h).2 := rfl
    rw [e1, e2]
    unfold listResults at i2 ⊢
    rw [List.zip_cons_cons]
    cases ho : listOp c op with
    | none =>
      rw [step_not_list hw hv.1 hc ho] at i1 i2
      rw [List.filterMap_cons_none ho, List.filterMap_cons_none (by simp [ho])]
      exact ⟨i1, i2⟩
    | some lop =>
      obtain ⟨s1, s2⟩ := step_list (w := w) ho
      rw [s1] at i1 i2
      rw [List.filterMap_cons_some ho, List.filterMap_cons_some (b := (w.step op).2.map listVal) (by simp [ho]), i2, s2]
      exact ⟨i1, rfl⟩

/-! ### C43 -/

/-- what a caller sees of a cell: lattice and the (position, element) of each site, in order -/
def World.view (w : World) (c : ℕ) : M3 ℚ × List Site := ((w.cell c).lattice, (w.sitesOf c).map w.site)

theorem positions_view (w : World) (c : ℕ) : w.positions c = (w.view c).2.map (·.position) := by
  simp [World.positions, World.view]

theorem numbers_view (w : World) (c : ℕ) : w.numbers c = (w.view c).2.map (·.element.Z) := by
  simp [World.numbers, World.view]

/-- the atomic numbers of the periodic-table file (0 is the ghost) -/
def KnownNumber (n : ℤ) : Prop := (0 ≤ n ∧ n ≤ 56) ∨ (72 ≤ n ∧ n ≤ 88)

theorem siteNew_num (p : V3 ℚ) (n : ℤ) :
    (KnownNumber n → ∃ sp, Site.new p (.num n) = .ok ⟨p, sp⟩ ∧ sp.Z = n ∧ Specie.fromNum n = .ok sp) ∧
    (¬ KnownNumber n → Site.new p (.num n) = .error .indexError) := by
  obtain ⟨h1, h2⟩ := C01_number_domain n
  constructor
  · intro h
    obtain ⟨sp, hs⟩ := h1.2 h
    refine ⟨sp, ?_, (C01_number_roundtrip n sp hs).1, hs⟩
    simp only [Site.new, hs]
    rfl
  · intro h
    simp only [Site.new, (h2 h).1]
    rfl

theorem sites_mapM (l : List (V3 ℚ × ℤ)) :
    ((∀ s ∈ l, KnownNumber s.2) → ∃ ss : List Site, (l.mapM fun s => Site.new s.1 (.num s.2)) = .ok ss ∧
      ss.map (fun s => (s.position, s.element.Z)) = l ∧ ∀ s ∈ ss, Specie.fromNum s.element.Z = .ok s.element) ∧
    ((∃ s ∈ l, ¬ KnownNumber s.2) → (l.mapM fun s => Site.new s.1 (.num s.2)) = .error .indexError) := by
  induction l with
  | nil => exact ⟨fun _ => ⟨[], rfl, rfl, by simp⟩, by simp⟩
  | cons a l ih =>
    obtain ⟨n1, n2⟩ := siteNew_num a.1 a.2
    rw [List.mapM_cons]
    constructor
    · intro h
      obtain ⟨sp, e1, e2, e3⟩ := n1 (h a (List.mem_cons_self ..))
      obtain ⟨ss, f1, f2, f3⟩ := ih.1 (fun s hs => h s (List.mem_cons_of_mem _ hs))
      refine ⟨⟨a.1, sp⟩ :: ss, ?_, ?_, ?_⟩
      · rw [e1, f1]; rfl
      · rw [List.map_cons, f2]; simp [e2]
      · intro s hs
        rcases List.mem_cons.1 hs with rfl | hs
        · simp only [e2, e3]
        · exact f3 s hs
    · intro h
      by_cases ha : KnownNumber a.2
      · obtain ⟨sp, e1, -⟩ := n1 ha
        obtain ⟨s, hs, hn⟩ := h
        rcases List.mem_cons.1 hs with rfl | hs
        · exact absurd ha hn
        · rw [e1, ih.2 ⟨s, hs, hn⟩]; rfl
      · rw [n2 ha]; rfl

/-- a GeneralCell as the API produces it: constructed, and possibly with its numbers replaced by as many others -/
def GCell.Built (g : GCell) : Prop :=
  ∃ (L : M3 ℚ) (pos : List (V3 ℚ)) (nums : List ℤ) (c : GCell) (m : List ℤ), GCell.new L pos nums = .ok c ∧
    m.length = c.positions.length ∧ g = c.setNumbers m

/-- C43. Conversion of a cell of known elements: the new ModifiedCell lists the sites in the cell's order, all other cells and
sites are as before, and converting back gives the same lattice, positions and numbers. -/
theorem C43_round_trip {w : World} (hw : WF w) (g : GCell) (hg : g.Built) (hk : ∀ n ∈ g.numbers, KnownNumber n) :
    ∃ w' c, w.fromGcell g = .ok (w', c) ∧ c = w.nCell ∧ c < w'.nCell ∧ Effect w w' [] [] ∧
      (w'.view c).1 = g.lattice ∧
      (w'.view c).2.map (fun s => (s.position, s.element.Z)) = g.positions.zip g.numbers ∧
      (∀ s ∈ (w'.view c).2, Specie.fromNum s.element.Z = .ok s.element) ∧
      (w'.sitesOf c).Nodup ∧
      ∃ g', w'.toGcell c = .ok g' ∧ g'.lattice = g.lattice ∧ g'.positions = g.positions ∧ g'.numbers = g.numbers := by
  obtain ⟨L, pos, nums, c0, m, hc, hm, rfl⟩ := hg
  simp only [GCell.setNumbers] at hk ⊢
  obtain ⟨ss, f1, f2, f3⟩ := (sites_mapM (c0.positions.zip m)).1 (fun s hs => hk s.2 (List.of_mem_zip hs).2)
  obtain ⟨a1, a2, a3, a4⟩ := allocSites_spec ss w
  have hE : Effect w ((w.allocSites ss).1.allocCell c0.lattice (w.allocSites ss).2).1 [] [] := by
    refine effect_allocCell hw a1 _ ?_ _ _ (by simp)
    intro r hr
    rw [a3] at hr
    have := List.mem_range'_1.1 hr
    omega
  have hn : (w.allocSites ss).1.nCell = w.nCell := a1.nCell
  have hs := sitesOf_allocCell_self (w.allocSites ss).1 c0.lattice (w.allocSites ss).2
  rw [hn] at hs
  have hlat : (((w.allocSites ss).1.allocCell c0.lattice (w.allocSites ss).2).1.cell w.nCell).lattice = c0.lattice := by
    rw [← hn]; simp [World.allocCell]
  have hview : (((w.allocSites ss).1.allocCell c0.lattice (w.allocSites ss).2).1.view w.nCell).2 = ss := by
    show List.map _ (World.sitesOf _ _) = ss
    rw [hs]
    exact a4
  have hpos : ((w.allocSites ss).1.allocCell c0.lattice (w.allocSites ss).2).1.positions w.nCell = c0.positions := by
    rw [positions_view, hview]
    have := congrArg (List.map Prod.fst) f2
    rw [List.map_map, List.map_fst_zip (le_of_eq hm.symm)] at this
    exact this
  have hnum : ((w.allocSites ss).1.allocCell c0.lattice (w.allocSites ss).2).1.numbers w.nCell = m := by
    rw [numbers_view, hview]
    have := congrArg (List.map Prod.snd) f2
    rw [List.map_map, List.map_snd_zip (le_of_eq hm)] at this
    exact this
  refine ⟨((w.allocSites ss).1.allocCell c0.lattice (w.allocSites ss).2).1, w.nCell, ?_, rfl, ?_, hE, hlat, ?_, ?_, ?_, ?_⟩
  · simp only [World.fromGcell, World.newCell, f1]
    show Except.ok ((w.allocSites ss).1.allocCell c0.lattice (w.allocSites ss).2) = _
    rw [← hn]; rfl
  · simp only [World.allocCell, hn]; exact Nat.lt_succ_self _
  · rw [hview]; exact f2
  · rw [hview]; exact f3
  · rw [hs, a3]; exact List.nodup_range'
  · refine ⟨⟨c0.lattice, c0.positions, m, m, m.length⟩, ?_, rfl, rfl, rfl⟩
    unfold World.toGcell
    rw [hlat, hpos, hnum]
    exact C12_rebuild_identity L c0.lattice pos nums m c0 hc hm

/-- C43, the failure case: IndexError iff some number is unknown. -/
theorem C43_index_error {w : World} (hw : WF w) (g : GCell) (hg : g.Built) :
    w.fromGcell g = .error .indexError ↔ ∃ n ∈ g.numbers, ¬ KnownNumber n := by
  constructor
  · intro h
    by_contra hcon
    push Not at hcon
    obtain ⟨w', c, h1, -⟩ := C43_round_trip hw g hg hcon
    rw [h1] at h
    cases h
  · rintro ⟨n, hn, hk⟩
    obtain ⟨L, pos, nums, c0, m, hc, hm, rfl⟩ := hg
    simp only [GCell.setNumbers] at hn
    obtain ⟨i, hi, rfl⟩ := List.mem_iff_getElem.1 hn
    have : (c0.positions.zip m).mapM (fun s => Site.new s.1 (.num s.2)) = .error .indexError := by
      refine (sites_mapM _).2 ⟨(c0.positions[i]'(hm ▸ hi), m[i]), ?_, hk⟩
      rw [← List.getElem_zip (h := by rw [List.length_zip]; omega)]
      exact List.getElem_mem _
    simp only [World.fromGcell, World.newCell, GCell.setNumbers]
    rw [this]
    rfl

/-! ### C44 -/

theorem cartesian_vecMul (L : M3 ℚ) (x : V3 ℚ) : cartesian L x = vecMul x L := rfl

/-- C44, first part. On a non-singular lattice, `translate_sites(i, v)` for a valid index moves the Cartesian position of the
site object at that index by exactly `v`; the element of this site, every other site object, every list of sites and every
lattice stay as they are. An invalid index gives IndexError, a singular lattice LinAlgError. -/
theorem C44_translate (w : World) (c : ℕ) (i : ℤ) (v : V3 ℚ) :
    (∀ k r, slot (w.sitesOf c).length i = .ok k → (w.sitesOf c)[k]? = some r → volume (w.cell c).lattice ≠ 0 →
      ∃ w', w.translateSites c i v = .ok w' ∧
        cartesian (w.cell c).lattice (w'.site r).position = cartesian (w.cell c).lattice (w.site r).position + v ∧
        (w'.site r).element = (w.site r).element ∧ (∀ q, q ≠ r → w'.site q = w.site q) ∧
        w'.sitesOf = w.sitesOf ∧ w'.cell = w.cell ∧ w'.nSite = w.nSite ∧ w'.nCell = w.nCell ∧ w'.list = w.list ∧ w'.nList = w.nList) ∧
    (slot (w.sitesOf c).length i = .error .indexError → w.translateSites c i v = .error .indexError) ∧
    (∀ k, slot (w.sitesOf c).length i = .ok k → volume (w.cell c).lattice = 0 →
      w.translateSites c i v = .error .linAlgError) := by
  have hdet : det (w.cell c).lattice = volume (w.cell c).lattice := rfl
  refine ⟨?_, ?_, ?_⟩
  · intro k r hk hr hv
    have hg : pyGet (w.sitesOf c) i = .ok r := by
      rw [pyGet_plain, hk]
      simp [Except.map, hr]
    refine ⟨w.setPosition r (vecMul (vecMul (w.site r).position (w.cell c).lattice + v)
      (smulM (1 / volume (w.cell c).lattice) (adj (w.cell c).lattice))), ?_, ?_, ?_, ?_, rfl, rfl, rfl, rfl, rfl, rfl⟩
    · simp only [World.translateSites, hg, inv, hdet, if_neg hv]; rfl
    · simp only [World.setPosition, Function.update_self, cartesian_vecMul]
      rw [vecMul_matMul, smulM_matMul, adj_matMul, smulM_smulM, hdet, one_div, inv_mul_cancel₀ hv, smulM_one, vecMul_identM]
    · simp [World.setPosition]
    · intro q hq
      simp only [World.setPosition]
      rw [Function.update_of_ne hq]
  · intro hk
    simp only [World.translateSites, pyGet_plain, hk]
    rfl
  · intro k hk hv
    simp only [World.translateSites, pyGet_plain, hk, inv, hdet, if_pos hv]
    rfl

theorem slot_nat {n k : ℕ} (h : k < n) : slot n (k : ℤ) = .ok k := by
  unfold slot
  rw [if_pos ⟨by omega, by omega⟩, Int.emod_eq_of_lt (by omega) (by omega), Int.toNat_natCast]

theorem randVec_spec (norm : V3 ℚ → ℚ) (d : ℚ) (rand : List (V3 ℚ)) :
    (rand.filter (fun v => norm v ≠ 0) = [] → randVec norm d rand = none) ∧
    (∀ v vs, rand.filter (fun v => norm v ≠ 0) = v :: vs →
      ∃ rest, randVec norm d rand = some (V3.map (fun x => x / norm v * d) v, rest) ∧ rest.filter (fun v => norm v ≠ 0) = vs) := by
  induction rand with
  | nil => exact ⟨fun _ => rfl, fun _ _ h => by simp at h⟩
  | cons a rand ih =>
    unfold randVec
    by_cases h : norm a = 0
    · rw [List.filter_cons_of_neg (by simp [h]), if_neg (by simp [h])]
      exact ih
    · rw [List.filter_cons_of_pos (by simp [h]), if_pos h]
      refine ⟨fun e => by simp at e, ?_⟩
      intro v vs e
      obtain ⟨rfl, rfl⟩ := List.cons.inj e
      exact ⟨rand, rfl, rfl⟩

theorem perturbLoop_spec (norm : V3 ℚ → ℚ) (d : ℚ) (c : ℕ) (is : List ℕ) : ∀ (w : World) (rand : List (V3 ℚ)),
    volume (w.cell c).lattice ≠ 0 → (w.sitesOf c).Nodup → is.Nodup → (∀ i ∈ is, i < (w.sitesOf c).length) →
    is.length ≤ (rand.filter fun v => norm v ≠ 0).length →
    ∃ w', perturbLoop norm d c is w rand = some (.ok w') ∧ w'.sitesOf = w.sitesOf ∧ w'.cell = w.cell ∧
      w'.nSite = w.nSite ∧ w'.nCell = w.nCell ∧
      (∀ r, (w'.site r).element = (w.site r).element) ∧
      (∀ (j i : ℕ) (r : ℕ) (v : V3 ℚ), is[j]? = some i → (w.sitesOf c)[i]? = some r → (rand.filter fun v => norm v ≠ 0)[j]? = some v →
        cartesian (w.cell c).lattice (w'.site r).position =
          cartesian (w.cell c).lattice (w.site r).position + V3.map (fun x => x / norm v * d) v) ∧
      (∀ r, (∀ i ∈ is, (w.sitesOf c)[i]? ≠ some r) → w'.site r = w.site r) := by
  induction is with
  | nil =>
    intro w rand _ _ _ _ _
    exact ⟨w, rfl, rfl, rfl, rfl, rfl, fun _ => rfl, fun j i r v h => by simp at h, fun _ _ => rfl⟩
  | cons i is ih =>
    intro w rand hv hnd hind hi hlen
    cases hf : rand.filter (fun v => norm v ≠ 0) with
    | nil => rw [hf] at hlen; simp at hlen
    | cons v vs =>
      obtain ⟨rest, r1, r2⟩ := (randVec_spec norm d rand).2 v vs hf
      have hil := hi i (List.mem_cons_self ..)
      obtain ⟨w1, t1, t2, t3, t4, t5, t6, t7, t8, -⟩ := (C44_translate w c i (V3.map (fun x => x / norm v * d) v)).1 i
        ((w.sitesOf c)[i]) (slot_nat hil) (List.getElem?_eq_getElem hil) hv
      obtain ⟨w', p1, p2, p3, p4, p5, p6, p7, p8⟩ := ih w1 rest (by rw [t6]; exact hv) (by rw [t5]; exact hnd)
        (List.nodup_cons.1 hind).2 (fun k hk => by rw [t5]; exact hi k (List.mem_cons_of_mem _ hk))
        (by rw [r2]; rw [hf] at hlen; simpa using hlen)
      have huniq : ∀ k ∈ is, (w.sitesOf c)[k]? ≠ some ((w.sitesOf c)[i]) := by
        intro k hk he
        have hkl := hi k (List.mem_cons_of_mem _ hk)
        rw [List.getElem?_eq_getElem hkl] at he
        have := (List.Nodup.getElem_inj_iff hnd).1 (Option.some.inj he)
        subst this
        exact (List.nodup_cons.1 hind).1 hk
      refine ⟨w', ?_, p2.trans t5, p3.trans t6, p4.trans t7, p5.trans t8, ?_, ?_, ?_⟩
      · simp only [perturbLoop, r1, t1]; exact p1
      · intro r
        rw [p6]
        by_cases e : r = (w.sitesOf c)[i]
        · rw [e, t3]
        · rw [t4 r e]
      · intro j k r u hj hk hu
        cases j with
        | zero =>
          obtain rfl : i = k := by simpa using hj
          obtain rfl : v = u := by simpa using hu
          rw [List.getElem?_eq_getElem hil] at hk
          obtain rfl := Option.some.inj hk
          rw [p8 _ (fun q hq => by rw [t5]; exact huniq q hq), t2]
        | succ j =>
          have hj' : is[j]? = some k := by simpa using hj
          have hu' : vs[j]? = some u := by simpa using hu
          have hkm := List.mem_of_getElem? hj'
          have hne : r ≠ (w.sitesOf c)[i] := by
            rintro rfl
            exact huniq k hkm hk
          have := p7 j k r u hj' (by rw [t5]; exact hk) (by rw [r2]; exact hu')
          rw [t6, t4 r hne] at this
          exact this
      · intro r hr
        have hne : r ≠ (w.sitesOf c)[i] := by
          rintro rfl
          exact hr i (List.mem_cons_self ..) (List.getElem?_eq_getElem hil)
        rw [p8 r (fun q hq => by rw [t5]; exact hr q (List.mem_cons_of_mem _ hq)), t4 r hne]

/-- C44, second part. `perturb(d)` uses the non-zero random vectors in order, one per site: the k-th site moves by the k-th
vector scaled by `d / norm`, so that (squares) `|displacement|² · norm² = d² · |vector|²`; in particular the displacement has
length `|d|` when `norm` is the Euclidean norm. Elements, lattice, the lists of sites and all sites of other cells are unchanged.
Hypotheses: non-singular lattice, and no Site object occurs twice in the cell. -/
theorem C44_perturb (w : World) (c : ℕ) (norm : V3 ℚ → ℚ) (d : ℚ) (rand : List (V3 ℚ))
    (hv : volume (w.cell c).lattice ≠ 0) (hnd : (w.sitesOf c).Nodup)
    (hlen : (w.sitesOf c).length ≤ (rand.filter fun v => norm v ≠ 0).length) :
    ∃ w', w.perturb c norm d rand = some (.ok w') ∧ w'.sitesOf = w.sitesOf ∧ w'.cell = w.cell ∧
      (∀ r, (w'.site r).element = (w.site r).element) ∧ (∀ r, r ∉ w.sitesOf c → w'.site r = w.site r) ∧
      ∀ (k : ℕ) (r : ℕ), (w.sitesOf c)[k]? = some r → ∃ v u : V3 ℚ, (rand.filter fun v => norm v ≠ 0)[k]? = some v ∧
        cartesian (w.cell c).lattice (w'.site r).position = cartesian (w.cell c).lattice (w.site r).position + u ∧
        distSq u 0 * norm v ^ 2 = d ^ 2 * distSq v 0 ∧ (norm v ^ 2 = distSq v 0 → distSq u 0 = d ^ 2) := by
  obtain ⟨w', p1, p2, p3, p4, p5, p6, p7, p8⟩ := perturbLoop_spec norm d c (List.range (w.sitesOf c).length) w rand hv hnd
    List.nodup_range (fun i hi => List.mem_range.1 hi) (by simpa using hlen)
  refine ⟨w', p1, p2, p3, p6, ?_, ?_⟩
  · intro r hr
    exact p8 r (fun i _ he => hr (List.mem_of_getElem? he))
  · intro k r hk
    have hkl : k < (w.sitesOf c).length := by
      by_contra h
      rw [List.getElem?_eq_none (not_lt.1 h)] at hk
      cases hk
    have hkf := lt_of_lt_of_le hkl hlen
    have hget := List.getElem?_eq_getElem hkf
    have hmem := List.getElem_mem hkf
    have hnz : norm ((rand.filter fun v => norm v ≠ 0)[k]) ≠ 0 := by
      have := (List.mem_filter.1 hmem).2
      simpa using this
    generalize (rand.filter fun v => norm v ≠ 0)[k] = v at hget hnz
    have key : distSq (V3.map (fun x => x / norm v * d) v) 0 * norm v ^ 2 = d ^ 2 * distSq v 0 := by
      simp only [distSq, V3.map, Prod.fst_zero, Prod.snd_zero, sub_zero]
      field_simp
    refine ⟨v, V3.map (fun x => x / norm v * d) v, hget, p7 k k r v (by simp [hkl]) hk hget, key, ?_⟩
    intro he
    rw [← he] at key
    exact mul_right_cancel₀ (pow_ne_zero 2 hnz) key

/-! ### C45 -/

/-- `m` and its sites `S` are out of reach of the cells in `A`; cells created later belong to `A` -/
structure Apart (w : World) (A : ℕ → Prop) (m : ℕ) (S : ℕ → Prop) : Prop where
  here : m < w.nCell
  out : ¬ A m
  mine : ∀ r ∈ w.sitesOf m, S r
  old : ∀ r, S r → r < w.nSite
  new : ∀ c, w.nCell ≤ c → A c
  disj : ∀ c < w.nCell, A c → ∀ r ∈ w.sitesOf c, ¬ S r

theorem step_apart {w : World} (hw : WF w) {A : ℕ → Prop} {m : ℕ} {S : ℕ → Prop} (ha : Apart w A m S) {op : MOp} (hv : Valid w op)
    (hc : ∀ c ∈ op.cells, A c) (hs : ∀ s ∈ op.siteArgs, ¬ S s) :
    Apart (w.step op).1 A m S ∧ (w.step op).1.view m = w.view m := by
  have he := step_effect hw hv
  have hm : m ∉ op.cells := fun h => ha.out (hc m h)
  have hsm := he.others m ha.here hm
  refine ⟨⟨lt_of_lt_of_le ha.here he.mono.2, ha.out, ?_, ?_, ?_, ?_⟩, ?_⟩
  · intro r hr; exact ha.mine r (hsm ▸ hr)
  · intro r hr; exact lt_of_lt_of_le (ha.old r hr) he.mono.1
  · intro c h; exact ha.new c (le_trans he.mono.2 h)
  · intro c h1 h2 r hr hS
    rcases lt_or_ge c w.nCell with h | h
    · by_cases hcc : c ∈ op.cells
      · rcases he.sub c hcc r hr with h3 | h3
        · exact ha.disj c h h2 r h3 hS
        · exact hs r h3 hS
      · rw [he.others c h hcc] at hr
        exact ha.disj c h h2 r hr hS
    · exact absurd (ha.old r hS) (not_lt.2 (he.fresh c h h1 r hr))
  · unfold World.view
    rw [hsm, he.lattice m ha.here]
    congr 1
    apply List.map_congr_left
    intro r hr
    refine he.keepSite r (ha.old r (ha.mine r hr)) (fun h => hs r h (ha.mine r hr)) ?_
    intro c hcc h
    exact ha.disj c (hv.1 c hcc) (hc c hcc) r h (ha.mine r hr)

theorem run_apart {h : List MOp} : ∀ {w : World}, WF w → ∀ {A : ℕ → Prop} {m : ℕ} {S : ℕ → Prop}, Apart w A m S → ValidRun w h →
    (∀ op ∈ h, (∀ c ∈ op.cells, A c) ∧ ∀ s ∈ op.siteArgs, ¬ S s) → (w.run h).1.view m = w.view m := by
  induction h with
  | nil => intros; rfl
  | cons op h ih =>
    intro w hw A m S ha hv hc
    obtain ⟨h1, h2⟩ := hc op (List.mem_cons_self ..)
    obtain ⟨s1, s2⟩ := step_apart hw ha hv.1 h1 h2
    exact (ih (step_effect hw hv.1).wf s1 hv.2 (fun o ho => hc o (List.mem_cons_of_mem _ ho))).trans s2

/-- C45, the copy: a new cell with equal lattice and equal sites, on new Site objects (shared inside the copy exactly where
they were shared inside the original); every existing cell is unchanged. -/
theorem C45_copy_equal {w : World} (hw : WF w) {m : ℕ} (hm : m < w.nCell) :
    (w.copy m).2 = w.nCell ∧ w.nCell < (w.copy m).1.nCell ∧ WF (w.copy m).1 ∧
    (w.copy m).1.view w.nCell = w.view m ∧
    (∀ r ∈ (w.copy m).1.sitesOf w.nCell, w.nSite ≤ r) ∧
    (∀ c < w.nCell, (w.copy m).1.view c = w.view c ∧ (w.copy m).1.sitesOf c = w.sitesOf c) ∧
    ∃ f : ℕ → ℕ, (w.copy m).1.sitesOf w.nCell = (w.sitesOf m).map f ∧ ∀ q ∈ w.sitesOf m, ∀ q' ∈ w.sitesOf m, f q = f q' → q = q' := by
  obtain ⟨h1, h2, h3, f, hf, -, -, hf4⟩ := copyLoop_spec w (w.sitesOf m) w [] (OnlySites.rfl' w) (hw.live _ (hw.ref m hm))
    (fun _ _ h => by simp at h) (fun _ _ _ h => by simp at h)
  have hE : Effect w (w.copy m).1 [] [] := effect_allocCell hw h1 (w.cell m).lattice h2 [] [] (by simp)
  have hn := h1.nCell
  have hs : (w.copy m).1.sitesOf w.nCell = (copyLoop w (w.sitesOf m) w []).2 := by
    have := sitesOf_allocCell_self (copyLoop w (w.sitesOf m) w []).1 (w.cell m).lattice (copyLoop w (w.sitesOf m) w []).2
    rw [hn] at this
    exact this
  have hlast : (w.copy m).1.nCell = w.nCell + 1 := by
    show (copyLoop w (w.sitesOf m) w []).1.nCell + 1 = _
    rw [hn]
  refine ⟨hn, by omega, hE.wf, ?_, ?_, ?_, f, hs.trans hf, hf4⟩
  · unfold World.view
    rw [hs]
    refine Prod.ext ?_ h3
    show ((w.copy m).1.cell w.nCell).lattice = _
    rw [← hn]
    show (Function.update (copyLoop w (w.sitesOf m) w []).1.cell _ _ _).lattice = _
    rw [Function.update_self]
  · intro r hr
    exact (h2 r (hs ▸ hr)).1
  · intro c hc
    have hsc := hE.others c hc (by simp)
    refine ⟨?_, hsc⟩
    unfold World.view
    rw [hsc, hE.lattice c hc]
    congr 1
    apply List.map_congr_left
    intro r hr
    exact hE.keepSite r (hw.live _ (hw.ref c hc) r hr) (by simp) (by simp)

/-- C45. After `m2 = m.copy()`, no history of calls on the copy (or on cells and sites created since) is visible through any
cell that existed before, in particular not through `m`. -/
theorem C45_changes_to_copy_invisible {w : World} (hw : WF w) {m : ℕ} (hm : m < w.nCell) (h : List MOp)
    (hv : ValidRun (w.copy m).1 h) (hc : ∀ op ∈ h, (∀ c ∈ op.cells, w.nCell ≤ c) ∧ ∀ s ∈ op.siteArgs, w.nSite ≤ s)
    {c : ℕ} (hold : c < w.nCell) : ((w.copy m).1.run h).1.view c = w.view c := by
  obtain ⟨-, h2, h3, -, h5, h6, -⟩ := C45_copy_equal hw hm
  rw [← (h6 c hold).1]
  refine run_apart h3 (A := fun c => w.nCell ≤ c) (S := fun r => r < w.nSite) ?_ hv ?_
  · refine ⟨lt_trans hold h2, not_le.2 hold, ?_, ?_, ?_, ?_⟩
    · intro r hr
      rw [(h6 c hold).2] at hr
      exact hw.live _ (hw.ref c hold) r hr
    · intro r hr
      refine lt_of_lt_of_le hr ?_
      exact (step_effect hw (op := .copy m) ⟨by simpa [MOp.cells] using hm, by simp [MOp.siteArgs]⟩).mono.1
    · intro c h; exact le_trans (le_of_lt h2) h
    · intro d hd hA r hr
      have : d = w.nCell := by
        have hlast : (w.copy m).1.nCell ≤ w.nCell + 1 := by
          have := (copyLoop_spec w (w.sitesOf m) w [] (OnlySites.rfl' w) (hw.live _ (hw.ref m hm))
            (fun _ _ h => by simp at h) (fun _ _ _ h => by simp at h)).1.nCell
          show (copyLoop w (w.sitesOf m) w []).1.nCell + 1 ≤ _
          rw [this]
        omega
      subst this
      exact not_lt.2 (h5 r hr)
  · intro op ho
    exact ⟨(hc op ho).1, fun s hs => not_lt.2 ((hc op ho).2 s hs)⟩

/-- C45, the reverse: no history of calls on other cells and sites is visible through the copy. -/
theorem C45_changes_elsewhere_invisible_in_copy {w : World} (hw : WF w) {m : ℕ} (hm : m < w.nCell) (h : List MOp)
    (hv : ValidRun (w.copy m).1 h)
    (hc : ∀ op ∈ h, (w.copy m).2 ∉ op.cells ∧ ∀ s ∈ op.siteArgs, s ∉ (w.copy m).1.sitesOf (w.copy m).2) :
    ((w.copy m).1.run h).1.view (w.copy m).2 = w.view m := by
  obtain ⟨h1, h2, h3, h4, h5, h6, -⟩ := C45_copy_equal hw hm
  rw [h1] at hc ⊢
  rw [← h4]
  refine run_apart h3 (A := fun c => c ≠ w.nCell) (S := fun r => r ∈ (w.copy m).1.sitesOf w.nCell) ?_ hv ?_
  · refine ⟨h2, by simp, fun r hr => hr, fun r hr => h3.live _ (h3.ref _ h2) r hr, fun c h => by omega, ?_⟩
    intro d hd hA r hr hS
    have hlast : (w.copy m).1.nCell ≤ w.nCell + 1 := by
      have := (copyLoop_spec w (w.sitesOf m) w [] (OnlySites.rfl' w) (hw.live _ (hw.ref m hm))
        (fun _ _ h => by simp at h) (fun _ _ _ h => by simp at h)).1.nCell
      show (copyLoop w (w.sitesOf m) w []).1.nCell + 1 ≤ _
      rw [this]
    have hd' : d < w.nCell := by omega
    rw [(h6 d hd').2] at hr
    exact absurd (hw.live _ (hw.ref d hd') r hr) (not_lt.2 (h5 r hS))
  · intro op ho
    exact ⟨fun c hcc e => (hc op ho).1 (e ▸ hcc), fun s hs => (hc op ho).2 s hs⟩

/-- C45, sharing: a Site appended to two cells is one object; translating it through one cell moves it in the other. -/
theorem C45_shared_site_visible {w : World} (hw : WF w) {a b s : ℕ} (ha : a < w.nCell) (hb : b < w.nCell) (hab : a ≠ b)
    (hL : volume (w.cell a).lattice ≠ 0) (v : V3 ℚ) :
    ∃ p : V3 ℚ, cartesian (w.cell a).lattice p = cartesian (w.cell a).lattice (w.site s).position + v ∧
      ((w.run [.append a s, .append b s, .translate a (-1) v]).1.view b).2.getLast? = some ⟨p, (w.site s).element⟩ ∧
      ((w.run [.append a s, .append b s, .translate a (-1) v]).1.view a).2.getLast? = some ⟨p, (w.site s).element⟩ := by
  have e0 : (w.run [.append a s, .append b s, .translate a (-1) v]).1 =
      ((((w.step (.append a s)).1.step (.append b s)).1).step (.translate a (-1) v)).1 := rfl
  rw [e0]
  set w2 := ((w.step (.append a s)).1.step (.append b s)).1 with hw2
  have sb : w2.sitesOf b = w.sitesOf b ++ [s] := by
    show ((w.setSites a (w.sitesOf a ++ [s])).setSites b ((w.setSites a (w.sitesOf a ++ [s])).sitesOf b ++ [s])).sitesOf b = _
    rw [sitesOf_setSites_self, sitesOf_setSites_ne hw ha hb hab.symm]
  have hE := effect_setSites hw ha (l := w.sitesOf a ++ [s]) (args := [s])
  have sa : w2.sitesOf a = w.sitesOf a ++ [s] := by
    show ((w.setSites a (w.sitesOf a ++ [s])).setSites b ((w.setSites a (w.sitesOf a ++ [s])).sitesOf b ++ [s])).sitesOf a = _
    have : ((w.setSites a (w.sitesOf a ++ [s])).setSites b ((w.setSites a (w.sitesOf a ++ [s])).sitesOf b ++ [s])).sitesOf a =
        (w.setSites a (w.sitesOf a ++ [s])).sitesOf a := by
      simp only [World.sitesOf]
      show Function.update _ _ _ _ = _
      rw [Function.update_of_ne]
      · rfl
      · exact fun e => hab (hw.own a ha b hb e)
    rw [this, sitesOf_setSites_self]
  have hsl : slot (w2.sitesOf a).length (-1) = .ok (w.sitesOf a).length := by
    rw [sa]
    unfold slot
    simp only [List.length_append, List.length_singleton]
    rw [if_pos ⟨by omega, by omega⟩, ← Int.add_emod_right, Int.emod_eq_of_lt (by omega) (by omega)]
    congr 1
    omega
  have hcell : w2.cell = w.cell := rfl
  have hsite : w2.site = w.site := rfl
  obtain ⟨w', t1, t2, t3, t4, t5, -⟩ := (C44_translate w2 a (-1) v).1 _ s hsl (by rw [sa]; simp) (by rw [hcell]; exact hL)
  have hst : (w2.step (.translate a (-1) v)).1 = w' := by
    simp only [World.step, t1]; rfl
  rw [hst]
  refine ⟨(w'.site s).position, by rw [hcell, hsite] at t2; exact t2, ?_, ?_⟩
  · simp only [World.view, t5, sb, List.map_append, List.map_cons, List.map_nil, List.getLast?_append, List.getLast?_singleton]
    rw [hsite] at t3
    rw [← t3]
    rfl
  · simp only [World.view, t5, sa, List.map_append, List.map_cons, List.map_nil, List.getLast?_append, List.getLast?_singleton]
    rw [hsite] at t3
    rw [← t3]
    rfl

/-! ## examples: reachable heaps meeting the hypotheses -/

/-- a lattice, a cell with two sites, a free site, a copy -/
def exHist : List MOp :=
  [.newCell ((2, 0, 0), (0, 2, 0), (0, 0, 2)) [(0, 0, 0), (1/2, 0, 0)] [5, 29], .newSite (1/4, 1/4, 0) (.symbol "Zn"),
   .append 0 2, .copy 0, .insert 1 (-1) 2, .pop 0 0, .removeSites 1 [0, 7, -1], .setItem 0 5 2]

def exWorld : World := (World.empty.run exHist).1

example : ValidRun World.empty exHist := by
  refine ⟨⟨?_, ?_⟩, ⟨?_, ?_⟩, ⟨?_, ?_⟩, ⟨?_, ?_⟩, ⟨?_, ?_⟩, ⟨?_, ?_⟩, ⟨?_, ?_⟩, ⟨?_, ?_⟩, trivial⟩ <;> decide +kernel

example : (World.empty.run exHist).2 = [.ok (.cell 0), .ok (.site 2), .ok .unit, .ok (.cell 1), .ok .unit, .ok (.site 0), .ok .unit,
    .error .indexError] := by decide +kernel
example : exWorld.sitesOf 0 = [1, 2] ∧ exWorld.sitesOf 1 = [4, 2, 5] := by decide +kernel
example : volume (exWorld.cell 0).lattice ≠ 0 ∧ (exWorld.sitesOf 0).Nodup := by decide +kernel
/-- a random sequence with a zero vector in front; the norm is exact on it -/
example : (exWorld.sitesOf 0).length ≤
    (([(0, 0, 0), (3, 4, 0), (0, 0, 2)] : List (V3 ℚ)).filter fun v => (if v = (3, 4, 0) then 5 else v.2.2 : ℚ) ≠ 0).length := by
  decide +kernel
example : GCell.Built ⟨((2, 0, 0), (0, 2, 0), (0, 0, 2)), [(0, 0, 0), (1/2, 0, 0)], [29, 0], [5, 29], 2⟩ :=
  ⟨((2, 0, 0), (0, 2, 0), (0, 0, 2)), [(1/2, 0, 0), (0, 0, 0)], [29, 5], ⟨((2, 0, 0), (0, 2, 0), (0, 0, 2)), [(0, 0, 0), (1/2, 0, 0)], [5, 29], [5, 29], 2⟩,
    [29, 0], by decide +kernel, by decide, rfl⟩

end Verif
