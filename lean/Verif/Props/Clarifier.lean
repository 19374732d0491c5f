import Verif.Props.Modified

/-! # C39–C41: sphere query and the clarifiers -/

namespace Verif

open Spec

/-- some periodic image of `pos` in the 27 neighbouring cells is closer than `r` to `center` (fractional coordinates) -/
def InSphere (L : M3 ℚ) (pos center : V3 ℚ) (r : ℚ) : Prop :=
  ∃ t : V3 ℤ, Near t ∧ Closer r (cartesian L (shift pos t)) (cartesian L center)

/-- the element filter: no element given, or this element -/
def EleOk (ele : Option Specie) (s : Site) : Prop := ∀ e, ele = some e → s.element.Z = e.Z

theorem mem_transList (t : V3 ℤ) : t ∈ transList ↔ Near t := by
  have key : ∀ x : ℤ, x ∈ ([-1, 0, 1] : List ℤ) ↔ -1 ≤ x ∧ x ≤ 1 := by
    intro x; simp only [List.mem_cons, List.not_mem_nil, or_false]; omega
  obtain ⟨x, y, z⟩ := t
  simp only [transList, List.mem_flatMap, List.mem_map, Near]
  constructor
  · rintro ⟨a, ha, b, hb, c, hc, h⟩
    simp only [Prod.mk.injEq] at h
    obtain ⟨rfl, rfl, rfl⟩ := h
    exact ⟨(key _).1 ha, (key _).1 hb, (key _).1 hc⟩
  · rintro ⟨h1, h2, h3⟩
    exact ⟨x, (key _).2 h1, y, (key _).2 h2, z, (key _).2 h3, rfl⟩

theorem inEuclideanDistance_iff (L : M3 ℚ) (pos center : V3 ℚ) (r : ℚ) :
    inEuclideanDistance L pos center r = true ↔ InSphere L pos center r := by
  unfold inEuclideanDistance InSphere
  simp only [List.any_eq_true, mem_transList, sqrtLt, Bool.and_eq_true, decide_eq_true_eq]
  have e : ∀ t : V3 ℤ, dot (vecMul (pos + castV t) L - vecMul center L) (vecMul (pos + castV t) L - vecMul center L) =
      distSq (cartesian L (shift pos t)) (cartesian L center) := by
    intro t
    simp only [dot, distSq, cartesian, vecMul, shift, castV, V3.map, Prod.fst_add, Prod.snd_add, Prod.fst_sub, Prod.snd_sub]
    ring
  simp only [e, Closer, pow_two]

theorem insphereCond_iff (L : M3 ℚ) (center : V3 ℚ) (r : ℚ) (ele : Option Specie) (s : Site) :
    insphereCond L center r ele s = true ↔ InSphere L s.position center r ∧ EleOk ele s := by
  unfold insphereCond EleOk
  cases ele with
  | none => simp [inEuclideanDistance_iff]
  | some e => simp [inEuclideanDistance_iff, Specie.pyEq]

/-- C39. The result of `get_points_incell_insphere` maps `k` to the site object `r` iff `r` is the k-th site of the cell, has
the asked element (if one is given), and one of its 27 neighbouring images is closer than `rad` to the center. The indices
come in increasing order, without repetition. -/
theorem C39_sphere_query (w : World) (c : ℕ) (center : V3 ℚ) (rad : ℚ) (ele : Option Specie) :
    (∀ k r, (k, r) ∈ w.insphere c center rad ele ↔ (w.sitesOf c)[k]? = some r ∧
      InSphere (w.cell c).lattice (w.site r).position center rad ∧ EleOk ele (w.site r)) ∧
    ((w.insphere c center rad ele).map (·.1)).Pairwise (· < ·) := by
  constructor
  · intro k r
    simp only [World.insphere, List.mem_map, List.mem_filter]
    constructor
    · rintro ⟨⟨a, b⟩, ⟨h1, h2⟩, h3⟩
      obtain ⟨rfl, rfl⟩ := Prod.mk.inj h3
      exact ⟨List.mem_zipIdx_iff_getElem?.1 h1, (insphereCond_iff _ _ _ _ _).1 h2⟩
    · rintro ⟨h1, h2⟩
      exact ⟨(r, k), ⟨List.mem_zipIdx_iff_getElem?.2 h1, (insphereCond_iff _ _ _ _ _).2 h2⟩, rfl⟩
  · unfold World.insphere
    rw [List.map_map]
    have h1 : ((w.sitesOf c).zipIdx.map (fun p : ℕ × ℕ => p.2)).Pairwise (· < ·) := by
      have : (w.sitesOf c).zipIdx.map (fun p : ℕ × ℕ => p.2) = List.range (w.sitesOf c).length := by
        rw [List.range_eq_range']; exact List.zipIdx_map_snd 0 _
      rw [this]
      exact List.pairwise_lt_range
    exact h1.sublist (List.Sublist.map _ List.filter_sublist)

theorem dropIndices_zipIdx (f : ℕ → Bool) (l : List ℕ) (n : ℕ) (idx : List ℤ)
    (h : ∀ a k, (a, k) ∈ l.zipIdx n → (idx.contains (k : ℤ) = f a)) :
    ((l.zipIdx n).filter fun p => !(idx.contains (p.2 : ℤ))).map (·.1) = l.filter fun a => !(f a) := by
  induction l generalizing n with
  | nil => rfl
  | cons a l ih =>
    have h0 := h a n (by simp)
    rw [List.zipIdx_cons, List.filter_cons, List.filter_cons]
    simp only [h0]
    have := ih (n + 1) (fun b k hb => h b k (by rw [List.zipIdx_cons]; exact List.mem_cons_of_mem _ hb))
    split
    · rw [List.map_cons, this]
    · exact this

/-- removing what the sphere query found keeps, in order, the other sites -/
theorem remove_insphere (w : World) (c : ℕ) (center : V3 ℚ) (rad : ℚ) (ele : Option Specie) :
    pyDropIndices (w.sitesOf c) ((w.insphere c center rad ele).map fun p => (p.1 : ℤ)) =
      (w.sitesOf c).filter fun r => !(insphereCond (w.cell c).lattice center rad ele (w.site r)) := by
  unfold pyDropIndices
  refine dropIndices_zipIdx (fun r => insphereCond (w.cell c).lattice center rad ele (w.site r)) _ 0 _ ?_
  intro a k hak
  have hk := List.mem_zipIdx_iff_getElem?.1 hak
  rw [Bool.eq_iff_iff, List.contains_iff_mem, List.mem_map, insphereCond_iff]
  constructor
  · rintro ⟨⟨k', r⟩, h1, h2⟩
    obtain ⟨h3, h4⟩ := ((C39_sphere_query w c center rad ele).1 k' r).1 h1
    obtain rfl : k' = k := by simpa using h2
    rw [hk] at h3
    obtain rfl := Option.some.inj h3
    exact h4
  · intro h
    exact ⟨(k, a), ((C39_sphere_query w c center rad ele).1 k a).2 ⟨hk, h⟩, rfl⟩

/-- one round: query and remove -/
def clearOne (c : ℕ) (rad : ℚ) (ele : Option Specie) (w : World) (center : V3 ℚ) : World :=
  w.removeSites c ((w.insphere c center rad ele).map fun p => (p.1 : ℤ))

theorem clearOne_spec {w : World} (hw : WF w) {c : ℕ} (hc : c < w.nCell) (rad : ℚ) (ele : Option Specie) (center : V3 ℚ) :
    WF (clearOne c rad ele w center) ∧ (clearOne c rad ele w center).nCell = w.nCell ∧ (clearOne c rad ele w center).site = w.site ∧
    ((clearOne c rad ele w center).cell c).lattice = (w.cell c).lattice ∧
    (clearOne c rad ele w center).sitesOf c =
      (w.sitesOf c).filter (fun r => !(insphereCond (w.cell c).lattice center rad ele (w.site r))) ∧
    (∀ d < w.nCell, d ≠ c → (clearOne c rad ele w center).sitesOf d = w.sitesOf d ∧ (clearOne c rad ele w center).cell d = w.cell d) ∧
    (∀ l < w.nList, (clearOne c rad ele w center).list l = w.list l) ∧ w.nList ≤ (clearOne c rad ele w center).nList := by
  unfold clearOne World.removeSites
  rw [remove_insphere]
  have he := effect_rebind hw hc (l := (w.sitesOf c).filter (fun r => !(insphereCond (w.cell c).lattice center rad ele (w.site r))))
    (fun r hr => (List.mem_filter.1 hr).1)
  refine ⟨he.wf, rfl, rfl, he.lattice c hc, sitesOf_rebind_self _ _ _, ?_, ?_, Nat.le_succ _⟩
  · intro d hd hne
    refine ⟨sitesOf_rebind_ne hw hd hne _, ?_⟩
    simp only [World.rebindSites]
    rw [Function.update_of_ne hne]
  · intro l hl
    simp only [World.rebindSites]
    rw [Function.update_of_ne (ne_of_lt hl)]

/-- the sites a clarifier has to remove: right element, and close to one of the centers -/
def Doomed (L : M3 ℚ) (centers : List (V3 ℚ)) (rad : ℚ) (ele : Option Specie) (s : Site) : Prop :=
  EleOk ele s ∧ ∃ q ∈ centers, InSphere L s.position q rad

open Classical in
theorem clarify_fold (c : ℕ) (rad : ℚ) (ele : Option Specie) (centers : List (V3 ℚ)) : ∀ {w : World}, WF w → c < w.nCell →
    let w' := centers.foldl (clearOne c rad ele) w
    WF w' ∧ w'.nCell = w.nCell ∧ w'.site = w.site ∧ (w'.cell c).lattice = (w.cell c).lattice ∧
    w'.sitesOf c = (w.sitesOf c).filter (fun r => ¬ Doomed (w.cell c).lattice centers rad ele (w.site r)) ∧
    (∀ d < w.nCell, d ≠ c → w'.sitesOf d = w.sitesOf d ∧ w'.cell d = w.cell d) ∧
    (∀ l < w.nList, w'.list l = w.list l) ∧ w.nList ≤ w'.nList := by
  induction centers with
  | nil =>
    intro w hw hc
    refine ⟨hw, rfl, rfl, rfl, ?_, fun _ _ _ => ⟨rfl, rfl⟩, fun _ _ => rfl, le_refl _⟩
    simp [Doomed]
  | cons q qs ih =>
    intro w hw hc
    obtain ⟨a1, a2, a3, a4, a5, a6, a7, a8⟩ := clearOne_spec hw hc rad ele q
    obtain ⟨b1, b2, b3, b4, b5, b6, b7, b8⟩ := ih a1 (a2.symm ▸ hc)
    simp only [List.foldl_cons]
    refine ⟨b1, b2.trans a2, b3.trans a3, b4.trans a4, ?_, ?_, ?_, a8.trans b8⟩
    · rw [b5, a5, a3, a4, List.filter_filter]
      apply List.filter_congr
      intro r _
      have := insphereCond_iff (w.cell c).lattice q rad ele (w.site r)
      have hd : Doomed (w.cell c).lattice (q :: qs) rad ele (w.site r) ↔
          insphereCond (w.cell c).lattice q rad ele (w.site r) = true ∨ Doomed (w.cell c).lattice qs rad ele (w.site r) := by
        rw [this]
        simp only [Doomed, List.mem_cons, exists_eq_or_imp]
        tauto
      by_cases h1 : insphereCond (w.cell c).lattice q rad ele (w.site r) = true <;>
        by_cases h2 : Doomed (w.cell c).lattice qs rad ele (w.site r) <;> simp [hd, h1, h2]
    · intro d hd hne
      obtain ⟨h1, h2⟩ := b6 d (a2.symm ▸ hd) hne
      obtain ⟨h3, h4⟩ := a6 d hd hne
      exact ⟨h1.trans h3, h2.trans h4⟩
    · intro l hl
      exact (b7 l (lt_of_lt_of_le hl a8)).trans (a7 l hl)

open Classical in
/-- C40. `AtomRemoveClarifier(centers, r, element).clarify(cell)` keeps, in order and as the same objects, exactly the sites
that are not doomed; no Site object, no lattice and no other cell is changed. -/
theorem C40_center_removal {w : World} (hw : WF w) {c : ℕ} (hc : c < w.nCell) (centers : List (V3 ℚ)) (rad : ℚ) (ele : Option Specie) :
    let w' := atomRemoveClarify centers rad ele w c
    w'.sitesOf c = (w.sitesOf c).filter (fun r => ¬ Doomed (w.cell c).lattice centers rad ele (w.site r)) ∧
    w'.view c = ((w.view c).1, (w.view c).2.filter (fun s => ¬ Doomed (w.cell c).lattice centers rad ele s)) ∧
    w'.site = w.site ∧ (∀ d < w.nCell, d ≠ c → w'.view d = w.view d) ∧ WF w' ∧ c < w'.nCell := by
  obtain ⟨b1, b2, b3, b4, b5, b6, -⟩ := clarify_fold c rad ele centers hw hc
  have e : atomRemoveClarify centers rad ele w c = centers.foldl (clearOne c rad ele) w := rfl
  simp only [e]
  refine ⟨b5, ?_, b3, ?_, b1, b2.symm ▸ hc⟩
  · unfold World.view
    rw [b5, b4, b3, List.filter_map]
    rfl
  · intro d hd hne
    obtain ⟨h1, h2⟩ := b6 d hd hne
    unfold World.view
    rw [h1, h2, b3]

/-- C40, consequences: clarifying again changes nothing, and the order (and repetition) of the centers does not matter. -/
theorem C40_idempotent_order_free {w : World} (hw : WF w) {c : ℕ} (hc : c < w.nCell) (centers centers' : List (V3 ℚ)) (rad : ℚ)
    (ele : Option Specie) :
    (atomRemoveClarify centers rad ele (atomRemoveClarify centers rad ele w c) c).view c = (atomRemoveClarify centers rad ele w c).view c ∧
    ((∀ q, q ∈ centers ↔ q ∈ centers') →
      (atomRemoveClarify centers' rad ele w c).view c = (atomRemoveClarify centers rad ele w c).view c) := by
  classical
  obtain ⟨-, h2, -, -, h5, h6⟩ := C40_center_removal hw hc centers rad ele
  constructor
  · obtain ⟨-, k2, -⟩ := C40_center_removal h5 h6 centers rad ele
    rw [k2, h2]
    have hl : ((atomRemoveClarify centers rad ele w c).cell c).lattice = (w.cell c).lattice := congrArg Prod.fst h2
    rw [hl, List.filter_filter]
    simp
  · intro hq
    obtain ⟨-, k2, -⟩ := C40_center_removal hw hc centers' rad ele
    rw [k2, h2]
    congr 1
    apply List.filter_congr
    intro s _
    have hd : Doomed (w.cell c).lattice centers' rad ele s ↔ Doomed (w.cell c).lattice centers rad ele s := by
      simp only [Doomed, hq]
    simp only [hd]

/-- the loop over the list object `ref` equals clarification with the remaining centers -/
theorem verboseLoop_spec (sub : Specie) (rad : ℚ) (ele : Option Specie) (c ref : ℕ) (orig : List ℕ) (sites : ℕ → Site) :
    ∀ (fuel k : ℕ) (w : World), WF w → c < w.nCell → ref < w.nList → w.list ref = orig → w.site = sites →
      k ≤ orig.length → orig.length < fuel + k →
      verboseLoop sub rad ele c ref fuel k w = some
        ((((orig.drop k).filter fun r => (sites r).element.pyEq sub).map fun r => (sites r).position).foldl (clearOne c rad ele) w) := by
  intro fuel
  induction fuel with
  | zero =>
    intro k w _ _ _ _ _ h5 h6
    omega
  | succ fuel ih =>
    intro k w h1 h2 h3 h4 h5 h6 h7
    unfold verboseLoop
    rw [h4]
    rcases lt_or_ge k orig.length with hk | hk
    · rw [List.getElem?_eq_getElem hk, List.drop_eq_getElem_cons hk]
      simp only [h5]
      by_cases he : (sites orig[k]).element.pyEq sub = true
      · rw [if_pos he, List.filter_cons_of_pos (p := fun r => (sites r).element.pyEq sub) he, List.map_cons, List.foldl_cons]
        obtain ⟨a1, a2, a3, -, -, -, a7, a8⟩ := clearOne_spec h1 h2 rad ele (sites orig[k]).position
        refine ih (k + 1) _ a1 ?_ (lt_of_lt_of_le h3 a8) ((a7 ref h3).trans h4) (a3.trans h5) hk (by omega)
        exact lt_of_lt_of_eq h2 a2.symm
      · rw [if_neg he, List.filter_cons_of_neg (p := fun r => (sites r).element.pyEq sub) he]
        exact ih (k + 1) w h1 h2 h3 h4 h5 hk (by omega)
    · rw [List.getElem?_eq_none hk, List.drop_eq_nil_of_le hk]
      rfl

open Classical in
/-- C41. `VerboseAtomRemoveClarifier(etobesub, r, element).clarify(cell)` terminates (more steps than sites are never needed)
and keeps, in order and as the same objects, exactly the sites that are not (of the removed element and within `r` of some site
of element `etobesub` of the cell as it was at the start — also those that get removed on the way). -/
theorem C41_element_removal {w : World} (hw : WF w) {c : ℕ} (hc : c < w.nCell) (sub : Specie) (rad : ℚ) (ele : Option Specie)
    (fuel : ℕ) (hf : (w.sitesOf c).length < fuel) :
    ∃ w', verboseClarify fuel sub rad ele w c = some w' ∧
      w'.sitesOf c = (w.sitesOf c).filter (fun r => ¬ (EleOk ele (w.site r) ∧ ∃ q ∈ w.sitesOf c, (w.site q).element.Z = sub.Z ∧
        InSphere (w.cell c).lattice (w.site r).position (w.site q).position rad)) ∧
      w'.site = w.site ∧ (w'.cell c).lattice = (w.cell c).lattice ∧ (∀ d < w.nCell, d ≠ c → w'.view d = w.view d) ∧ WF w' := by
  have hl := verboseLoop_spec sub rad ele c (w.cell c).sitesRef (w.sitesOf c) w.site fuel 0 w hw hc (hw.ref c hc) rfl rfl
    (Nat.zero_le _) (by simpa using hf)
  refine ⟨_, hl, ?_⟩
  obtain ⟨b1, b2, b3, b4, b5, b6, -⟩ := clarify_fold c rad ele
    (((((w.sitesOf c).drop 0).filter fun r => (w.site r).element.pyEq sub).map fun r => (w.site r).position)) hw hc
  refine ⟨?_, b3, b4, ?_, b1⟩
  · rw [b5]
    apply List.filter_congr
    intro r _
    have : Doomed (w.cell c).lattice ((((w.sitesOf c).drop 0).filter fun r => (w.site r).element.pyEq sub).map fun r => (w.site r).position)
        rad ele (w.site r) ↔ EleOk ele (w.site r) ∧ ∃ q ∈ w.sitesOf c, (w.site q).element.Z = sub.Z ∧
        InSphere (w.cell c).lattice (w.site r).position (w.site q).position rad := by
      simp only [Doomed, List.drop_zero, List.mem_map, List.mem_filter, Specie.pyEq, beq_iff_eq]
      constructor
      · rintro ⟨h1, q, ⟨a, ⟨h2, h3⟩, rfl⟩, h4⟩
        exact ⟨h1, a, h2, h3, h4⟩
      · rintro ⟨h1, a, h2, h3, h4⟩
        exact ⟨h1, _, ⟨a, ⟨h2, h3⟩, rfl⟩, h4⟩
    simp only [this]
  · intro d hd hne
    obtain ⟨h1, h2⟩ := b6 d hd hne
    unfold World.view
    rw [h1, h2, b3]

/-! ## examples -/

/-- a row of four atoms B, Zn, Cu, Zn in a long box: a chain in which the removed Zn is itself a center -/
def exChainHist : List MOp :=
  [.newCell ((10, 0, 0), (0, 10, 0), (0, 0, 10)) [(0, 0, 0), (1/10, 0, 0), (2/10, 0, 0), (5/10, 0, 0)] [5, 30, 30, 30]]

def exChainW : World := (World.empty.run exChainHist).1

example : ValidRun World.empty exChainHist := ⟨⟨by decide, by decide⟩, trivial⟩
example : 0 < exChainW.nCell := by decide
/-- removing around the boron atom with radius 1.5 keeps B itself and the distant Zn atoms -/
example : (atomRemoveClarify [(0, 0, 0)] (3/2) (some ⟨"Zn", 30⟩) exChainW 0).sitesOf 0 = [0, 2, 3] := by decide +kernel
/-- the removed Zn next to boron still serves as a center: its neighbour goes, and every Zn removes itself -/
example : (verboseClarify 5 ⟨"Zn", 30⟩ (3/2) none exChainW 0).map (fun w => w.sitesOf 0) = some [] := by decide +kernel
example : (verboseClarify 5 ⟨"B", 5⟩ (3/2) (some ⟨"Zn", 30⟩) exChainW 0).map (fun w => w.sitesOf 0) = some [0, 2, 3] := by decide +kernel

end Verif
