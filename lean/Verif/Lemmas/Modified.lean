import Verif.Model.Modified
import Verif.Spec.Sequence
import Mathlib.Tactic.Ring
import Mathlib.Tactic.Linarith
import Mathlib.Data.List.InsertIdx

/-! # Lemmas about the heap of sites, lists and cells -/

namespace Verif

open Spec

/-! ### Python list methods against the plain specification -/

theorem pyIndex_slot (n : ℕ) (i : ℤ) : pyIndex n i = match slot n i with | .ok k => some k | .error _ => none := by
  unfold pyIndex slot
  rcases lt_or_ge i 0 with hi | hi
  · by_cases hr : -(n : ℤ) ≤ i
    · have h1 : -(n : ℤ) ≤ i ∧ i < n := ⟨hr, by omega⟩
      have h2 : 0 ≤ i + n ∧ i + n < n := ⟨by omega, by omega⟩
      have h3 : i % (n : ℤ) = i + n := by
        rw [← Int.add_emod_right, Int.emod_eq_of_lt h2.1 h2.2]
      simp only [hi, if_true, h1, h2, h3, and_self]
    · simp only [hi, if_true]
      rw [if_neg (by omega), if_neg (by omega)]
  · by_cases hr : i < n
    · have h1 : -(n : ℤ) ≤ i ∧ i < n := ⟨by omega, hr⟩
      have h3 : i % (n : ℤ) = i := Int.emod_eq_of_lt hi hr
      simp only [not_lt.2 hi, if_false, h1, hi, h3, and_self, if_true]
    · simp only [not_lt.2 hi, if_false]
      rw [if_neg (by omega), if_neg (by omega)]

theorem slot_lt {n : ℕ} {i : ℤ} {k : ℕ} (h : slot n i = .ok k) : k < n := by
  unfold slot at h
  split at h
  · rename_i hr
    obtain rfl := Except.ok.inj h
    have hn : (0 : ℤ) < n := by omega
    have := Int.emod_lt_of_pos i hn
    have := Int.emod_nonneg i (ne_of_gt hn)
    omega
  · exact absurd h (by simp)

theorem slot_error {n : ℕ} {i : ℤ} {e : PyErr} (h : slot n i = .error e) : e = .indexError := by
  unfold slot at h
  split at h
  · exact absurd h (by simp)
  · exact (Except.error.inj h).symm

theorem pyGet_plain (l : List ℕ) (i : ℤ) : pyGet l i = (slot l.length i).map fun k => l.getD k 0 := by
  unfold pyGet
  rw [pyIndex_slot]
  cases h : slot l.length i with
  | error e => obtain rfl := slot_error h; rfl
  | ok k =>
    have := slot_lt h
    simp [Except.map, List.getElem?_eq_getElem this]

theorem pySet_plain (l : List ℕ) (i : ℤ) (x : ℕ) :
    pySet l i x = (slot l.length i).map fun k => l.take k ++ x :: l.drop (k + 1) := by
  unfold pySet
  rw [pyIndex_slot]
  cases h : slot l.length i with
  | error e => obtain rfl := slot_error h; rfl
  | ok k =>
    have := slot_lt h
    simp only [Except.map]
    rw [List.set_eq_take_append_cons_drop, if_pos this]

theorem pyDel_plain (l : List ℕ) (i : ℤ) :
    pyDel l i = (slot l.length i).map fun k => l.take k ++ l.drop (k + 1) := by
  unfold pyDel
  rw [pyIndex_slot]
  cases h : slot l.length i with
  | error e => obtain rfl := slot_error h; rfl
  | ok k => simp only [Except.map]; rw [List.eraseIdx_eq_take_drop_succ]

theorem pyInsert_plain (l : List ℕ) (i : ℤ) (x : ℕ) : pyInsert l i x = (plain l (.insert i x)).1 := by
  have hk : (if i < 0 then max (i + l.length) 0 else min i (l.length : ℤ)).toNat =
      (max 0 (min (l.length : ℤ) (if i < 0 then l.length + i else i))).toNat := by
    split <;> omega
  have hle : (max 0 (min (l.length : ℤ) (if i < 0 then l.length + i else i))).toNat ≤ l.length := by omega
  unfold pyInsert plain
  simp only
  rw [hk]
  generalize (max 0 (min (l.length : ℤ) (if i < 0 then l.length + i else i))).toNat = k at hle ⊢
  clear hk
  induction l generalizing k with
  | nil => obtain rfl : k = 0 := by simpa using hle
           rfl
  | cons a l ih =>
    cases k with
    | zero => rfl
    | succ k => simpa using ih k (by simpa using hle)

theorem pyDrop_aux {α} (p : ℕ → Bool) (l : List α) (n : ℕ) :
    (((l.zipIdx n).filter fun q => !(p q.2)).map (·.1)) =
      (List.range' n l.length).filterMap (fun k => if p k = true then none else l[k - n]?) := by
  induction l generalizing n with
  | nil => rfl
  | cons a l ih =>
    rw [List.zipIdx_cons, List.length_cons, List.range'_succ, List.filter_cons]
    have e : (List.range' (n + 1) l.length).filterMap (fun k => if p k = true then none else (a :: l)[k - n]?) =
        (List.range' (n + 1) l.length).filterMap (fun k => if p k = true then none else l[k - (n + 1)]?) := by
      apply List.filterMap_congr
      intro k hk
      have := (List.mem_range'_1.1 hk).1
      have h2 : k - n = (k - (n + 1)) + 1 := by omega
      rw [h2, List.getElem?_cons_succ]
    rw [List.filterMap_cons, e, ← ih]
    cases hp : p n <;> simp

theorem pyDrop_plain (l : List ℕ) (idx : List ℤ) : pyDropIndices l idx = (plain l (.removeAt idx)).1 := by
  unfold pyDropIndices plain
  have := pyDrop_aux (fun k : ℕ => idx.contains (k : ℤ)) l 0
  rw [this, ← List.range_eq_range']
  apply List.filterMap_congr
  intro k _
  simp

/-! ### well-formed heaps -/

/-- no dangling references; every cell has its own list object -/
structure WF (w : World) : Prop where
  ref : ∀ c < w.nCell, (w.cell c).sitesRef < w.nList
  own : ∀ c < w.nCell, ∀ d < w.nCell, (w.cell c).sitesRef = (w.cell d).sitesRef → c = d
  live : ∀ l < w.nList, ∀ r ∈ w.list l, r < w.nSite

/-- the cells and sites an operation is called on or with -/
def MOp.cells : MOp → List ℕ
  | .newSite .. | .newCell .. | .setPosition .. | .setElement .. => []
  | .getItem c _ | .setItem c _ _ | .delItem c _ | .append c _ | .insert c _ _ | .pop c _ | .extend c _
  | .removeSites c _ | .len c | .iter c | .translate c _ _ | .copy c => [c]

def MOp.siteArgs : MOp → List ℕ
  | .setPosition s _ | .setElement s _ | .setItem _ _ s | .append _ s | .insert _ _ s => [s]
  | .extend _ ss => ss
  | _ => []

/-- the arguments of the call exist -/
def Valid (w : World) (op : MOp) : Prop := (∀ c ∈ op.cells, c < w.nCell) ∧ ∀ s ∈ op.siteArgs, s < w.nSite

/-- every call of the history gets existing arguments -/
def ValidRun (w : World) : List MOp → Prop
  | [] => True
  | op :: ops => Valid w op ∧ ValidRun (w.step op).1 ops

/-- what a call may change: only the cells `cs` and the sites `args` or those in `cs` -/
structure Effect (w w' : World) (cs args : List ℕ) : Prop where
  wf : WF w'
  mono : w.nSite ≤ w'.nSite ∧ w.nCell ≤ w'.nCell
  others : ∀ c < w.nCell, c ∉ cs → w'.sitesOf c = w.sitesOf c
  lattice : ∀ c < w.nCell, (w'.cell c).lattice = (w.cell c).lattice
  sub : ∀ c ∈ cs, ∀ r ∈ w'.sitesOf c, r ∈ w.sitesOf c ∨ r ∈ args
  fresh : ∀ c, w.nCell ≤ c → c < w'.nCell → ∀ r ∈ w'.sitesOf c, w.nSite ≤ r
  keepSite : ∀ r < w.nSite, r ∉ args → (∀ c ∈ cs, r ∉ w.sitesOf c) → w'.site r = w.site r

theorem Effect.refl {w : World} (h : WF w) (cs args : List ℕ) : Effect w w cs args :=
  ⟨h, ⟨le_refl _, le_refl _⟩, fun _ _ _ => rfl, fun _ _ => rfl, fun _ _ _ hr => Or.inl hr,
    fun _ h1 h2 => absurd h2 (not_lt.2 h1), fun _ _ _ _ => rfl⟩

theorem sitesOf_setSites_self (w : World) (c : ℕ) (l : List ℕ) : (w.setSites c l).sitesOf c = l := by
  simp [World.setSites, World.sitesOf]

theorem sitesOf_setSites_ne {w : World} (h : WF w) {c d : ℕ} (hc : c < w.nCell) (hd : d < w.nCell) (hne : d ≠ c) (l : List ℕ) :
    (w.setSites c l).sitesOf d = w.sitesOf d := by
  simp only [World.setSites, World.sitesOf]
  rw [Function.update_of_ne]
  exact fun e => hne (h.own d hd c hc e)

theorem sitesOf_rebind_self (w : World) (c : ℕ) (l : List ℕ) : (w.rebindSites c l).sitesOf c = l := by
  simp [World.rebindSites, World.sitesOf]

theorem sitesOf_rebind_ne {w : World} (h : WF w) {c d : ℕ} (hd : d < w.nCell) (hne : d ≠ c) (l : List ℕ) :
    (w.rebindSites c l).sitesOf d = w.sitesOf d := by
  simp only [World.rebindSites, World.sitesOf]
  rw [Function.update_of_ne hne, Function.update_of_ne (ne_of_lt (h.ref d hd))]

theorem effect_setSites {w : World} (h : WF w) {c : ℕ} (hc : c < w.nCell) {l args : List ℕ}
    (hl : ∀ r ∈ l, r ∈ w.sitesOf c ∨ r ∈ args) (ha : ∀ r ∈ args, r < w.nSite) : Effect w (w.setSites c l) [c] args where
  wf := by
    refine ⟨h.ref, h.own, ?_⟩
    intro i hi r hr
    simp only [World.setSites] at hr
    by_cases e : i = (w.cell c).sitesRef
    · rw [e, Function.update_self] at hr
      rcases hl r hr with h1 | h1
      · exact h.live _ (h.ref c hc) r h1
      · exact ha r h1
    · rw [Function.update_of_ne e] at hr
      exact h.live i hi r hr
  mono := ⟨le_refl _, le_refl _⟩
  others := fun d hd hne => sitesOf_setSites_ne h hc hd (by simpa using hne) l
  lattice := fun _ _ => rfl
  sub := by
    intro d hd r hr
    obtain rfl := List.mem_singleton.1 hd
    rw [sitesOf_setSites_self] at hr
    exact hl r hr
  fresh := fun _ h1 h2 => absurd h2 (not_lt.2 h1)
  keepSite := fun _ _ _ _ => rfl

theorem effect_rebind {w : World} (h : WF w) {c : ℕ} (hc : c < w.nCell) {l : List ℕ}
    (hl : ∀ r ∈ l, r ∈ w.sitesOf c) : Effect w (w.rebindSites c l) [c] [] where
  wf := by
    refine ⟨?_, ?_, ?_⟩
    · intro d hd
      simp only [World.rebindSites] at hd ⊢
      by_cases e : d = c
      · rw [e, Function.update_self]; exact Nat.lt_succ_self _
      · rw [Function.update_of_ne e]; exact Nat.lt_succ_of_lt (h.ref d hd)
    · intro d hd d' hd' he
      simp only [World.rebindSites] at hd hd' he
      by_cases e : d = c <;> by_cases e' : d' = c
      · rw [e, e']
      · rw [e, Function.update_self, Function.update_of_ne e'] at he
        exact absurd he (ne_of_gt (h.ref d' hd'))
      · rw [e', Function.update_self, Function.update_of_ne e] at he
        exact absurd he (ne_of_lt (h.ref d hd))
      · rw [Function.update_of_ne e, Function.update_of_ne e'] at he
        exact h.own d hd d' hd' he
    · intro i hi r hr
      simp only [World.rebindSites] at hi hr ⊢
      by_cases e : i = w.nList
      · rw [e, Function.update_self] at hr
        exact h.live _ (h.ref c hc) r (hl r hr)
      · rw [Function.update_of_ne e] at hr
        exact h.live i (lt_of_le_of_ne (Nat.lt_succ_iff.1 hi) e) r hr
  mono := ⟨le_refl _, le_refl _⟩
  others := fun d hd hne => sitesOf_rebind_ne h hd (by simpa using hne) l
  lattice := by
    intro d _
    simp only [World.rebindSites]
    by_cases e : d = c
    · rw [e, Function.update_self]
    · rw [Function.update_of_ne e]
  sub := by
    intro d hd r hr
    obtain rfl := List.mem_singleton.1 hd
    rw [sitesOf_rebind_self] at hr
    exact Or.inl (hl r hr)
  fresh := fun _ h1 h2 => absurd h2 (not_lt.2 h1)
  keepSite := fun _ _ _ _ => rfl

theorem effect_setSite {w : World} (h : WF w) (r : ℕ) (s : Site) {cs args : List ℕ} (hr : r ∈ args ∨ ∃ c ∈ cs, r ∈ w.sitesOf c) :
    Effect w { w with site := Function.update w.site r s } cs args where
  wf := ⟨h.ref, h.own, h.live⟩
  mono := ⟨le_refl _, le_refl _⟩
  others := fun _ _ _ => rfl
  lattice := fun _ _ => rfl
  sub := fun _ _ _ hr => Or.inl hr
  fresh := fun _ h1 h2 => absurd h2 (not_lt.2 h1)
  keepSite := by
    intro q _ hq1 hq2
    rw [show ({ w with site := Function.update w.site r s } : World).site = Function.update w.site r s from rfl]
    rw [Function.update_of_ne]
    rintro rfl
    rcases hr with h1 | ⟨c, hc, h1⟩
    · exact hq1 h1
    · exact hq2 c hc h1

/-- allocating sites only -/
structure OnlySites (w w' : World) : Prop where
  list : w'.list = w.list
  nList : w'.nList = w.nList
  cell : w'.cell = w.cell
  nCell : w'.nCell = w.nCell
  mono : w.nSite ≤ w'.nSite
  old : ∀ r < w.nSite, w'.site r = w.site r

theorem OnlySites.rfl' (w : World) : OnlySites w w := ⟨rfl, rfl, rfl, rfl, le_refl _, fun _ _ => rfl⟩

theorem OnlySites.trans {a b c : World} (h : OnlySites a b) (k : OnlySites b c) : OnlySites a c :=
  ⟨k.list.trans h.list, k.nList.trans h.nList, k.cell.trans h.cell, k.nCell.trans h.nCell, h.mono.trans k.mono,
    fun r hr => (k.old r (lt_of_lt_of_le hr h.mono)).trans (h.old r hr)⟩

theorem onlySites_alloc (w : World) (s : Site) : OnlySites w (w.allocSite s).1 :=
  ⟨rfl, rfl, rfl, rfl, Nat.le_succ _, fun r hr => by
    simp only [World.allocSite]; rw [Function.update_of_ne (ne_of_lt hr)]⟩

theorem OnlySites.wf {w w' : World} (h : OnlySites w w') (hw : WF w) : WF w' := by
  refine ⟨?_, ?_, ?_⟩
  · intro c hc; rw [h.cell, h.nList]; exact hw.ref c (h.nCell ▸ hc)
  · intro c hc d hd; rw [h.cell]; exact hw.own c (h.nCell ▸ hc) d (h.nCell ▸ hd)
  · intro l hl r hr
    rw [h.list] at hr
    exact lt_of_lt_of_le (hw.live l (h.nList ▸ hl) r hr) h.mono

theorem OnlySites.effect {w w' : World} (h : OnlySites w w') (hw : WF w) (cs args : List ℕ) : Effect w w' cs args where
  wf := h.wf hw
  mono := ⟨h.mono, le_of_eq h.nCell.symm⟩
  others := fun c _ _ => by simp only [World.sitesOf, h.list, h.cell]
  lattice := fun c _ => by rw [h.cell]
  sub := fun c _ r hr => Or.inl (by simpa only [World.sitesOf, h.list, h.cell] using hr)
  fresh := fun c h1 h2 => absurd (h.nCell ▸ h2) (not_lt.2 h1)
  keepSite := fun r hr _ _ => h.old r hr

theorem allocSites_spec (ss : List Site) : ∀ w : World, OnlySites w (w.allocSites ss).1 ∧
    (w.allocSites ss).1.nSite = w.nSite + ss.length ∧ (w.allocSites ss).2 = List.range' w.nSite ss.length ∧
    (w.allocSites ss).2.map (w.allocSites ss).1.site = ss := by
  induction ss with
  | nil => intro w; exact ⟨OnlySites.rfl' w, rfl, rfl, rfl⟩
  | cons s ss ih =>
    intro w
    obtain ⟨h1, h2, h3, h4⟩ := ih (w.allocSite s).1
    have e : w.allocSites (s :: ss) = (((w.allocSite s).1.allocSites ss).1, w.nSite :: ((w.allocSite s).1.allocSites ss).2) := rfl
    rw [e]
    refine ⟨(onlySites_alloc w s).trans h1, ?_, ?_, ?_⟩
    · rw [h2, List.length_cons]; simp only [World.allocSite]; omega
    · simp only
      rw [h3, List.length_cons, List.range'_succ]; rfl
    · simp only [List.map_cons]
      rw [h4]
      have : ((w.allocSite s).1.allocSites ss).1.site w.nSite = (w.allocSite s).1.site w.nSite :=
        h1.old _ (Nat.lt_succ_self _)
      rw [this]
      simp [World.allocSite]

theorem sitesOf_allocCell_self (w : World) (L : M3 ℚ) (l : List ℕ) : (w.allocCell L l).1.sitesOf w.nCell = l := by
  simp [World.allocCell, World.sitesOf]

theorem sitesOf_allocCell_old {w : World} (h : WF w) (L : M3 ℚ) (l : List ℕ) {c : ℕ} (hc : c < w.nCell) :
    (w.allocCell L l).1.sitesOf c = w.sitesOf c ∧ (w.allocCell L l).1.cell c = w.cell c := by
  simp only [World.allocCell, World.sitesOf]
  rw [Function.update_of_ne (ne_of_lt hc), Function.update_of_ne (ne_of_lt (h.ref c hc))]
  exact ⟨rfl, rfl⟩

/-- a new cell on new sites -/
theorem effect_allocCell {w w1 : World} (h : WF w) (ho : OnlySites w w1) (L : M3 ℚ) {l : List ℕ}
    (hl : ∀ r ∈ l, w.nSite ≤ r ∧ r < w1.nSite) (cs args : List ℕ) (hcs : ∀ c ∈ cs, c < w.nCell) :
    Effect w (w1.allocCell L l).1 cs args := by
  have hw1 := ho.wf h
  have old : ∀ c < w.nCell, (w1.allocCell L l).1.sitesOf c = w.sitesOf c ∧ (w1.allocCell L l).1.cell c = w.cell c := by
    intro c hc
    have := sitesOf_allocCell_old hw1 L l (ho.nCell.symm ▸ hc)
    refine ⟨this.1.trans ?_, this.2.trans (by rw [ho.cell])⟩
    simp only [World.sitesOf, ho.list, ho.cell]
  refine ⟨⟨?_, ?_, ?_⟩, ⟨ho.mono, ?_⟩, ?_, ?_, ?_, ?_, ?_⟩
  · intro c hc
    simp only [World.allocCell] at hc ⊢
    by_cases e : c = w1.nCell
    · rw [e, Function.update_self]; exact Nat.lt_succ_self _
    · rw [Function.update_of_ne e]
      exact Nat.lt_succ_of_lt (hw1.ref c (lt_of_le_of_ne (Nat.lt_succ_iff.1 hc) e))
  · intro c hc d hd he
    simp only [World.allocCell] at hc hd he
    by_cases e : c = w1.nCell <;> by_cases e' : d = w1.nCell
    · rw [e, e']
    · rw [e, Function.update_self, Function.update_of_ne e'] at he
      exact absurd he (ne_of_gt (hw1.ref d (lt_of_le_of_ne (Nat.lt_succ_iff.1 hd) e')))
    · rw [e', Function.update_self, Function.update_of_ne e] at he
      exact absurd he (ne_of_lt (hw1.ref c (lt_of_le_of_ne (Nat.lt_succ_iff.1 hc) e)))
    · rw [Function.update_of_ne e, Function.update_of_ne e'] at he
      exact hw1.own c (lt_of_le_of_ne (Nat.lt_succ_iff.1 hc) e) d (lt_of_le_of_ne (Nat.lt_succ_iff.1 hd) e') he
  · intro i hi r hr
    simp only [World.allocCell] at hi hr ⊢
    by_cases e : i = w1.nList
    · rw [e, Function.update_self] at hr; exact (hl r hr).2
    · rw [Function.update_of_ne e] at hr
      exact hw1.live i (lt_of_le_of_ne (Nat.lt_succ_iff.1 hi) e) r hr
  · simp only [World.allocCell]; rw [ho.nCell]; exact Nat.le_succ _
  · exact fun c hc _ => (old c hc).1
  · exact fun c hc => by rw [(old c hc).2]
  · exact fun c hc r hr => Or.inl ((old c (hcs c hc)).1 ▸ hr)
  · intro c h1 h2 r hr
    have : c = w1.nCell := by
      simp only [World.allocCell] at h2
      rw [← ho.nCell] at h1
      omega
    subst this
    rw [sitesOf_allocCell_self] at hr
    exact (hl r hr).1
  · exact fun r hr _ _ => ho.old r hr

/-! ### deepcopy -/

theorem copyLoop_spec (w0 : World) (rs : List ℕ) : ∀ (w : World) (memo : List (ℕ × ℕ)),
    OnlySites w0 w → (∀ r ∈ rs, r < w0.nSite) →
    (∀ r r', memo.lookup r = some r' → w0.nSite ≤ r' ∧ r' < w.nSite ∧ w.site r' = w0.site r) →
    (∀ r q v, memo.lookup r = some v → memo.lookup q = some v → r = q) →
    OnlySites w (copyLoop w0 rs w memo).1 ∧
    (∀ r ∈ (copyLoop w0 rs w memo).2, w0.nSite ≤ r ∧ r < (copyLoop w0 rs w memo).1.nSite) ∧
    (copyLoop w0 rs w memo).2.map (copyLoop w0 rs w memo).1.site = rs.map w0.site ∧
    ∃ f : ℕ → ℕ, (copyLoop w0 rs w memo).2 = rs.map f ∧ (∀ r r', memo.lookup r = some r' → f r = r') ∧
      (∀ r ∈ rs, memo.lookup r = none → w.nSite ≤ f r) ∧ ∀ q ∈ rs, ∀ q' ∈ rs, f q = f q' → q = q' := by
  induction rs with
  | nil =>
    intro w memo _ _ _ _
    exact ⟨OnlySites.rfl' w, by simp [copyLoop], rfl, fun r => (memo.lookup r).getD 0, rfl, fun r r' h => by simp [h], by simp, by simp⟩
  | cons r rs ih =>
    intro w memo h0 hr hm hi
    have hrs : ∀ q ∈ rs, q < w0.nSite := fun q hq => hr q (List.mem_cons_of_mem _ hq)
    unfold copyLoop
    cases hl : memo.lookup r with
    | some r' =>
      obtain ⟨h1, h2, h3, f, hf, hf2, hf3, hf4⟩ := ih w memo h0 hrs hm hi
      obtain ⟨m1, m2, m3⟩ := hm r r' hl
      simp only
      refine ⟨h1, ?_, ?_, f, ?_, hf2, ?_, ?_⟩
      · intro q hq
        rcases List.mem_cons.1 hq with rfl | hq
        · exact ⟨m1, lt_of_lt_of_le m2 h1.mono⟩
        · exact h2 q hq
      · rw [List.map_cons, List.map_cons, h3, h1.old _ m2, m3]
      · rw [List.map_cons, hf2 r r' hl, ← hf]
      · intro q hq hq'
        rcases List.mem_cons.1 hq with rfl | hq
        · rw [hl] at hq'; exact absurd hq' (by simp)
        · exact hf3 q hq hq'
      · have key : ∀ q ∈ rs, f r = f q → r = q := by
          intro q hq he
          rw [hf2 r r' hl] at he
          cases hq' : memo.lookup q with
          | some v => rw [hf2 q v hq'] at he; exact hi r q r' hl (he ▸ hq')
          | none => have := hf3 q hq hq'; omega
        intro q hq q' hq' he
        rcases List.mem_cons.1 hq with e | h <;> rcases List.mem_cons.1 hq' with e' | h'
        · rw [e, e']
        · rw [e] at he ⊢; exact key q' h' he
        · rw [e'] at he ⊢; exact (key q h he.symm).symm
        · exact hf4 q h q' h' he
    | none =>
      have hA := onlySites_alloc w (w0.site r)
      have hm' : ∀ q q', ((r, w.nSite) :: memo).lookup q = some q' →
          w0.nSite ≤ q' ∧ q' < (w.allocSite (w0.site r)).1.nSite ∧ (w.allocSite (w0.site r)).1.site q' = w0.site q := by
        intro q q' hq
        rw [List.lookup_cons] at hq
        by_cases e : q = r
        · subst e
          simp only [beq_self_eq_true] at hq
          obtain rfl := Option.some.inj hq
          exact ⟨h0.mono, Nat.lt_succ_self _, by simp [World.allocSite]⟩
        · rw [beq_false_of_ne e] at hq
          obtain ⟨m1, m2, m3⟩ := hm q q' hq
          exact ⟨m1, Nat.lt_succ_of_lt m2, (hA.old _ m2).trans m3⟩
      have hi' : ∀ q q' v, ((r, w.nSite) :: memo).lookup q = some v → ((r, w.nSite) :: memo).lookup q' = some v → q = q' := by
        intro q q' v hq hq'
        rw [List.lookup_cons] at hq hq'
        by_cases e : q = r <;> by_cases e' : q' = r
        · rw [e, e']
        · subst e
          simp only [beq_self_eq_true] at hq
          rw [beq_false_of_ne e'] at hq'
          have := (hm q' v hq').2.1
          have := Option.some.inj hq
          omega
        · subst e'
          simp only [beq_self_eq_true] at hq'
          rw [beq_false_of_ne e] at hq
          have := (hm q v hq).2.1
          have := Option.some.inj hq'
          omega
        · rw [beq_false_of_ne e] at hq
          rw [beq_false_of_ne e'] at hq'
          exact hi q q' v hq hq'
      obtain ⟨h1, h2, h3, f, hf, hf2, hf3, hf4⟩ := ih (w.allocSite (w0.site r)).1 ((r, w.nSite) :: memo) (h0.trans hA) hrs hm' hi'
      have hfr : f r = w.nSite := hf2 r w.nSite (by simp)
      have hnew : ∀ q ∈ rs, q ≠ r → f q ≠ w.nSite := by
        intro q hq e he
        cases hq' : memo.lookup q with
        | some v =>
          rw [hf2 q v (by rw [List.lookup_cons, beq_false_of_ne e]; exact hq')] at he
          have := (hm q v hq').2.1
          omega
        | none =>
          have := hf3 q hq (by rw [List.lookup_cons, beq_false_of_ne e]; exact hq')
          simp only [World.allocSite] at this
          omega
      refine ⟨hA.trans h1, ?_, ?_, f, ?_, ?_, ?_, ?_⟩
      · intro q hq
        rcases List.mem_cons.1 hq with rfl | hq
        · exact ⟨h0.mono, lt_of_lt_of_le (Nat.lt_succ_self _) h1.mono⟩
        · exact h2 q hq
      · show (w.nSite :: _).map _ = _
        rw [List.map_cons, List.map_cons]
        exact congrArg₂ List.cons ((h1.old _ (Nat.lt_succ_self _)).trans (by simp [World.allocSite])) h3
      · show w.nSite :: _ = _
        rw [List.map_cons, hfr]
        exact congrArg _ hf
      · intro q q' hq
        have e : q ≠ r := by rintro rfl; rw [hl] at hq; exact absurd hq (by simp)
        exact hf2 q q' (by rw [List.lookup_cons, beq_false_of_ne e]; exact hq)
      · intro q hq hq'
        by_cases e : q = r
        · rw [e, hfr]
        · rcases List.mem_cons.1 hq with h | hq
          · exact absurd h e
          · exact le_trans (Nat.le_succ _) (hf3 q hq (by rw [List.lookup_cons, beq_false_of_ne e]; exact hq'))
      · intro q hq q' hq' he
        by_cases e : q = r <;> by_cases e' : q' = r
        · rw [e, e']
        · rw [e, hfr] at he
          exact absurd he.symm (hnew q' ((List.mem_cons.1 hq').resolve_left e') e')
        · rw [e', hfr] at he
          exact absurd he (hnew q ((List.mem_cons.1 hq).resolve_left e) e)
        · exact hf4 q ((List.mem_cons.1 hq).resolve_left e) q' ((List.mem_cons.1 hq').resolve_left e') he

end Verif
