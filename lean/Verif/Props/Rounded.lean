import Verif.Spec.Twin
import Verif.Props.Binary64Io
import Verif.Props.Dedup
import Verif.Props.Levels

/-! # C107: rounded coordinates do not change the structures found -/

namespace Verif

open Spec

/-! ## coordinates -/

theorem around3_near {η x y : ℚ} (hc : Clear (1000 * η) x) (h : |y - x| ≤ η) : around 3 y = around 3 x := by
  unfold around
  have e : ∀ t : ℚ, t * 10 ^ 3 = 1000 * t := fun t => by ring
  rw [e, e, rint_clear hc (y := 1000 * y)]
  rw [← mul_sub, abs_mul]
  norm_num
  exact h

theorem wrap3_near {η x y : ℚ} (hc : Clear (1000 * η) x) (h : |y - x| ≤ η) : wrap3 y = wrap3 x := by
  unfold wrap3
  rw [around3_near hc h]

theorem Spec.Clear.mono {δ δ' x : ℚ} (h : Clear δ x) (hd : δ' ≤ δ) : Clear δ' x := fun n => lt_of_le_of_lt hd (h n)

theorem siteKey_near {ε : ℚ} {x y : V3 ℚ} (hc : All3 (Clear (1000 * ε)) x) (h : Within ε x y) : siteKey y = siteKey x := by
  unfold siteKey V3.map
  rw [wrap3_near hc.1 h.1, wrap3_near hc.2.1 h.2.1, wrap3_near hc.2.2 h.2.2]

/-! ## computations on lists -/

theorem Spec.SameOutcome.bind {α β γ δ} {R : α → β → Prop} {S : γ → δ → Prop} {x : Py α} {y : Py β} {f : α → Py γ} {g : β → Py δ}
    (h : SameOutcome R x y) (hf : ∀ a b, R a b → SameOutcome S (f a) (g b)) : SameOutcome S (x >>= f) (y >>= g) := by
  cases h with
  | ok h => exact hf _ _ h
  | error e => exact .error e

theorem Spec.SameOutcome.mapM {α β γ δ} {R : α → β → Prop} {S : γ → δ → Prop} {f : α → Py γ} {g : β → Py δ} {l : List α} {m : List β}
    (h : List.Forall₂ R l m) (hf : ∀ a b, R a b → SameOutcome S (f a) (g b)) : SameOutcome (List.Forall₂ S) (l.mapM f) (m.mapM g) := by
  induction h with
  | nil => exact .ok .nil
  | cons h1 _ ih =>
    rw [List.mapM_cons, List.mapM_cons]
    exact (hf _ _ h1).bind fun a b hab => ih.bind fun as bs habs => .ok (.cons hab habs)

theorem forall₂_eq_refl {α} (l : List α) : List.Forall₂ Eq l l := List.forall₂_same.2 fun _ _ => rfl

theorem fancy_near {α β} {R : α → β → Prop} {l : List α} {m : List β} (h : List.Forall₂ R l m) (idx : List ℕ) :
    SameOutcome (List.Forall₂ R) (fancy l idx) (fancy m idx) := by
  refine SameOutcome.mapM (forall₂_eq_refl idx) ?_
  rintro i _ rfl
  by_cases hi : i < l.length
  · have hm : i < m.length := h.length_eq ▸ hi
    rw [List.getElem?_eq_getElem hi, List.getElem?_eq_getElem hm]
    exact .ok (forall₂_get h (List.getElem?_eq_getElem hi) (List.getElem?_eq_getElem hm))
  · rw [List.getElem?_eq_none (by omega), List.getElem?_eq_none (by rw [← h.length_eq]; omega)]
    exact .error _

theorem sameOutcome_refl {α} (x : Py α) : SameOutcome Eq x x := by
  cases x with
  | ok a => exact .ok rfl
  | error e => exact .error e

/-! ## cells -/

theorem keys_near {ε : ℚ} {ps ps' : List (V3 ℚ)} (hn : List.Forall₂ (Within ε) ps ps') (hc : ∀ x ∈ ps, All3 (Clear (1000 * ε)) x) :
    ps'.map siteKey = ps.map siteKey := by
  induction hn with
  | nil => rfl
  | cons h _ ih =>
    rw [List.map_cons, List.map_cons, siteKey_near (hc _ (by simp)) h, ih fun x hx => hc x (List.mem_cons_of_mem _ hx)]

theorem newIdSeq_keys {ps ps' : List (V3 ℚ)} (h : ps'.map siteKey = ps.map siteKey) : newIdSeq ps' = newIdSeq ps := by
  unfold newIdSeq
  have : ps' = [] ↔ ps = [] := by
    rw [← List.length_eq_zero_iff, ← List.length_eq_zero_iff, ← List.length_map (f := siteKey), h, List.length_map]
  by_cases h0 : ps = []
  · rw [if_pos h0, if_pos (this.2 h0)]
  · rw [if_neg h0, if_neg (fun h' => h0 (this.1 h')), h]

/-- **C107, cells.** Two cells built from the same elements and from positions that differ by at most `ε`, where no position is within `ε`
of a boundary of the rounding to three decimals, have their sites in the same order. -/
theorem C107_cell {ε : ℚ} (L L' : M3 ℚ) {ps ps' : List (V3 ℚ)} (nums : List ℤ) (hn : List.Forall₂ (Within ε) ps ps')
    (hc : ∀ x ∈ ps, All3 (Clear (1000 * ε)) x) :
    SameOutcome (Twin ε L L') (GCell.new L ps nums) (GCell.new L' ps' nums) := by
  unfold GCell.new
  rw [newIdSeq_keys (keys_near hn hc)]
  refine (sameOutcome_refl _).bind ?_
  rintro idx _ rfl
  refine (fancy_near hn idx).bind fun qs qs' hq => ?_
  refine (sameOutcome_refl _).bind ?_
  rintro ns _ rfl
  exact .ok ⟨rfl, rfl, rfl, rfl, rfl, hq⟩

theorem image_near {ε δ : ℚ} {g g' : Op} {x y : V3 ℚ} (hg : NearOp δ g g') (h : Within ε x y) (hc : ClearImage ε δ g x) :
    siteKey (applyOp g' y) = siteKey (applyOp g x) := by
  obtain ⟨hr, v, ht⟩ := hg
  obtain ⟨r, t⟩ := g
  obtain ⟨r', t'⟩ := g'
  obtain rfl : r' = r := hr
  have row : ∀ (a : V3 ℤ) (s s' : ℚ) (z : ℤ), |s' - (s + z)| ≤ δ → Clear (1000 * (rowSum a * ε + δ)) ((a.1 : ℚ) * x.1 + a.2.1 * x.2.1 + a.2.2 * x.2.2 + s) →
      wrap3 ((a.1 : ℚ) * y.1 + a.2.1 * y.2.1 + a.2.2 * y.2.2 + s') = wrap3 ((a.1 : ℚ) * x.1 + a.2.1 * x.2.1 + a.2.2 * x.2.2 + s) := by
    intro a s s' z hs hcl
    have hz : wrap3 ((a.1 : ℚ) * y.1 + a.2.1 * y.2.1 + a.2.2 * y.2.2 + s' - z) = wrap3 ((a.1 : ℚ) * y.1 + a.2.1 * y.2.1 + a.2.2 * y.2.2 + s') := by
      have := wrap3_add_int ((a.1 : ℚ) * y.1 + a.2.1 * y.2.1 + a.2.2 * y.2.2 + s' - z) z
      rw [sub_add_cancel] at this
      exact this.symm
    rw [← hz]
    refine wrap3_near hcl ?_
    have e : (a.1 : ℚ) * y.1 + a.2.1 * y.2.1 + a.2.2 * y.2.2 + s' - z - ((a.1 : ℚ) * x.1 + a.2.1 * x.2.1 + a.2.2 * x.2.2 + s) =
        a.1 * (y.1 - x.1) + a.2.1 * (y.2.1 - x.2.1) + a.2.2 * (y.2.2 - x.2.2) + (s' - (s + z)) := by ring
    rw [e]
    have b : ∀ (k : ℤ) (d : ℚ), |d| ≤ ε → |(k : ℚ) * d| ≤ |(k : ℚ)| * ε := fun k d hd => by
      rw [abs_mul]; exact mul_le_mul_of_nonneg_left hd (abs_nonneg _)
    have b1 := b a.1 _ h.1
    have b2 := b a.2.1 _ h.2.1
    have b3 := b a.2.2 _ h.2.2
    have t1 := abs_add_le (a.1 * (y.1 - x.1) + a.2.1 * (y.2.1 - x.2.1) + a.2.2 * (y.2.2 - x.2.2)) (s' - (s + z))
    have t2 := abs_add_le ((a.1 : ℚ) * (y.1 - x.1) + a.2.1 * (y.2.1 - x.2.1)) (a.2.2 * (y.2.2 - x.2.2))
    have t3 := abs_add_le ((a.1 : ℚ) * (y.1 - x.1)) (a.2.1 * (y.2.1 - x.2.1))
    unfold rowSum
    linarith
  rw [applyOp_eq, applyOp_eq]
  exact Prod.ext (row _ _ _ _ ht.1 hc.1) (Prod.ext (row _ _ _ _ ht.2.1 hc.2.1) (row _ _ _ _ ht.2.2 hc.2.2))

theorem images_near {ε δ : ℚ} {g g' : Op} {ps ps' : List (V3 ℚ)} (hg : NearOp δ g g') (hn : List.Forall₂ (Within ε) ps ps')
    (hc : ∀ x ∈ ps, ClearImage ε δ g x) : (ps'.map (applyOp g')).map siteKey = (ps.map (applyOp g)).map siteKey := by
  induction hn with
  | nil => rfl
  | cons h _ ih =>
    simp only [List.map_cons]
    rw [image_near hg h (hc _ (by simp)), ih fun x hx => hc x (List.mem_cons_of_mem _ hx)]

/-- **C107, permutations.** The table of site permutations is the same. -/
theorem C107_permutations {ε δ : ℚ} {L L' : M3 ℚ} {c c' : GCell} (hT : Twin ε L L' c c') {ops ops' : List Op}
    (ho : List.Forall₂ (NearOp δ) ops ops') (hc : ∀ g ∈ ops, ∀ x ∈ c.positions, ClearImage ε δ g x) :
    c'.symmetryPermutation ops' = c.symmetryPermutation ops := by
  unfold GCell.symmetryPermutation
  induction ho with
  | nil => rfl
  | cons h _ ih =>
    rw [List.mapM_cons, List.mapM_cons, newIdSeq_keys (images_near h hT.positions (hc _ (by simp))),
      ih fun g hg => hc g (List.mem_cons_of_mem _ hg)]

/-- two generator objects whose cells agree up to small errors -/
structure TwinGen (ε : ℚ) (L L' : M3 ℚ) (g g' : OGen) : Prop where
  init : Twin ε L L' g.init g'.init
  perms : g'.perms = g.perms
  wyckoffs : g'.wyckoffs = g.wyckoffs
  clear : ∀ x ∈ g.init.positions, All3 (Clear (1000 * ε)) x

/-- **C107, generator objects.** -/
theorem C107_generator {ε δ : ℚ} {L L' : M3 ℚ} {c c' : GCell} (hT : Twin ε L L' c c') {ops ops' : List Op} (wy : List String)
    (ho : List.Forall₂ (NearOp δ) ops ops') (hp : ∀ x ∈ c.positions, All3 (Clear (1000 * ε)) x)
    (hc : ∀ g ∈ ops, ∀ x ∈ c.positions, ClearImage ε δ g x) :
    SameOutcome (TwinGen ε L L') (OGen.new c ops wy) (OGen.new c' ops' wy) := by
  unfold OGen.new
  rw [C107_permutations hT ho hc]
  refine (sameOutcome_refl _).bind ?_
  rintro ps _ rfl
  exact .ok ⟨hT, rfl, rfl, hp⟩

/-! ## structures -/

theorem new_twin {ε : ℚ} {L L' : M3 ℚ} {c c' : GCell} (hT : Twin ε L L' c c') (hp : ∀ x ∈ c.positions, All3 (Clear (1000 * ε)) x)
    (nums : List ℤ) : SameOutcome (fun d d' => Twin ε L L' d d' ∧ ∀ x ∈ d.positions, All3 (Clear (1000 * ε)) x)
      (GCell.new c.lattice c.positions nums) (GCell.new c'.lattice c'.positions nums) := by
  have h := C107_cell c.lattice c'.lattice nums hT.positions hp
  rw [hT.lattice, hT.lattice'] at h ⊢
  generalize hx : GCell.new L c.positions nums = x at h
  generalize GCell.new L' c'.positions nums = y at h
  cases h with
  | error e => exact .error e
  | @ok d d' h =>
    refine .ok ⟨h, fun x hx' => hp x ?_⟩
    obtain ⟨-, -, hps, -⟩ := new_ok_inv hx
    rw [fancy_ok_iff] at hps
    have : some x ∈ d.positions.map some := List.mem_map_of_mem hx'
    rw [← hps] at this
    obtain ⟨j, -, hj⟩ := List.mem_map.1 this
    exact List.mem_of_getElem? hj

/-- the relation between the lists of structures of the two runs -/
def TwinCell (ε : ℚ) (L L' : M3 ℚ) (d d' : GCell) : Prop := Twin ε L L' d d' ∧ ∀ x ∈ d.positions, All3 (Clear (1000 * ε)) x

theorem gen2Nodup_twin {ε : ℚ} {L L' : M3 ℚ} (hash : List ℤ → ℕ) (perms : List (List ℕ)) {dup dup' : List GCell}
    (h : List.Forall₂ (TwinCell ε L L') dup dup') (iso : List ℕ) :
    SameOutcome (List.Forall₂ (TwinCell ε L L')) (gen2NodupLoop hash perms iso dup) (gen2NodupLoop hash perms iso dup') := by
  induction h generalizing iso with
  | nil => exact .ok .nil
  | @cons a b l m h1 _ ih =>
    rw [gen2NodupLoop, gen2NodupLoop, GCell.id, GCell.id, h1.1.numbers]
    by_cases hm : hash a.numbers ∈ iso
    · rw [if_pos hm, if_pos hm]; exact ih iso
    · rw [if_neg hm, if_neg hm]
      refine (sameOutcome_refl _).bind ?_
      rintro i _ rfl
      exact (ih i).bind fun r r' hr => .ok (.cons h1 hr)

theorem addOneInner_twin {ε : ℚ} {L L' : M3 ℚ} (hash : List ℤ → ℕ) {c c' : GCell} (h : TwinCell ε L L' c c') (cands : List (List ℤ)) (db : List ℕ) :
    SameOutcome (fun r r' => List.Forall₂ (TwinCell ε L L') r.1 r'.1 ∧ r'.2 = r.2) (addOneInner hash c cands db) (addOneInner hash c' cands db) := by
  induction cands generalizing db with
  | nil => exact .ok ⟨.nil, rfl⟩
  | cons nn rest ih =>
    rw [addOneInner, addOneInner]
    by_cases hm : hash nn ∈ db
    · rw [if_pos hm, if_pos hm]; exact ih db
    · rw [if_neg hm, if_neg hm]
      exact (new_twin h.1 h.2 nn).bind fun d d' hd => (ih _).bind fun r r' hr => .ok ⟨.cons hd hr.1, hr.2⟩

theorem addOneLoop_twin {ε : ℚ} {L L' : M3 ℚ} (hash : List ℤ → ℕ) (ok : ℕ → ℤ → Bool) (atom : ℤ) {gen gen' : List GCell}
    (h : List.Forall₂ (TwinCell ε L L') gen gen') (db : List ℕ) :
    SameOutcome (List.Forall₂ (TwinCell ε L L')) (addOneLoop hash ok atom gen db) (addOneLoop hash ok atom gen' db) := by
  induction h generalizing db with
  | nil => exact .ok .nil
  | cons h1 _ ih =>
    rw [addOneLoop, addOneLoop, h1.1.numbers]
    refine (addOneInner_twin hash h1 _ db).bind fun r r' hr => ?_
    rw [hr.2]
    exact (ih r.2).bind fun s s' hs => .ok (List.rel_append hr.1 hs)

theorem levels_twin {ε : ℚ} {L L' : M3 ℚ} {step step' : List GCell → Py (List GCell)}
    (hs : ∀ l l', List.Forall₂ (TwinCell ε L L') l l' → SameOutcome (List.Forall₂ (TwinCell ε L L')) (step l) (step' l')) (k : ℕ)
    {gen gen' : List GCell} (h : List.Forall₂ (TwinCell ε L L') gen gen') :
    SameOutcome (List.Forall₂ (List.Forall₂ (TwinCell ε L L'))) (levels step k gen) (levels step' k gen') := by
  induction k generalizing gen gen' with
  | zero => exact .ok .nil
  | succ k ih =>
    rw [levels, levels]
    exact (hs _ _ h).bind fun l l' hl => (ih hl).bind fun r r' hr => .ok (.cons hl hr)

theorem twin_forget {ε : ℚ} {L L' : M3 ℚ} {x y : Py (List GCell)} (h : SameOutcome (List.Forall₂ (TwinCell ε L L')) x y) :
    SameOutcome (List.Forall₂ (Twin ε L L')) x y := by
  cases h with
  | ok h => exact .ok (h.imp fun _ _ h => h.1)
  | error e => exact .error e

theorem twin_forget2 {ε : ℚ} {L L' : M3 ℚ} {x y : Py (List (List GCell))}
    (h : SameOutcome (List.Forall₂ (List.Forall₂ (TwinCell ε L L'))) x y) :
    SameOutcome (List.Forall₂ (List.Forall₂ (Twin ε L L'))) x y := by
  cases h with
  | ok h => exact .ok (h.imp fun _ _ h => h.imp fun _ _ h => h.1)
  | error e => exact .error e

/-- **C107, structures.** Every generator method lists, for the two objects, structures with the same elements in the same order. -/
theorem C107_structures {ε : ℚ} {L L' : M3 ℚ} (hash : List ℤ → ℕ) {g g' : OGen} (h : TwinGen ε L L' g g') :
    (∀ n sp, SameOutcome (List.Forall₂ (Twin ε L L')) (g.genDupUnitary n sp) (g'.genDupUnitary n sp)) ∧
    (∀ w n sp, SameOutcome (List.Forall₂ (Twin ε L L')) (g.genDup w n sp) (g'.genDup w n sp)) ∧
    (∀ ele n sp, SameOutcome (List.Forall₂ (Twin ε L L')) (g.genDupOfEle ele n sp) (g'.genDupOfEle ele n sp)) ∧
    (∀ sp1 n1 sp2 n2, SameOutcome (List.Forall₂ (Twin ε L L')) (g.genDupTrinary sp1 n1 sp2 n2) (g'.genDupTrinary sp1 n1 sp2 n2)) ∧
    (∀ n sp, SameOutcome (List.Forall₂ (Twin ε L L')) (g.genNodupUnitary hash n sp) (g'.genNodupUnitary hash n sp)) ∧
    (∀ w n sp, SameOutcome (List.Forall₂ (Twin ε L L')) (g.genNodup hash w n sp) (g'.genNodup hash w n sp)) ∧
    (∀ ele n sp, SameOutcome (List.Forall₂ (Twin ε L L')) (g.genNodupOfEle hash ele n sp) (g'.genNodupOfEle hash ele n sp)) ∧
    (∀ sp1 n1 sp2 n2, SameOutcome (List.Forall₂ (Twin ε L L')) (g.genNodupTrinary hash sp1 n1 sp2 n2) (g'.genNodupTrinary hash sp1 n1 sp2 n2)) ∧
    (∀ n sp, SameOutcome (List.Forall₂ (List.Forall₂ (Twin ε L L'))) (g.allSpeckleUnitary hash n sp) (g'.allSpeckleUnitary hash n sp)) ∧
    (∀ n w sp, SameOutcome (List.Forall₂ (List.Forall₂ (Twin ε L L'))) (g.allSpeckle hash n w sp) (g'.allSpeckle hash n w sp)) ∧
    (∀ n ele sp, SameOutcome (List.Forall₂ (List.Forall₂ (Twin ε L L'))) (g.allSpeckleOfEle hash n ele sp) (g'.allSpeckleOfEle hash n ele sp)) := by
  have hnew := new_twin h.init h.clear
  have d1 : ∀ n sp, SameOutcome (List.Forall₂ (TwinCell ε L L')) (g.genDupUnitary n sp) (g'.genDupUnitary n sp) := fun n sp => by
    unfold OGen.genDupUnitary
    rw [h.init.numbers]
    exact SameOutcome.mapM (forall₂_eq_refl _) (by rintro a _ rfl; exact hnew _)
  have d2 : ∀ w n sp, SameOutcome (List.Forall₂ (TwinCell ε L L')) (g.genDup w n sp) (g'.genDup w n sp) := fun w n sp => by
    unfold OGen.genDup
    rw [h.init.numbers, h.wyckoffs]
    exact SameOutcome.mapM (forall₂_eq_refl _) (by rintro a _ rfl; exact hnew _)
  have d3 : ∀ ele n sp, SameOutcome (List.Forall₂ (TwinCell ε L L')) (g.genDupOfEle ele n sp) (g'.genDupOfEle ele n sp) := fun ele n sp => by
    unfold OGen.genDupOfEle
    rw [h.init.numbers]
    exact SameOutcome.mapM (forall₂_eq_refl _) (by rintro a _ rfl; exact hnew _)
  have d4 : ∀ sp1 n1 sp2 n2, SameOutcome (List.Forall₂ (TwinCell ε L L')) (g.genDupTrinary sp1 n1 sp2 n2) (g'.genDupTrinary sp1 n1 sp2 n2) :=
    fun sp1 n1 sp2 n2 => by
      unfold OGen.genDupTrinary
      rw [h.init.numbers]
      exact SameOutcome.mapM (forall₂_eq_refl _) (by rintro a _ rfl; exact hnew _)
  have hnd : ∀ l l', List.Forall₂ (TwinCell ε L L') l l' →
      SameOutcome (List.Forall₂ (TwinCell ε L L')) (g.gen2Nodup hash l) (g'.gen2Nodup hash l') := fun l l' hl => by
    unfold OGen.gen2Nodup
    rw [h.perms]
    exact gen2Nodup_twin hash _ hl []
  have hini : List.Forall₂ (TwinCell ε L L') [g.init] [g'.init] := .cons ⟨h.init, h.clear⟩ .nil
  have hsp : ∀ sp, g'.init.getSpeckleNum sp = g.init.getSpeckleNum sp := fun sp => by
    unfold GCell.getSpeckleNum
    rw [h.init.numbers]
  refine ⟨fun n sp => twin_forget (d1 n sp), fun w n sp => twin_forget (d2 w n sp), fun e n sp => twin_forget (d3 e n sp),
    fun a b c d => twin_forget (d4 a b c d), fun n sp => twin_forget ((d1 n sp).bind hnd), fun w n sp => twin_forget ((d2 w n sp).bind hnd),
    fun e n sp => twin_forget ((d3 e n sp).bind hnd), fun a b c d => twin_forget ((d4 a b c d).bind hnd), fun n sp => twin_forget2 ?_,
    fun n w sp => twin_forget2 ?_, fun n ele sp => twin_forget2 ?_⟩
  · unfold OGen.allSpeckleUnitary
    rw [hsp]
    exact levels_twin (fun l l' hl => (addOneLoop_twin hash _ _ hl []).bind hnd) _ hini
  · unfold OGen.allSpeckle
    rw [hsp]
    refine levels_twin (fun l l' hl => ?_) _ hini
    unfold OGen.addOne
    rw [h.wyckoffs]
    exact (addOneLoop_twin hash _ _ hl []).bind hnd
  · unfold OGen.allSpeckleOfEle
    rw [hsp]
    exact levels_twin (fun l l' hl => (addOneLoop_twin hash _ _ hl []).bind hnd) _ hini

/-! ## files -/

theorem around_err (k : ℕ) (x : ℚ) : |around k x - x| ≤ 1 / 2 / 10 ^ k := by
  have h := rint_sub_le (x * 10 ^ k)
  have hp : (0 : ℚ) < 10 ^ k := by positivity
  have e : around k x - x = (rint (x * 10 ^ k) - x * 10 ^ k) / 10 ^ k := by
    unfold around
    rw [sub_div, mul_div_assoc, div_self hp.ne', mul_one]
  rw [e, abs_div, abs_of_pos hp, abs_sub_comm]
  exact div_le_div_of_nonneg_right h hp.le

/-- writing with six decimals and reading with four moves a number by at most 0.0000505 -/
theorem round64_err (x : ℚ) : |round64 x - x| ≤ 505 / 10 ^ 7 := by
  have h1 := around_err 6 x
  have h2 := around_err 4 (around 6 x)
  have h3 := abs_sub_le (round64 x) (around 6 x) x
  unfold round64 at *
  norm_num at *
  linarith

theorem round64_within (p : V3 ℚ) : Within (505 / 10 ^ 7) p (V3.map round64 p) := ⟨round64_err _, round64_err _, round64_err _⟩

/-- **C107, YAML files.** A cell written to a YAML file and read back has its sites in the same order, each with its coordinates rounded
to six, then four decimals and so within 0.0000505 of the original. -/
theorem C107_yaml (c : GCell) (hc : Built c) (hn : c.numCount = c.numbers.length) (hk : ∀ n ∈ c.numbers, Known n)
    (hp : ∀ x ∈ c.positions, All3 (Clear (505 / 10 ^ 4)) x) :
    ∃ d c', yamlDoc c = .ok d ∧ yamlReadCell d = .ok c' ∧ c'.positions = c.positions.map (V3.map round64) ∧
      Twin (505 / 10 ^ 7) c.lattice (V3.map (V3.map round64) c.lattice) c c' := by
  obtain ⟨d, h1, h2⟩ := C49_round_trip c hk
  have hw : List.Forall₂ (Within (505 / 10 ^ 7)) c.positions (c.positions.map (V3.map round64)) := by
    rw [List.forall₂_map_right_iff, List.forall₂_same]; exact fun x _ => round64_within x
  have hkeys := keys_near hw (fun x hx => by rw [show (1000 : ℚ) * (505 / 10 ^ 7) = 505 / 10 ^ 4 by norm_num]; exact hp x hx)
  have hlen := hc.length
  obtain ⟨ps, ns, e1, e2, e3⟩ := new_spec (V3.map (V3.map round64) c.lattice) (pos := c.positions.map (V3.map round64)) (nums := c.numbers)
    (by simpa using hc.ne_nil) (by simp [hlen])
  rw [hkeys, lexsort3_of_sorted _ hc.sorted, List.length_map] at e1 e2
  have e1' := fancy_range (c.positions.map (V3.map round64))
  rw [List.length_map, e1] at e1'
  rw [← hlen, fancy_range] at e2
  injection e1' with e1'
  injection e2 with e2
  subst e1' e2
  refine ⟨d, ⟨V3.map (V3.map round64) c.lattice, c.positions.map (V3.map round64), c.numbers, c.numbers, c.numbers.length⟩, h1, ?_, rfl,
    rfl, rfl, rfl, ?_, hn.symm, hw⟩
  · unfold yamlReadCell
    rw [h2]
    exact e3
  · obtain ⟨L, pos, nums, hc0⟩ := hc
    exact (new_ok_inv hc0).2.2.2.2.2.1.symm

/-- **C107, POSCAR files.** The same for POSCAR files without ghost atoms, although the file lists the atoms element by element, when
no two sites have the same reduced coordinates. -/
theorem C107_poscar (root : ℚ → ℚ) (c : GCell) (direct : Bool) (hc : Built c) (hn : c.numCount = c.numbers.length)
    (hk : ∀ n ∈ c.numbers, Known n ∧ n ≠ 0) (hd : (c.positions.map siteKey).Nodup) (hp : ∀ x ∈ c.positions, All3 (Clear (505 / 10 ^ 4)) x) :
    ∃ text c', vaspString c 1 direct = .ok text ∧ vaspReadCell root text = .ok c' ∧ c'.positions = c.positions.map (V3.map round64) ∧
      Twin (505 / 10 ^ 7) c.lattice (V3.map (V3.map round64) c.lattice) c c' := by
  have hlen := hc.length
  have hne : c.numbers ≠ [] := fun h => hc.ne_nil (List.length_eq_zero_iff.1 (by rw [← hlen, h]; rfl))
  obtain ⟨n0, hn0⟩ := List.exists_mem_of_ne_nil _ hne
  obtain ⟨text, ss, c', h1, h2, h3, h4, h5, h6⟩ := C46_round_trip root c direct hlen.symm (fun n h => (hk n h).1) ⟨n0, hn0, (hk n0 hn0).2⟩
  refine ⟨text, c', h1, h4, ?_⟩
  have hc' : GCell.new (V3.map (V3.map round64) c.lattice) (ss.map fun s => V3.map round64 s.1) (ss.map (·.2)) = .ok c' := by
    unfold vaspReadCell at h4
    rw [h3] at h4
    exact h4
  have hb' : Built c' := ⟨_, _, _, hc'⟩
  have hlen' := hb'.length
  have hss : ss.Perm (c.positions.zip c.numbers) := by
    have := SortedReal.perm h2
    rwa [List.filter_eq_self.2 (fun s hs => by simpa using (hk _ (List.of_mem_zip hs).2).2)] at this
  set T := (c.positions.zip c.numbers).map fun s => (V3.map round64 s.1, s.2) with hT
  have hperm : T.Perm (c'.positions.zip c'.numbers) := ((hss.map _).symm).trans h6.symm
  have hfst : (c.positions.zip c.numbers).map (·.1) = c.positions := List.map_fst_zip (by omega)
  have hsnd : (c.positions.zip c.numbers).map (·.2) = c.numbers := List.map_snd_zip (by omega)
  have hfst' : (c'.positions.zip c'.numbers).map (·.1) = c'.positions := List.map_fst_zip (by omega)
  have hsnd' : (c'.positions.zip c'.numbers).map (·.2) = c'.numbers := List.map_snd_zip (by omega)
  have hcomp (l : List (V3 ℚ × ℤ)) : l.map (fun s => siteKey s.1) = (l.map (·.1)).map siteKey := by rw [List.map_map]; rfl
  have hkeyT : T.map (fun s => siteKey s.1) = c.positions.map siteKey := by
    rw [hT, List.map_map]
    conv_rhs => rw [← hfst, List.map_map]
    refine List.map_congr_left fun s hs => ?_
    refine siteKey_near (ε := 505 / 10 ^ 7) ?_ (round64_within s.1)
    rw [show (1000 : ℚ) * (505 / 10 ^ 7) = 505 / 10 ^ 4 by norm_num]
    exact hp s.1 (List.of_mem_zip hs).1
  have hEq : T = c'.positions.zip c'.numbers := by
    have q1 : (T.map (fun s => siteKey s.1)).Pairwise (fun a b => lexLe a b = true) := by rw [hkeyT]; exact hc.sorted
    have q2 : ((c'.positions.zip c'.numbers).map (fun s => siteKey s.1)).Pairwise (fun a b => lexLe a b = true) := by
      rw [hcomp, hfst']; exact hb'.sorted
    refine List.Perm.eq_of_pairwise (le := fun a b : V3 ℚ × ℤ => lexLe (siteKey a.1) (siteKey b.1) = true) ?_
      (List.pairwise_map.1 q1) (List.pairwise_map.1 q2) hperm
    intro a b ha hb h1 h2
    have hkk : siteKey a.1 = siteKey b.1 := lexLe_antisymm (siteKey a.1) (siteKey b.1) h1 h2
    exact List.inj_on_of_nodup_map (f := fun s : V3 ℚ × ℤ => siteKey s.1) (by rw [hkeyT]; exact hd) ha (hperm.symm.subset hb) hkk
  have hnum : c'.numbers = c.numbers := by
    rw [← hsnd', ← hEq, hT, List.map_map]
    exact hsnd
  have hpos : c'.positions = c.positions.map (V3.map round64) := by
    rw [← hfst', ← hEq, hT, List.map_map]
    conv_rhs => rw [← hfst, List.map_map]
    rfl
  obtain ⟨-, -, -, -, -, s1, s2⟩ := new_ok_inv hc'
  obtain ⟨L, pos, nums, hc0⟩ := hc
  obtain ⟨-, -, -, -, -, s3, -⟩ := new_ok_inv hc0
  refine ⟨hpos, rfl, h5, hnum, by rw [s1, s3, hnum], ?_, ?_⟩
  · rw [s2, hn, List.length_map, hss.length_eq, List.length_zip]
    omega
  · rw [hpos, List.forall₂_map_right_iff, List.forall₂_same]
    exact fun x _ => round64_within x

theorem clear_check {δ x : ℚ} (h : |1000 * x - rint (1000 * x)| < 1 / 2 - δ) : Clear δ x := by
  intro n
  rw [abs_lt] at h
  rcases le_or_gt (rint (1000 * x)) n with hn | hn
  · have : (rint (1000 * x) : ℚ) ≤ n := by exact_mod_cast hn
    rw [lt_abs]; right; linarith
  · have : (n : ℚ) + 1 ≤ rint (1000 * x) := by exact_mod_cast hn
    rw [lt_abs]; left; linarith

/-- **C107, the restriction is needed.** A cell of two sites whose first coordinates are both 0.333 to three decimals. Reading it back from
the file makes one of them 0.3325, which is rounded to 0.332: the sites change their order, and with them the elements and the id. -/
theorem C107_fragile : ∃ c d c', Built c ∧ yamlDoc c = .ok d ∧ yamlReadCell d = .ok c' ∧ c.numbers = [30, 5] ∧ c'.numbers = [5, 30] := by
  refine ⟨⟨((3, 0, 0), (0, 3, 0), (0, 0, 3)), [(333 / 1000, 0, 0), (33251 / 100000, 1 / 2, 0)], [30, 5], [30, 5], 2⟩,
    ⟨some "B1Zn1".toList, some ((3, 0, 0), (0, 3, 0), (0, 0, 3)), some [(333 / 1000, 0, 0), (33251 / 100000, 1 / 2, 0)], some [30, 5], some 1⟩,
    ⟨((3, 0, 0), (0, 3, 0), (0, 0, 3)), [(3325 / 10000, 1 / 2, 0), (333 / 1000, 0, 0)], [5, 30], [5, 30], 2⟩,
    ⟨((3, 0, 0), (0, 3, 0), (0, 0, 3)), [(33251 / 100000, 1 / 2, 0), (333 / 1000, 0, 0)], [5, 30], by decide +kernel⟩,
    by decide +kernel, by decide +kernel, rfl, rfl⟩

/-- a chain of three atoms in a cell three times as long as high -/
def exThirds : GCell := ⟨((9, 0, 0), (0, 3, 0), (0, 0, 3)), [(0, 0, 0), (1 / 3, 0, 0), (2 / 3, 0, 0)], [29, 29, 29], [29, 29, 29], 3⟩

/-- shifts by thirds and the inversion -/
def exThirdsOps : List Op := [(identM, (0, 0, 0)), (identM, (1 / 3, 0, 0)), (identM, (2 / 3, 0, 0)),
  (((-1, 0, 0), (0, -1, 0), (0, 0, -1)), (0, 0, 0)), (((-1, 0, 0), (0, -1, 0), (0, 0, -1)), (1 / 3, 0, 0)),
  (((-1, 0, 0), (0, -1, 0), (0, 0, -1)), (2 / 3, 0, 0))]

/-- what is found for the rounded cell, translations rounded as well -/
def exThirdsOps' : List Op := [(identM, (0, 0, 0)), (identM, (3333 / 10000, 0, 0)), (identM, (-3333 / 10000, 0, 0)),
  (((-1, 0, 0), (0, -1, 0), (0, 0, -1)), (0, 0, 0)), (((-1, 0, 0), (0, -1, 0), (0, 0, -1)), (3333 / 10000, 0, 0)),
  (((-1, 0, 0), (0, -1, 0), (0, 0, -1)), (6667 / 10000, 0, 0))]

/-- the hypotheses hold for thirds written with four decimals: the cell read back has the sites 0, 0.3333, 0.6667 and the same generator
object up to these coordinates -/
example (root : ℚ → ℚ) : ∃ text c', vaspString exThirds 1 true = .ok text ∧ vaspReadCell root text = .ok c' ∧
    c'.positions = [(0, 0, 0), (3333 / 10000, 0, 0), (6667 / 10000, 0, 0)] ∧
    SameOutcome (TwinGen (505 / 10 ^ 7) exThirds.lattice c'.lattice) (OGen.new exThirds exThirdsOps []) (OGen.new c' exThirdsOps' []) := by
  have hp : ∀ x ∈ exThirds.positions, All3 (Clear (505 / 10 ^ 4)) x := by
    intro x hx
    simp only [exThirds, List.mem_cons, List.not_mem_nil, or_false] at hx
    rcases hx with rfl | rfl | rfl <;> exact ⟨clear_check (by decide +kernel), clear_check (by decide +kernel), clear_check (by decide +kernel)⟩
  obtain ⟨text, c', h1, h2, hpos, h3⟩ := C107_poscar root exThirds true ⟨_, _, _, (by decide +kernel :
    GCell.new ((9, 0, 0), (0, 3, 0), (0, 0, 3)) [(0, 0, 0), (1 / 3, 0, 0), (2 / 3, 0, 0)] [29, 29, 29] = .ok exThirds)⟩ rfl
    (fun n hn => by
      simp only [exThirds, List.mem_cons, List.not_mem_nil, or_false, or_self] at hn
      subst hn
      exact ⟨by left; omega, by norm_num⟩) (by decide +kernel) hp
  refine ⟨text, c', h1, h2, hpos.trans (by decide +kernel), ?_⟩
  refine C107_generator (δ := 1 / 10 ^ 4) (by rw [h3.lattice']; exact h3) [] ?_ (fun x hx => ?_) ?_
  · refine .cons ⟨rfl, (0, 0, 0), ?_⟩ (.cons ⟨rfl, (0, 0, 0), ?_⟩ (.cons ⟨rfl, (-1, 0, 0), ?_⟩ (.cons ⟨rfl, (0, 0, 0), ?_⟩
      (.cons ⟨rfl, (0, 0, 0), ?_⟩ (.cons ⟨rfl, (0, 0, 0), ?_⟩ .nil))))) <;> exact ⟨by decide +kernel, by decide +kernel, by decide +kernel⟩
  · rw [show (1000 : ℚ) * (505 / 10 ^ 7) = 505 / 10 ^ 4 by norm_num]; exact hp x hx
  · intro g hg x hx
    simp only [exThirdsOps, exThirds, List.mem_cons, List.not_mem_nil, or_false] at hg hx
    rcases hg with rfl | rfl | rfl | rfl | rfl | rfl <;> rcases hx with rfl | rfl | rfl <;>
      exact ⟨clear_check (by decide +kernel), clear_check (by decide +kernel), clear_check (by decide +kernel)⟩

/-- the common outcome is a generator object, not an exception -/
example : ∃ g, OGen.new exThirds exThirdsOps [] = .ok g ∧ g.perms = [[0, 1, 2], [2, 0, 1], [1, 2, 0], [0, 2, 1], [1, 0, 2], [2, 1, 0]] := by
  refine ⟨⟨exThirds, [[0, 1, 2], [2, 0, 1], [1, 2, 0], [0, 2, 1], [1, 0, 2], [2, 1, 0]], []⟩, ?_, rfl⟩
  have h : exThirds.symmetryPermutation exThirdsOps = .ok [[0, 1, 2], [2, 0, 1], [1, 2, 0], [0, 2, 1], [1, 0, 2], [2, 1, 0]] := by decide +kernel
  unfold OGen.new
  rw [h]
  rfl

end Verif
