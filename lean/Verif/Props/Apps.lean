import Verif.Lemmas.Apps
import Verif.Props.Restriction
import Verif.Props.Dedup
import Verif.Props.Levels
import Verif.Props.Io
import Mathlib.Data.Fintype.BigOperators
import Mathlib.Data.Fintype.Card

/-! # C65–C67, C75–C77: the command line applications -/

namespace Verif

open Spec

/-! ## what the applications filter by -/

/-- every two images of atoms of the species `z` (one in the cell, one in it or an adjacent cell of the doubled cell) are farther apart than `d` -/
def KeepsApart (c : GCell) (z : ℤ) (d : ℚ) : Prop :=
  ∀ (i j : ℕ) (p q : V3 ℚ) (t : V3 ℤ), c.positions[i]? = some p → c.numbers[i]? = some z →
    c.positions[j]? = some q → c.numbers[j]? = some z → Near t → (i ≠ j ∨ t ≠ 0) →
    Farther d (cartesian c.lattice p) (cartesian c.lattice (shift q t))

/-- the structure is to be written: it is primitive (if that is asked) and keeps the distance of the restriction (if there is one) -/
structure Passes (e : Ext) (mpr : Bool) (tr : Option (Specie × ℚ)) (c : GCell) : Prop where
  primitive : mpr = true → ∃ p, e.findPrimitive (c.lattice, c.positions, c.numbers) = some p ∧ p.2.2.length = c.numbers.length
  apart : ∀ el d, tr = some (el, d) → el.Z ∈ c.numbers ∧ KeepsApart c el.Z d

theorem Built.spg {c : GCell} (h : Built c) : c.spgNumbers = c.numbers := by
  obtain ⟨_, _, _, h⟩ := h
  obtain ⟨_, _, _, _, _, h, _⟩ := new_ok_inv h
  exact h

theorem isPrimitive_iff (e : Ext) {c : GCell} (h : Built c) :
    c.isPrimitive e = .ok true ↔ ∃ p, e.findPrimitive (c.lattice, c.positions, c.numbers) = some p ∧ p.2.2.length = c.numbers.length := by
  unfold GCell.isPrimitive
  rw [h.spg]
  cases e.findPrimitive (c.lattice, c.positions, c.numbers) with
  | none => simp
  | some p => simp

theorem minDist_iff {c : GCell} (h : Built c) (el : Specie) (d : ℚ) :
    minDistSatisfied el d c = .ok true ↔ el.Z ∈ c.numbers ∧ KeepsApart c el.Z d := by
  obtain ⟨h1, h2⟩ := C36_min_distance c h.ne_nil h.length.symm el d
  constructor
  · intro hh
    have hm : el.Z ∈ c.numbers := by
      by_contra hm
      rw [h1 hm] at hh; cases hh
    obtain ⟨b, hb, hi⟩ := h2 hm
    rw [hb] at hh
    injection hh with hh
    exact ⟨hm, hi.1 hh⟩
  · rintro ⟨hm, hk⟩
    obtain ⟨b, hb, hi⟩ := h2 hm
    rw [hb, hi.2 hk]

/-- **C67.** The condition computed for a structure is true exactly if the structure passes the filters that were asked for. -/
theorem C67_condition (e : Ext) (mpr : Bool) (tr : Option (Specie × ℚ)) {c : GCell} (h : Built c) :
    appCondition e mpr tr c = .ok true ↔ Passes e mpr tr c := by
  have key : appCondition e mpr tr c = .ok true ↔
      (mpr = true → c.isPrimitive e = .ok true) ∧ (∀ t, tr = some t → minDistSatisfied t.1 t.2 c = .ok true) := by
    unfold appCondition
    cases mpr <;> cases tr with
    | none => simp
    | some t =>
      simp only [reduceCtorEq, false_implies, true_and, forall_const, Option.some.injEq, forall_eq']
      try
        constructor
        · intro hh
          obtain ⟨b, hb, hh⟩ := bind_ok hh
          cases b with
          | false => cases hh
          | true => exact ⟨hb, hh⟩
        · rintro ⟨h1, h2⟩
          rw [h1]; exact h2
  rw [key]
  constructor
  · rintro ⟨h1, h2⟩
    exact ⟨fun hm => (isPrimitive_iff e h).1 (h1 hm), fun el d ht => (minDist_iff h el d).1 (h2 _ ht)⟩
  · rintro ⟨h1, h2⟩
    exact ⟨fun hm => (isPrimitive_iff e h).2 (h1 hm), fun t ht => (minDist_iff h t.1 t.2).2 (h2 _ _ ht)⟩

/-- a restriction on an element that the structure does not contain is an error, not a verdict -/
theorem C67_absent (e : Ext) (mpr : Bool) (el : Specie) (d : ℚ) {c : GCell} (h : Built c) (ha : el.Z ∉ c.numbers)
    (hp : mpr = true → c.isPrimitive e = .ok true) : appCondition e mpr (some (el, d)) c = .error .valueError := by
  have := (C36_min_distance c h.ne_nil h.length.symm el d).1 ha
  unfold appCondition
  cases mpr with
  | false => exact this
  | true => simp only [hp rfl]; exact this

/-- the structures that pass, in order -/
noncomputable def passers (e : Ext) (mpr : Bool) (tr : Option (Specie × ℚ)) (cs : List GCell) : List GCell :=
  cs.filter fun c => @decide (Passes e mpr tr c) (Classical.propDecidable _)

theorem mem_passers {e : Ext} {mpr : Bool} {tr : Option (Specie × ℚ)} {cs : List GCell} {c : GCell} :
    c ∈ passers e mpr tr cs ↔ c ∈ cs ∧ Passes e mpr tr c := by
  unfold passers
  rw [List.mem_filter, @decide_eq_true_eq _ (Classical.propDecidable _)]

theorem passing_eq (e : Ext) (mpr : Bool) (tr : Option (Specie × ℚ)) (cs : List GCell) (h : ∀ c ∈ cs, Built c) :
    passing e mpr tr cs = passers e mpr tr cs := by
  unfold passing passers
  refine List.filter_congr fun c hc => ?_
  rw [decide_eq_decide]
  exact C67_condition e mpr tr (h c hc)

/-- the restriction used: the first one given, if any -/
def FirstRestriction (trs : List (String × ℚ)) (tr : Option (Specie × ℚ)) : Prop :=
  (trs = [] ∧ tr = none) ∨ ∃ s d rest sp, trs = (s, d) :: rest ∧ Specie.ofSymbol s = .ok sp ∧ tr = some (sp, d)

theorem parseTr_inv {trs : List (String × ℚ)} {tr : Option (Specie × ℚ)} (h : parseTr trs.head? = .ok tr) : FirstRestriction trs tr := by
  cases trs with
  | nil => injection h with h; exact .inl ⟨rfl, h.symm⟩
  | cons t rest =>
    obtain ⟨sp, h1, h2⟩ := bind_ok h
    injection h2 with h2
    exact .inr ⟨t.1, t.2, rest, sp, rfl, h1, h2.symm⟩

/-- the species to be replaced: the one named, or the species of the second site -/
def TargetSpecies (num : List ℤ) (element : Option String) (z : ℤ) : Prop :=
  (element = none ∧ num[1]? = some z) ∨ ∃ s sp, element = some s ∧ Specie.ofSymbol s = .ok sp ∧ sp.Z = z

theorem targetZ_inv {num : List ℤ} {element : Option String} {z : ℤ} (h : targetZ num element = .ok z) : TargetSpecies num element z := by
  cases element with
  | none =>
    unfold targetZ at h
    simp only at h
    split at h
    · rename_i z' hz
      injection h with h; subst h
      exact .inl ⟨rfl, hz⟩
    · cases h
  | some s =>
    obtain ⟨sp, h1, h2⟩ := bind_ok h
    injection h2 with h2
    exact .inr ⟨s, sp, rfl, h1, h2⟩

theorem readFile_built {root : ℚ → ℚ} {content : FileContent} {fname : List Char} {fmt : Option (List Char)} {c : GCell}
    (h : readFile root content fname fmt = .ok c) : Built c := by
  obtain ⟨f, _, h⟩ := bind_ok h
  split at h
  · obtain ⟨x, _, h⟩ := bind_ok h
    exact ⟨_, _, _, h⟩
  · obtain ⟨x, _, h⟩ := bind_ok h
    exact ⟨_, _, _, h⟩
  · cases h

/-- what `ocumaker` and `ocubiter` set up from the input file and the options -/
structure OccSetup (e : Ext) (dflt : ℕ → ℤ) (infile : List Char) (content : FileContent) (o : OccOpts)
    (cell : GCell) (ele sp : Specie) (n : ℤ) (comment : List Char) (tr : Option (Specie × ℚ)) (g : OGen) : Prop where
  read : readFile e.root content infile none = .ok cell
  target : ∃ z, TargetSpecies cell.numbers o.element z ∧ Specie.fromNum z = .ok ele
  speckle : Specie.ofSymbol (o.speckle.getD "G") = .ok sp
  count : n = o.nspeckle.getD (dflt (cell.numbers.count ele.Z))
  named : commentOr o.comment cell = .ok comment
  restricted : FirstRestriction o.trs tr
  gen : OGen.new cell (e.symmetry cell) (e.wyckoffs cell) = .ok g

theorem fromNum_Z {z : ℤ} {sp : Specie} (h : Specie.fromNum z = .ok sp) : sp.Z = z := ((fromNum_ok_iff z sp).1 h).1

theorem occ_inv {e : Ext} {dflt : ℕ → ℤ} {infile : List Char} {content : FileContent} {o : OccOpts} {structures : OccApp → OGen → Py (List GCell)}
    {a : OccApp} {fs fs' : Fs} (hi : occInit e dflt infile content o = .ok a) (h : occRun e structures a fs = (fs', .ok ()))
    (hb : ∀ g cs, structures a g = .ok cs → ∀ c ∈ cs, Built c) :
    ∃ cs tr g ws, OccSetup e dflt infile content o a.cell a.ele a.speckle a.n a.comment tr g ∧ structures a g = .ok cs ∧
      a.mpr = o.mpr ∧ fs.has (structuresDir e a.comment (e.choices 0)) = false ∧
      List.Forall₂ (fun ci w => OccRecord e o.refined o.outmode (structuresDir e a.comment (e.choices 0)) (e.choices ci.2) ci.1 w)
        ((passers e o.mpr tr cs).zipIdx 1) ws ∧
      (∀ p, dictGet fs'.files p = afterWrites (dictGet fs.files p) ws p) ∧ fs'.dirs = structuresDir e a.comment (e.choices 0) :: fs.dirs := by
  obtain ⟨cell, i1, hi⟩ := bind_ok hi
  obtain ⟨comment, i2, hi⟩ := bind_ok hi
  obtain ⟨z, i3, hi⟩ := bind_ok hi
  obtain ⟨speckle, i4, hi⟩ := bind_ok hi
  obtain ⟨ele, i5, hi⟩ := bind_ok hi
  injection hi with hi
  subst hi
  unfold occRun at h
  simp only at h
  split at h
  · injection h with _ h; cases h
  · rename_i fs1 ho
    unfold openDir at ho
    split at ho
    · cases ho
    · rename_i hh
      injection ho with ho
      subst ho
      split at h
      · injection h with _ h; cases h
      · rename_i r hp
        obtain ⟨g, p1, hp⟩ := bind_ok hp
        obtain ⟨tr, p2, hp⟩ := bind_ok hp
        obtain ⟨cs, p3, hp⟩ := bind_ok hp
        injection hp with hp
        subst hp
        obtain ⟨_, ws, l1, l2⟩ := occLoop_inv _ _ _ _ _ _ _ _ _ _ h
        have hbc := hb g cs p3
        rw [passing_eq _ _ _ _ hbc] at l1
        refine ⟨cs, tr, g, ws, ?_, p3, rfl, by simpa using hh, l1, fun p => ?_, ?_⟩
        · refine ⟨i1, ⟨z, targetZ_inv i3, i5⟩, ?_, ?_, i2, parseTr_inv p2, p1⟩
          · cases hs : o.speckle with
            | none => rw [hs] at i4; exact i4
            | some s => rw [hs] at i4; exact i4
          · rw [fromNum_Z i5]
            cases o.nspeckle <;> rfl
        · rw [l2, Fs.writes_get]; rfl
        · rw [l2, Fs.writes_dirs]; rfl

/-- the outcome of a finished run: the passing structures, in order, are recorded one after the other in the output directory; what the files hold is
what these writes, performed in this order, leave -/
structure OccOutcome (e : Ext) (o : OccOpts) (mpr : Bool) (comment : List Char) (tr : Option (Specie × ℚ)) (cs : List GCell)
    (ws : List (List Char × FileContent)) (fs fs' : Fs) : Prop where
  fresh : fs.has (structuresDir e comment (e.choices 0)) = false
  records : List.Forall₂ (fun ci w => OccRecord e o.refined o.outmode (structuresDir e comment (e.choices 0)) (e.choices ci.2) ci.1 w)
    ((passers e mpr tr cs).zipIdx 1) ws
  files : ∀ p, dictGet fs'.files p = afterWrites (dictGet fs.files p) ws p
  dirs : fs'.dirs = structuresDir e comment (e.choices 0) :: fs.dirs

/-- **C67.** A finished run of `ocubiter` writes exactly the structures that pass the filters, of the structures with the asked number of
target atoms replaced. -/
theorem C67_ocubiter {e : Ext} {infile : List Char} {content : FileContent} {o : OccOpts} {fs fs' : Fs}
    (h : ocubiter e infile content o fs = (fs', .ok ())) :
    ∃ cell ele sp n comment tr g cs ws, OccSetup e (fun s => ((s / 2 + 1 : ℕ) : ℤ)) infile content o cell ele sp n comment tr g ∧
      0 ≤ n ∧ g.genNodupOfEle e.hash ele n.toNat sp = .ok cs ∧ OccOutcome e o o.mpr comment tr cs ws fs fs' := by
  unfold ocubiter at h
  split at h
  · injection h with _ h; cases h
  · rename_i a ha
    have hb : ∀ g cs, biterStructures e a g = .ok cs → 0 ≤ a.n ∧ g.genNodupOfEle e.hash a.ele a.n.toNat a.speckle = .ok cs := by
      intro g cs hg
      unfold biterStructures at hg
      split at hg
      · cases hg
      · rename_i hn; exact ⟨by omega, hg⟩
    obtain ⟨cs, tr, g, ws, h1, h2, _, h4, h5, h6, h7⟩ := occ_inv ha h (fun g cs hg => genNodupOfEle_built (hb g cs hg).2)
    exact ⟨a.cell, a.ele, a.speckle, a.n, a.comment, tr, g, cs, ws, h1, (hb g cs h2).1, (hb g cs h2).2, h4, h5, h6, h7⟩

/-- **C67.** A finished run of `ocumaker` writes exactly the structures, of all levels, that are primitive and pass the restriction. -/
theorem C67_ocumaker {e : Ext} {infile : List Char} {content : FileContent} {o : OccOpts} {fs fs' : Fs}
    (h : ocumaker e infile content o fs = (fs', .ok ())) :
    ∃ cell ele sp n comment tr g ls ws, OccSetup e (fun s => (s : ℤ) - 1) infile content o cell ele sp n comment tr g ∧
      g.allSpeckleOfEle e.hash n.toNat ele sp = .ok ls ∧ OccOutcome e o true comment tr ls.flatten ws fs fs' := by
  unfold ocumaker at h
  split at h
  · injection h with _ h; cases h
  · rename_i a ha
    have hb : ∀ g cs, makerStructures e a g = .ok cs → ∃ ls, g.allSpeckleOfEle e.hash a.n.toNat a.ele a.speckle = .ok ls ∧ cs = ls.flatten := by
      intro g cs hg
      obtain ⟨ls, h1, h2⟩ := bind_ok hg
      injection h2 with h2
      exact ⟨ls, h1, h2.symm⟩
    obtain ⟨cs, tr, g, ws, h1, h2, _, h4, h5, h6, h7⟩ := occ_inv ha h (fun g cs hg c hc => by
      obtain ⟨ls, e1, e2⟩ := hb g cs hg
      rw [e2] at hc
      obtain ⟨l, hl, hc⟩ := List.mem_flatten.1 hc
      exact allSpeckleOfEle_built e1 l hl c hc)
    obtain ⟨ls, e1, e2⟩ := hb g cs h2
    subst e2
    exact ⟨a.cell, a.ele, a.speckle, a.n, a.comment, tr, g, ls, ws,
      ⟨h1.read, h1.target, h1.speckle, h1.count, h1.named, h1.restricted, h1.gen⟩, e1, h4, h5, h6, h7⟩

/-! ## files -/

/-- **C66 (partial).** If no two of the writes of a finished run have the same path, every passing structure ends up in its own file of the
output directory, which holds that structure, and all other files are as before. Missing: the file names carry 4 random characters and are not
checked for existence, so two structures can get the same name (`C66_lost`, `C66_false`). -/
theorem C66_own_files_partial {e : Ext} {o : OccOpts} {mpr : Bool} {comment : List Char} {tr : Option (Specie × ℚ)} {cs : List GCell}
    {ws : List (List Char × FileContent)} {fs fs' : Fs} (h : OccOutcome e o mpr comment tr cs ws fs fs') (hn : (ws.map (·.1)).Nodup) :
    (∃ own : ℕ → List Char × FileContent,
      (∀ (i : ℕ) c, (passers e mpr tr cs)[i]? = some c → dictGet fs'.files (own i).1 = some (own i).2 ∧
        OccRecord e o.refined o.outmode (structuresDir e comment (e.choices 0)) (e.choices (i + 1)) c (own i)) ∧
      (∀ i j : ℕ, i < (passers e mpr tr cs).length → j < (passers e mpr tr cs).length → (own i).1 = (own j).1 → i = j) ∧
      (∀ p, (∀ i < (passers e mpr tr cs).length, p ≠ (own i).1) → dictGet fs'.files p = dictGet fs.files p)) := by
  have hlen : ws.length = (passers e mpr tr cs).length := by
    rw [← h.records.length_eq, List.length_zipIdx]
  refine ⟨fun i => ws.getD i ([], .text []), ?_, ?_, ?_⟩
  · intro i c hc
    beta_reduce
    have hi : i < ws.length := by rw [hlen]; exact (List.getElem?_eq_some_iff.1 hc).1
    have e1 : ws.getD i ([], .text []) = ws[i] := by simp [hi]
    rw [e1]
    refine ⟨?_, ?_⟩
    · rw [h.files]; exact afterWrites_own _ _ hn _ (List.getElem_mem hi)
    · have hi' : i < ((passers e mpr tr cs).zipIdx 1).length := by rw [List.length_zipIdx]; omega
      have := List.forall₂_iff_get.1 h.records |>.2 i hi' hi
      simp only [List.get_eq_getElem, List.getElem_zipIdx] at this
      have e2 : (passers e mpr tr cs)[i]'(by omega) = c := (List.getElem?_eq_some_iff.1 hc).2
      rw [e2, Nat.add_comm 1 i] at this
      exact this
  · intro i j hi hj hij
    beta_reduce at hij
    have e1 : ws.getD i ([], .text []) = ws[i]'(by omega) := by simp [hlen, hi]
    have e2 : ws.getD j ([], .text []) = ws[j]'(by omega) := by simp [hlen, hj]
    rw [e1, e2] at hij
    exact (List.nodup_iff_injective_get.1 hn |> fun hinj => by
      have := @hinj ⟨i, by simpa [hlen] using hi⟩ ⟨j, by simpa [hlen] using hj⟩ (by simpa using hij)
      simpa using this)
  · intro p hp
    rw [h.files]
    refine afterWrites_other _ _ _ fun hm => ?_
    obtain ⟨w, hw, rfl⟩ := List.mem_map.1 hm
    obtain ⟨i, hi, rfl⟩ := List.getElem_of_mem hw
    refine hp i (by omega) ?_
    simp [hi]

/-- two writes with the same path leave fewer files than passing structures: the earlier structure is lost -/
theorem C66_lost {e : Ext} {o : OccOpts} {mpr : Bool} {comment : List Char} {tr : Option (Specie × ℚ)} {cs : List GCell}
    {ws : List (List Char × FileContent)} {fs fs' : Fs} (h : OccOutcome e o mpr comment tr cs ws fs fs') (hn : ¬ (ws.map (·.1)).Nodup) :
    (ws.map (·.1)).toFinset.card < (passers e mpr tr cs).length ∧
      ∀ p, dictGet fs'.files p ≠ dictGet fs.files p → p ∈ (ws.map (·.1)).toFinset := by
  constructor
  · have hlen : ws.length = (passers e mpr tr cs).length := by
      rw [← h.records.length_eq, List.length_zipIdx]
    rw [← hlen, ← List.length_map (f := (·.1)) (as := ws)]
    refine lt_of_le_of_ne (List.toFinset_card_le _) fun he => hn ?_
    exact Multiset.toFinset_card_eq_card_iff_nodup.1 he
  · intro p hp
    rw [List.mem_toFinset]
    by_contra hm
    exact hp (by rw [h.files]; exact afterWrites_other _ _ _ hm)

end Verif
