import Verif.Props.Commands
import Verif.Props.AppFiles

/-! # C97: application runs that stop half way -/

namespace Verif

open Spec

/-! ## the generators never raise -/

theorem mapM_ok_of {α β} (f : α → Py β) (P : β → Prop) : ∀ l : List α, (∀ a ∈ l, ∃ b, f a = .ok b ∧ P b) → ∃ bs, l.mapM f = .ok bs ∧ ∀ b ∈ bs, P b
  | [], _ => ⟨[], by rw [List.mapM_nil]; rfl, by simp⟩
  | a :: l, h => by
    obtain ⟨b, h1, h2⟩ := h a (by simp)
    obtain ⟨bs, h3, h4⟩ := mapM_ok_of f P l fun x hx => h x (List.mem_cons_of_mem _ hx)
    refine ⟨b :: bs, ?_, ?_⟩
    · rw [List.mapM_cons, h1, h3]; rfl
    · intro x hx
      rcases List.mem_cons.1 hx with rfl | hx
      · exact h2
      · exact h4 x hx

/-- every row of the permutation table refers to sites of the cell, whatever the symmetry finder returns -/
theorem ogen_total {c : GCell} (hc : Built c) (ops : List (M3 ℤ × V3 ℚ)) (wy : List String) :
    ∃ g, OGen.new c ops wy = .ok g ∧ g.init = c ∧ ∀ p ∈ g.perms, ∀ i ∈ p, i < c.numbers.length := by
  obtain ⟨rows, h1, h2⟩ := mapM_ok_of (fun op : M3 ℤ × V3 ℚ => newIdSeq (c.positions.map (applyOp op)))
    (fun p => ∀ i ∈ p, i < c.numbers.length) ops (by
      intro op _
      have hne : c.positions.map (applyOp op) ≠ [] := by simpa using hc.ne_nil
      refine ⟨_, newIdSeq_ok hne, fun i hi => ?_⟩
      rw [mem_lexsort3] at hi
      simpa [hc.length] using hi)
  refine ⟨⟨c, rows, wy⟩, ?_, rfl, h2⟩
  unfold OGen.new GCell.symmetryPermutation
  rw [h1]; rfl

theorem gen2Nodup_total (hash : List ℤ → ℕ) {g : OGen} {N : ℕ} (hp : ∀ p ∈ g.perms, ∀ i ∈ p, i < N) (dup : List GCell)
    (hd : ∀ c ∈ dup, c.numbers.length = N) : ∃ cs, g.gen2Nodup hash dup = .ok cs ∧ (∀ c ∈ cs, c ∈ dup) ∧ (dup ≠ [] → cs ≠ []) := by
  refine ⟨_, gen2NodupLoop_eq hash g.perms [] dup fun c hc p hpp i hi => ?_, fun c hc => (dedupL_sublist _ _ _ _).subset hc, fun hne => ?_⟩
  · rw [hd c hc]; exact hp p hpp i hi
  · cases dup with
    | nil => exact absurd rfl hne
    | cons c dup => unfold dedupL; simp

theorem genNodupOfEle_total (hash : List ℤ → ℕ) {c : GCell} (hc : Built c) {ops : List (M3 ℤ × V3 ℚ)} {wy : List String} {g : OGen}
    (hg : OGen.new c ops wy = .ok g) (ele : Specie) (n : ℕ) (sp : Specie) :
    ∃ cs, g.genNodupOfEle hash ele n sp = .ok cs ∧ (∀ d ∈ cs, ∃ S : Finset ℕ, (∀ i ∈ S, c.numbers[i]? = some ele.Z) ∧ S.card = n ∧
      SubstCell c sp.Z S d) ∧ (n ≤ c.numbers.count ele.Z → cs ≠ []) := by
  obtain ⟨g', h1, h2, h3⟩ := ogen_total hc ops wy
  obtain rfl := Except.ok.inj (hg.symm.trans h1)
  subst h2
  obtain ⟨dup, subsets, k1, _, k3, k4, k5, _⟩ := C16_of_ele_exact g hc ele n sp
  obtain ⟨cs, m1, m2, m3⟩ := gen2Nodup_total hash h3 dup (fun d hd => by
    obtain ⟨S, _, hS⟩ := forall₂_mem_right k4 hd
    exact hS.2.2.1)
  refine ⟨cs, ?_, fun d hd => ?_, fun hn => m3 ?_⟩
  · unfold OGen.genNodupOfEle
    rw [k1]; exact m1
  rotate_left
  · have := Nat.choose_pos hn
    rintro rfl
    simp at k5
    omega
  · obtain ⟨S, hS, hsub⟩ := forall₂_mem_right k4 (m2 d hd)
    exact ⟨S, ((k3 S).1 hS).1, ((k3 S).1 hS).2, hsub⟩

theorem levels_total (hash : List ℤ → ℕ) {g : OGen} {N : ℕ} (hp : ∀ p ∈ g.perms, ∀ i ∈ p, i < N) (ok : ℕ → ℤ → Bool) (z : ℤ) :
    ∀ (k : ℕ) (gen : List GCell), (∀ c ∈ gen, Built c ∧ c.numbers.length = N) →
      ∃ ls, levels (fun gen => do g.gen2Nodup hash (← addOneLoop hash ok z gen [])) k gen = .ok ls
  | 0, gen, _ => ⟨[], rfl⟩
  | k + 1, gen, h => by
    obtain ⟨out, o1, o2, o3, _⟩ := addOne_core hash ok (fun i v => ok i v = true) (fun _ _ => Iff.rfl) z gen fun c hc => (h c hc).1
    have ho : ∀ d ∈ out, d.numbers.length = N := by
      intro d hd
      obtain ⟨c, hc, _, _, i, v, _, _, hs⟩ := o3 d hd
      rw [hs.2.1, (h c hc).2]
    obtain ⟨cs, m1, m2, _⟩ := gen2Nodup_total hash hp out ho
    obtain ⟨ls, hl⟩ := levels_total hash hp ok z k cs fun c hc => ⟨o2 c (m2 c hc), ho c (m2 c hc)⟩
    refine ⟨cs :: ls, ?_⟩
    rw [levels]
    simp only [o1, bind, Except.bind, m1]
    simp only [bind, Except.bind] at hl
    rw [hl]; rfl

theorem allSpeckleOfEle_total (hash : List ℤ → ℕ) {c : GCell} (hc : Built c) {ops : List (M3 ℤ × V3 ℚ)} {wy : List String} {g : OGen}
    (hg : OGen.new c ops wy = .ok g) (n : ℕ) (ele sp : Specie) : ∃ ls, g.allSpeckleOfEle hash n ele sp = .ok ls := by
  obtain ⟨g', h1, h2, h3⟩ := ogen_total hc ops wy
  obtain rfl := Except.ok.inj (hg.symm.trans h1)
  subst h2
  exact levels_total hash h3 _ _ _ _ (by simpa using hc)

/-! ## which structures raise -/

/-- the structure passes the test for primitivity, if that is asked -/
def PassesPrimitive (e : Ext) (mpr : Bool) (c : GCell) : Prop :=
  mpr = true → ∃ p, e.findPrimitive (c.lattice, c.positions, c.numbers) = some p ∧ p.2.2.length = c.numbers.length

/-- the exception with which the treatment of the structure ends, if it ends with one -/
inductive Raises (e : Ext) (refined mpr : Bool) (tr : Option (Specie × ℚ)) (c : GCell) : PyErr → Prop
  /-- spglib cannot tell whether the structure is primitive -/
  | spglib (hm : mpr = true) (h : e.findPrimitive (c.lattice, c.positions, c.numbers) = none) : Raises e refined mpr tr c .typeError
  /-- the restriction is about an element that the structure does not contain -/
  | absent (el : Specie) (d : ℚ) (hp : PassesPrimitive e mpr c) (ht : tr = some (el, d)) (h : el.Z ∉ c.numbers) : Raises e refined mpr tr c .valueError
  /-- spglib cannot refine the structure -/
  | unrefined (hp : Passes e mpr tr c) (hr : refined = true) (h : e.standardize (c.lattice, c.positions, c.numbers) = none) :
      Raises e refined mpr tr c .typeError
  /-- spglib's refined structure is not a cell -/
  | badCell (hp : Passes e mpr tr c) (hr : refined = true) (p : SpgTuple) (h : e.standardize (c.lattice, c.positions, c.numbers) = some p)
      (er : PyErr) (hn : GCell.new p.1 p.2.1 p.2.2 = .error er) : Raises e refined mpr tr c er
  /-- the structure to be written has an atomic number outside the table -/
  | unknown (hp : Passes e mpr tr c) (d : GCell) (hd : maybeRefined e refined c = .ok d) (h : ∃ n ∈ d.numbers, ¬ Known n) :
      Raises e refined mpr tr c .indexError

theorem isPrimitive_cases (e : Ext) {c : GCell} (h : Built c) :
    (e.findPrimitive (c.lattice, c.positions, c.numbers) = none ∧ c.isPrimitive e = .error .typeError) ∨
    (∃ p, e.findPrimitive (c.lattice, c.positions, c.numbers) = some p ∧ c.isPrimitive e = .ok (decide (p.2.2.length = c.numbers.length))) := by
  unfold GCell.isPrimitive
  rw [h.spg]
  cases e.findPrimitive (c.lattice, c.positions, c.numbers) with
  | none => exact .inl ⟨rfl, rfl⟩
  | some p => exact .inr ⟨p, rfl, rfl⟩

/-- the condition: true for the structures that pass, an exception in the first two cases of `Raises`, false for the others -/
theorem condition_cases (e : Ext) (refined mpr : Bool) (tr : Option (Specie × ℚ)) {c : GCell} (h : Built c) :
    (appCondition e mpr tr c = .ok true ∧ Passes e mpr tr c) ∨
    (appCondition e mpr tr c = .ok false ∧ ¬ Passes e mpr tr c ∧ ∀ er, ¬ Raises e refined mpr tr c er) ∨
    (∃ er, appCondition e mpr tr c = .error er ∧ ¬ Passes e mpr tr c ∧ Raises e refined mpr tr c er) := by
  have hno : appCondition e mpr tr c ≠ .ok true → ¬ Passes e mpr tr c := fun h1 h2 => h1 ((C67_condition e mpr tr h).2 h2)
  -- no exception if the restricted element is present or the structure is filtered before
  have hfalse : appCondition e mpr tr c = .ok false → (mpr = true → e.findPrimitive (c.lattice, c.positions, c.numbers) ≠ none) →
      (∀ el d, tr = some (el, d) → PassesPrimitive e mpr c → el.Z ∈ c.numbers) → ¬ Passes e mpr tr c ∧ ∀ er, ¬ Raises e refined mpr tr c er := by
    intro h1 h2 h3
    have hn := hno (by rw [h1]; decide)
    refine ⟨hn, fun er hr => ?_⟩
    cases hr with
    | spglib hm hh => exact h2 hm hh
    | absent el d hp ht hh => exact hh (h3 el d ht hp)
    | unrefined hp => exact hn hp
    | badCell hp => exact hn hp
    | unknown hp => exact hn hp
  -- the restriction alone
  have hres : ∀ (el : Specie) (d : ℚ), tr = some (el, d) → PassesPrimitive e mpr c → appCondition e mpr tr c = minDistSatisfied el d c →
      (mpr = true → e.findPrimitive (c.lattice, c.positions, c.numbers) ≠ none) →
      (appCondition e mpr tr c = .ok true ∧ Passes e mpr tr c) ∨
      (appCondition e mpr tr c = .ok false ∧ ¬ Passes e mpr tr c ∧ ∀ er, ¬ Raises e refined mpr tr c er) ∨
      (∃ er, appCondition e mpr tr c = .error er ∧ ¬ Passes e mpr tr c ∧ Raises e refined mpr tr c er) := by
    intro el d ht hp hc hf
    obtain ⟨m1, m2⟩ := C36_min_distance c h.ne_nil h.length.symm el d
    by_cases hm : el.Z ∈ c.numbers
    · obtain ⟨b, hb, _⟩ := m2 hm
      cases b with
      | true => exact .inl ⟨hc.trans hb, (C67_condition e mpr tr h).1 (hc.trans hb)⟩
      | false =>
        refine .inr (.inl ⟨hc.trans hb, hfalse (hc.trans hb) hf fun el' d' ht' _ => ?_⟩)
        rw [ht] at ht'
        obtain ⟨rfl, rfl⟩ := Prod.mk.inj (Option.some.inj ht')
        exact hm
    · have := hc.trans (m1 hm)
      exact .inr (.inr ⟨_, this, hno (by rw [this]; nofun), .absent el d hp ht hm⟩)
  cases mpr with
  | false =>
    cases tr with
    | none =>
      have h1 : appCondition e false none c = .ok true := rfl
      exact .inl ⟨h1, (C67_condition _ _ _ h).1 h1⟩
    | some t => exact hres t.1 t.2 rfl nofun rfl nofun
  | true =>
    rcases isPrimitive_cases e h with ⟨h1, h2⟩ | ⟨p, h1, h2⟩
    · have h3 : appCondition e true tr c = .error .typeError := by
        cases tr with
        | none => exact h2
        | some t => unfold appCondition; simp only [h2]; rfl
      exact .inr (.inr ⟨_, h3, hno (by rw [h3]; nofun), .spglib rfl h1⟩)
    · have hf : true = true → e.findPrimitive (c.lattice, c.positions, c.numbers) ≠ none := fun _ => by rw [h1]; nofun
      by_cases hl : p.2.2.length = c.numbers.length
      · rw [decide_eq_true hl] at h2
        cases tr with
        | none => exact .inl ⟨h2, (C67_condition _ _ _ h).1 h2⟩
        | some t =>
          refine hres t.1 t.2 rfl (fun _ => ⟨p, h1, hl⟩) ?_ hf
          unfold appCondition; simp only [h2]; rfl
      · rw [decide_eq_false hl] at h2
        have h3 : appCondition e true tr c = .ok false := by
          cases tr with
          | none => exact h2
          | some t => unfold appCondition; simp only [h2]; rfl
        refine .inr (.inl ⟨h3, hfalse h3 hf fun el d _ hp => ?_⟩)
        obtain ⟨q, hq, hql⟩ := hp rfl
        rw [h1] at hq
        obtain rfl := Option.some.inj hq
        exact absurd hql hl

/-- an output mode the command line accepts -/
def Outmode (m : List Char) : Prop := m = "vasp".toList ∨ m = "yaml".toList

theorem writeFile_ok {c : GCell} (hlen : c.positions.length = c.numbers.length) (hk : ∀ n ∈ c.numbers, Known n) {outmode : List Char}
    (ho : Outmode outmode) (a : List Char) : ∃ x, writeFile c (a ++ ['.'] ++ outmode) none = .ok x := by
  have hy : ∃ d, yamlDoc c = .ok d := by
    obtain ⟨d, hd, _⟩ := C49_round_trip c hk
    exact ⟨d, hd⟩
  obtain ⟨d, hd⟩ := hy
  obtain ⟨s, hs⟩ := vaspString_ok c hlen hk
  obtain ⟨d1, d2, -⟩ := C51_dispatch (a ++ ['.'] ++ outmode) none
  by_cases hw : WantsYaml (a ++ ['.'] ++ outmode) none
  · refine ⟨.doc d, ?_⟩
    unfold writeFile
    rw [d1.2 hw]
    simp only [bind, Except.bind, hd]; rfl
  · refine ⟨.text s, ?_⟩
    have hv : WantsVasp (a ++ ['.'] ++ outmode) none := by
      rcases ho with rfl | rfl
      · exact .inr (.inl (by rw [List.append_assoc, lower_append]; exact ⟨lower a, rfl⟩))
      · exact absurd (.inr (by rw [List.append_assoc, lower_append]; exact ⟨lower a, [], by rw [List.append_nil]; rfl⟩)) hw
    unfold writeFile
    rw [d2.2 ⟨hw, hv⟩]
    simp only [bind, Except.bind, hs]; rfl

theorem pathJoin_record (dir cm suffix outmode : List Char) :
    ∃ t, pathJoin dir (structureName cm suffix outmode) = t ++ ['.'] ++ outmode := by
  obtain ⟨t, ht⟩ := pathJoin_suffix dir (structureName cm suffix outmode)
  exact ⟨t ++ ("STRUCTURE_".toList ++ cm ++ ['_'] ++ suffix), by rw [ht]; unfold structureName; simp only [List.append_assoc]⟩

theorem raises_of_passes {e : Ext} {refined mpr : Bool} {tr : Option (Specie × ℚ)} {c : GCell} (hp : Passes e mpr tr c) {er : PyErr}
    (h : Raises e refined mpr tr c er) :
    (refined = true ∧ e.standardize (c.lattice, c.positions, c.numbers) = none ∧ er = .typeError) ∨
    (refined = true ∧ ∃ p, e.standardize (c.lattice, c.positions, c.numbers) = some p ∧ GCell.new p.1 p.2.1 p.2.2 = .error er) ∨
    (∃ d, maybeRefined e refined c = .ok d ∧ (∃ n ∈ d.numbers, ¬ Known n) ∧ er = .indexError) := by
  cases h with
  | spglib hm hh =>
    obtain ⟨p, hpp, _⟩ := hp.primitive hm
    rw [hh] at hpp; cases hpp
  | absent el d _ ht hh => exact absurd (hp.apart el d ht).1 hh
  | unrefined _ hr hh => exact .inl ⟨hr, hh, rfl⟩
  | badCell _ hr p hh _ hn => exact .inr (.inl ⟨hr, p, hh, hn⟩)
  | unknown _ d hd hh => exact .inr (.inr ⟨d, hd, hh, rfl⟩)

theorem write_cases {e : Ext} {refined mpr : Bool} {tr : Option (Specie × ℚ)} {c : GCell} (hc : Built c) (hp : Passes e mpr tr c)
    {outmode : List Char} (ho : Outmode outmode) (dir suffix : List Char) (fs : Fs) :
    (∃ w, OccRecord e refined outmode dir suffix c w ∧ occWriteOne e refined outmode dir suffix c fs = .ok (fs.write w.1 w.2) ∧
      ∀ er, ¬ Raises e refined mpr tr c er) ∨
    (∃ er, occWriteOne e refined outmode dir suffix c fs = .error er ∧ Raises e refined mpr tr c er) := by
  cases hm : maybeRefined e refined c with
  | error er =>
    refine .inr ⟨er, by unfold occWriteOne; rw [hm]; rfl, ?_⟩
    unfold maybeRefined at hm
    split at hm
    · rename_i hr
      unfold GCell.getRefinedPcell at hm
      split at hm
      · rename_i hs
        obtain rfl := Except.error.inj hm
        exact .unrefined hp hr hs
      · rename_i p hs
        exact .badCell hp hr p hs er hm
    · cases hm
  | ok d =>
    have hd := maybeRefined_built hc hm
    by_cases hk : ∀ n ∈ d.numbers, Known n
    · obtain ⟨_, cm, _, hcm, _, _⟩ := (C48_comment d).1 hk
      obtain ⟨t, ht⟩ := pathJoin_record dir cm suffix outmode
      obtain ⟨x, hx⟩ := writeFile_ok hd.length.symm hk ho t
      rw [← ht] at hx
      refine .inl ⟨(pathJoin dir (structureName cm suffix outmode), x), ⟨d, cm, hm, hcm, rfl, hx⟩, ?_, fun er hr => ?_⟩
      · unfold occWriteOne
        rw [hm]
        simp only [bind, Except.bind, hcm, hx]; rfl
      · have hsome : ∀ p, refined = true → e.standardize (c.lattice, c.positions, c.numbers) = p → maybeRefined e refined c =
            (match p with | none => .error .typeError | some p => GCell.new p.1 p.2.1 p.2.2) := by
          rintro p hr rfl
          unfold maybeRefined
          rw [if_pos hr]; rfl
        rcases raises_of_passes hp hr with ⟨r1, r2, _⟩ | ⟨r1, p, r2, r3⟩ | ⟨d', r1, r2, _⟩
        · rw [hsome _ r1 r2] at hm; cases hm
        · rw [hsome _ r1 r2] at hm
          exact absurd (hm.symm.trans r3) nofun
        · obtain rfl := Except.ok.inj (hm.symm.trans r1)
          obtain ⟨n, hn, hu⟩ := r2
          exact hu (hk n hn)
    · push Not at hk
      refine .inr ⟨.indexError, ?_, .unknown hp d hm hk⟩
      unfold occWriteOne
      rw [hm]
      simp only [bind, Except.bind, (C48_comment d).2 hk]

/-! ## runs -/

/-- What a run over the structures `cs` leaves and how it ends: it treats them in order up to the first that raises, has written exactly the
passing ones before it, and ends with its exception; if none raises it ends normally. -/
structure RunOf (e : Ext) (refined mpr : Bool) (outmode dir : List Char) (tr : Option (Specie × ℚ)) (cs : List GCell) (k : ℕ)
    (fs : Fs) (r : Fs × Py Unit) (pre : List GCell) (ws : List (List Char × FileContent)) : Prop where
  prefix_ : pre <+: cs
  quiet : ∀ c ∈ pre, ∀ er, ¬ Raises e refined mpr tr c er
  records : List.Forall₂ (fun ci w => OccRecord e refined outmode dir (e.choices ci.2) ci.1 w) ((passers e mpr tr pre).zipIdx k) ws
  files : ∀ p, dictGet r.1.files p = afterWrites (dictGet fs.files p) ws p
  dirs : r.1.dirs = fs.dirs
  ends : (pre = cs ∧ r.2 = .ok ()) ∨ ∃ c er rest, cs = pre ++ c :: rest ∧ Raises e refined mpr tr c er ∧ r.2 = .error er

theorem passers_cons {e : Ext} {mpr : Bool} {tr : Option (Specie × ℚ)} {c : GCell} {cs : List GCell} :
    (Passes e mpr tr c → passers e mpr tr (c :: cs) = c :: passers e mpr tr cs) ∧
    (¬ Passes e mpr tr c → passers e mpr tr (c :: cs) = passers e mpr tr cs) := by
  unfold passers
  refine ⟨fun h => List.filter_cons_of_pos ?_, fun h => List.filter_cons_of_neg ?_⟩
  · rwa [@decide_eq_true_eq _ (Classical.propDecidable _)]
  · rwa [@decide_eq_true_eq _ (Classical.propDecidable _)]

theorem occLoop_run (e : Ext) (mpr : Bool) (tr : Option (Specie × ℚ)) (refined : Bool) {outmode : List Char} (ho : Outmode outmode) (dir : List Char) :
    ∀ (cs : List GCell) (k : ℕ) (fs : Fs), (∀ c ∈ cs, Built c) →
      ∃ pre ws, RunOf e refined mpr outmode dir tr cs k fs (occLoop e mpr tr refined outmode dir cs k fs) pre ws
  | [], k, fs, _ => ⟨[], [], ⟨List.prefix_refl _, by simp, .nil, fun p => rfl, rfl, .inl ⟨rfl, rfl⟩⟩⟩
  | c :: cs, k, fs, hb => by
    have hc := hb c (by simp)
    have hcs : ∀ d ∈ cs, Built d := fun d hd => hb d (List.mem_cons_of_mem _ hd)
    have stop : ∀ (r : Fs × Py Unit) er, r = (fs, .error er) → Raises e refined mpr tr c er →
        ∃ pre ws, RunOf e refined mpr outmode dir tr (c :: cs) k fs r pre ws := by
      rintro r er rfl hr
      exact ⟨[], [], ⟨List.nil_prefix, by simp, .nil, fun p => rfl, rfl, .inr ⟨c, er, cs, rfl, hr, rfl⟩⟩⟩
    rcases condition_cases e refined mpr tr hc with ⟨h1, h2⟩ | ⟨h1, h2, h3⟩ | ⟨er, h1, _, h3⟩
    · rcases write_cases hc h2 ho dir (e.choices k) fs (refined := refined) with ⟨w, w1, w2, w3⟩ | ⟨er, w1, w2⟩
      · obtain ⟨pre, ws, r⟩ := occLoop_run e mpr tr refined ho dir cs (k + 1) (fs.write w.1 w.2) hcs
        have heq : occLoop e mpr tr refined outmode dir (c :: cs) k fs = occLoop e mpr tr refined outmode dir cs (k + 1) (fs.write w.1 w.2) := by
          rw [occLoop]; simp only [h1, w2]
        rw [heq]
        refine ⟨c :: pre, w :: ws, ⟨(List.prefix_cons_inj c).2 r.prefix_, ?_, ?_, fun p => ?_, r.dirs, ?_⟩⟩
        · intro d hd
          rcases List.mem_cons.1 hd with rfl | hd
          · exact w3
          · exact r.quiet d hd
        · rw [passers_cons.1 h2, List.zipIdx_cons]
          exact .cons w1 r.records
        · rw [r.files p, afterWrites]
          congr 1
          unfold Fs.write
          simp only [dictGet_dictSet, eq_comm]
        · rcases r.ends with ⟨r1, r2⟩ | ⟨d, er, rest, r1, r2, r3⟩
          · exact .inl ⟨by rw [r1], r2⟩
          · exact .inr ⟨d, er, rest, by rw [r1]; rfl, r2, r3⟩
      · exact stop _ er (by rw [occLoop]; simp only [h1, w1]) w2
    · obtain ⟨pre, ws, r⟩ := occLoop_run e mpr tr refined ho dir cs k fs hcs
      have heq : occLoop e mpr tr refined outmode dir (c :: cs) k fs = occLoop e mpr tr refined outmode dir cs k fs := by
        rw [occLoop]; simp only [h1]
      rw [heq]
      refine ⟨c :: pre, ws, ⟨(List.prefix_cons_inj c).2 r.prefix_, ?_, ?_, r.files, r.dirs, ?_⟩⟩
      · intro d hd
        rcases List.mem_cons.1 hd with rfl | hd
        · exact h3
        · exact r.quiet d hd
      · rw [passers_cons.2 h2]; exact r.records
      · rcases r.ends with ⟨r1, r2⟩ | ⟨d, er, rest, r1, r2, r3⟩
        · exact .inl ⟨by rw [r1], r2⟩
        · exact .inr ⟨d, er, rest, by rw [r1]; rfl, r2, r3⟩
    · exact stop _ er (by rw [occLoop]; simp only [h1]) h3

theorem targetZ_of {num : List ℤ} {element : Option String} {z : ℤ} (h : TargetSpecies num element z) : targetZ num element = .ok z := by
  rcases h with ⟨rfl, h⟩ | ⟨s, sp, rfl, h1, h2⟩
  · unfold targetZ; simp only [h]
  · unfold targetZ; simp only [h1, bind, Except.bind, h2]; rfl

theorem parseTr_of {trs : List (String × ℚ)} {tr : Option (Specie × ℚ)} (h : FirstRestriction trs tr) : parseTr trs.head? = .ok tr := by
  rcases h with ⟨rfl, rfl⟩ | ⟨s, d, rest, sp, rfl, h1, rfl⟩
  · rfl
  · unfold parseTr; simp only [List.head?_cons, h1, bind, Except.bind]; rfl

theorem occInit_of {e : Ext} {dflt : ℕ → ℤ} {infile : List Char} {content : FileContent} {o : OccOpts} {cell : GCell} {ele sp : Specie} {n : ℤ}
    {comment : List Char} {tr : Option (Specie × ℚ)} {g : OGen} (h : OccSetup e dflt infile content o cell ele sp n comment tr g) :
    occInit e dflt infile content o = .ok ⟨cell, comment, ele, sp, n, o.trs.head?, o.refined, o.outmode, o.mpr⟩ := by
  obtain ⟨z, t1, t2⟩ := h.target
  have hz := fromNum_Z t2
  have hs := h.speckle
  have hn := h.count
  rw [hz] at hn
  unfold occInit
  simp only [h.read, bind, Except.bind, h.named, targetZ_of t1]
  obtain ⟨ocomment, oelement, ospeckle, onspeckle, otrs, orefined, ooutmode, ompr⟩ := o
  simp only at hs hn ⊢
  cases ospeckle <;> cases onspeckle <;> simp only [Option.getD_none, Option.getD_some] at hs hn <;> simp only [hs, t2, hn] <;> rfl

theorem occRun_of {e : Ext} {structures : OccApp → OGen → Py (List GCell)} {a : OccApp} {trs : List (String × ℚ)} {tr : Option (Specie × ℚ)} {g : OGen}
    {fs : Fs} (ha : a.tr = trs.head?) (hf : fs.has (structuresDir e a.comment (e.choices 0)) = false) (ht : FirstRestriction trs tr)
    (hg : OGen.new a.cell (e.symmetry a.cell) (e.wyckoffs a.cell) = .ok g) :
    occRun e structures a fs = match structures a g with
      | .error er => (fs.makedirs (structuresDir e a.comment (e.choices 0)), .error er)
      | .ok cs => occLoop e a.mpr tr a.refined a.outmode (structuresDir e a.comment (e.choices 0)) cs 1
          (fs.makedirs (structuresDir e a.comment (e.choices 0))) := by
  unfold occRun openDir
  simp only [hf, Bool.false_eq_true, if_false]
  unfold occPrepare
  rw [hg, ha]
  simp only [bind, Except.bind, parseTr_of ht]
  cases structures a g <;> rfl

/-- **C97, `ocubiter`.** From a readable input, with an output mode the command line accepts and an output path that does not exist yet: a negative
number of substitutions is a `ValueError` and leaves an empty output directory. Any other number – zero included – gives the structures of
`gen_nodup_of_ele`, which never raises; they are treated in order up to the first that raises an exception (`Raises` says which do and with what), exactly the
passing ones before it have been written, and the run ends with that exception, or normally if there is none. -/
theorem C97_ocubiter {e : Ext} {infile : List Char} {content : FileContent} {o : OccOpts} {fs : Fs} {cell : GCell} {ele sp : Specie} {n : ℤ}
    {comment dir : List Char} {tr : Option (Specie × ℚ)} {g : OGen}
    (h : OccSetup e (fun s => ((s / 2 + 1 : ℕ) : ℤ)) infile content o cell ele sp n comment tr g)
    (hdir : dir = pathJoin e.cwd ("STRUCTURES_".toList ++ comment ++ ['_'] ++ e.choices 0)) (hf : fs.has dir = false) (ho : Outmode o.outmode) :
    (n < 0 → ocubiter e infile content o fs = ({ fs with dirs := dir :: fs.dirs }, .error .valueError)) ∧
    (0 ≤ n → ∃ cs pre ws, g.genNodupOfEle e.hash ele n.toNat sp = .ok cs ∧
      RunOf e o.refined o.mpr o.outmode dir tr cs 1 { fs with dirs := dir :: fs.dirs } (ocubiter e infile content o fs) pre ws) := by
  subst hdir
  have hrun : ∀ r, biterStructures e ⟨cell, comment, ele, sp, n, o.trs.head?, o.refined, o.outmode, o.mpr⟩ g = r →
      ocubiter e infile content o fs = match r with
      | .error er => (fs.makedirs (structuresDir e comment (e.choices 0)), .error er)
      | .ok cs => occLoop e o.mpr tr o.refined o.outmode (structuresDir e comment (e.choices 0)) cs 1
          (fs.makedirs (structuresDir e comment (e.choices 0))) := by
    rintro r rfl
    unfold ocubiter
    rw [occInit_of h]
    exact occRun_of rfl hf h.restricted h.gen
  constructor
  · intro hn
    rw [hrun (.error .valueError) (by unfold biterStructures; rw [if_pos hn])]
    rfl
  · intro hn
    obtain ⟨cs, hcs, _⟩ := genNodupOfEle_total e.hash (readFile_built h.read) h.gen ele n.toNat sp
    obtain ⟨pre, ws, r⟩ := occLoop_run e o.mpr tr o.refined ho (structuresDir e comment (e.choices 0)) cs 1
      (fs.makedirs (structuresDir e comment (e.choices 0))) (genNodupOfEle_built hcs)
    refine ⟨cs, pre, ws, hcs, ?_⟩
    rw [hrun (.ok cs) (by unfold biterStructures; rw [if_neg (by simpa using hn)]; exact hcs)]
    exact r

/-- **C97, `ocumaker`.** The same for `ocumaker`, over the structures of all levels of `all_speckle_gen_of_ele`, always testing for primitivity; a
number of speckle atoms that is negative or not above the number already there gives no structure and no error. -/
theorem C97_ocumaker {e : Ext} {infile : List Char} {content : FileContent} {o : OccOpts} {fs : Fs} {cell : GCell} {ele sp : Specie} {n : ℤ}
    {comment dir : List Char} {tr : Option (Specie × ℚ)} {g : OGen}
    (h : OccSetup e (fun s => (s : ℤ) - 1) infile content o cell ele sp n comment tr g)
    (hdir : dir = pathJoin e.cwd ("STRUCTURES_".toList ++ comment ++ ['_'] ++ e.choices 0)) (hf : fs.has dir = false) (ho : Outmode o.outmode) :
    ∃ ls pre ws, g.allSpeckleOfEle e.hash n.toNat ele sp = .ok ls ∧
      RunOf e o.refined true o.outmode dir tr ls.flatten 1 { fs with dirs := dir :: fs.dirs } (ocumaker e infile content o fs) pre ws ∧
      (n ≤ cell.numbers.count sp.Z → ls = []) := by
  subst hdir
  obtain ⟨ls, hls⟩ := allSpeckleOfEle_total e.hash (readFile_built h.read) h.gen n.toNat ele sp
  have h' : OccSetup e (fun s => (s : ℤ) - 1) infile content { o with mpr := true } cell ele sp n comment tr g :=
    ⟨h.read, h.target, h.speckle, h.count, h.named, h.restricted, h.gen⟩
  have hst : makerStructures e ⟨cell, comment, ele, sp, n, o.trs.head?, o.refined, o.outmode, true⟩ g = .ok ls.flatten := by
    unfold makerStructures
    rw [hls]; rfl
  have hrun : ocumaker e infile content o fs = occLoop e true tr o.refined o.outmode (structuresDir e comment (e.choices 0)) ls.flatten 1
          (fs.makedirs (structuresDir e comment (e.choices 0))) := by
    unfold ocumaker
    rw [occInit_of h']
    refine (occRun_of rfl hf h.restricted h.gen).trans ?_
    rw [hst]
  obtain ⟨pre, ws, r⟩ := occLoop_run e true tr o.refined ho (structuresDir e comment (e.choices 0)) ls.flatten 1
    (fs.makedirs (structuresDir e comment (e.choices 0))) (fun c hc => by
      obtain ⟨l, hl, hc⟩ := List.mem_flatten.1 hc
      exact allSpeckleOfEle_built hls l hl c hc)
  refine ⟨ls, pre, ws, hls, ?_, fun hn => ?_⟩
  · rw [hrun]; exact r
  · obtain ⟨g', h1, h2, _⟩ := ogen_total (readFile_built h.read) (e.symmetry cell) (e.wyckoffs cell)
    obtain rfl := Except.ok.inj (h.gen.symm.trans h1)
    unfold OGen.allSpeckleOfEle at hls
    have hz : n.toNat - g.init.getSpeckleNum sp = 0 := by
      rw [h2]
      unfold GCell.getSpeckleNum
      omega
    rw [hz, levels] at hls
    exact (Except.ok.inj hls).symm

/-! ## when a run finishes -/

theorem RunOf.finished {e : Ext} {refined mpr : Bool} {outmode dir : List Char} {tr : Option (Specie × ℚ)} {cs : List GCell} {k : ℕ}
    {fs : Fs} {r : Fs × Py Unit} {pre : List GCell} {ws : List (List Char × FileContent)}
    (h : RunOf e refined mpr outmode dir tr cs k fs r pre ws) : r.2 = .ok () ↔ ∀ c ∈ cs, ∀ er, ¬ Raises e refined mpr tr c er := by
  constructor
  · intro hr
    rcases h.ends with ⟨h1, _⟩ | ⟨_, _, _, _, _, h3⟩
    · rw [← h1]; exact h.quiet
    · rw [hr] at h3; cases h3
  · intro hq
    rcases h.ends with ⟨_, h2⟩ | ⟨c, er, rest, h1, h2, _⟩
    · exact h2
    · exact absurd h2 (hq c (by rw [h1]; simp) er)

theorem mem_subst {c d : GCell} {S : Finset ℕ} {z n : ℤ} (h : SubstCell c z S d) (hn : n ∈ d.numbers) : n = z ∨ n ∈ c.numbers := by
  obtain ⟨_, _, hl, hi⟩ := h
  obtain ⟨i, hi'⟩ := List.mem_iff_getElem?.1 hn
  have hlt : i < c.numbers.length := hl ▸ (List.getElem?_eq_some_iff.1 hi').1
  have := hi i hlt
  rw [hi'] at this
  split at this
  · exact .inl (Option.some.inj this)
  · exact .inr (List.mem_iff_getElem?.2 ⟨i, this.symm⟩)

theorem ofSymbol_known {s : String} {sp : Specie} (h : Specie.ofSymbol s = .ok sp) : Known sp.Z := by
  unfold Specie.ofSymbol at h
  split at h
  · rename_i z hz
    obtain rfl := Except.ok.inj h
    have key : ∀ kv ∈ ptDb, Known kv.2 := by unfold Known; decide +kernel
    exact key _ (List.mem_of_find?_eq_some hz)
  · cases h

/-- **C97, when `ocubiter` finishes.** Without refinement, on a cell with known atomic numbers and with an spglib that never fails, `ocubiter` finishes
exactly if every generated structure that is not sorted out by the test for primitivity contains the element of the restriction (if there is one); otherwise it ends with
a `ValueError`. -/
theorem C97_finishes {e : Ext} {infile : List Char} {content : FileContent} {o : OccOpts} {fs : Fs} {cell : GCell} {ele sp : Specie} {n : ℤ}
    {comment dir : List Char} {tr : Option (Specie × ℚ)} {g : OGen}
    (h : OccSetup e (fun s => ((s / 2 + 1 : ℕ) : ℤ)) infile content o cell ele sp n comment tr g)
    (hdir : dir = pathJoin e.cwd ("STRUCTURES_".toList ++ comment ++ ['_'] ++ e.choices 0)) (hf : fs.has dir = false) (ho : Outmode o.outmode)
    (hn : 0 ≤ n) (hr : o.refined = false) (hk : ∀ z ∈ cell.numbers, Known z) (hs : ∀ x, e.findPrimitive x ≠ none) {cs : List GCell}
    (hcs : g.genNodupOfEle e.hash ele n.toNat sp = .ok cs) :
    ((ocubiter e infile content o fs).2 = .ok () ↔ ∀ el d, tr = some (el, d) → ∀ c ∈ cs, PassesPrimitive e o.mpr c → el.Z ∈ c.numbers) ∧
    ((ocubiter e infile content o fs).2 ≠ .ok () → (ocubiter e infile content o fs).2 = .error .valueError) := by
  obtain ⟨cs', pre, ws, h1, h2⟩ := (C97_ocubiter h hdir hf ho).2 hn
  obtain rfl := Except.ok.inj (hcs.symm.trans h1)
  obtain ⟨cs', h1', h3, h4⟩ := genNodupOfEle_total e.hash (readFile_built h.read) h.gen ele n.toNat sp
  obtain rfl := Except.ok.inj (hcs.symm.trans h1')
  have only : ∀ c ∈ cs, ∀ er, Raises e o.refined o.mpr tr c er → er = .valueError ∧ ∃ el d, tr = some (el, d) ∧ PassesPrimitive e o.mpr c ∧ el.Z ∉ c.numbers := by
    intro c hc er hx
    cases hx with
    | spglib _ hh => exact absurd hh (hs _)
    | absent el d hp ht hh => exact ⟨rfl, el, d, ht, hp, hh⟩
    | unrefined _ hh => rw [hr] at hh; cases hh
    | badCell _ hh => rw [hr] at hh; cases hh
    | unknown _ d hd hh =>
      rw [hr] at hd
      obtain rfl := Except.ok.inj hd
      obtain ⟨z, hz, hu⟩ := hh
      obtain ⟨S, _, _, hS⟩ := h3 c hc
      rcases mem_subst hS hz with rfl | hz
      · exact absurd (ofSymbol_known h.speckle) hu
      · exact absurd (hk z hz) hu
  constructor
  · rw [h2.finished]
    constructor
    · intro hq el d ht c hc hp
      by_contra hh
      exact hq c hc _ (.absent el d hp ht hh)
    · intro hq c hc er hx
      obtain ⟨_, el, d, ht, hp, hh⟩ := only c hc er hx
      exact hh (hq el d ht c hc hp)
  · intro hne
    rcases h2.ends with ⟨_, h4⟩ | ⟨c, er, rest, h4, h5, h6⟩
    · exact absurd h4 hne
    · rw [h6, (only c (by rw [h4]; simp) er h5).1]

/-- **C97, restrictions that are safe.** All generated structures contain the element of a restriction on: the inserted element, if at least one atom is
replaced; the replaced element, if it is not the inserted one and fewer atoms are replaced than there are; any other element of the cell. -/
theorem C97_safe (hash : List ℤ → ℕ) {cell : GCell} (hc : Built cell) {ops : List (M3 ℤ × V3 ℚ)} {wy : List String} {g : OGen}
    (hg : OGen.new cell ops wy = .ok g) (ele sp el : Specie) (n : ℕ) {cs : List GCell} (hcs : g.genNodupOfEle hash ele n sp = .ok cs)
    (h : (el.Z = sp.Z ∧ 0 < n) ∨ (el.Z = ele.Z ∧ n < cell.numbers.count ele.Z) ∨ (el.Z ≠ ele.Z ∧ el.Z ∈ cell.numbers)) :
    ∀ c ∈ cs, el.Z ∈ c.numbers := by
  intro c hcm
  obtain ⟨cs', h1, h3, _⟩ := genNodupOfEle_total hash hc hg ele n sp
  obtain rfl := Except.ok.inj (hcs.symm.trans h1)
  obtain ⟨S, s1, s2, _, _, s5, s6⟩ := h3 c hcm
  rcases h with ⟨h1, h2⟩ | ⟨h1, h2⟩ | ⟨h1, h2⟩
  · obtain ⟨i, hi⟩ := Finset.card_pos.1 (s2 ▸ h2)
    have := s6 i (List.getElem?_eq_some_iff.1 (s1 i hi)).1
    rw [if_pos hi] at this
    rw [h1]
    exact List.mem_iff_getElem?.2 ⟨i, this⟩
  · -- some site of the replaced element is left
    have : ∃ i, cell.numbers[i]? = some ele.Z ∧ i ∉ S := by
      by_contra hh
      push Not at hh
      have hsub : (eleIndices cell.numbers ele.Z).toFinset ⊆ S := by
        intro i hi
        rw [List.mem_toFinset] at hi
        exact hh i ((mem_eleIndices _ _ _).1 hi)
      have := Finset.card_le_card hsub
      rw [List.toFinset_card_of_nodup (eleIndices_nodup _ _), eleIndices_length] at this
      omega
    obtain ⟨i, hi, hiS⟩ := this
    have := s6 i (List.getElem?_eq_some_iff.1 hi).1
    rw [if_neg hiS, hi] at this
    rw [h1]
    exact List.mem_iff_getElem?.2 ⟨i, this⟩
  · obtain ⟨i, hi⟩ := List.mem_iff_getElem?.1 h2
    have := s6 i (List.getElem?_eq_some_iff.1 hi).1
    rw [if_neg (fun hiS => h1 (Option.some.inj (hi.symm.trans (s1 i hiS)))), hi] at this
    exact List.mem_iff_getElem?.2 ⟨i, this⟩

/-- **C97, a restriction on the element that is used up.** Replacing all atoms of an element under a restriction on that element, without the test for primitivity,
always ends with a `ValueError` and an empty output directory. -/
theorem C97_used_up {e : Ext} {infile : List Char} {content : FileContent} {o : OccOpts} {fs : Fs} {cell : GCell} {ele sp : Specie} {n : ℤ}
    {comment dir : List Char} {d : ℚ} {g : OGen}
    (h : OccSetup e (fun s => ((s / 2 + 1 : ℕ) : ℤ)) infile content o cell ele sp n comment (some (ele, d)) g)
    (hdir : dir = pathJoin e.cwd ("STRUCTURES_".toList ++ comment ++ ['_'] ++ e.choices 0)) (hf : fs.has dir = false) (ho : Outmode o.outmode)
    (hm : o.mpr = false) (hn : n = cell.numbers.count ele.Z) (hne : ele.Z ≠ sp.Z) :
    (ocubiter e infile content o fs).2 = .error .valueError ∧ (ocubiter e infile content o fs).1.dirs = dir :: fs.dirs ∧
      ∀ p, dictGet (ocubiter e infile content o fs).1.files p = dictGet fs.files p := by
  obtain ⟨cs, pre, ws, h1, h2⟩ := (C97_ocubiter h hdir hf ho).2 (by omega)
  obtain ⟨cs', h1', h3, h4⟩ := genNodupOfEle_total e.hash (readFile_built h.read) h.gen ele n.toNat sp
  obtain rfl := Except.ok.inj (h1.symm.trans h1')
  have habs : ∀ c ∈ cs, ele.Z ∉ c.numbers := by
    intro c hc hmem
    obtain ⟨S, s1, s2, _, _, s5, s6⟩ := h3 c hc
    obtain ⟨i, hi⟩ := List.mem_iff_getElem?.1 hmem
    have hlt : i < cell.numbers.length := s5 ▸ (List.getElem?_eq_some_iff.1 hi).1
    have := s6 i hlt
    rw [hi] at this
    split at this
    · exact hne (Option.some.inj this)
    · rename_i hiS
      have hsub : insert i S ⊆ (eleIndices cell.numbers ele.Z).toFinset := by
        intro j hj
        rw [List.mem_toFinset, mem_eleIndices]
        rcases Finset.mem_insert.1 hj with rfl | hj
        · exact this.symm
        · exact s1 j hj
      have := Finset.card_le_card hsub
      rw [List.toFinset_card_of_nodup (eleIndices_nodup _ _), eleIndices_length, Finset.card_insert_of_notMem hiS] at this
      omega
  have hraise : ∀ c ∈ cs, Raises e o.refined o.mpr (some (ele, d)) c .valueError :=
    fun c hc => .absent ele d (fun hh => by rw [hm] at hh; cases hh) rfl (habs c hc)
  have hpre : pre = [] := by
    cases pre with
    | nil => rfl
    | cons c pre => exact absurd (hraise c (h2.prefix_.subset (by simp))) (h2.quiet c (by simp) _)
  subst hpre
  have hws : ws = [] := by
    have := h2.records
    unfold passers at this
    cases this; rfl
  subst hws
  refine ⟨?_, h2.dirs, h2.files⟩
  rcases h2.ends with ⟨h5, _⟩ | ⟨c, er, rest, h5, h6, h7⟩
  · exact absurd h5.symm (h4 (by omega))
  · have hc : c ∈ cs := by rw [h5]; simp
    have hnp : ¬ Passes e o.mpr (some (ele, d)) c := fun hp => habs c hc (hp.apart ele d rfl).1
    rw [h7]
    cases h6 with
    | spglib hh => rw [hm] at hh; cases hh
    | absent => rfl
    | unrefined hp => exact absurd hp hnp
    | badCell hp => exact absurd hp hnp
    | unknown hp => exact absurd hp hnp

/-- the options of a run that replaces up to three atoms under a restriction on boron -/
def exAbortOpts : OccOpts := { exOpts with nspeckle := some 3, trs := [("B", 1/10)] }

set_option maxRecDepth 100000 in
/-- `ocubiter` replacing all three boron atoms under a restriction on boron -/
example : runNames (ocubiter (exExt fun k => natStr (1000 + k)) "POSCAR".toList exPoscar exAbortOpts ⟨[], []⟩) = ([], false) := by decide +kernel

set_option maxRecDepth 100000 in
/-- `ocumaker` up to the same number: the structures with one and with two atoms replaced are written, then the run aborts -/
example : runNames (ocumaker (exExt fun k => natStr (1000 + k)) "POSCAR".toList exPoscar exAbortOpts ⟨[], []⟩) =
    (["/w/STRUCTURES_B3_1000/STRUCTURE_B2_1001.vasp", "/w/STRUCTURES_B3_1000/STRUCTURE_B2_1002.vasp", "/w/STRUCTURES_B3_1000/STRUCTURE_B2_1003.vasp",
      "/w/STRUCTURES_B3_1000/STRUCTURE_B1_1004.vasp", "/w/STRUCTURES_B3_1000/STRUCTURE_B1_1005.vasp", "/w/STRUCTURES_B3_1000/STRUCTURE_B1_1006.vasp"],
      false) := by decide +kernel

set_option maxRecDepth 100000 in
/-- replacing no atom at all is a run like any other -/
example : runNames (ocubiter (exExt fun k => natStr (1000 + k)) "POSCAR".toList exPoscar { exOpts with nspeckle := some 0 } ⟨[], []⟩) =
    (["/w/STRUCTURES_B3_1000/STRUCTURE_B3_1001.vasp"], true) := by decide +kernel

set_option maxRecDepth 100000 in
/-- the setup of `C97_used_up` and `C97_finishes` is met by the first of these runs -/
example : ∃ cell ele sp n comment g, OccSetup (exExt fun k => natStr (1000 + k)) (fun s => ((s / 2 + 1 : ℕ) : ℤ)) "POSCAR".toList exPoscar exAbortOpts
    cell ele sp n comment (some (ele, 1/10)) g ∧ n = cell.numbers.count ele.Z ∧ ele.Z ≠ sp.Z ∧ (∀ z ∈ cell.numbers, Known z) ∧
    ∀ x, (exExt fun k => natStr (1000 + k)).findPrimitive x ≠ none := by
  have hread : (match readFile id exPoscar "POSCAR".toList none with | .ok c => decide (c.numbers = [5, 5, 5]) | .error _ => false) = true := by decide +kernel
  cases hr : readFile id exPoscar "POSCAR".toList none with
  | error er => rw [hr] at hread; cases hread
  | ok cell =>
    rw [hr] at hread
    have hnum : cell.numbers = [5, 5, 5] := of_decide_eq_true hread
    obtain ⟨g, hg, _⟩ := ogen_total (readFile_built hr) ((exExt fun k => natStr (1000 + k)).symmetry cell) ((exExt fun k => natStr (1000 + k)).wyckoffs cell)
    refine ⟨cell, ⟨"B", 5⟩, ⟨"G", 0⟩, 3, "B3".toList, g, ⟨hr, ⟨5, .inl ⟨rfl, by rw [hnum]; rfl⟩, by decide +kernel⟩, by decide +kernel, rfl, ?_,
      .inr ⟨"B", 1/10, [], ⟨"B", 5⟩, rfl, by decide +kernel, rfl⟩, hg⟩, by rw [hnum]; decide, by decide, ?_, fun x => nofun⟩
    · change cell.comment = _
      unfold GCell.comment
      rw [hnum]
      decide +kernel
    · rw [hnum]
      unfold Known
      decide

end Verif
