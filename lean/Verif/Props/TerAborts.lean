import Verif.Props.AppAborts

/-! # C100: ternary applications that stop half way -/

namespace Verif

open Spec

theorem genNodupTrinary_total (hash : List ℤ → ℕ) {c : GCell} (hc : Built c) {ops : List (M3 ℤ × V3 ℚ)} {wy : List String} {g : OGen}
    (hg : OGen.new c ops wy = .ok g) (sp1 : Specie) (n1 : ℕ) (sp2 : Specie) (n2 : ℕ) :
    ∃ cs, g.genNodupTrinary hash sp1 n1 sp2 n2 = .ok cs ∧ (∀ d ∈ cs, ∃ ST : Finset ℕ × Finset ℕ, ST.1 ⊆ Finset.range c.numbers.length ∧
      ST.2 ⊆ Finset.range c.numbers.length ∧ Disjoint ST.1 ST.2 ∧ ST.1.card = n1 ∧ ST.2.card = n2 ∧ Subst2Cell c sp1.Z sp2.Z ST d) ∧
      (n1 + n2 ≤ c.numbers.length → cs ≠ []) := by
  obtain ⟨g', h1, h2, h3⟩ := ogen_total hc ops wy
  obtain rfl := Except.ok.inj (hg.symm.trans h1)
  subst h2
  obtain ⟨dup, pairs, k1, _, k3, k4, k5⟩ := C18_trinary_exact g hc sp1 n1 sp2 n2
  obtain ⟨cs, m1, m2, m3⟩ := gen2Nodup_total hash h3 dup (fun d hd => by
    obtain ⟨S, _, hS⟩ := forall₂_mem_right k4 hd
    exact hS.2.2.1)
  refine ⟨cs, ?_, fun d hd => ?_, fun hn => m3 ?_⟩
  · unfold OGen.genNodupTrinary
    rw [k1]; exact m1
  · obtain ⟨⟨S, T⟩, hS, hsub⟩ := forall₂_mem_right k4 (m2 d hd)
    obtain ⟨a1, a2, a3, a4, a5⟩ := (k3 S T).1 hS
    exact ⟨(S, T), a1, a2, a3, a4, a5, hsub⟩
  · have := Nat.mul_pos (Nat.choose_pos (show n1 ≤ g.init.numbers.length by omega)) (Nat.choose_pos (show n2 ≤ g.init.numbers.length - n1 by omega))
    rintro rfl
    rw [List.length_nil] at k5
    omega

/-! ## one structure -/

/-- the structures of a ternary run, each with the prefix and the suffix of the name of its file -/
abbrev TerItem := (List Char × List Char) × GCell

/-- those that pass, in order -/
noncomputable def passItems (e : Ext) (mpr : Bool) (tr : Option (Specie × ℚ)) (its : List TerItem) : List TerItem :=
  its.filter fun it => @decide (Passes e mpr tr it.2) (Classical.propDecidable _)

theorem passItems_cons {e : Ext} {mpr : Bool} {tr : Option (Specie × ℚ)} {it : TerItem} {its : List TerItem} :
    (Passes e mpr tr it.2 → passItems e mpr tr (it :: its) = it :: passItems e mpr tr its) ∧
    (¬ Passes e mpr tr it.2 → passItems e mpr tr (it :: its) = passItems e mpr tr its) := by
  unfold passItems
  refine ⟨fun h => List.filter_cons_of_pos ?_, fun h => List.filter_cons_of_neg ?_⟩
  · rwa [@decide_eq_true_eq _ (Classical.propDecidable _)]
  · rwa [@decide_eq_true_eq _ (Classical.propDecidable _)]

/-- all 10000 names that `tempfile` tries for the structure are taken -/
def NamesTaken (e : Ext) (dir : List Char) (names : List Char × List Char) (fs : Fs) : Prop :=
  ∃ k, ∀ j < 10000, fs.has (pathJoin dir (names.1 ++ e.tempNames (k + j) ++ names.2)) = true

/-- What a ternary run over `its` leaves and how it ends: it treats them in order up to the first that raises (or gets no name), has written exactly the
passing ones before it, each into a new file of its own, and ends with the exception; if none raises it ends normally. -/
structure TerRunOf (e : Ext) (refined mpr : Bool) (outmode dir : List Char) (tr : Option (Specie × ℚ)) (its : List TerItem)
    (fs : Fs) (r : Fs × Py Unit) (pre : List TerItem) (ws : List (List Char × FileContent)) : Prop where
  prefix_ : pre <+: its
  quiet : ∀ it ∈ pre, ∀ er, ¬ Raises e refined mpr tr it.2 er
  records : List.Forall₂ (fun it w => TerRecord e refined outmode dir it.1 it.2 w) (passItems e mpr tr pre) ws
  distinct : (ws.map (·.1)).Nodup
  new : ∀ w ∈ ws, fs.has w.1 = false
  left : r.1 = fs.writes ws
  ends : (pre = its ∧ r.2 = .ok ()) ∨
    (∃ it er rest, its = pre ++ it :: rest ∧ Raises e refined mpr tr it.2 er ∧ r.2 = .error er) ∨
    (∃ it rest, its = pre ++ it :: rest ∧ Passes e mpr tr it.2 ∧ (∀ er, ¬ Raises e refined mpr tr it.2 er) ∧ NamesTaken e dir it.1 r.1 ∧
      r.2 = .error .osError)

theorem tempPath_cases (e : Ext) (fs : Fs) (dir pre suf : List Char) : ∀ fuel k : ℕ,
    (∃ r, tempPath e fs dir pre suf fuel k = .ok r) ∨
    (tempPath e fs dir pre suf fuel k = .error .osError ∧ ∀ j < fuel, fs.has (pathJoin dir (pre ++ e.tempNames (k + j) ++ suf)) = true)
  | 0, k => .inr ⟨rfl, by omega⟩
  | fuel + 1, k => by
    rw [tempPath]
    by_cases h : fs.has (pathJoin dir (pre ++ e.tempNames k ++ suf)) = true
    · rw [if_pos h]
      rcases tempPath_cases e fs dir pre suf fuel (k + 1) with ⟨r, hr⟩ | ⟨h1, h2⟩
      · exact .inl ⟨r, hr⟩
      · refine .inr ⟨h1, fun j hj => ?_⟩
        cases j with
        | zero => exact h
        | succ j =>
          have := h2 j (by omega)
          rwa [show k + 1 + j = k + (j + 1) by omega] at this
    · rw [if_neg h]; exact .inl ⟨_, rfl⟩

/-- **C100, temporary names.** The name taken is the first in the sequence of names that does not exist yet; the next file starts with the
name after it. -/
theorem C100_draws (e : Ext) (fs : Fs) (dir pre suf : List Char) : ∀ (fuel k : ℕ) (p : List Char) (n : ℕ),
    tempPath e fs dir pre suf fuel k = .ok (p, n) ↔
      ∃ j < fuel, n = k + j + 1 ∧ p = pathJoin dir (pre ++ e.tempNames (k + j) ++ suf) ∧ fs.has p = false ∧
        ∀ i < j, fs.has (pathJoin dir (pre ++ e.tempNames (k + i) ++ suf)) = true
  | 0, k, p, n => by
    constructor
    · intro h; cases h
    · rintro ⟨j, hj, -⟩; omega
  | fuel + 1, k, p, n => by
    rw [tempPath]
    by_cases h : fs.has (pathJoin dir (pre ++ e.tempNames k ++ suf)) = true
    · rw [if_pos h, C100_draws e fs dir pre suf fuel (k + 1) p n]
      constructor
      · rintro ⟨j, hj, h1, h2, h3, h4⟩
        refine ⟨j + 1, by omega, by omega, by rw [h2, show k + 1 + j = k + (j + 1) by omega], h3, fun i hi => ?_⟩
        cases i with
        | zero => exact h
        | succ i => have := h4 i (by omega); rwa [show k + 1 + i = k + (i + 1) by omega] at this
      · rintro ⟨j, hj, h1, h2, h3, h4⟩
        cases j with
        | zero => rw [h2] at h3; rw [Nat.add_zero, h] at h3; cases h3
        | succ j =>
          refine ⟨j, by omega, by omega, by rw [h2, show k + 1 + j = k + (j + 1) by omega], h3, fun i hi => ?_⟩
          have := h4 (i + 1) (by omega)
          rwa [show k + (i + 1) = k + 1 + i by omega] at this
    · rw [if_neg h]
      constructor
      · intro he
        cases he
        exact ⟨0, by omega, rfl, rfl, by simpa using h, by omega⟩
      · rintro ⟨j, hj, h1, h2, h3, h4⟩
        cases j with
        | zero => rw [h1, h2]; rfl
        | succ j => exact absurd (h4 0 (by omega)) h

theorem terContent_ok {c : GCell} (hlen : c.positions.length = c.numbers.length) (hk : ∀ n ∈ c.numbers, Known n) (outmode : List Char) :
    ∃ x, terContent outmode c = .ok x := by
  unfold terContent
  split
  · obtain ⟨s, hs⟩ := vaspString_ok c hlen hk
    exact ⟨.text s, by rw [hs]; rfl⟩
  · obtain ⟨d, hd, _⟩ := C49_old_writer c 1 hk
    exact ⟨.doc d, by rw [hd]; rfl⟩

theorem atomNames_unknown {ns : List ℤ} (h : ∃ n ∈ ns, ¬ Known n) : atomNames ns = .error .indexError := by
  obtain ⟨n, hn, hu⟩ := h
  unfold atomNames
  induction ns with
  | nil => simp at hn
  | cons a l ih =>
    rw [List.mapM_cons]
    by_cases ha : Known a
    · have hl : n ∈ l := by
        rcases List.mem_cons.1 hn with rfl | h
        · exact absurd ha hu
        · exact h
      rw [toName_symbol ha, ih hl]; rfl
    · rw [((C01_number_domain a).2 ha).2]; rfl

theorem terContent_unknown {c : GCell} (h : ∃ n ∈ c.numbers, ¬ Known n) (outmode : List Char) :
    terContent outmode c = .error .indexError := by
  have h' := atomNames_unknown h
  unfold terContent
  split
  · unfold vaspString vaspLines; rw [h']; rfl
  · unfold yamlDocOld; rw [h']; rfl

/-- a passing structure: its content is computed, or it raises -/
theorem terWrite_cases {e : Ext} {refined mpr : Bool} {tr : Option (Specie × ℚ)} {c : GCell} (hc : Built c) (hp : Passes e mpr tr c) (outmode : List Char) :
    (∃ d x, maybeRefined e refined c = .ok d ∧ terContent outmode d = .ok x ∧ ∀ er, ¬ Raises e refined mpr tr c er) ∨
    (∃ er, (do let d ← maybeRefined e refined c; terContent outmode d : Py FileContent) = .error er ∧ Raises e refined mpr tr c er) := by
  cases hm : maybeRefined e refined c with
  | error er =>
    refine .inr ⟨er, rfl, ?_⟩
    unfold maybeRefined at hm
    split at hm
    · rename_i hr
      unfold GCell.getRefinedPcell at hm
      split at hm
      · rename_i hs
        obtain rfl := Except.error.inj hm
        exact .unrefined hp hr hs
      · rename_i p hs
        exact .badCell hp hr p hs er hm
    · cases hm
  | ok d =>
    have hd := maybeRefined_built hc hm
    by_cases hk : ∀ n ∈ d.numbers, Known n
    · obtain ⟨x, hx⟩ := terContent_ok hd.length.symm hk outmode
      refine .inl ⟨d, x, rfl, hx, fun er hr => ?_⟩
      have hsome : ∀ p, refined = true → e.standardize (c.lattice, c.positions, c.numbers) = p → maybeRefined e refined c =
            (match p with | none => .error .typeError | some p => GCell.new p.1 p.2.1 p.2.2) := by
        rintro p hr rfl
        unfold maybeRefined
        rw [if_pos hr]; rfl
      rcases raises_of_passes hp hr with ⟨r1, r2, _⟩ | ⟨r1, p, r2, r3⟩ | ⟨d', r1, r2, _⟩
      · rw [hsome _ r1 r2] at hm; cases hm
      · rw [hsome _ r1 r2] at hm
        exact absurd (hm.symm.trans r3) nofun
      · obtain rfl := Except.ok.inj (hm.symm.trans r1)
        obtain ⟨n, hn, hu⟩ := r2
        exact hu (hk n hn)
    · push Not at hk
      exact .inr ⟨.indexError, terContent_unknown hk outmode, .unknown hp d hm hk⟩

/-! ## runs -/

theorem terLoop_run (e : Ext) (mpr : Bool) (tr : Option (Specie × ℚ)) (refined : Bool) (outmode dir : List Char) (names : List Char × List Char) :
    ∀ (cs : List GCell) (k : ℕ) (fs : Fs), (∀ c ∈ cs, Built c) →
      ∃ pre ws, TerRunOf e refined mpr outmode dir tr (cs.map fun c => (names, c)) fs
        ((terLoop e mpr tr refined outmode dir names cs k fs).1.2, (terLoop e mpr tr refined outmode dir names cs k fs).2) pre ws
  | [], k, fs, _ => ⟨[], [], ⟨List.prefix_refl _, by simp, .nil, by simp, by simp, rfl, .inl ⟨rfl, rfl⟩⟩⟩
  | c :: cs, k, fs, hb => by
    have hc := hb c (by simp)
    have hcs : ∀ d ∈ cs, Built d := fun d hd => hb d (List.mem_cons_of_mem _ hd)
    have stop : ∀ (r : (ℕ × Fs) × Py Unit) er, r = ((k, fs), .error er) → Raises e refined mpr tr c er →
        ∃ pre ws, TerRunOf e refined mpr outmode dir tr ((c :: cs).map fun c => (names, c)) fs (r.1.2, r.2) pre ws := by
      rintro r er rfl hr
      exact ⟨[], [], ⟨List.nil_prefix, by simp, .nil, by simp, by simp, rfl, .inr (.inl ⟨(names, c), er, _, rfl, hr, rfl⟩)⟩⟩
    rcases condition_cases e refined mpr tr hc with ⟨h1, h2⟩ | ⟨h1, h2, h3⟩ | ⟨er, h1, _, h3⟩
    · rcases terWrite_cases (refined := refined) hc h2 outmode with ⟨d, x, w1, w2, w3⟩ | ⟨er, w1, w2⟩
      · rcases tempPath_cases e fs dir names.1 names.2 10000 k with ⟨pk, hpk⟩ | ⟨t1, t2⟩
        · have heq : terLoop e mpr tr refined outmode dir names (c :: cs) k fs = terLoop e mpr tr refined outmode dir names cs pk.2 (fs.write pk.1 x) := by
            rw [terLoop]; simp only [h1, w1, w2, hpk, bind, Except.bind, pure, Except.pure]
          obtain ⟨pre, ws, r⟩ := terLoop_run e mpr tr refined outmode dir names cs pk.2 (fs.write pk.1 x) hcs
          rw [heq]
          obtain ⟨p1, y, p2⟩ := tempPath_inv _ _ _ _ _ _ _ _ hpk
          refine ⟨(names, c) :: pre, (pk.1, x) :: ws, ⟨(List.prefix_cons_inj _).2 r.prefix_, ?_, ?_, ?_, ?_, r.left, ?_⟩⟩
          · intro it hit
            rcases List.mem_cons.1 hit with rfl | hit
            · exact w3
            · exact r.quiet it hit
          · rw [(passItems_cons (it := (names, c))).1 h2]
            exact .cons ⟨d, y, w1, p2, w2⟩ r.records
          · rw [List.map_cons, List.nodup_cons]
            refine ⟨fun hm => ?_, r.distinct⟩
            obtain ⟨w, hw, hwe⟩ := List.mem_map.1 hm
            have := r.new w hw
            rw [hwe, Bool.eq_false_iff] at this
            exact this ((has_write _ _ _ _).2 (.inl rfl))
          · intro w hw
            rcases List.mem_cons.1 hw with rfl | hw
            · exact p1
            · have := r.new w hw
              rw [Bool.eq_false_iff] at this ⊢
              exact fun hh => this ((has_write _ _ _ _).2 (.inr hh))
          · rcases r.ends with ⟨r1, r2⟩ | ⟨it, er, rest, r1, r2, r3⟩ | ⟨it, rest, r1, r2⟩
            · exact .inl ⟨by rw [r1]; rfl, r2⟩
            · exact .inr (.inl ⟨it, er, rest, by rw [List.map_cons, r1]; rfl, r2, r3⟩)
            · exact .inr (.inr ⟨it, rest, by rw [List.map_cons, r1]; rfl, r2⟩)
        · have heq : terLoop e mpr tr refined outmode dir names (c :: cs) k fs = ((k, fs), .error .osError) := by
            rw [terLoop]; simp only [h1, w1, w2, t1, bind, Except.bind]
          rw [heq]
          exact ⟨[], [], ⟨List.nil_prefix, by simp, .nil, by simp, by simp, rfl, .inr (.inr ⟨(names, c), _, rfl, h2, w3, ⟨k, t2⟩, rfl⟩)⟩⟩
      · refine stop _ er ?_ w2
        rw [terLoop]
        simp only [h1]
        cases hm : maybeRefined e refined c with
        | error er' =>
          rw [hm] at w1
          obtain rfl := Except.error.inj w1
          rfl
        | ok d =>
          rw [hm] at w1
          simp only [bind, Except.bind] at w1 ⊢
          rw [w1]
    · obtain ⟨pre, ws, r⟩ := terLoop_run e mpr tr refined outmode dir names cs k fs hcs
      have heq : terLoop e mpr tr refined outmode dir names (c :: cs) k fs = terLoop e mpr tr refined outmode dir names cs k fs := by
        rw [terLoop]; simp only [h1]
      rw [heq]
      refine ⟨(names, c) :: pre, ws, ⟨(List.prefix_cons_inj _).2 r.prefix_, ?_, ?_, r.distinct, r.new, r.left, ?_⟩⟩
      · intro it hit
        rcases List.mem_cons.1 hit with rfl | hit
        · exact h3
        · exact r.quiet it hit
      · rw [(passItems_cons (it := (names, c))).2 h2]; exact r.records
      · rcases r.ends with ⟨r1, r2⟩ | ⟨it, er, rest, r1, r2, r3⟩ | ⟨it, rest, r1, r2⟩
        · exact .inl ⟨by rw [r1]; rfl, r2⟩
        · exact .inr (.inl ⟨it, er, rest, by rw [List.map_cons, r1]; rfl, r2, r3⟩)
        · exact .inr (.inr ⟨it, rest, by rw [List.map_cons, r1]; rfl, r2⟩)
    · exact stop _ er (by rw [terLoop]; simp only [h1]) h3

/-- a run that stops in the first part is not affected by what would follow -/
theorem TerRunOf.stopped {e : Ext} {refined mpr : Bool} {outmode dir : List Char} {tr : Option (Specie × ℚ)} {its its' : List TerItem}
    {fs : Fs} {r : Fs × Py Unit} {pre : List TerItem} {ws : List (List Char × FileContent)}
    (h : TerRunOf e refined mpr outmode dir tr its fs r pre ws) (hr : r.2 ≠ .ok ()) : TerRunOf e refined mpr outmode dir tr (its ++ its') fs r pre ws := by
  refine ⟨h.prefix_.trans (List.prefix_append _ _), h.quiet, h.records, h.distinct, h.new, h.left, ?_⟩
  rcases h.ends with ⟨_, r2⟩ | ⟨it, er, rest, r1, r2, r3⟩ | ⟨it, rest, r1, r2⟩
  · exact absurd r2 hr
  · exact .inr (.inl ⟨it, er, rest ++ its', by rw [r1]; simp, r2, r3⟩)
  · exact .inr (.inr ⟨it, rest ++ its', by rw [r1]; simp, r2⟩)

/-- one part after another -/
theorem TerRunOf.append {e : Ext} {refined mpr : Bool} {outmode dir : List Char} {tr : Option (Specie × ℚ)} {its its' : List TerItem}
    {fs : Fs} {r r' : Fs × Py Unit} {pre pre' : List TerItem} {ws ws' : List (List Char × FileContent)}
    (h : TerRunOf e refined mpr outmode dir tr its fs r pre ws) (hr : r.2 = .ok ())
    (h' : TerRunOf e refined mpr outmode dir tr its' r.1 r' pre' ws') : TerRunOf e refined mpr outmode dir tr (its ++ its') fs r' (its ++ pre') (ws ++ ws') := by
  have hpre : pre = its := by
    rcases h.ends with ⟨r1, _⟩ | ⟨_, _, _, _, _, r3⟩ | ⟨_, _, _, _, _, _, r3⟩
    · exact r1
    · rw [hr] at r3; cases r3
    · rw [hr] at r3; cases r3
  subst hpre
  have hleft := h.left
  refine ⟨(List.prefix_append_right_inj _).2 h'.prefix_, ?_, ?_, ?_, ?_, ?_, ?_⟩
  · intro it hit
    rcases List.mem_append.1 hit with hit | hit
    · exact h.quiet it hit
    · exact h'.quiet it hit
  · unfold passItems
    rw [List.filter_append]
    exact List.rel_append h.records h'.records
  · rw [List.map_append, List.nodup_append]
    refine ⟨h.distinct, h'.distinct, fun x hx y hy hxy => ?_⟩
    subst hxy
    obtain ⟨w, hw, rfl⟩ := List.mem_map.1 hy
    have := h'.new w hw
    rw [hleft, Bool.eq_false_iff] at this
    exact this ((has_writes _ _ _).2 (.inl hx))
  · intro w hw
    rcases List.mem_append.1 hw with hw | hw
    · exact h.new w hw
    · have := h'.new w hw
      rw [hleft, Bool.eq_false_iff] at this
      rw [Bool.eq_false_iff]
      exact fun hh => this ((has_writes _ _ _).2 (.inr hh))
  · rw [h'.left, hleft, Fs.writes_append]
  · rcases h'.ends with ⟨r1, r2⟩ | ⟨it, er, rest, r1, r2, r3⟩ | ⟨it, rest, r1, r2⟩
    · exact .inl ⟨by rw [r1], r2⟩
    · exact .inr (.inl ⟨it, er, rest, by rw [r1]; simp, r2, r3⟩)
    · exact .inr (.inr ⟨it, rest, by rw [r1]; simp, r2⟩)

theorem makertLoop_run (e : Ext) (a : TerApp) (g : OGen) (tr : Option (Specie × ℚ)) (dir : List Char) (structs : ℕ × ℕ → List GCell) :
    ∀ (ps : List (ℕ × ℕ)) (k : ℕ) (fs : Fs), (∀ p ∈ ps, terStructures e a g p.1 p.2 = .ok (structs p) ∧ ∀ c ∈ structs p, Built c) →
      ∃ pre ws, TerRunOf e a.refined true a.outmode dir tr
        (ps.flatMap fun p => (structs p).map fun c => (terNames a.outmode ((a.size : ℤ) - p.1 - p.2) p.1 p.2, c)) fs (makertLoop e a g tr dir ps k fs) pre ws
  | [], k, fs, _ => ⟨[], [], ⟨List.prefix_refl _, by simp, .nil, by simp, by simp, rfl, .inl ⟨rfl, rfl⟩⟩⟩
  | p :: ps, k, fs, h => by
    obtain ⟨h1, h2⟩ := h p (by simp)
    have hps := fun q hq => h q (List.mem_cons_of_mem p hq)
    obtain ⟨pre, ws, r⟩ := terLoop_run e true tr a.refined a.outmode dir (terNames a.outmode ((a.size : ℤ) - p.1 - p.2) p.1 p.2) (structs p) k fs h2
    rw [makertLoop]
    simp only [h1, List.flatMap_cons]
    generalize terLoop e true tr a.refined a.outmode dir (terNames a.outmode ((a.size : ℤ) - p.1 - p.2) p.1 p.2) (structs p) k fs = out at r ⊢
    obtain ⟨s, x⟩ := out
    cases x with
    | error er => exact ⟨pre, ws, r.stopped nofun⟩
    | ok u =>
      obtain ⟨pre', ws', r'⟩ := makertLoop_run e a g tr dir structs ps s.1 s.2 hps
      exact ⟨_, _, r.append rfl r'⟩

theorem terInit_of {e : Ext} {settings : YDoc} {o : TerOpts} {cell : GCell} {size : ℕ} {comment : List Char} {tr : Option (Specie × ℚ)} {g : OGen}
    (h : TerSetup e settings o cell size comment tr g)
    (hk : ∀ num z, settings.numbers = some num → TargetSpecies num o.element z → Known z) :
    terInit settings o = .ok ⟨cell, comment, o.s1, o.s2, size, o.trs.head?, o.refined, o.outmode, o.mpr⟩ := by
  obtain ⟨lat, pos, num, h1, h2, h3, h4, z, h5, h6⟩ := h.source
  obtain ⟨sp, hsp⟩ := (C01_number_domain z).1.2 (hk num z h3 h5)
  unfold terInit
  rw [h1, h2, h3]
  simp only [need, bind, Except.bind, h4, targetZ_of h5, hsp, h6, h.named]
  rfl

theorem TerSetup.built {e : Ext} {settings : YDoc} {o : TerOpts} {cell : GCell} {size : ℕ} {comment : List Char} {tr : Option (Specie × ℚ)} {g : OGen}
    (h : TerSetup e settings o cell size comment tr g) : Built cell := by
  obtain ⟨_, _, _, _, _, _, h4, _⟩ := h.source
  exact ⟨_, _, _, h4⟩

theorem terStructures_of {e : Ext} {a : TerApp} {g : OGen} {n1 n2 : ℤ} {sp1 sp2 : Specie} (h1 : Specie.ofSymbol a.s1 = .ok sp1)
    (h2 : Specie.ofSymbol a.s2 = .ok sp2) :
    terStructures e a g n1 n2 = if n1 < 0 ∨ n2 < 0 then .error .valueError else g.genNodupTrinary e.hash sp1 n1.toNat sp2 n2.toNat := by
  unfold terStructures
  rw [h1, h2]; rfl

theorem ocutenter_of {e : Ext} {settings : YDoc} {o : TerOpts} {n1 n2 : ℤ} {fs : Fs} {cell : GCell} {size : ℕ} {comment dir : List Char}
    {tr : Option (Specie × ℚ)} {g : OGen} (h : TerSetup e settings o cell size comment tr g)
    (hk : ∀ num z, settings.numbers = some num → TargetSpecies num o.element z → Known z)
    (hdir : dir = structuresDir e comment (e.choices 0)) (hf : fs.has dir = false) {r : Py (List GCell)}
    (hr : terStructures e ⟨cell, comment, o.s1, o.s2, size, o.trs.head?, o.refined, o.outmode, o.mpr⟩ g n1 n2 = r) :
    ocutenter e settings o n1 n2 fs = match r with
      | .error er => (fs.makedirs dir, .error er)
      | .ok cs => ((terLoop e o.mpr tr o.refined o.outmode dir (terNames o.outmode ((size : ℤ) - n1 - n2) n1 n2) cs 0 (fs.makedirs dir)).1.2,
          (terLoop e o.mpr tr o.refined o.outmode dir (terNames o.outmode ((size : ℤ) - n1 - n2) n1 n2) cs 0 (fs.makedirs dir)).2) := by
  subst hdir
  unfold ocutenter
  rw [terInit_of h hk]
  unfold openDir occPrepare
  simp only [hf, Bool.false_eq_true, if_false, h.gen, parseTr_of h.restricted, bind, Except.bind, hr]
  cases r <;> rfl

theorem ocumakert_of {e : Ext} {settings : YDoc} {o : TerOpts} {fs : Fs} {cell : GCell} {size : ℕ} {comment dir : List Char}
    {tr : Option (Specie × ℚ)} {g : OGen} (h : TerSetup e settings o cell size comment tr g)
    (hk : ∀ num z, settings.numbers = some num → TargetSpecies num o.element z → Known z)
    (hdir : dir = structuresDir e comment (e.choices 0)) (hf : fs.has dir = false) :
    ocumakert e settings o fs = makertLoop e ⟨cell, comment, o.s1, o.s2, size, o.trs.head?, o.refined, o.outmode, o.mpr⟩ g tr dir (makertPairs size) 0
      (fs.makedirs dir) := by
  subst hdir
  unfold ocumakert
  rw [terInit_of h hk]
  unfold openDir makertPrepare
  simp only [hf, Bool.false_eq_true, if_false, h.gen, parseTr_of h.restricted, bind, Except.bind]
  rfl

/-- **C100, `ocutenter`.** On valid settings, with known species and an output path that does not exist yet: negative numbers of substitutions are a
`ValueError` and leave an empty output directory. All others give the structures of `gen_nodup_trinary_alloy`, which never raises; they are treated in
order up to the first that raises or for which `tempfile` finds no free name; exactly the passing ones before it have been written, each to a new file of
its own, and the run ends with that exception, or normally if there is none. -/
theorem C100_ocutenter {e : Ext} {settings : YDoc} {o : TerOpts} {n1 n2 : ℤ} {fs : Fs} {cell : GCell} {size : ℕ} {comment dir : List Char}
    {tr : Option (Specie × ℚ)} {g : OGen} (h : TerSetup e settings o cell size comment tr g)
    (hk : ∀ num z, settings.numbers = some num → TargetSpecies num o.element z → Known z) {sp1 sp2 : Specie}
    (h1 : Specie.ofSymbol o.s1 = .ok sp1) (h2 : Specie.ofSymbol o.s2 = .ok sp2)
    (hdir : dir = pathJoin e.cwd ("STRUCTURES_".toList ++ comment ++ ['_'] ++ e.choices 0)) (hf : fs.has dir = false) :
    (n1 < 0 ∨ n2 < 0 → ocutenter e settings o n1 n2 fs = ({ fs with dirs := dir :: fs.dirs }, .error .valueError)) ∧
    (0 ≤ n1 → 0 ≤ n2 → ∃ cs pre ws, g.genNodupTrinary e.hash sp1 n1.toNat sp2 n2.toNat = .ok cs ∧
      TerRunOf e o.refined o.mpr o.outmode dir tr (cs.map fun c => (terNames o.outmode ((size : ℤ) - n1 - n2) n1 n2, c))
        { fs with dirs := dir :: fs.dirs } (ocutenter e settings o n1 n2 fs) pre ws) := by
  constructor
  · intro hn
    rw [ocutenter_of h hk hdir hf ((terStructures_of h1 h2).trans (if_pos hn))]; rfl
  · intro hn1 hn2
    obtain ⟨cs, hcs, _⟩ := genNodupTrinary_total e.hash h.built h.gen sp1 n1.toNat sp2 n2.toNat
    obtain ⟨pre, ws, r⟩ := terLoop_run e o.mpr tr o.refined o.outmode dir (terNames o.outmode ((size : ℤ) - n1 - n2) n1 n2) cs 0 (fs.makedirs dir)
      (genNodupTrinary_built hcs)
    refine ⟨cs, pre, ws, hcs, ?_⟩
    rw [ocutenter_of h hk hdir hf ((terStructures_of h1 h2).trans ((if_neg (by push Not; exact ⟨hn1, hn2⟩)).trans hcs))]
    exact r

/-- **C100, `ocumakert`.** The same for `ocumakert`, over the structures of all compositions one after the other, always testing for primitivity. -/
theorem C100_ocumakert {e : Ext} {settings : YDoc} {o : TerOpts} {fs : Fs} {cell : GCell} {size : ℕ} {comment dir : List Char}
    {tr : Option (Specie × ℚ)} {g : OGen} (h : TerSetup e settings o cell size comment tr g)
    (hk : ∀ num z, settings.numbers = some num → TargetSpecies num o.element z → Known z) {sp1 sp2 : Specie}
    (h1 : Specie.ofSymbol o.s1 = .ok sp1) (h2 : Specie.ofSymbol o.s2 = .ok sp2)
    (hdir : dir = pathJoin e.cwd ("STRUCTURES_".toList ++ comment ++ ['_'] ++ e.choices 0)) (hf : fs.has dir = false) :
    ∃ structs : ℕ × ℕ → List GCell, (∀ n1 n2, g.genNodupTrinary e.hash sp1 n1 sp2 n2 = .ok (structs (n1, n2))) ∧ ∃ pre ws,
      TerRunOf e o.refined true o.outmode dir tr
        ((makertPairs size).flatMap fun p => (structs p).map fun c => (terNames o.outmode ((size : ℤ) - p.1 - p.2) p.1 p.2, c))
        { fs with dirs := dir :: fs.dirs } (ocumakert e settings o fs) pre ws := by
  have htot := fun p : ℕ × ℕ => genNodupTrinary_total e.hash h.built h.gen sp1 p.1 sp2 p.2
  choose structs hst _ using htot
  refine ⟨structs, fun n1 n2 => hst (n1, n2), ?_⟩
  rw [ocumakert_of h hk hdir hf]
  obtain ⟨pre, ws, r⟩ := makertLoop_run e ⟨cell, comment, o.s1, o.s2, size, o.trs.head?, o.refined, o.outmode, o.mpr⟩ g tr dir structs
    (makertPairs size) 0 (fs.makedirs dir) fun p _ =>
      ⟨(terStructures_of h1 h2).trans ((if_neg (by omega)).trans (hst p)), genNodupTrinary_built (hst p)⟩
  exact ⟨pre, ws, r⟩

theorem ofSymbol_error {s : String} {er : PyErr} (h : Specie.ofSymbol s = .error er) : er = .keyError := by
  unfold Specie.ofSymbol at h
  split at h
  · cases h
  · exact (Except.error.inj h).symm

/-- **C100, unknown species.** If one of the two symbols to be inserted is unknown, `ocutenter` ends with a `KeyError` and an empty output
directory; so does `ocumakert` if there are at least three target atoms; with fewer it has nothing to do and does not notice. -/
theorem C100_unknown_species {e : Ext} {settings : YDoc} {o : TerOpts} {fs : Fs} {cell : GCell} {size : ℕ} {comment dir : List Char}
    {tr : Option (Specie × ℚ)} {g : OGen} (h : TerSetup e settings o cell size comment tr g)
    (hk : ∀ num z, settings.numbers = some num → TargetSpecies num o.element z → Known z)
    (hs : (∀ sp, Specie.ofSymbol o.s1 ≠ .ok sp) ∨ (∀ sp, Specie.ofSymbol o.s2 ≠ .ok sp))
    (hdir : dir = pathJoin e.cwd ("STRUCTURES_".toList ++ comment ++ ['_'] ++ e.choices 0)) (hf : fs.has dir = false) :
    (∀ n1 n2, ocutenter e settings o n1 n2 fs = ({ fs with dirs := dir :: fs.dirs }, .error .keyError)) ∧
    ocumakert e settings o fs = ({ fs with dirs := dir :: fs.dirs }, if 3 ≤ size then .error .keyError else .ok ()) := by
  have hst : ∀ n1 n2, terStructures e ⟨cell, comment, o.s1, o.s2, size, o.trs.head?, o.refined, o.outmode, o.mpr⟩ g n1 n2 = .error .keyError := by
    intro n1 n2
    unfold terStructures
    simp only
    cases e1 : Specie.ofSymbol o.s1 with
    | error er => rw [ofSymbol_error e1]; rfl
    | ok sp1 =>
      cases e2 : Specie.ofSymbol o.s2 with
      | error er => rw [ofSymbol_error e2]; rfl
      | ok sp2 =>
        rcases hs with hs | hs
        · exact absurd e1 (hs _)
        · exact absurd e2 (hs _)
  refine ⟨fun n1 n2 => by rw [ocutenter_of h hk hdir hf (hst n1 n2)]; rfl, ?_⟩
  rw [ocumakert_of h hk hdir hf]
  cases hp : makertPairs size with
  | nil =>
    rw [if_neg]
    · rfl
    · intro hs
      have := ((C65_pairs size).2 1 1).2 ⟨le_refl _, le_refl _, by omega⟩
      rw [hp] at this
      cases this
  | cons p ps =>
    rw [if_pos, makertLoop, hst]
    · rfl
    · have := ((C65_pairs size).2 p.1 p.2).1 (by rw [hp]; simp)
      omega

/-! ## when a ternary run finishes -/

theorem TerRunOf.finished {e : Ext} {refined mpr : Bool} {outmode dir : List Char} {tr : Option (Specie × ℚ)} {its : List TerItem}
    {fs : Fs} {r : Fs × Py Unit} {pre : List TerItem} {ws : List (List Char × FileContent)}
    (h : TerRunOf e refined mpr outmode dir tr its fs r pre ws) (hr : r.2 ≠ .error .osError) :
    r.2 = .ok () ↔ ∀ it ∈ its, ∀ er, ¬ Raises e refined mpr tr it.2 er := by
  constructor
  · intro hr
    rcases h.ends with ⟨h1, _⟩ | ⟨_, _, _, _, _, h3⟩ | ⟨_, _, _, _, _, _, h3⟩
    · rw [← h1]; exact h.quiet
    · rw [hr] at h3; cases h3
    · rw [hr] at h3; cases h3
  · intro hq
    rcases h.ends with ⟨_, h2⟩ | ⟨c, er, rest, h1, h2, _⟩ | ⟨_, _, _, _, _, _, h3⟩
    · exact h2
    · exact absurd h2 (hq c (by rw [h1]; simp) er)
    · exact absurd h3 hr

theorem mem_subst2 {base m : List ℤ} {S T : Finset ℕ} {z w n : ℤ} (h : Spec.Subst2 base S z T w m) (hn : n ∈ m) : n = z ∨ n = w ∨ n ∈ base := by
  obtain ⟨hl, hi⟩ := h
  obtain ⟨i, hi'⟩ := List.mem_iff_getElem?.1 hn
  have := hi i (hl ▸ (List.getElem?_eq_some_iff.1 hi').1)
  rw [hi'] at this
  split at this
  · exact .inl (Option.some.inj this)
  · split at this
    · exact .inr (.inl (Option.some.inj this))
    · exact .inr (.inr (List.mem_iff_getElem?.2 ⟨i, this.symm⟩))

/-- without refinement, on known atomic numbers and with an spglib that never fails, only a restriction on an absent element raises -/
theorem raises_only_absent {e : Ext} {mpr : Bool} {tr : Option (Specie × ℚ)} {c : GCell} {er : PyErr} (hs : ∀ x, e.findPrimitive x ≠ none)
    (hk : ∀ z ∈ c.numbers, Known z) (h : Raises e false mpr tr c er) :
    er = .valueError ∧ ∃ el d, tr = some (el, d) ∧ PassesPrimitive e mpr c ∧ el.Z ∉ c.numbers := by
  cases h with
  | spglib _ hh => exact absurd hh (hs _)
  | absent el d hp ht hh => exact ⟨rfl, el, d, ht, hp, hh⟩
  | unrefined _ hh => cases hh
  | badCell _ hh => cases hh
  | unknown _ d hd hh =>
    obtain rfl := Except.ok.inj hd
    obtain ⟨z, hz, hu⟩ := hh
    exact absurd (hk z hz) hu

/-- **C100, when `ocumakert` finishes.** Without refinement, on a cell with known atomic numbers, with an spglib that never fails and as long as `tempfile`
finds names: `ocumakert` finishes exactly if every primitive structure of every composition contains the element of the restriction (if there is
one); otherwise it ends with a `ValueError`. -/
theorem C100_finishes {e : Ext} {settings : YDoc} {o : TerOpts} {fs : Fs} {cell : GCell} {size : ℕ} {comment dir : List Char}
    {tr : Option (Specie × ℚ)} {g : OGen} (h : TerSetup e settings o cell size comment tr g)
    (hk : ∀ num z, settings.numbers = some num → TargetSpecies num o.element z → Known z) {sp1 sp2 : Specie}
    (h1 : Specie.ofSymbol o.s1 = .ok sp1) (h2 : Specie.ofSymbol o.s2 = .ok sp2)
    (hdir : dir = pathJoin e.cwd ("STRUCTURES_".toList ++ comment ++ ['_'] ++ e.choices 0)) (hf : fs.has dir = false)
    (hr : o.refined = false) (hkc : ∀ z ∈ cell.numbers, Known z) (hs : ∀ x, e.findPrimitive x ≠ none)
    (hos : (ocumakert e settings o fs).2 ≠ .error .osError) :
    ((ocumakert e settings o fs).2 = .ok () ↔ ∀ el d, tr = some (el, d) → ∀ n1 n2, 1 ≤ n1 → 1 ≤ n2 → n1 + n2 < size → ∀ cs,
      g.genNodupTrinary e.hash sp1 n1 sp2 n2 = .ok cs → ∀ c ∈ cs, PassesPrimitive e true c → el.Z ∈ c.numbers) ∧
    ((ocumakert e settings o fs).2 ≠ .ok () → (ocumakert e settings o fs).2 = .error .valueError) := by
  obtain ⟨structs, hst, pre, ws, run⟩ := C100_ocumakert h hk h1 h2 hdir hf
  have hmem : ∀ it : TerItem, it ∈ ((makertPairs size).flatMap fun p => (structs p).map fun c =>
      (terNames o.outmode ((size : ℤ) - p.1 - p.2) p.1 p.2, c)) → ∃ n1 n2, 1 ≤ n1 ∧ 1 ≤ n2 ∧ n1 + n2 < size ∧ it.2 ∈ structs (n1, n2) := by
    intro it hit
    obtain ⟨p, hp, hit⟩ := List.mem_flatMap.1 hit
    obtain ⟨c, hc, rfl⟩ := List.mem_map.1 hit
    obtain ⟨a1, a2, a3⟩ := ((C65_pairs size).2 p.1 p.2).1 hp
    exact ⟨p.1, p.2, a1, a2, a3, hc⟩
  have only : ∀ n1 n2 c er, c ∈ structs (n1, n2) → Raises e o.refined true tr c er →
      er = .valueError ∧ ∃ el d, tr = some (el, d) ∧ PassesPrimitive e true c ∧ el.Z ∉ c.numbers := by
    intro n1 n2 c er hc hx
    obtain ⟨cs, k1, k2, _⟩ := genNodupTrinary_total e.hash h.built h.gen sp1 n1 sp2 n2
    obtain rfl := Except.ok.inj ((hst n1 n2).symm.trans k1)
    rw [hr] at hx
    refine raises_only_absent hs (fun z hz => ?_) hx
    obtain ⟨ST, _, _, _, _, _, _, _, hS⟩ := k2 c hc
    rcases mem_subst2 hS hz with rfl | rfl | hz
    · exact ofSymbol_known h1
    · exact ofSymbol_known h2
    · exact hkc z hz
  constructor
  · rw [run.finished hos]
    constructor
    · intro hq el d ht n1 n2 a1 a2 a3 cs hcs c hc hp
      obtain rfl := Except.ok.inj ((hst n1 n2).symm.trans hcs)
      by_contra hh
      refine hq (terNames o.outmode ((size : ℤ) - n1 - n2) n1 n2, c) ?_ _ (.absent el d hp ht hh)
      exact List.mem_flatMap.2 ⟨(n1, n2), ((C65_pairs size).2 n1 n2).2 ⟨a1, a2, a3⟩, List.mem_map.2 ⟨c, hc, rfl⟩⟩
    · intro hq it hit er hx
      obtain ⟨n1, n2, a1, a2, a3, hc⟩ := hmem it hit
      obtain ⟨_, el, d, ht, hp, hh⟩ := only n1 n2 it.2 er hc hx
      exact hh (hq el d ht n1 n2 a1 a2 a3 _ (hst n1 n2) it.2 hc hp)
  · intro hne
    rcases run.ends with ⟨_, h4⟩ | ⟨it, er, rest, h4, h5, h6⟩ | ⟨_, _, _, _, _, _, h6⟩
    · exact absurd h4 hne
    · obtain ⟨n1, n2, _, _, _, hc⟩ := hmem it (by rw [h4]; simp)
      rw [h6, (only n1 n2 it.2 er hc h5).1]
    · exact absurd h6 hos

/-- **C100, restrictions that are safe.** All structures of a composition contain the element of a restriction on: the first or second inserted element, if at
least one atom of it is inserted; any element of the cell of which there are more atoms than are replaced in all. -/
theorem C100_safe (hash : List ℤ → ℕ) {cell : GCell} (hc : Built cell) {ops : List (M3 ℤ × V3 ℚ)} {wy : List String} {g : OGen}
    (hg : OGen.new cell ops wy = .ok g) (sp1 sp2 el : Specie) (n1 n2 : ℕ) {cs : List GCell} (hcs : g.genNodupTrinary hash sp1 n1 sp2 n2 = .ok cs)
    (h : (el.Z = sp1.Z ∧ 0 < n1) ∨ (el.Z = sp2.Z ∧ 0 < n2) ∨ n1 + n2 < cell.numbers.count el.Z) :
    ∀ c ∈ cs, el.Z ∈ c.numbers := by
  intro c hcm
  obtain ⟨cs', h1, h3, _⟩ := genNodupTrinary_total hash hc hg sp1 n1 sp2 n2
  obtain rfl := Except.ok.inj (hcs.symm.trans h1)
  obtain ⟨⟨S, T⟩, s1, s2, s3, s4, s5, _, _, s6, s7⟩ := h3 c hcm
  simp only at s1 s2 s3 s4 s5 s6 s7
  rcases h with ⟨h1, h2⟩ | ⟨h1, h2⟩ | h1
  · obtain ⟨i, hi⟩ := Finset.card_pos.1 (s4 ▸ h2)
    have := s7 i (Finset.mem_range.1 (s1 hi))
    rw [if_pos hi] at this
    rw [h1]
    exact List.mem_iff_getElem?.2 ⟨i, this⟩
  · obtain ⟨i, hi⟩ := Finset.card_pos.1 (s5 ▸ h2)
    have := s7 i (Finset.mem_range.1 (s2 hi))
    rw [if_neg (fun hh => Finset.disjoint_left.1 s3 hh hi), if_pos hi] at this
    rw [h1]
    exact List.mem_iff_getElem?.2 ⟨i, this⟩
  · have : ∃ i, cell.numbers[i]? = some el.Z ∧ i ∉ S ∪ T := by
      by_contra hh
      push Not at hh
      have hsub : (eleIndices cell.numbers el.Z).toFinset ⊆ S ∪ T := by
        intro i hi
        rw [List.mem_toFinset] at hi
        exact hh i ((mem_eleIndices _ _ _).1 hi)
      have h5 := Finset.card_le_card hsub
      have h6 := Finset.card_union_le S T
      rw [List.toFinset_card_of_nodup (eleIndices_nodup _ _), eleIndices_length] at h5
      omega
    obtain ⟨i, hi, hiS⟩ := this
    rw [Finset.mem_union, not_or] at hiS
    have := s7 i (List.getElem?_eq_some_iff.1 hi).1
    rw [if_neg hiS.1, if_neg hiS.2, hi] at this
    exact List.mem_iff_getElem?.2 ⟨i, this⟩

/-- **C100, the usual restrictions.** Under a restriction on one of the inserted elements or on the target element, or without restriction, `ocumakert` finishes (same
assumptions as in `C100_finishes`). -/
theorem C100_usual {e : Ext} {settings : YDoc} {o : TerOpts} {fs : Fs} {cell : GCell} {size : ℕ} {comment dir : List Char}
    {tr : Option (Specie × ℚ)} {g : OGen} (h : TerSetup e settings o cell size comment tr g)
    (hk : ∀ num z, settings.numbers = some num → TargetSpecies num o.element z → Known z) {sp1 sp2 : Specie}
    (h1 : Specie.ofSymbol o.s1 = .ok sp1) (h2 : Specie.ofSymbol o.s2 = .ok sp2)
    (hdir : dir = pathJoin e.cwd ("STRUCTURES_".toList ++ comment ++ ['_'] ++ e.choices 0)) (hf : fs.has dir = false)
    (hr : o.refined = false) (hkc : ∀ z ∈ cell.numbers, Known z) (hs : ∀ x, e.findPrimitive x ≠ none)
    (hos : (ocumakert e settings o fs).2 ≠ .error .osError)
    (hel : ∀ el d, tr = some (el, d) → el.Z = sp1.Z ∨ el.Z = sp2.Z ∨ cell.numbers.count el.Z = size) :
    (ocumakert e settings o fs).2 = .ok () := by
  rw [(C100_finishes h hk h1 h2 hdir hf hr hkc hs hos).1]
  intro el d ht n1 n2 a1 a2 a3 cs hcs c hc _
  refine C100_safe e.hash h.built h.gen sp1 sp2 el n1 n2 hcs ?_ c hc
  rcases hel el d ht with h | h | h
  · exact .inl ⟨h, a1⟩
  · exact .inr (.inl ⟨h, a2⟩)
  · exact .inr (.inr (by omega))

/-! ## examples -/

/-- one boron atom of three is to be replaced by carbon and one by nitrogen, with a restriction on zinc, of which there is one atom in the cell -/
def exZincOpts : TerOpts := ⟨none, some "B", "C", "N", none, [("Zn", 1/10)], false, "vasp".toList, true⟩

/-- the names of the files, and the exception -/
def terNamesOf (r : Fs × Py Unit) : List String × Option PyErr := (r.1.files.map fun f => String.ofList f.1, match r.2 with | .ok _ => none | .error e => some e)

set_option maxRecDepth 100000 in
/-- the second structure has nitrogen in place of the zinc: the run stops after one file -/
example : terNamesOf (ocumakert (exExt fun k => natStr (1000 + k)) exSettings exZincOpts ⟨[], []⟩) =
    (["/w/STRUCTURES_default_1000/POSCAR_A1B1C1_0.vasp"], some .valueError) := by decide +kernel

set_option maxRecDepth 100000 in
/-- a restriction on boron lets the run finish -/
example : ((ocumakert (exExt fun k => natStr (1000 + k)) exSettings { exZincOpts with trs := [("B", 1/10)] } ⟨[], []⟩).1.files.length,
    (terNamesOf (ocumakert (exExt fun k => natStr (1000 + k)) exSettings { exZincOpts with trs := [("B", 1/10)] } ⟨[], []⟩)).2) = (12, none) := by
  decide +kernel

set_option maxRecDepth 100000 in
/-- an unknown species -/
example : terNamesOf (ocumakert (exExt fun k => natStr (1000 + k)) exSettings { exZincOpts with s1 := "Nd" } ⟨[], []⟩) = ([], some .keyError) := by
  decide +kernel

/-- the setup of the theorems is met by these runs: for `exZincOpts`, and with the restriction on boron also the hypothesis of `C100_usual` -/
example (el : String) (sp : Specie) (hel : Specie.ofSymbol el = .ok sp) :
    ∃ cell comment g, TerSetup (exExt fun k => natStr (1000 + k)) exSettings { exZincOpts with trs := [(el, 1/10)] } cell 3 comment (some (sp, 1/10)) g ∧
    (∀ num z, exSettings.numbers = some num → TargetSpecies num exZincOpts.element z → Known z) ∧ (∀ z ∈ cell.numbers, Known z) ∧
    (∀ x, (exExt fun k => natStr (1000 + k)).findPrimitive x ≠ none) ∧ (sp.Z = 5 → cell.numbers.count sp.Z = 3) := by
  have hnew : (match GCell.new (smulM 1 ((3, 0, 0), (0, 3, 0), (0, 0, 3))) [(0, 0, 0), (1/4, 0, 0), (1/2, 0, 1/2), (1/2, 1/4, 1/2)] [5, 5, 30, 5] with
      | .ok c => decide (c.numbers = [5, 5, 30, 5]) | .error _ => false) = true := by decide +kernel
  cases hc : GCell.new (smulM 1 ((3, 0, 0), (0, 3, 0), (0, 0, 3))) [(0, 0, 0), (1/4, 0, 0), (1/2, 0, 1/2), (1/2, 1/4, 1/2)] [5, 5, 30, 5] with
  | error er => rw [hc] at hnew; cases hnew
  | ok cell =>
    rw [hc] at hnew
    have hnum : cell.numbers = [5, 5, 30, 5] := of_decide_eq_true hnew
    obtain ⟨g, hg, _⟩ := ogen_total ⟨_, _, _, hc⟩ ((exExt fun k => natStr (1000 + k)).symmetry cell) ((exExt fun k => natStr (1000 + k)).wyckoffs cell)
    refine ⟨cell, "default".toList, g, ⟨⟨_, _, _, rfl, rfl, rfl, hc, 5, .inr ⟨"B", ⟨"B", 5⟩, rfl, by decide +kernel, rfl⟩, by decide⟩, rfl,
      .inr ⟨el, 1/10, [], sp, rfl, hel, rfl⟩, hg⟩, ?_, ?_, fun x => nofun, ?_⟩
    · rintro num z - (⟨h, _⟩ | ⟨s, sp, h, h1, rfl⟩)
      · cases h
      · exact ofSymbol_known h1
    · rw [hnum]; unfold Known; decide
    · intro h; rw [hnum, h]; decide

end Verif
