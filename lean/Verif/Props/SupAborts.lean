import Verif.Props.TerAborts
import Verif.Props.Derivative2D

/-! # C102: runs of `suplat` that stop half way -/

namespace Verif

open Spec

/-- the exception with which the treatment of one superlattice ends, if it ends with one: spglib fails on its cell, or the shaped cell has an atomic number
outside the table -/
def SupRaises (e : Ext) (s : SLCell) (er : PyErr) : Prop :=
  ∃ c, s.toGeneralCell = .ok c ∧ (c.getShapedCell e = .error er ∨ ∃ d, c.getShapedCell e = .ok d ∧ (∃ n ∈ d.numbers, ¬ Known n) ∧ er = .indexError)

/-- what a run over the superlattices `ss` leaves and how it ends -/
structure SupRunOf (e : Ext) (v : ℕ) (outmode dir : List Char) (ss : List SLCell) (k : ℕ) (fs : Fs) (r : Fs × Py Unit) (pre : List SLCell)
    (ws : List (List Char × FileContent)) : Prop where
  prefix_ : pre <+: ss
  quiet : ∀ s ∈ pre, ∀ er, ¬ SupRaises e s er
  records : List.Forall₂ (fun si w => SupRecord e v outmode dir (e.choices si.2) si.1 w) (pre.zipIdx k) ws
  left : r.1 = fs.writes ws
  ends : (pre = ss ∧ r.2 = .ok ()) ∨ ∃ s er rest, ss = pre ++ s :: rest ∧ SupRaises e s er ∧ r.2 = .error er

theorem writeFile_unknown {c : GCell} (h : ∃ n ∈ c.numbers, ¬ Known n) {outmode : List Char} (ho : Outmode outmode) (a : List Char) :
    writeFile c (a ++ ['.'] ++ outmode) none = .error .indexError := by
  have h' := atomNames_unknown h
  obtain ⟨d1, d2, -⟩ := C51_dispatch (a ++ ['.'] ++ outmode) none
  by_cases hw : WantsYaml (a ++ ['.'] ++ outmode) none
  · unfold writeFile
    rw [d1.2 hw]
    simp only [bind, Except.bind]
    unfold yamlDoc
    rw [h']; rfl
  · have hv : WantsVasp (a ++ ['.'] ++ outmode) none := by
      rcases ho with rfl | rfl
      · exact .inr (.inl (by rw [List.append_assoc, lower_append]; exact ⟨lower a, rfl⟩))
      · exact absurd (.inr (by rw [List.append_assoc, lower_append]; exact ⟨lower a, [], by rw [List.append_nil]; rfl⟩)) hw
    unfold writeFile
    rw [d2.2 ⟨hw, hv⟩]
    simp only [bind, Except.bind]
    unfold vaspString vaspLines
    rw [h']; rfl

theorem new_built {L : M3 ℚ} {pos : List (V3 ℚ)} {num : List ℤ} {c : GCell} (h : GCell.new L pos num = .ok c) : Built c := ⟨_, _, _, h⟩

theorem shaped_built {e : Ext} {c d : GCell} (h : c.getShapedCell e = .ok d) : Built d := by
  unfold GCell.getShapedCell at h
  split at h
  · cases h
  · obtain ⟨_, _, h⟩ := bind_ok h
    exact ⟨_, _, _, h⟩

theorem suplatName_dot (dir : List Char) (v : ℕ) (suffix outmode : List Char) :
    ∃ t, pathJoin dir (suplatName v suffix outmode) = t ++ ['.'] ++ outmode := by
  obtain ⟨t, ht⟩ := pathJoin_suffix dir (suplatName v suffix outmode)
  exact ⟨t ++ ("SUPLAT_".toList ++ natStr v ++ ['_'] ++ suffix), by rw [ht]; unfold suplatName; simp only [List.append_assoc]⟩

theorem toGeneralCell_built {s : SLCell} {c : GCell} (h : s.toGeneralCell = .ok c) : Built c := by
  unfold SLCell.toGeneralCell enlarge at h
  obtain ⟨_, _, h⟩ := bind_ok h
  obtain ⟨_, _, h⟩ := bind_ok h
  simp only at h
  split at h
  · cases h
  · obtain ⟨_, _, h⟩ := bind_ok h
    exact ⟨_, _, _, h⟩

theorem supWrite_cases {e : Ext} {s : SLCell} {c : GCell} (hc : s.toGeneralCell = .ok c) {outmode : List Char} (ho : Outmode outmode) (v : ℕ)
    (dir suffix : List Char) (fs : Fs) :
    (∃ w, SupRecord e v outmode dir suffix s w ∧ supWriteOne e v outmode dir suffix s fs = .ok (fs.write w.1 w.2) ∧ ∀ er, ¬ SupRaises e s er) ∨
    (∃ er, supWriteOne e v outmode dir suffix s fs = .error er ∧ SupRaises e s er) := by
  have hone : ∀ er, SupRaises e s er → (c.getShapedCell e = .error er ∨ ∃ d, c.getShapedCell e = .ok d ∧ (∃ n ∈ d.numbers, ¬ Known n) ∧ er = .indexError) := by
    rintro er ⟨c', h1, h2⟩
    obtain rfl := Except.ok.inj (hc.symm.trans h1)
    exact h2
  unfold supWriteOne
  rw [hc]
  cases hd : c.getShapedCell e with
  | error er => exact .inr ⟨er, by simp only [bind, Except.bind, hd], c, hc, .inl hd⟩
  | ok d =>
    simp only [bind, Except.bind, hd]
    obtain ⟨t, ht⟩ := suplatName_dot dir v suffix outmode
    by_cases hk : ∀ n ∈ d.numbers, Known n
    · obtain ⟨x, hx⟩ := writeFile_ok (shaped_built hd).length.symm hk ho t
      rw [← ht] at hx
      refine .inl ⟨(pathJoin dir (suplatName v suffix outmode), x), ⟨c, d, hc, hd, rfl, hx⟩, by simp only [hx]; rfl, fun er hr => ?_⟩
      rcases hone er hr with h | ⟨d', h, ⟨n, hn, hu⟩, _⟩
      · rw [hd] at h; cases h
      · obtain rfl := Except.ok.inj (hd.symm.trans h)
        exact hu (hk n hn)
    · push Not at hk
      refine .inr ⟨.indexError, ?_, c, hc, .inr ⟨d, hd, hk, rfl⟩⟩
      have := writeFile_unknown hk ho t
      rw [← ht] at this
      rw [this]

theorem supLoop_run (e : Ext) (v : ℕ) {outmode : List Char} (ho : Outmode outmode) (dir : List Char) :
    ∀ (ss : List SLCell) (k : ℕ) (fs : Fs), (∀ s ∈ ss, ∃ c, s.toGeneralCell = .ok c) →
      ∃ pre ws, SupRunOf e v outmode dir ss k fs (supLoop e v outmode dir ss k fs) pre ws
  | [], k, fs, _ => ⟨[], [], ⟨List.prefix_refl _, by simp, .nil, rfl, .inl ⟨rfl, rfl⟩⟩⟩
  | s :: ss, k, fs, h => by
    obtain ⟨c, hc⟩ := h s (by simp)
    rcases supWrite_cases hc ho v dir (e.choices k) fs with ⟨w, w1, w2, w3⟩ | ⟨er, w1, w2⟩
    · obtain ⟨pre, ws, r⟩ := supLoop_run e v ho dir ss (k + 1) (fs.write w.1 w.2) fun t ht => h t (List.mem_cons_of_mem _ ht)
      rw [supLoop, w2]
      refine ⟨s :: pre, w :: ws, ⟨(List.prefix_cons_inj s).2 r.prefix_, ?_, by rw [List.zipIdx_cons]; exact .cons w1 r.records, r.left, ?_⟩⟩
      · intro t ht
        rcases List.mem_cons.1 ht with rfl | ht
        · exact w3
        · exact r.quiet t ht
      · rcases r.ends with ⟨r1, r2⟩ | ⟨t, er, rest, r1, r2, r3⟩
        · exact .inl ⟨by rw [r1], r2⟩
        · exact .inr ⟨t, er, rest, by rw [r1]; rfl, r2, r3⟩
    · rw [supLoop, w1]
      exact ⟨[], [], ⟨List.nil_prefix, by simp, .nil, rfl, .inr ⟨s, er, ss, rfl, w2, rfl⟩⟩⟩

/-! ## before the loop -/

/-- the input is readable, and is primitive according to spglib -/
structure SupInput (e : Ext) (infile : List Char) (content : FileContent) (cell : GCell) : Prop where
  read : readFile e.root content infile none = .ok cell
  primitive : ∃ p, e.findPrimitive (cell.lattice, cell.positions, cell.numbers) = some p ∧ p.2.2.length = cell.numbers.length

/-- the output directory: the word after `SUPLAT_` is the comment, or `default` if none or an empty one is given -/
def SupDir (e : Ext) (comment : Option (List Char)) (dir : List Char) : Prop :=
  ∃ cm, (cm = "default".toList ∧ (comment = none ∨ comment = some []) ∨ comment = some cm ∧ cm ≠ []) ∧ dir = pathJoin e.cwd ("SUPLAT_".toList ++ cm)

theorem supDir_eq {e : Ext} {comment : Option (List Char)} {dir : List Char} (h : SupDir e comment dir) :
    dir = pathJoin e.cwd ("SUPLAT_".toList ++ commentDefault comment) := by
  obtain ⟨cm, (⟨rfl, rfl | rfl⟩ | ⟨rfl, h⟩), rfl⟩ := h
  · rfl
  · rfl
  · cases cm with
    | nil => exact absurd rfl h
    | cons x xs => rfl

theorem factorsRaw_zero : factorsRaw 0 = .error .typeError := by decide

/-- **C102, refusals.** `suplat` stops before touching the file system with a `TypeError` if spglib fails on the input or the asked volume is 0, and with a
`ValueError` if the input is not primitive. -/
theorem C102_refused {e : Ext} {infile : List Char} {content : FileContent} {cell : GCell} (hr : readFile e.root content infile none = .ok cell)
    (comment : Option (List Char)) (v : ℕ) (ld : Bool) (outmode : List Char) (fs : Fs) :
    (e.findPrimitive (cell.lattice, cell.positions, cell.numbers) = none → suplat e infile content comment v ld outmode fs = (fs, .error .typeError)) ∧
    (∀ p, e.findPrimitive (cell.lattice, cell.positions, cell.numbers) = some p → p.2.2.length ≠ cell.numbers.length →
      suplat e infile content comment v ld outmode fs = (fs, .error .valueError)) ∧
    (SupInput e infile content cell → v = 0 → suplat e infile content comment v ld outmode fs = (fs, .error .typeError)) := by
  have hb := readFile_built hr
  refine ⟨fun h => ?_, fun p h hl => ?_, fun h hv => ?_⟩
  · rcases isPrimitive_cases e hb with ⟨_, h2⟩ | ⟨p, h1, _⟩
    · unfold suplat supInit
      simp only [hr, bind, Except.bind, h2]
    · rw [h] at h1; cases h1
  · rcases isPrimitive_cases e hb with ⟨h1, _⟩ | ⟨q, h1, h2⟩
    · rw [h] at h1; cases h1
    · rw [h] at h1
      obtain rfl := Option.some.inj h1
      rw [decide_eq_false hl] at h2
      unfold suplat supInit
      simp only [hr, bind, Except.bind, h2]
      rfl
  · subst hv
    have h2 := (isPrimitive_iff e hb).2 h.primitive
    unfold suplat supInit
    simp only [hr, bind, Except.bind, h2, if_true]
    cases ld
    · simp only [hnfsFromN, hnfsFromNDups, hnfMats, factors, factorsRaw_zero, bind, Except.bind, Bool.false_eq_true, if_false]
    · simp only [hnfsFromN2D, hnfsFromNDups2D, hnfMats2D, factors, factorsRaw_zero, bind, Except.bind, if_true]

/-- the superlattices listed for the input -/
def supListing (e : Ext) (ld : Bool) (cell : GCell) (v : ℕ) : Py (List SLCell) :=
  if ld then hnfsFromN2D e.setList e.itemFirst cell ((e.symmetry cell).map (·.1)) v
  else hnfsFromN e.setList e.itemFirst cell ((e.symmetry cell).map (·.1)) v

/-- the superlattices are always listed, there is at least one, and each has a cell with the elements of the input and no other -/
theorem supListing_total {e : Ext} {cell : GCell} (hb : Built cell) (hset : SetOrder e.setList) (hG : PointGroup ((e.symmetry cell).map (·.1))) (ld : Bool)
    {v : ℕ} (h0 : 0 < v) (hv : v < 2000) :
    ∃ ss, supListing e ld cell v = .ok ss ∧ ss ≠ [] ∧ ∀ s ∈ ss, ∃ c, s.toGeneralCell = .ok c ∧ ∀ z, z ∈ c.numbers ↔ z ∈ cell.numbers := by
  have hcell : ∀ s : SLCell, (IsHnf v s.latCoeff ∧ s.ub = cell.lattice ∧ s.upositions = cell.positions ∧ s.unumbers = cell.numbers) →
      ∃ c, s.toGeneralCell = .ok c ∧ ∀ z, z ∈ c.numbers ↔ z ∈ cell.numbers := by
    rintro s ⟨u1, u2, u3, u4⟩
    obtain ⟨t1, t2⟩ := isHnf_triangular u1
    obtain ⟨c, c1, _, c3, c4, c5, _⟩ := enlarge_spec cell.lattice cell.positions cell.numbers hb.ne_nil hb.length.symm _ t1 v t2 (by omega)
    refine ⟨c, by unfold SLCell.toGeneralCell; rw [u2, u3, u4]; exact c1, fun z => ?_⟩
    have key : ∀ (L : M3 ℚ) (ps : List (V3 ℚ)) (ns : List ℤ), ps.length = ns.length → (z ∈ ns ↔ ∃ x, (x, z) ∈ CartCrystal L (ps.zip ns)) := by
      intro L ps ns hl
      constructor
      · intro hz
        obtain ⟨i, hi⟩ := List.mem_iff_getElem?.1 hz
        have hi' := (List.getElem?_eq_some_iff.1 hi).1
        have hm : (ps[i]'(by omega), z) ∈ ps.zip ns := List.mem_iff_getElem?.2 ⟨i, List.getElem?_zip_eq_some.2 ⟨List.getElem?_eq_getElem _, hi⟩⟩
        exact ⟨_, _, hm, (0, 0, 0), rfl⟩
      · rintro ⟨x, t, ht, k, hk⟩
        have h2 : z = t.2 := (Prod.ext_iff.1 hk).2
        rw [h2]
        exact (List.of_mem_zip (show (t.1, t.2) ∈ ps.zip ns from ht)).2
    rw [key c.lattice c.positions c.numbers (by omega), key cell.lattice cell.positions cell.numbers hb.length.symm, c5]
  cases ld with
  | false =>
    obtain ⟨out, o1, o2, o3⟩ := superlattice_of e.setList hset e.itemFirst cell (e.symmetry cell) hG v h0 hv
    refine ⟨out, o1, ?_, fun s hs => hcell s (o2 s hs)⟩
    have hH : IsHnf v (hnfMat 1 0 0 v 0 1) :=
      ⟨1, 0, 0, v, 0, 1, rfl, by norm_num, by exact_mod_cast h0, by norm_num, by ring, ⟨by omega, by omega⟩, ⟨by omega, by omega⟩, ⟨by omega, by omega⟩⟩
    obtain ⟨s, hs, _⟩ := o3 _ (isHnf_index hH)
    exact List.ne_nil_of_mem hs
  | true =>
    obtain ⟨out, o1, o2, o3⟩ := superlattice_of_2d e.setList hset e.itemFirst cell (e.symmetry cell) hG v h0 hv
    refine ⟨out, o1, ?_, fun s hs => hcell s (o2 s hs).1⟩
    have hH : IsHnf v (hnfMat 1 0 0 v 0 1) :=
      ⟨1, 0, 0, v, 0, 1, rfl, by norm_num, by exact_mod_cast h0, by norm_num, by ring, ⟨by omega, by omega⟩, ⟨by omega, by omega⟩, ⟨by omega, by omega⟩⟩
    obtain ⟨s, hs, _⟩ := o3 _ (isHnf_index hH) ((isHnf_2d hH).2 ⟨1, 0, v, by norm_num, h0, by ring, h0, rfl⟩)
    exact List.ne_nil_of_mem hs

/-- the file system once the output directory has been prepared: the directory is there, and whatever was inside it before is gone -/
structure SupPrepared (fs : Fs) (dir : List Char) (fs1 : Fs) : Prop where
  dirs : ∀ d, d ∈ fs1.dirs ↔ d = dir ∨ d ∈ fs.dirs ∧ ¬ (fs.has dir = true ∧ (dir ++ ['/']) <+: d)
  files : ∀ p, dictGet fs1.files p = if fs.has dir = true ∧ (dir ++ ['/']) <+: p then none else dictGet fs.files p

theorem freshDir_ok {fs : Fs} {dir : List Char} (h : fs.has dir = true → dir ∈ fs.dirs) : ∃ fs1, freshDir fs dir = .ok fs1 ∧ SupPrepared fs dir fs1 := by
  by_cases hh : fs.has dir = true
  · refine ⟨_, by unfold freshDir Fs.rmtree; rw [if_pos hh, if_pos (h hh)]; rfl, fun d => ?_, fun p => ?_⟩
    · simp only [Fs.makedirs, List.mem_cons, List.mem_filter, hh, true_and, inside, ← List.isPrefixOf_iff_prefix]
      by_cases hd : d = dir
      · simp [hd]
      · simp only [hd, decide_false, Bool.false_or, false_or, Bool.not_eq_true', Bool.eq_false_iff, ne_eq]
    · unfold Fs.makedirs
      have := dictGet_filter fs.files (fun q => !inside dir q) p
      simp only at this ⊢
      rw [this]
      unfold inside
      by_cases hi : (dir ++ ['/']) <+: p
      · rw [if_neg (by simpa using hi), if_pos ⟨hh, hi⟩]
      · rw [if_pos (by rw [Bool.not_eq_true', Bool.eq_false_iff]; simpa [List.isPrefixOf_iff_prefix] using hi), if_neg (fun h => hi h.2)]
  · refine ⟨_, by unfold freshDir; rw [if_neg hh]; rfl, fun d => ?_, fun p => ?_⟩
    · simp [Fs.makedirs, hh]
    · rw [if_neg (fun h => hh h.1)]; rfl

theorem suplat_of {e : Ext} {infile : List Char} {content : FileContent} {cell : GCell} (h : SupInput e infile content cell) {comment : Option (List Char)}
    {dir : List Char} (hdir : SupDir e comment dir) {v : ℕ} {ld : Bool} {ss : List SLCell} (hss : supListing e ld cell v = .ok ss) (outmode : List Char) (fs : Fs) :
    suplat e infile content comment v ld outmode fs = match freshDir fs dir with
      | .error er => (fs, .error er)
      | .ok fs1 => supLoop e v outmode dir ss 0 fs1 := by
  have h2 := (isPrimitive_iff e (readFile_built h.read)).2 h.primitive
  have hi : supInit e infile content comment v ld outmode = .ok ⟨v, commentDefault comment, outmode, ss⟩ := by
    unfold supListing at hss
    unfold supInit
    simp only [h.read, bind, Except.bind, h2, if_true, hss]
    rfl
  unfold suplat
  rw [hi, supDir_eq hdir]
  rfl

/-- **C102.** A run of `suplat` on a readable primitive cell. If the name of the output directory is taken by a file, nothing is changed and an `OSError` is raised.
Otherwise the directory is emptied or created, and then the superlattices of the asked volume are treated in order, each giving one file, until one of them makes
spglib fail or has an atomic number outside the table: the files of the superlattices before that one stay, and the exception is passed on. -/
theorem C102_suplat {e : Ext} {infile : List Char} {content : FileContent} {cell : GCell} (h : SupInput e infile content cell) (hset : SetOrder e.setList)
    (hG : PointGroup ((e.symmetry cell).map (·.1))) {comment : Option (List Char)} {dir : List Char} (hdir : SupDir e comment dir) {v : ℕ} (h0 : 0 < v)
    (hv : v < 2000) (ld : Bool) {outmode : List Char} (ho : Outmode outmode) (fs : Fs) :
    ∃ ss, supListing e ld cell v = .ok ss ∧ ss ≠ [] ∧ (∀ s ∈ ss, ∃ c, s.toGeneralCell = .ok c ∧ ∀ z, z ∈ c.numbers ↔ z ∈ cell.numbers) ∧
      (fs.has dir = true → dir ∉ fs.dirs → suplat e infile content comment v ld outmode fs = (fs, .error .osError)) ∧
      ((fs.has dir = true → dir ∈ fs.dirs) → ∃ fs1 pre ws, SupPrepared fs dir fs1 ∧
        SupRunOf e v outmode dir ss 0 fs1 (suplat e infile content comment v ld outmode fs) pre ws) := by
  obtain ⟨ss, s1, s2, s3⟩ := supListing_total (readFile_built h.read) hset hG ld h0 hv
  refine ⟨ss, s1, s2, s3, fun hh hn => ?_, fun hd => ?_⟩
  · rw [suplat_of h hdir s1]
    have : freshDir fs dir = .error .osError := by
      unfold freshDir Fs.rmtree
      rw [if_pos hh, if_neg hn]; rfl
    rw [this]
  · obtain ⟨fs1, f1, f2⟩ := freshDir_ok hd
    obtain ⟨pre, ws, r⟩ := supLoop_run e v ho dir ss 0 fs1 fun s hs => (s3 s hs).imp fun c hc => hc.1
    refine ⟨fs1, pre, ws, f2, ?_⟩
    rw [suplat_of h hdir s1, f1]
    exact r

/-- spglib standardises every cell that is made of atoms of the elements `zs`, keeping the atoms (`C78_shaped` gives this from the contract of spglib) -/
def Standardises (e : Ext) (zs : List ℤ) : Prop :=
  ∀ c, Built c → (∀ z, z ∈ c.numbers ↔ z ∈ zs) → ∃ d, c.getShapedCell e = .ok d ∧ d.numbers.Perm c.numbers

/-- **C102, when it finishes.** If spglib standardises the superlattices, a run finishes exactly when all elements of the input are in the table. -/
theorem C102_finishes {e : Ext} {infile : List Char} {content : FileContent} {cell : GCell} (h : SupInput e infile content cell) (hset : SetOrder e.setList)
    (hG : PointGroup ((e.symmetry cell).map (·.1))) {comment : Option (List Char)} {dir : List Char} (hdir : SupDir e comment dir) {v : ℕ} (h0 : 0 < v)
    (hv : v < 2000) (ld : Bool) {outmode : List Char} (ho : Outmode outmode) (fs : Fs) (hd : fs.has dir = true → dir ∈ fs.dirs)
    (hstd : Standardises e cell.numbers) :
    (suplat e infile content comment v ld outmode fs).2 = .ok () ↔ ∀ z ∈ cell.numbers, Known z := by
  obtain ⟨ss, s1, s2, s3, _, s5⟩ := C102_suplat h hset hG hdir h0 hv ld ho fs
  obtain ⟨fs1, pre, ws, _, r⟩ := s5 hd
  have key : ∀ s ∈ ss, (∃ er, SupRaises e s er) ↔ ¬ ∀ z ∈ cell.numbers, Known z := by
    intro s hs
    obtain ⟨c, c1, c2⟩ := s3 s hs
    obtain ⟨d, d1, d2⟩ := hstd c (toGeneralCell_built c1) c2
    have hn : ∀ z, z ∈ d.numbers ↔ z ∈ cell.numbers := fun z => d2.mem_iff.trans (c2 z)
    constructor
    · rintro ⟨er, c', c3, c4⟩ hk
      obtain rfl := Except.ok.inj (c1.symm.trans c3)
      rcases c4 with c4 | ⟨d', c4, ⟨n, c5, c6⟩, _⟩
      · rw [d1] at c4; cases c4
      · obtain rfl := Except.ok.inj (d1.symm.trans c4)
        exact c6 (hk n ((hn n).1 c5))
    · intro hk
      push Not at hk
      obtain ⟨n, n1, n2⟩ := hk
      exact ⟨.indexError, c, c1, .inr ⟨d, d1, ⟨n, (hn n).2 n1, n2⟩, rfl⟩⟩
  rcases r.ends with ⟨r1, r2⟩ | ⟨s, er, rest, r1, r2, r3⟩
  · obtain ⟨s, hs⟩ := List.exists_mem_of_ne_nil _ s2
    refine ⟨fun _ => ?_, fun _ => r2⟩
    by_contra hk
    obtain ⟨er, her⟩ := (key s hs).2 hk
    exact r.quiet s (by rw [r1]; exact hs) er her
  · rw [r3]
    refine ⟨fun h => absurd h (by simp), fun hk => ?_⟩
    exact absurd hk ((key s (by rw [r1]; simp)).1 ⟨er, r2⟩)

/-- **C102, an element outside the table.** Such an input is accepted, and costs the user the contents of an existing output directory: the directory is emptied,
nothing is written, and the run ends with an `IndexError`. -/
theorem C102_unknown {e : Ext} {infile : List Char} {content : FileContent} {cell : GCell} (h : SupInput e infile content cell) (hset : SetOrder e.setList)
    (hG : PointGroup ((e.symmetry cell).map (·.1))) {comment : Option (List Char)} {dir : List Char} (hdir : SupDir e comment dir) {v : ℕ} (h0 : 0 < v)
    (hv : v < 2000) (ld : Bool) {outmode : List Char} (ho : Outmode outmode) (fs : Fs) (hd : fs.has dir = true → dir ∈ fs.dirs)
    (hstd : Standardises e cell.numbers) (hu : ∃ z ∈ cell.numbers, ¬ Known z) :
    ∃ fs1, suplat e infile content comment v ld outmode fs = (fs1, .error .indexError) ∧ SupPrepared fs dir fs1 := by
  obtain ⟨ss, s1, s2, s3, _, s5⟩ := C102_suplat h hset hG hdir h0 hv ld ho fs
  obtain ⟨fs1, pre, ws, p, r⟩ := s5 hd
  have key : ∀ s ∈ ss, ∀ er, SupRaises e s er ↔ er = .indexError := by
    intro s hs er
    obtain ⟨c, c1, c2⟩ := s3 s hs
    obtain ⟨d, d1, d2⟩ := hstd c (toGeneralCell_built c1) c2
    constructor
    · rintro ⟨c', c3, c4⟩
      obtain rfl := Except.ok.inj (c1.symm.trans c3)
      rcases c4 with c4 | ⟨d', c4, _, c5⟩
      · rw [d1] at c4; cases c4
      · exact c5
    · rintro rfl
      obtain ⟨n, n1, n2⟩ := hu
      exact ⟨c, c1, .inr ⟨d, d1, ⟨n, d2.mem_iff.2 ((c2 n).2 n1), n2⟩, rfl⟩⟩
  have hpre : pre = [] := by
    cases hp : pre with
    | nil => rfl
    | cons s t =>
      have hs : s ∈ pre := by rw [hp]; simp
      exact absurd ((key s (r.prefix_.subset hs) _).2 rfl) (r.quiet s hs _)
  subst hpre
  have hws : ws = [] := by
    have := r.records.length_eq
    exact List.eq_nil_of_length_eq_zero (by simpa using this.symm)
  subst hws
  refine ⟨fs1, ?_, p⟩
  rcases r.ends with ⟨r1, _⟩ | ⟨s, er, rest, r1, r2, r3⟩
  · exact absurd r1.symm s2
  · rw [(key s (by rw [r1]; simp) er).1 r2] at r3
    exact Prod.ext r.left r3

/-- the contract of spglib, in the form used for `C78_shaped`, gives `Standardises` -/
theorem standardises_of {e : Ext} {zs : List ℤ}
    (h : ∀ c, Built c → (∀ z, z ∈ c.numbers ↔ z ∈ zs) → ∃ (L : M3 ℚ) (pos : List (V3 ℚ)) (labels : List ℤ) (A : V3 ℚ → V3 ℚ),
      e.standardize (c.lattice, c.positions, (List.range c.numbers.length).map fun (i : ℕ) => (i : ℤ)) = some (L, pos, labels) ∧
      pos.length = labels.length ∧ labels.Perm ((List.range c.numbers.length).map fun (i : ℕ) => (i : ℤ)) ∧
      CartCrystal L (pos.zip labels) = (fun s : V3 ℚ × ℤ => (A s.1, s.2)) ''
        CartCrystal c.lattice (c.positions.zip ((List.range c.numbers.length).map fun (i : ℕ) => (i : ℤ)))) : Standardises e zs := by
  intro c hb hz
  obtain ⟨L, pos, labels, A, h1, h2, h3, h4⟩ := h c hb hz
  obtain ⟨d, d1, _, d3, _⟩ := C78_shaped e c hb.length.symm hb.ne_nil L pos labels A h1 h2 h3 h4
  exact ⟨d, d1, d3⟩

/-! ## concrete runs -/

/-- a mapping with a single atom of the given number -/
def exAtom (z : ℤ) : FileContent := .doc ⟨none, some ((3, 0, 0), (0, 3, 0), (0, 0, 3)), some [(0, 0, 0)], some [z], some 1⟩

/-- a file system with an older result in the output directory -/
def exOlder : Fs := ⟨["/w/SUPLAT_x".toList], [("/w/SUPLAT_x/old".toList, .text []), ("/w/other".toList, .text [])]⟩

/-- the outside world of the runs: sets are listed in the order of first appearance -/
def exSup : Ext := { exExt fun k => natStr (1000 + k) with setList := fun l => l.dedup }

theorem exSup_setOrder : SetOrder exSup.setList := fun l => ⟨l.nodup_dedup, fun _ => List.mem_dedup⟩

theorem exSup_pointGroup (c : GCell) : PointGroup ((exSup.symmetry c).map (·.1)) := by
  have h : (exSup.symmetry c).map (·.1) = [((1, 0, 0), (0, 1, 0), (0, 0, 1))] := rfl
  have hid : ∀ v : V3 ℤ, rot ((1, 0, 0), (0, 1, 0), (0, 0, 1)) v = v := fun v => by simp [rot]
  rw [h]
  refine ⟨fun r hr => ?_, ⟨_, by simp, hid⟩, fun r hr s hs => ⟨_, List.mem_singleton.2 rfl, fun v => ?_⟩, fun r hr => ⟨_, List.mem_singleton.2 rfl, fun v => ?_⟩⟩
  · rw [List.mem_singleton.1 hr]; exact .inl (by decide)
  · rw [List.mem_singleton.1 hr, List.mem_singleton.1 hs]; simp [hid]
  · rw [List.mem_singleton.1 hr]; simp [hid]

def exAtomCell (z : ℤ) : GCell := ⟨((3, 0, 0), (0, 3, 0), (0, 0, 3)), [(0, 0, 0)], [z], [z], 1⟩

theorem exSup_standardises (zs : List ℤ) : Standardises exSup zs :=
  standardises_of fun c hb _ => ⟨c.lattice, c.positions, _, id, rfl, by rw [hb.length.symm]; simp, List.Perm.refl _, by simp⟩

theorem exSup_dir : SupDir exSup (some ['x']) "/w/SUPLAT_x".toList := ⟨['x'], .inr ⟨rfl, by simp⟩, by decide +kernel⟩

/-- boron: the run finishes, in three and in two dimensions -/
example (ld : Bool) : (suplat exSup "a.yaml".toList (exAtom 5) (some ['x']) 4 ld "vasp".toList exOlder).2 = .ok () := by
  refine (C102_finishes (cell := exAtomCell 5) ⟨by decide +kernel, _, rfl, rfl⟩ exSup_setOrder (exSup_pointGroup _) exSup_dir (by norm_num) (by norm_num) ld
    (.inl rfl) exOlder (fun _ => by decide) (exSup_standardises _)).2 fun z hz => ?_
  rw [List.mem_singleton.1 hz]
  unfold Known; omega

/-- praseodymium is not in the table: the older result is lost, nothing is written -/
example (ld : Bool) : ∃ fs1, suplat exSup "a.yaml".toList (exAtom 59) (some ['x']) 4 ld "vasp".toList exOlder = (fs1, .error .indexError) ∧
    dictGet exOlder.files "/w/SUPLAT_x/old".toList ≠ none ∧ dictGet fs1.files "/w/SUPLAT_x/old".toList = none := by
  obtain ⟨fs1, h1, h2⟩ := C102_unknown (infile := "a.yaml".toList) (content := exAtom 59) (cell := exAtomCell 59) ⟨by decide +kernel, _, rfl, rfl⟩ exSup_setOrder (exSup_pointGroup _) exSup_dir (v := 4) (by norm_num)
    (by norm_num) ld (.inl rfl) exOlder (fun _ => by decide) (exSup_standardises _) ⟨59, by decide, by unfold Known; omega⟩
  refine ⟨fs1, h1, by decide +kernel, ?_⟩
  rw [h2.files, if_pos (by decide +kernel)]

end Verif
