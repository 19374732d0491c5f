import Verif.Model.Writers
import Verif.Props.CellArrays
import Verif.Props.TerAborts

/-! # C109: writers and the file system -/

namespace Verif

open Spec

/-- what a writer of the given class writes for a cell -/
def contentOf (g : GCell) : WKind → Py FileContent
  | .vasp zoom => do return .text (← vaspString g zoom true)
  | .yaml => do return .doc (← yamlDoc g)
  | .yamlOld zoom => do return .doc (← yamlDocOld g zoom)

theorem make_eq {w : Arrays} {c : ℕ} {o : CellObj} {L : M3 ℚ} {P : List (V3 ℚ)} {N : List ℤ} (ho : w.cells[c]? = some o)
    (hL : w.lats[o.lat]? = some L) (hP : w.poss[o.pos]? = some P) (hN : w.nums[o.num]? = some N) (k : WKind) :
    Writer.make w k c = Writer.init o L P N k := by
  unfold Writer.make
  rw [ho]
  simp only [hL, hP, hN]

theorem vaspLines_body (g : GCell) (zoom : ℤ) (direct : Bool) :
    vaspLines g zoom direct = (atomNames g.numbers >>= fun names => vaspBody g.lattice g.positions g.numbers names zoom direct) := rfl

/-- **C109, a new writer.** Making a writer and asking for its text at once gives the text of the cell, for all three classes; making it
fails exactly if the cell has an element number without a name. -/
theorem C109_fresh (w : Arrays) (c : ℕ) (g : GCell) (hg : w.view c = some g) (k : WKind) :
    ((∀ n ∈ g.numbers, Known n) → ∃ x t, Writer.make w k c = .ok x ∧ x.getString w = .ok t ∧ contentOf g k = .ok t) ∧
    ((∃ n ∈ g.numbers, ¬ Known n) → Writer.make w k c = .error .indexError) := by
  obtain ⟨o, ho, hL, hP, hN, -, -⟩ := Arrays.view_some hg
  rw [make_eq ho hL hP hN]
  constructor
  · intro hk
    obtain ⟨zs, -, hz⟩ := orderedAtoms_spec hk
    have hn := atomNames_ok hk
    have fin : ∀ x, Writer.init o g.lattice g.positions g.numbers k = .ok x →
        x.getString w = contentOf g k → (∃ t, contentOf g k = .ok t) →
        ∃ x' t, Writer.init o g.lattice g.positions g.numbers k = .ok x' ∧ x'.getString w = .ok t ∧ contentOf g k = .ok t := by
      rintro x h1 h2 ⟨t, h3⟩
      exact ⟨x, t, h1, h2.trans h3, h3⟩
    cases k with
    | vasp zoom =>
      refine fin (.vasp o.lat o.pos o.num (g.numbers.map Spec.symbol) zoom) (by rw [Writer.init, hn]; rfl) ?_ ?_
      · simp only [Writer.getString, hL, hP, hN, contentOf, vaspString, vaspLines_body, hn, vaspBody, hz, bind, Except.bind, pure, Except.pure]
      · exact ⟨_, by simp only [contentOf, vaspString, vaspLines_body, hn, vaspBody, hz, bind, Except.bind, pure, Except.pure]; rfl⟩
    | yaml =>
      refine fin _ (by simp only [Writer.init, hn, hz, bind, Except.bind, pure, Except.pure]; rfl) ?_ ?_
      · simp only [Writer.getString, hN, contentOf, yamlDoc, hn, hz, bind, Except.bind, pure, Except.pure]
      · exact ⟨_, by simp only [contentOf, yamlDoc, hn, hz, bind, Except.bind, pure, Except.pure]; rfl⟩
    | yamlOld zoom =>
      refine fin (.yamlOld o.lat o.pos o.num (g.numbers.map Spec.symbol) zoom) (by rw [Writer.init, hn]; rfl) ?_ ?_
      · simp only [Writer.getString, hL, hP, hN, contentOf, yamlDocOld, hn, hz, bind, Except.bind, pure, Except.pure]
      · exact ⟨_, by simp only [contentOf, yamlDocOld, hn, hz, bind, Except.bind, pure, Except.pure]; rfl⟩
  · intro hu
    cases k <;> simp only [Writer.init, atomNames_unknown hu, bind, Except.bind]

theorem writeFile_content (g : GCell) (name : List Char) (fmt : Option (List Char)) {f : Fmt} (hd : dispatch name fmt = .ok f) :
    writeFile g name fmt = contentOf g f.writer := by
  unfold writeFile
  cases f <;> simp only [hd, bind, Except.bind] <;> rfl

/-- **C109, `GeneralIO.write_file`.** Nothing is touched when no format is recognised, when an element has no name, or when the name is that
of a directory. Without a name the text is printed. Otherwise the file with this name, new or not, holds the text of the cell, and nothing
else changes. -/
theorem C109_write (w : Arrays) (c : ℕ) (g : GCell) (hg : w.view c = some g) (fname fmt : Option (List Char)) (name : List Char)
    (hname : name = fname.getD []) (fs : Fs) :
    (¬ WantsYaml name fmt → ¬ WantsVasp name fmt → gioWrite w c fname fmt fs = (fs, .error .unboundLocalError)) ∧
    (WantsYaml name fmt ∨ WantsVasp name fmt →
      ((∃ n ∈ g.numbers, ¬ Known n) → gioWrite w c fname fmt fs = (fs, .error .indexError)) ∧
      ((∀ n ∈ g.numbers, Known n) → ∃ t, writeFile g name fmt = .ok t ∧
        (name = [] → gioWrite w c fname fmt fs = (fs, .ok (some t))) ∧
        (name ≠ [] → name ∈ fs.dirs → gioWrite w c fname fmt fs = (fs, .error .osError)) ∧
        (name ≠ [] → name ∉ fs.dirs → ∃ fs', gioWrite w c fname fmt fs = (fs', .ok none) ∧ fs'.dirs = fs.dirs ∧
          ∀ p, dictGet fs'.files p = if p = name then some t else dictGet fs.files p))) := by
  obtain ⟨d1, d2, d3⟩ := C51_dispatch name fmt
  unfold gioWrite
  rw [← hname]
  constructor
  · intro h1 h2
    rw [d3.2 ⟨h1, h2⟩]
  · intro hw
    have hd : ∃ f, dispatch name fmt = .ok f := by
      by_cases hy : WantsYaml name fmt
      · exact ⟨_, d1.2 hy⟩
      · exact ⟨_, d2.2 ⟨hy, hw.resolve_left hy⟩⟩
    obtain ⟨f, hd⟩ := hd
    obtain ⟨h1, h2⟩ := C109_fresh w c g hg f.writer
    rw [writeFile_content g name fmt hd, hd]
    simp only
    constructor
    · intro hu
      rw [h2 hu]
    · intro hk
      obtain ⟨x, t, e1, e2, e3⟩ := h1 hk
      refine ⟨t, e3, ?_, ?_, ?_⟩
      · intro hn
        rw [e1]
        simp only [hn, if_true, e2]
      · intro hn hdir
        rw [e1]
        simp only [hn, if_false, Writer.writeFile, hdir, or_true, if_true]
      · intro hn hdir
        rw [e1]
        simp only [hn, if_false, Writer.writeFile, hdir, or_self, e2]
        refine ⟨_, rfl, rfl, fun p => ?_⟩
        simp only [Fs.write, dictGet_dictSet]
        split <;> rfl

theorem make_total {w : Arrays} {k : WKind} {c : ℕ} {x : Writer} (h : Writer.make w k c = .ok x) :
    ∃ o L P N, w.cells[c]? = some o ∧ w.lats[o.lat]? = some L ∧ w.poss[o.pos]? = some P ∧ w.nums[o.num]? = some N ∧ ∀ n ∈ N, Known n := by
  cases ho : w.cells[c]? with
  | none => simp [Writer.make, ho] at h
  | some o =>
    cases hL : w.lats[o.lat]? with
    | none => simp [Writer.make, ho, hL] at h
    | some L =>
      cases hP : w.poss[o.pos]? with
      | none => simp [Writer.make, ho, hL, hP] at h
      | some P =>
        cases hN : w.nums[o.num]? with
        | none => simp [Writer.make, ho, hL, hP, hN] at h
        | some N =>
          refine ⟨o, L, P, N, rfl, hL, hP, hN, ?_⟩
          rw [make_eq ho hL hP hN] at h
          by_contra hu
          push Not at hu
          cases k <;> simp [Writer.init, atomNames_unknown hu, bind, Except.bind] at h

/-! ## later -/

theorem run_lat_some {w : Arrays} (ops : List ArrOp) {l : ℕ} {m : M3 ℚ} (h : w.lats[l]? = some m) : ∃ m', (w.run ops).lats[l]? = some m' := by
  induction ops generalizing w m with
  | nil => exact ⟨m, h⟩
  | cons op ops ih =>
    obtain ⟨m', h1, -⟩ := Arrays.step_lat (op := op) h
    exact ih h1

theorem run_pos_some {w : Arrays} (ops : List ArrOp) {l : ℕ} {m : List (V3 ℚ)} (h : w.poss[l]? = some m) :
    ∃ m', (w.run ops).poss[l]? = some m' ∧ m'.length = m.length := by
  induction ops generalizing w m with
  | nil => exact ⟨m, h, rfl⟩
  | cons op ops ih =>
    obtain ⟨m', h1, h2, -⟩ := Arrays.step_pos (op := op) h
    obtain ⟨m'', h3, h4⟩ := ih h1
    exact ⟨m'', h3, h4.trans h2⟩

theorem run_num_some {w : Arrays} (ops : List ArrOp) {l : ℕ} {m : List ℤ} (h : w.nums[l]? = some m) :
    ∃ m', (w.run ops).nums[l]? = some m' ∧ m'.length = m.length := by
  induction ops generalizing w m with
  | nil => exact ⟨m, h, rfl⟩
  | cons op ops ih =>
    obtain ⟨m', h1, h2, -⟩ := Arrays.step_num (op := op) h
    obtain ⟨m'', h3, h4⟩ := ih h1
    exact ⟨m'', h3, h4.trans h2⟩

/-- **C109, an old writer.** A writer made for a cell, used after any further history of assignments and in-place writes: it never fails.
The YAML writer gives the comment, lattice and positions the cell had when the writer was made, with the present content of the numbers
array; the old YAML writer gives the old comment with the present arrays; the POSCAR writer gives the old comment, elements and counts, the
present lattice, and the present sites in the order of the present numbers, present ghosts left out, labelled by the old elements. -/
theorem C109_later (w : Arrays) (c : ℕ) (o : CellObj) (g : GCell) (ho : w.cells[c]? = some o) (hg : w.view c = some g) (k : WKind) (x : Writer)
    (hx : Writer.make w k c = .ok x) (ops : List ArrOp) (w' : Arrays) (hw' : w' = w.run ops) :
    ∃ L P N, w'.lats[o.lat]? = some L ∧ w'.poss[o.pos]? = some P ∧ w'.nums[o.num]? = some N ∧ N.length = g.numbers.length ∧
      P.length = g.positions.length ∧
      (k = .yaml → ∃ d, yamlDoc g = .ok d ∧ x.getString w' = .ok (.doc { d with numbers := some N })) ∧
      (∀ zoom, k = .yamlOld zoom → ∃ d, yamlDocOld g zoom = .ok d ∧
        x.getString w' = .ok (.doc { d with lattice := some L, positions := some P, numbers := some N })) ∧
      (∀ zoom, k = .vasp zoom → ∃ (ls : List (List Char)) (s : List (ℤ × V3 ℚ × String)), vaspLines g zoom true = .ok ls ∧
        s.Perm (N.zip (P.zip (g.numbers.map Spec.symbol))) ∧ s.Pairwise (fun a b => a.1 ≤ b.1) ∧
        x.getString w' = .ok (.text (pyJoin ['\n'] (ls.take 2 ++ [numberLine L.1, numberLine L.2.1, numberLine L.2.2] ++ (ls.drop 5).take 3 ++
          (s.filter fun t => t.1 ≠ 0).map fun t => numberLine t.2.1 ++ [' '] ++ t.2.2.toList) ++ ['\n']))) := by
  obtain ⟨o', ho', hL, hP, hN, -, -⟩ := Arrays.view_some hg
  rw [ho] at ho'
  obtain rfl := Option.some.inj ho'
  obtain ⟨o'', L0, P0, N0, a1, -, -, a4, hk⟩ := make_total hx
  rw [ho] at a1
  obtain rfl := Option.some.inj a1
  rw [hN] at a4
  obtain rfl := Option.some.inj a4
  obtain ⟨L, hL'⟩ := run_lat_some ops hL
  obtain ⟨P, hP', lP⟩ := run_pos_some ops hP
  obtain ⟨N, hN', lN⟩ := run_num_some ops hN
  rw [← hw'] at hL' hP' hN'
  rw [make_eq ho hL hP hN] at hx
  obtain ⟨zs, -, hz⟩ := orderedAtoms_spec hk
  refine ⟨L, P, N, hL', hP', hN', lN, lP, ?_, ?_, ?_⟩
  · rintro rfl
    simp only [Writer.init, atomNames_ok hk, hz, bind, Except.bind, pure, Except.pure] at hx
    obtain rfl := Except.ok.inj hx
    refine ⟨_, by simp only [yamlDoc, atomNames_ok hk, hz, bind, Except.bind, pure, Except.pure]; rfl, ?_⟩
    simp only [Writer.getString, hN']
  · rintro zoom rfl
    simp only [Writer.init, atomNames_ok hk, bind, Except.bind, pure, Except.pure] at hx
    obtain rfl := Except.ok.inj hx
    refine ⟨_, by simp only [yamlDocOld, atomNames_ok hk, hz, bind, Except.bind, pure, Except.pure]; rfl, ?_⟩
    simp only [Writer.getString, hL', hP', hN', hz, bind, Except.bind, pure, Except.pure]
  · rintro zoom rfl
    simp only [Writer.init, atomNames_ok hk, bind, Except.bind, pure, Except.pure] at hx
    obtain rfl := Except.ok.inj hx
    refine ⟨_, (N.zip (P.zip (g.numbers.map Spec.symbol))).insertionSort fun a b => a.1 ≤ b.1, by
      simp only [vaspLines, atomNames_ok hk, hz, bind, Except.bind, pure, Except.pure]; rfl, List.perm_insertionSort _ _, ?_, ?_⟩
    · have : Std.Total (fun a b : ℤ × V3 ℚ × String => a.1 ≤ b.1) := ⟨fun a b => le_total _ _⟩
      have : IsTrans (ℤ × V3 ℚ × String) (fun a b => a.1 ≤ b.1) := ⟨fun a b c => le_trans⟩
      exact List.pairwise_insertionSort _ _
    · simp only [Writer.getString, hL', hP', hN', vaspBody, hz, bind, Except.bind, pure, Except.pure, V3.toList]
      rfl

/-- **C109, no in-place writes.** If the arrays of the cell are not written in place after the writer was made, its text stays that of the
cell at that time, also if `cell.numbers` is assigned. -/
theorem C109_unchanged (w : Arrays) (c : ℕ) (o : CellObj) (g : GCell) (ho : w.cells[c]? = some o) (hg : w.view c = some g) (k : WKind) (x : Writer)
    (hx : Writer.make w k c = .ok x) (ops : List ArrOp)
    (hne : ∀ op ∈ ops, (∀ i r, op ≠ .writeLat o.lat i r) ∧ (∀ i r, op ≠ .writePos o.pos i r) ∧ ∀ i z, op ≠ .writeNum o.num i z) :
    ∃ t, x.getString (w.run ops) = .ok t ∧ contentOf g k = .ok t := by
  obtain ⟨o', ho', hL, hP, hN, -, -⟩ := Arrays.view_some hg
  rw [ho] at ho'
  obtain rfl := Option.some.inj ho'
  have hL' := Arrays.run_lat hL (ops := ops) fun op h => (hne op h).1
  have hP' := Arrays.run_pos hP (ops := ops) fun op h => (hne op h).2.1
  have hN' := Arrays.run_num hN (ops := ops) fun op h => (hne op h).2.2
  obtain ⟨o'', L0, P0, N0, a1, -, -, a4, hk⟩ := make_total hx
  rw [ho] at a1
  obtain rfl := Option.some.inj a1
  rw [hN] at a4
  obtain rfl := Option.some.inj a4
  obtain ⟨x', t, e1, e2, e3⟩ := (C109_fresh w c g hg k).1 hk
  rw [hx] at e1
  obtain rfl := Except.ok.inj e1
  refine ⟨t, ?_, e3⟩
  rw [← e2]
  rw [make_eq ho hL hP hN] at hx
  obtain ⟨zs, -, hz⟩ := orderedAtoms_spec hk
  cases k with
  | yaml =>
    simp only [Writer.init, atomNames_ok hk, hz, bind, Except.bind, pure, Except.pure] at hx
    obtain rfl := Except.ok.inj hx
    simp only [Writer.getString, hN, hN']
  | vasp zoom =>
    simp only [Writer.init, atomNames_ok hk, bind, Except.bind, pure, Except.pure] at hx
    obtain rfl := Except.ok.inj hx
    simp only [Writer.getString, hN, hN', hL, hL', hP, hP']
  | yamlOld zoom =>
    simp only [Writer.init, atomNames_ok hk, bind, Except.bind, pure, Except.pure] at hx
    obtain rfl := Except.ok.inj hx
    simp only [Writer.getString, hN, hN', hL, hL', hP, hP']

/-- a text is always obtained, at any later time -/
theorem getString_later {w : Arrays} {k : WKind} {c : ℕ} {x : Writer} (hx : Writer.make w k c = .ok x) (ops : List ArrOp) :
    ∃ t, x.getString (w.run ops) = .ok t := by
  obtain ⟨o, L0, P0, N0, ho, hL, hP, hN, hk⟩ := make_total hx
  obtain ⟨L, hL'⟩ := run_lat_some ops hL
  obtain ⟨P, hP', lP⟩ := run_pos_some ops hP
  obtain ⟨N, hN', lN⟩ := run_num_some ops hN
  obtain ⟨zs, -, hz⟩ := orderedAtoms_spec hk
  rw [make_eq ho hL hP hN] at hx
  cases k with
  | yaml =>
    simp only [Writer.init, atomNames_ok hk, hz, bind, Except.bind, pure, Except.pure] at hx
    obtain rfl := Except.ok.inj hx
    exact ⟨_, by simp only [Writer.getString, hN']; rfl⟩
  | vasp zoom =>
    simp only [Writer.init, atomNames_ok hk, bind, Except.bind, pure, Except.pure] at hx
    obtain rfl := Except.ok.inj hx
    exact ⟨_, by simp only [Writer.getString, hL', hP', hN', vaspBody, hz, bind, Except.bind, pure, Except.pure]; rfl⟩
  | yamlOld zoom =>
    simp only [Writer.init, atomNames_ok hk, bind, Except.bind, pure, Except.pure] at hx
    obtain rfl := Except.ok.inj hx
    exact ⟨_, by simp only [Writer.getString, hL', hP', hN', hz, bind, Except.bind, pure, Except.pure]; rfl⟩

/-- **C109, no file is lost.** Although the file is emptied before the text is made, a writer that exists never leaves an emptied file
behind: writing at any later time either fails without touching the files, or succeeds and changes this file only. -/
theorem C109_atomic (w : Arrays) (c : ℕ) (k : WKind) (x : Writer) (hx : Writer.make w k c = .ok x) (ops : List ArrOp) (p : List Char) (fs : Fs) :
    (∃ e, x.writeFile (w.run ops) p fs = (fs, .error e)) ∨
    ∃ fs' t, x.writeFile (w.run ops) p fs = (fs', .ok ()) ∧ x.getString (w.run ops) = .ok t ∧ fs'.dirs = fs.dirs ∧
      ∀ q, dictGet fs'.files q = if q = p then some t else dictGet fs.files q := by
  obtain ⟨t, ht⟩ := getString_later hx ops
  unfold Writer.writeFile
  split
  · exact .inl ⟨_, rfl⟩
  · right
    rw [ht]
    refine ⟨_, t, rfl, rfl, rfl, fun q => ?_⟩
    simp only [Fs.write, dictGet_dictSet]
    split <;> rfl

/-- **C109, `write_file` that fails.** Whatever goes wrong in `GeneralIO.write_file`, the files are as before. -/
theorem C109_failed (w : Arrays) (c : ℕ) (fname fmt : Option (List Char)) (fs fs' : Fs) (e : PyErr)
    (h : gioWrite w c fname fmt fs = (fs', .error e)) : fs' = fs := by
  unfold gioWrite at h
  split at h
  · exact (Prod.mk.inj h).1.symm
  · split at h
    · exact (Prod.mk.inj h).1.symm
    · rename_i f _ x hx
      split at h
      · split at h
        · exact (Prod.mk.inj h).1.symm
        · exact (Prod.mk.inj h).1.symm
      · rcases C109_atomic w c _ x hx [] (fname.getD []) fs with ⟨e', h'⟩ | ⟨fs'', t, h', -⟩
        · rw [show w.run [] = w from rfl] at h'
          rw [h'] at h
          exact (Prod.mk.inj h).1.symm
        · rw [show w.run [] = w from rfl] at h'
          rw [h'] at h
          exact absurd (Prod.mk.inj h).2 (by simp)

/-- **C109, reading.** After a successful `write_file`, `from_file` with the same arguments reads the cell back: the lattice and the atoms
that are not ghosts, rounded. -/
theorem C109_read_back (root : ℚ → ℚ) (w : Arrays) (c : ℕ) (g : GCell) (hg : w.view c = some g) (hlen : g.positions.length = g.numbers.length)
    (hr : ∃ n ∈ g.numbers, n ≠ 0) (fname fmt : Option (List Char)) (fs fs' : Fs) (h : gioWrite w c fname fmt fs = (fs', .ok none)) :
    ∃ c', gioRead root fname fmt fs' = .ok c' ∧ c'.lattice = V3.map (V3.map round64) g.lattice ∧
      ((c'.positions.zip c'.numbers).filter fun s => s.2 ≠ 0).Perm
        (((g.positions.zip g.numbers).filter fun s => s.2 ≠ 0).map fun s => (V3.map round64 s.1, s.2)) := by
  obtain ⟨k1, k2⟩ := C109_write w c g hg fname fmt _ rfl fs
  have hw : WantsYaml (fname.getD []) fmt ∨ WantsVasp (fname.getD []) fmt := by
    by_contra hno
    rw [k1 (fun h => hno (.inl h)) (fun h => hno (.inr h))] at h
    exact absurd (Prod.mk.inj h).2 (by simp)
  obtain ⟨k3, k4⟩ := k2 hw
  have hk : ∀ n ∈ g.numbers, Known n := by
    by_contra hno
    push Not at hno
    rw [k3 hno] at h
    exact absurd (Prod.mk.inj h).2 (by simp)
  obtain ⟨t, e1, e2, e3, e4⟩ := k4 hk
  obtain ⟨file, c', f1, f2, f3⟩ := C51_write_read root g _ fmt hw hlen hk hr
  rw [e1] at f1
  obtain rfl := Except.ok.inj f1
  have hn : fname.getD [] ≠ [] := by
    intro hn
    rw [e2 hn] at h
    exact absurd (Prod.mk.inj h).2 (by simp)
  have hd : fname.getD [] ∉ fs.dirs := by
    intro hd
    rw [e3 hn hd] at h
    exact absurd (Prod.mk.inj h).2 (by simp)
  obtain ⟨fs'', e5, -, e6⟩ := e4 hn hd
  rw [h] at e5
  obtain rfl := (Prod.mk.inj e5).1
  refine ⟨c', ?_, f3⟩
  unfold gioRead
  have hdisp : ∃ f, dispatch (fname.getD []) fmt = .ok f := by
    obtain ⟨d1, d2, d3⟩ := C51_dispatch (fname.getD []) fmt
    by_cases hy : WantsYaml (fname.getD []) fmt
    · exact ⟨_, d1.2 hy⟩
    · exact ⟨_, d2.2 ⟨hy, hw.resolve_left hy⟩⟩
  obtain ⟨f, hf⟩ := hdisp
  rw [hf]
  simp only
  rw [e6, if_pos rfl]
  exact f2

/-- **C109, nothing to read.** `from_file` on a name that is no file is an OSError if a format is recognised, and an UnboundLocalError
otherwise, whether the file is there or not. -/
theorem C109_missing (root : ℚ → ℚ) (fname fmt : Option (List Char)) (name : List Char) (hname : name = fname.getD []) (fs : Fs) :
    (WantsYaml name fmt ∨ WantsVasp name fmt → dictGet fs.files name = none → gioRead root fname fmt fs = .error .osError) ∧
    (¬ WantsYaml name fmt → ¬ WantsVasp name fmt → gioRead root fname fmt fs = .error .unboundLocalError) := by
  obtain ⟨d1, d2, d3⟩ := C51_dispatch name fmt
  unfold gioRead
  rw [← hname]
  constructor
  · intro hw hno
    by_cases hy : WantsYaml name fmt
    · rw [d1.2 hy]; simp only [hno]
    · rw [d2.2 ⟨hy, hw.resolve_left hy⟩]; simp only [hno]
  · intro h1 h2
    rw [d3.2 ⟨h1, h2⟩]

/-! ## stale writers -/

/-- boron at the origin, zinc in the middle; array 1 of the numbers is the cell's own -/
def exStale : Arrays := Arrays.empty.run
  [.newLat ((2, 0, 0), (0, 2, 0), (0, 0, 2)), .newPos [(0, 0, 0), (1/2, 1/2, 1/2)], .newNum [5, 30], .construct 0 0 0]

/-- the cell in the file written by a writer made before the history -/
def readStale (k : WKind) (ops : List ArrOp) (name : List Char) : Py (List (V3 ℚ × ℤ)) := do
  let x ← Writer.make exStale k 0
  let t ← x.getString (exStale.run ops)
  let c ← readFile id t name none
  return c.positions.zip c.numbers

/-- **C109, in-place changes are mixed up.** A POSCAR writer is made for a cell with boron at the origin and zinc in the middle, and then
the number of the first atom is changed in place to indium. The file written has zinc at the origin and boron in the middle: neither the
cell before nor the one after. If the boron is changed to a ghost, the file read has boron in the middle and no zinc. The YAML writer gives the cell after the change. -/
theorem C109_stale :
    ((exStale.view 0).map fun g => g.positions.zip g.numbers) = some [((0, 0, 0), 5), ((1/2, 1/2, 1/2), 30)] ∧
    (((exStale.run [.writeNum 1 0 49]).view 0).map fun g => g.positions.zip g.numbers) = some [((0, 0, 0), 49), ((1/2, 1/2, 1/2), 30)] ∧
    readStale (.vasp 1) [] "POSCAR".toList = .ok [((0, 0, 0), 5), ((1/2, 1/2, 1/2), 30)] ∧
    readStale (.vasp 1) [.writeNum 1 0 49] "POSCAR".toList = .ok [((0, 0, 0), 30), ((1/2, 1/2, 1/2), 5)] ∧
    readStale (.vasp 1) [.writeNum 1 0 0] "POSCAR".toList = .ok [((1/2, 1/2, 1/2), 5)] ∧
    readStale .yaml [.writeNum 1 0 49] "a.yaml".toList = .ok [((0, 0, 0), 49), ((1/2, 1/2, 1/2), 30)] := by
  refine ⟨by decide +kernel, by decide +kernel, by decide +kernel, by decide +kernel, by decide +kernel, by decide +kernel⟩

/-- writing over an existing file; a directory of that name -/
example : (match gioWrite exStale 0 (some "POSCAR".toList) none ⟨["x".toList], [("POSCAR".toList, .text "old".toList)]⟩ with
    | (fs, .ok none) => (fs.dirs, fs.files.map (·.1)) | _ => ([], [])) = (["x".toList], ["POSCAR".toList]) := by decide +kernel
example : (match gioWrite exStale 0 (some "POSCAR".toList) none ⟨["POSCAR".toList], []⟩ with
    | (_, .error e) => some e | _ => none) = some .osError := by decide +kernel
/-- an element without a name: the file is not emptied -/
example : (match gioWrite (exStale.run [.writeNum 1 0 60]) 0 (some "POSCAR".toList) none ⟨[], [("POSCAR".toList, .text "old".toList)]⟩ with
    | (⟨[], [(_, .text t)]⟩, .error e) => some (t, e) | _ => none) = some ("old".toList, .indexError) := by decide +kernel

end Verif
