import Verif.Props.AppsTernary

/-! # C66, C75–C77: runs of the applications -/

namespace Verif

open Spec

/-! ## a concrete run -/

/-- an outside world: no symmetry but the identity, every cell primitive, the given random suffixes -/
def exExt (choices : ℕ → List Char) : Ext where
  hash l := l.foldl (fun a x => a * 100 + x.toNat) 1
  symmetry _ := [(((1, 0, 0), (0, 1, 0), (0, 0, 1)), (0, 0, 0))]
  wyckoffs c := c.numbers.map fun _ => "a"
  findPrimitive := some
  standardize := some
  standardizeConv := some
  root := id
  setList := id
  itemFirst := true
  cwd := "/w".toList
  choices := choices
  tempNames k := natStr k

def exPoscar : FileContent := .text "B3\n1\n3 0 0\n0 3 0\n0 0 3\nB\n3\ndirect\n0 0 0 B\n0.25 0 0 B\n0.5 0 0.5 B\n".toList

def exOpts : OccOpts := ⟨none, none, none, none, [], false, "vasp".toList, false⟩

/-- the names of the files after a run, and whether it finished -/
def runNames (r : Fs × Py Unit) : List String × Bool := (r.1.files.map fun f => String.ofList f.1, match r.2 with | .ok _ => true | .error _ => false)

set_option maxRecDepth 100000 in
/-- three structures with different suffixes: three files -/
example : runNames (ocubiter (exExt fun k => natStr (1000 + k)) "POSCAR".toList exPoscar exOpts ⟨[], []⟩) =
    (["/w/STRUCTURES_B3_1000/STRUCTURE_B1_1001.vasp", "/w/STRUCTURES_B3_1000/STRUCTURE_B1_1002.vasp",
      "/w/STRUCTURES_B3_1000/STRUCTURE_B1_1003.vasp"], true) := by decide +kernel

set_option maxRecDepth 100000 in
/-- three structures, one suffix: one file -/
theorem exCollision : runNames (ocubiter (exExt fun _ => "AAAA".toList) "POSCAR".toList exPoscar exOpts ⟨[], []⟩) =
    (["/w/STRUCTURES_B3_AAAA/STRUCTURE_B1_AAAA.vasp"], true) := by decide +kernel

/-- the number of structures that `ocubiter` generates with default options -/
def exCount (e : Ext) (infile : List Char) (content : FileContent) : Py ℕ := do
  let cell ← readFile e.root content infile none
  let g ← OGen.new cell (e.symmetry cell) (e.wyckoffs cell)
  let z ← targetZ cell.numbers none
  let ele ← Specie.fromNum z
  let sp ← Specie.ofSymbol "G"
  let cs ← g.genNodupOfEle e.hash ele (cell.numbers.count ele.Z / 2 + 1) sp
  return cs.length

set_option maxRecDepth 100000 in
theorem exCount_eq : exCount (exExt fun _ => "AAAA".toList) "POSCAR".toList exPoscar = .ok 3 := by decide +kernel

/-- C66 in full is false: a finished run of `ocubiter` in an empty file system, with random suffixes of the right form, in which three structures pass and one file is left. -/
theorem C66_false : ∃ e, (∀ k, RandomSuffix (e.choices k)) ∧ ∃ cell ele sp n comment tr g cs ws fs',
    OccSetup e (fun s => ((s / 2 + 1 : ℕ) : ℤ)) "POSCAR".toList exPoscar exOpts cell ele sp n comment tr g ∧
    g.genNodupOfEle e.hash ele n.toNat sp = .ok cs ∧ OccOutcome e exOpts false comment tr cs ws ⟨[], []⟩ fs' ∧
    (passers e false tr cs).length = 3 ∧ fs'.files.length = 1 := by
  refine ⟨exExt fun _ => "AAAA".toList, fun _ => (show RandomSuffix "AAAA".toList from ⟨by decide, by decide⟩), ?_⟩
  have hrun := exCollision
  generalize hr : ocubiter (exExt fun _ => "AAAA".toList) "POSCAR".toList exPoscar exOpts ⟨[], []⟩ = r at hrun
  obtain ⟨fs', x⟩ := r
  unfold runNames at hrun
  rw [Prod.mk.injEq] at hrun
  have hx : x = .ok () := by
    cases x with
    | error _ => exact absurd hrun.2 (by simp)
    | ok u => rfl
  rw [hx] at hr
  have hlen : fs'.files.length = 1 := by
    have := congrArg List.length hrun.1
    simpa using this
  obtain ⟨cell, ele, sp, n, comment, tr, g, cs, ws, h1, h2, h3, h4⟩ := C67_ocubiter hr
  refine ⟨cell, ele, sp, n, comment, tr, g, cs, ws, fs', h1, h3, h4, ?_, hlen⟩
  have htr : tr = none := by
    rcases h1.restricted with ⟨_, h⟩ | ⟨_, _, _, _, h, _⟩
    · exact h
    · cases h
  have hall : passers (exExt fun _ => "AAAA".toList) false tr cs = cs := by
    unfold passers
    rw [List.filter_eq_self]
    intro c _
    rw [@decide_eq_true_eq _ (Classical.propDecidable _)]
    exact ⟨fun h => (by cases h), fun el d h => (by rw [htr] at h; cases h)⟩
  rw [hall]
  have hc := exCount_eq
  unfold exCount at hc
  obtain ⟨cell', e1, hc⟩ := bind_ok hc
  obtain ⟨g', e2, hc⟩ := bind_ok hc
  obtain ⟨z, e3, hc⟩ := bind_ok hc
  obtain ⟨ele', e4, hc⟩ := bind_ok hc
  obtain ⟨sp', e5, hc⟩ := bind_ok hc
  obtain ⟨cs', e6, hc⟩ := bind_ok hc
  have a1 : cell = cell' := Except.ok.inj (h1.read.symm.trans e1)
  subst a1
  have a2 : g = g' := Except.ok.inj (h1.gen.symm.trans e2)
  subst a2
  obtain ⟨z', t1, t2⟩ := h1.target
  have a3 : z = z' := by
    rcases targetZ_inv e3 with ⟨_, h⟩ | ⟨_, _, h, _⟩
    · rcases t1 with ⟨_, h'⟩ | ⟨_, _, h', _⟩
      · exact Option.some.inj (h.symm.trans h')
      · cases h'
    · cases h
  subst a3
  have a4 : ele = ele' := Except.ok.inj (t2.symm.trans e4)
  subst a4
  have a5 : sp = sp' := Except.ok.inj (h1.speckle.symm.trans e5)
  subst a5
  have hn : n.toNat = cell.numbers.count ele.Z / 2 + 1 := by rw [h1.count]; rfl
  rw [hn] at h3
  have a6 : cs = cs' := Except.ok.inj (h3.symm.trans e6)
  subst a6
  exact Except.ok.inj hc

/-! ## C75: all symmetry-inequivalent structures -/

/-- **C75.** A finished run of `ocubiter` on a cell with distinct sites whose symmetry operations are correct goes through one representative of every
class of ways to replace `n` of the target atoms, with the cell's lattice and sites (unless two different such structures have the same hash), and records
the passing ones (`OccOutcome`). -/
theorem C75_ocubiter {e : Ext} {infile : List Char} {content : FileContent} {o : OccOpts} {fs fs' : Fs}
    (h : ocubiter e infile content o fs = (fs', .ok ()))
    (hsym : ∀ cell, readFile e.root content infile none = .ok cell →
      (cell.positions.map siteKey).Nodup ∧ Spec.SymContract sameKey cell.positions (e.symmetry cell)) :
    ∃ cell ele sp n comment tr g cs ws, OccSetup e (fun s => ((s / 2 + 1 : ℕ) : ℤ)) infile content o cell ele sp n comment tr g ∧ 0 ≤ n ∧
      OccOutcome e o o.mpr comment tr cs ws fs fs' ∧ (∀ d ∈ cs, Built d ∧ d.lattice = cell.lattice ∧ d.positions = cell.positions) ∧
      ∀ D : Set (List ℤ), D = {m | ∃ S : Finset ℕ, (∀ i ∈ S, cell.numbers[i]? = some ele.Z) ∧ S.card = n.toNat ∧ Spec.Subst cell.numbers S sp.Z m} →
        Set.InjOn e.hash {m | m.length = cell.positions.length ∧ ∃ d ∈ D, Spec.GeomEquiv siteKey cell.positions (e.symmetry cell) d m} →
        Spec.Transversal (Spec.GeomEquiv siteKey cell.positions (e.symmetry cell)) D (cs.map (·.numbers)) := by
  obtain ⟨cell, ele, sp, n, comment, tr, g, cs, ws, h1, h2, h3, h4⟩ := C67_ocubiter h
  obtain ⟨k1, k2⟩ := hsym cell h1.read
  have hs : GenSetup cell (e.symmetry cell) (e.wyckoffs cell) g := ⟨readFile_built h1.read, k1, k2, h1.gen⟩
  refine ⟨cell, ele, sp, n, comment, tr, g, cs, ws, h1, h2, h4, ?_, ?_⟩
  · intro d hd
    obtain ⟨dup, m1, m2⟩ := bind_ok h3
    have hdup := gen2NodupLoop_subset _ _ _ _ _ m2 d hd
    obtain ⟨hi, _, _, _⟩ := hs.rows
    obtain ⟨cells, subsets, c1, _, _, c4, _, _⟩ := C16_of_ele_exact g (hi ▸ hs.built) ele n.toNat sp
    rw [m1] at c1
    injection c1 with c1
    subst c1
    obtain ⟨S, _, hS⟩ := forall₂_mem_right c4 hdup
    rw [hi] at hS
    exact ⟨genNodupOfEle_built h3 d hd, hS.1, hS.2.1⟩
  · intro D hD hinj
    obtain ⟨out, o1, _, o3⟩ := C21_nodup_of_ele e.hash cell _ _ g hs ele n.toNat sp D hD hinj
    rw [h3] at o1
    injection o1 with o1
    subst o1
    exact o3

/-- **C75.** A finished run of `ocumaker` on such a cell goes through one level for every number `1, 2, …` of replaced atoms up to the asked number of speckle
atoms, on each level one representative of every class. -/
theorem C75_ocumaker {e : Ext} {infile : List Char} {content : FileContent} {o : OccOpts} {fs fs' : Fs}
    (h : ocumaker e infile content o fs = (fs', .ok ()))
    (hsym : ∀ cell, readFile e.root content infile none = .ok cell →
      (cell.positions.map siteKey).Nodup ∧ Spec.SymContract sameKey cell.positions (e.symmetry cell)) :
    ∃ cell ele sp n comment tr g, ∃ ls : List (List GCell), ∃ ws, OccSetup e (fun s => (s : ℤ) - 1) infile content o cell ele sp n comment tr g ∧
      OccOutcome e o true comment tr ls.flatten ws fs fs' ∧ ls.length = n.toNat - cell.numbers.count sp.Z ∧
      ∀ D : ℕ → Set (List ℤ), (∀ k, D k = {m | ∃ S : Finset ℕ, S.card = k ∧ (∀ i ∈ S, ∃ v, cell.numbers[i]? = some v ∧ v = ele.Z ∧ v ≠ sp.Z) ∧
          Spec.Subst cell.numbers S sp.Z m}) →
        ∀ k l, ls[k]? = some l → (∀ d ∈ l, Built d ∧ d.lattice = cell.lattice ∧ d.positions = cell.positions) ∧
          ((∀ j ≤ k, Set.InjOn e.hash {m | m.length = cell.positions.length ∧ ∃ d ∈ D (j + 1),
            Spec.GeomEquiv siteKey cell.positions (e.symmetry cell) d m}) →
          Spec.Transversal (Spec.GeomEquiv siteKey cell.positions (e.symmetry cell)) (D (k + 1)) (l.map (·.numbers))) := by
  obtain ⟨cell, ele, sp, n, comment, tr, g, ls, ws, h1, h3, h4⟩ := C67_ocumaker h
  obtain ⟨k1, k2⟩ := hsym cell h1.read
  have hs : GenSetup cell (e.symmetry cell) (e.wyckoffs cell) g := ⟨readFile_built h1.read, k1, k2, h1.gen⟩
  have key : ∀ D : ℕ → Set (List ℤ), (∀ k, D k = {m | ∃ S : Finset ℕ, S.card = k ∧ (∀ i ∈ S, ∃ v, cell.numbers[i]? = some v ∧ v = ele.Z ∧ v ≠ sp.Z) ∧
      Spec.Subst cell.numbers S sp.Z m}) → ls.length = n.toNat - cell.getSpeckleNum sp ∧ ∀ k l, ls[k]? = some l → (∀ d ∈ l, Built d ∧ d.lattice = cell.lattice ∧ d.positions = cell.positions) ∧
          ((∀ j ≤ k, Set.InjOn e.hash {m | m.length = cell.positions.length ∧ ∃ d ∈ D (j + 1),
            Spec.GeomEquiv siteKey cell.positions (e.symmetry cell) d m}) →
          Spec.Transversal (Spec.GeomEquiv siteKey cell.positions (e.symmetry cell)) (D (k + 1)) (l.map (·.numbers))) := by
    intro D hD
    obtain ⟨out, o1, o2, o3⟩ := C23_levels_of_ele e.hash cell _ _ g hs n.toNat ele sp D hD
    rw [h3] at o1
    injection o1 with o1
    subst o1
    exact ⟨o2, fun k l hl => ⟨fun d hd => ⟨allSpeckleOfEle_built h3 l (List.mem_of_getElem? hl) d hd, (o3 k l hl).1 d hd⟩, (o3 k l hl).2⟩⟩
  exact ⟨cell, ele, sp, n, comment, tr, g, ls, ws, h1, h4, (key _ fun _ => rfl).1, fun D hD => (key D hD).2⟩

set_option maxRecDepth 100000 in
/-- the concrete run above meets the hypotheses -/
example (choices : ℕ → List Char) : ∀ cell, readFile (exExt choices).root exPoscar "POSCAR".toList none = .ok cell →
    (cell.positions.map siteKey).Nodup ∧ Spec.SymContract sameKey cell.positions ((exExt choices).symmetry cell) := by
  intro cell h
  have hp : (readFile id exPoscar "POSCAR".toList none >>= fun c => (.ok c.positions : Py (List (V3 ℚ)))) = .ok [(0, 0, 0), (1/4, 0, 0), (1/2, 0, 1/2)] := by
    decide +kernel
  have h' : readFile id exPoscar "POSCAR".toList none = .ok cell := h
  rw [h'] at hp
  have hp : cell.positions = [(0, 0, 0), (1/4, 0, 0), (1/2, 0, 1/2)] := Except.ok.inj hp
  rw [hp]
  refine ⟨by decide +kernel, ?_⟩
  change Spec.SymContract sameKey _ [(((1, 0, 0), (0, 1, 0), (0, 0, 1)), (0, 0, 0))]
  constructor <;> (unfold sameKey; decide +kernel)

/-! ## C76: the output format -/

/-- the path does not ask for YAML anywhere -/
theorem writeFile_vasp {c : GCell} {p : List Char} {x : FileContent} (h : writeFile c p none = .ok x) (hv : ".vasp".toList <:+ lower p)
    (hy : ¬ ".yaml".toList <:+: lower p) : ∃ s, x = .text s ∧ vaspString c 1 true = .ok s := by
  have hd : dispatch p none = .ok .vasp := (C51_dispatch p none).2.1.2 ⟨by rintro (⟨f, hf, _⟩ | hh); · cases hf
                                                                           · exact hy hh, .inr (.inl hv)⟩
  unfold writeFile at h
  rw [hd] at h
  obtain ⟨s, h1, h2⟩ := bind_ok (show (vaspString c 1 true >>= fun s => (.ok (.text s) : Py FileContent)) = .ok x from h)
  injection h2 with h2
  exact ⟨s, h2.symm, h1⟩

theorem writeFile_yaml {c : GCell} {p : List Char} {x : FileContent} (h : writeFile c p none = .ok x) (hy : ".yaml".toList <:+: lower p) :
    ∃ d, x = .doc d ∧ yamlDoc c = .ok d := by
  have hd : dispatch p none = .ok .yaml := (C51_dispatch p none).1.2 (.inr hy)
  unfold writeFile at h
  rw [hd] at h
  obtain ⟨s, h1, h2⟩ := bind_ok (show (yamlDoc c >>= fun s => (.ok (.doc s) : Py FileContent)) = .ok x from h)
  injection h2 with h2
  exact ⟨s, h2.symm, h1⟩

theorem lower_append (a b : List Char) : lower (a ++ b) = lower a ++ lower b := by unfold lower; rw [List.map_append]

theorem pathJoin_suffix (a b : List Char) : ∃ t, pathJoin a b = t ++ b := by
  unfold pathJoin
  split
  · exact ⟨[], rfl⟩
  · exact ⟨a, rfl⟩
  · exact ⟨a ++ ['/'], rfl⟩

/-- **C76.** With output mode `yaml` a record is a YAML mapping; with output mode `vasp` it is a POSCAR text, provided that no part of its path contains
`.yaml`; if the path does contain `.yaml` (from the working directory or the comment), it is a YAML mapping although VASP was asked for. -/
theorem C76_format {e : Ext} {refined : Bool} {outmode dir suffix : List Char} {c : GCell} {w : List Char × FileContent}
    (h : OccRecord e refined outmode dir suffix c w) : ∃ d, maybeRefined e refined c = .ok d ∧
      (outmode = "yaml".toList → ∃ y, w.2 = .doc y ∧ yamlDoc d = .ok y) ∧
      (outmode = "vasp".toList → ¬ ".yaml".toList <:+: lower w.1 → ∃ s, w.2 = .text s ∧ vaspString d 1 true = .ok s) ∧
      (outmode = "vasp".toList → ".yaml".toList <:+: lower w.1 → ∃ y, w.2 = .doc y ∧ yamlDoc d = .ok y) := by
  obtain ⟨d, cm, h1, _, h3, h4⟩ := h
  obtain ⟨t, ht⟩ := pathJoin_suffix dir ("STRUCTURE_".toList ++ cm ++ ['_'] ++ suffix ++ ['.'] ++ outmode)
  rw [ht] at h3
  have hsuf : lower (['.'] ++ outmode) <:+ lower w.1 := by
    rw [h3]
    refine ⟨lower (t ++ ("STRUCTURE_".toList ++ cm ++ ['_'] ++ suffix)), ?_⟩
    rw [← lower_append]
    congr 1
    simp only [List.append_assoc]
  refine ⟨d, h1, fun ho => writeFile_yaml h4 ?_, fun ho hn => writeFile_vasp h4 ?_ hn, fun _ hy => writeFile_yaml h4 hy⟩
  · rw [ho] at hsuf
    exact (show ".yaml".toList <:+ lower w.1 from hsuf).isInfix
  · rw [ho] at hsuf
    exact hsuf

set_option maxRecDepth 100000 in
/-- a run asking for VASP output under a comment with `.yaml` in it leaves YAML mappings -/
example : ((ocubiter (exExt fun k => natStr (1000 + k)) "POSCAR".toList exPoscar { exOpts with comment := some "a.yaml".toList } ⟨[], []⟩).1.files.map
    fun f => match f.2 with | .doc _ => true | .text _ => false) = [true, true, true] := by decide +kernel

/-! ## C77: an existing output directory -/

/-- **C77.** If the output path already exists, `ocumaker`, `ocubiter`, `ocutenter` and `ocumakert` fail with a `NameError` and change nothing. -/
theorem C77_existing (e : Ext) (structures : OccApp → OGen → Py (List GCell)) (a : OccApp) (fs : Fs)
    (h : fs.has (structuresDir e a.comment (e.choices 0)) = true) : occRun e structures a fs = (fs, .error .nameError) := by
  unfold occRun openDir
  rw [if_pos h]

theorem C77_existing_ternary (e : Ext) (settings : YDoc) (o : TerOpts) (n1 n2 : ℤ) (fs : Fs) (a : TerApp) (ha : terInit settings o = .ok a)
    (h : fs.has (structuresDir e a.comment (e.choices 0)) = true) :
    ocutenter e settings o n1 n2 fs = (fs, .error .nameError) ∧ ocumakert e settings o fs = (fs, .error .nameError) := by
  unfold ocutenter ocumakert openDir
  simp only [ha, if_pos h, and_self]

theorem occLoop_keeps (e : Ext) (mpr : Bool) (tr : Option (Specie × ℚ)) (refined : Bool) (outmode dir : List Char) (p : List Char)
    (hp : ∀ s cm, p ≠ pathJoin dir (structureName cm s outmode)) : ∀ (cs : List GCell) (k : ℕ) (fs : Fs),
    dictGet (occLoop e mpr tr refined outmode dir cs k fs).1.files p = dictGet fs.files p
  | [], k, fs => rfl
  | c :: cs, k, fs => by
    rw [occLoop]
    split
    · rfl
    · exact occLoop_keeps e mpr tr refined outmode dir p hp cs k fs
    · split
      · rfl
      · rename_i fs1 hw
        obtain ⟨w, ⟨d, cm, _, _, hw1, _⟩, rfl⟩ := occWriteOne_inv hw
        rw [occLoop_keeps e mpr tr refined outmode dir p hp cs (k + 1) _]
        unfold Fs.write
        rw [dictGet_dictSet, if_neg]
        rw [hw1]; exact hp _ _

/-- **C77.** Whether or not a run of `ocubiter` or `ocumaker` finishes, no file changes whose path is not a structure path of the new output directory. -/
theorem C77_keeps (e : Ext) (structures : OccApp → OGen → Py (List GCell)) (a : OccApp) (fs : Fs) (p : List Char)
    (hp : ∀ s cm, p ≠ pathJoin (structuresDir e a.comment (e.choices 0)) ("STRUCTURE_".toList ++ cm ++ ['_'] ++ s ++ ['.'] ++ a.outmode)) :
    dictGet (occRun e structures a fs).1.files p = dictGet fs.files p := by
  unfold occRun
  split
  · rfl
  · rename_i fs1 ho
    unfold openDir at ho
    split at ho
    · cases ho
    · injection ho with ho
      subst ho
      split
      · rfl
      · rw [occLoop_keeps _ _ _ _ _ _ _ hp]; rfl

theorem has_of_get {fs : Fs} {p : List Char} {x : FileContent} (h : dictGet fs.files p = some x) : fs.has p = true :=
  (Fs.has_iff _ _).2 (.inr ⟨x, h⟩)

theorem terLoop_keeps (e : Ext) (mpr : Bool) (tr : Option (Specie × ℚ)) (refined : Bool) (outmode dir : List Char) (names : List Char × List Char)
    (p : List Char) (x : FileContent) : ∀ (cs : List GCell) (k : ℕ) (fs : Fs), dictGet fs.files p = some x →
    dictGet (terLoop e mpr tr refined outmode dir names cs k fs).1.2.files p = some x
  | [], k, fs, h => h
  | c :: cs, k, fs, h => by
    rw [terLoop]
    split
    · exact h
    · exact terLoop_keeps e mpr tr refined outmode dir names p x cs k fs h
    · split
      · exact h
      · rename_i r hw
        obtain ⟨d, e1, hw⟩ := bind_ok hw
        obtain ⟨y, e2, hw⟩ := bind_ok hw
        obtain ⟨pk, e3, hw⟩ := bind_ok hw
        injection hw with hw
        subst hw
        refine terLoop_keeps e mpr tr refined outmode dir names p x cs _ _ ?_
        obtain ⟨p1, _⟩ := tempPath_inv _ _ _ _ _ _ _ _ e3
        unfold Fs.write
        rw [dictGet_dictSet, if_neg]
        · exact h
        · rintro rfl
          rw [has_of_get h] at p1; cases p1

theorem makertLoop_keeps (e : Ext) (a : TerApp) (g : OGen) (tr : Option (Specie × ℚ)) (dir : List Char)
    (p : List Char) (x : FileContent) : ∀ (ps : List (ℕ × ℕ)) (k : ℕ) (fs : Fs), dictGet fs.files p = some x →
    dictGet (makertLoop e a g tr dir ps k fs).1.files p = some x
  | [], k, fs, h => h
  | q :: ps, k, fs, h => by
    rw [makertLoop]
    split
    · exact h
    · rename_i cs _
      have := terLoop_keeps e true tr a.refined a.outmode dir (terNames a.outmode ((a.size : ℤ) - q.1 - q.2) q.1 q.2) p x cs k fs h
      split
      · rename_i s er hs
        rw [hs] at this; exact this
      · rename_i s hs
        rw [hs] at this
        exact makertLoop_keeps e a g tr dir p x ps _ _ this

/-- **C77.** Whether or not a run of `ocutenter` or `ocumakert` finishes, every existing file keeps its content. -/
theorem C77_keeps_ternary (e : Ext) (settings : YDoc) (o : TerOpts) (n1 n2 : ℤ) (fs : Fs) (p : List Char) (x : FileContent)
    (h : dictGet fs.files p = some x) : dictGet (ocutenter e settings o n1 n2 fs).1.files p = some x ∧
      dictGet (ocumakert e settings o fs).1.files p = some x := by
  constructor
  · unfold ocutenter
    split
    · exact h
    · split
      · exact h
      · rename_i fs1 ho
        unfold openDir at ho
        split at ho
        · cases ho
        · injection ho with ho
          subst ho
          split
          · exact h
          · exact terLoop_keeps _ _ _ _ _ _ _ _ _ _ _ _ h
  · unfold ocumakert
    split
    · exact h
    · split
      · exact h
      · rename_i fs1 ho
        unfold openDir at ho
        split at ho
        · cases ho
        · injection ho with ho
          subst ho
          split
          · exact h
          · exact makertLoop_keeps _ _ _ _ _ _ _ _ _ _ h

/-! ## coverage of the ternary applications -/

/-- **C65.** On a cell with distinct sites and correct symmetry operations, the structures that `ocumakert` goes through for a composition (and `ocutenter` for
its counts) are one representative of every class of ways to put `n1` atoms of the first and `n2` atoms of the second species on the sites of the cell – on all
sites, not only those of the target species. -/
theorem C65_composition {e : Ext} {settings : YDoc} {o : TerOpts} {cell : GCell} {size : ℕ} {comment : List Char} {tr : Option (Specie × ℚ)} {g : OGen}
    (h : TerSetup e settings o cell size comment tr g) (hd : (cell.positions.map siteKey).Nodup)
    (hsym : Spec.SymContract sameKey cell.positions (e.symmetry cell)) {sp1 sp2 : Specie} {n1 n2 : ℕ} {cs : List GCell}
    (hcs : g.genNodupTrinary e.hash sp1 n1 sp2 n2 = .ok cs) (D : Set (List ℤ))
    (hDdef : D = {m | ∃ S T : Finset ℕ, S ⊆ Finset.range cell.numbers.length ∧ T ⊆ Finset.range cell.numbers.length ∧
      Disjoint S T ∧ S.card = n1 ∧ T.card = n2 ∧ Spec.Subst2 cell.numbers S sp1.Z T sp2.Z m})
    (hinj : Set.InjOn e.hash {m | m.length = cell.positions.length ∧ ∃ d ∈ D, Spec.GeomEquiv siteKey cell.positions (e.symmetry cell) d m}) :
    (∀ d ∈ cs, d.lattice = cell.lattice ∧ d.positions = cell.positions) ∧
    Spec.Transversal (Spec.GeomEquiv siteKey cell.positions (e.symmetry cell)) D (cs.map (·.numbers)) := by
  obtain ⟨lat, pos, num, _, _, _, hnew, _⟩ := h.source
  obtain ⟨out, o1, o2⟩ := C21_nodup_trinary e.hash cell _ _ g ⟨⟨_, _, _, hnew⟩, hd, hsym, h.gen⟩ sp1 n1 sp2 n2 D hDdef hinj
  rw [hcs] at o1
  injection o1 with o1
  subst o1
  exact o2

def exSettings : YDoc := ⟨none, some ((3, 0, 0), (0, 3, 0), (0, 0, 3)), some [(0, 0, 0), (1/4, 0, 0), (1/2, 0, 1/2), (1/2, 1/4, 1/2)], some [5, 5, 30, 5], none⟩

set_option maxRecDepth 100000 in
/-- a run of `ocumakert` on three boron atoms and one zinc atom: the only composition is one atom of each, on any of the four sites; the twelve structures get twelve files -/
example : ((ocumakert (exExt fun k => natStr (1000 + k)) exSettings ⟨none, some "B", "C", "N", none, [], false, "vasp".toList, true⟩ ⟨[], []⟩).1.files.map
    fun f => f.1) = (List.range 12).map fun k => "/w/STRUCTURES_default_1000/POSCAR_A1B1C1_".toList ++ natStr k ++ ".vasp".toList := by
  decide +kernel

end Verif
