import Verif.Model.Binary64Ter
import Verif.Spec.DoubledTer
import Verif.Props.Binary64Apps

/-! # C134: the ternary applications in double precision -/

set_option exponentiation.threshold 2000

namespace Verif

open Spec

/-! ## structures -/

theorem genNodupTrinary_doubled (hash : List ℤ → ℕ) {g : OGen} (h : TamePos g.init.positions) (sp1 : Specie) (n1 : ℕ) (sp2 : Specie) (n2 : ℕ) :
    OGen.genNodupTrinary64 hash { g with init := g.init.doubled } sp1 n1 sp2 n2 =
      (g.genNodupTrinary hash sp1 n1 sp2 n2).map (List.map GCell.doubled) := by
  have hd : OGen.genDupTrinary64 { g with init := g.init.doubled } sp1 n1 sp2 n2 =
      (g.genDupTrinary sp1 n1 sp2 n2).map (List.map GCell.doubled) :=
    mapM_map_eq GCell.doubled fun _ _ => new64_doubled _ h _
  unfold OGen.genNodupTrinary64 OGen.genNodupTrinary
  rw [hd]
  cases g.genDupTrinary sp1 n1 sp2 n2 with
  | error e => rfl
  | ok cs => exact gen2Nodup_doubled hash g.perms cs []

theorem genNodupTrinary_base {hash : List ℤ → ℕ} {g : OGen} (hb : Built g.init) {sp1 : Specie} {n1 : ℕ} {sp2 : Specie} {n2 : ℕ}
    {cs : List GCell} (h : g.genNodupTrinary hash sp1 n1 sp2 n2 = .ok cs) : BaseCells g.init.lattice g.init.positions cs := by
  obtain ⟨dup, hd, h⟩ := bind_ok h
  intro d hd'
  obtain ⟨a, -, ha⟩ := mapM_mem_ok _ _ _ hd d (gen2Nodup_subset h d hd')
  exact new_base hb ha

/-- the application object with doubles -/
def dTer (a : TerApp) : TerApp := { a with cell := a.cell.doubled, tr := a.tr.map fun t => (t.1, fl64 t.2) }

theorem terStructures_doubled (e : Ext) (a : TerApp) {g : OGen} (h : TamePos g.init.positions) (n1 n2 : ℤ) :
    terStructures64 e (dTer a) { g with init := g.init.doubled } n1 n2 = (terStructures e a g n1 n2).map (List.map GCell.doubled) := by
  unfold terStructures64 terStructures
  show (do let sp1 ← Specie.ofSymbol a.s1
           let sp2 ← Specie.ofSymbol a.s2
           if n1 < 0 ∨ n2 < 0 then .error .valueError
             else OGen.genNodupTrinary64 e.hash { g with init := g.init.doubled } sp1 n1.toNat sp2 n2.toNat) = _
  cases Specie.ofSymbol a.s1 with
  | error er => rfl
  | ok sp1 =>
    simp only [bind, Except.bind]
    cases Specie.ofSymbol a.s2 with
    | error er => rfl
    | ok sp2 =>
      simp only
      split
      · rfl
      · exact genNodupTrinary_doubled e.hash h _ _ _ _

theorem terStructures_base {e : Ext} {a : TerApp} {g : OGen} (hb : Built g.init) {n1 n2 : ℤ} {cs : List GCell}
    (h : terStructures e a g n1 n2 = .ok cs) : BaseCells g.init.lattice g.init.positions cs := by
  obtain ⟨sp1, -, h⟩ := bind_ok h
  obtain ⟨sp2, -, h⟩ := bind_ok h
  split at h
  · cases h
  · exact genNodupTrinary_base hb h

/-! ## writing -/

theorem vasp_steady {c c' : GCell} (h : SteadyCell c c') : vaspString c' 1 true = vaspString c 1 true := by
  unfold vaspString vaspLines
  rw [h.numbers]
  have hl : c'.lattice.toList.map numberLine = c.lattice.toList.map numberLine := by
    obtain ⟨h1, h2, h3⟩ := h.lattice
    simp only [V3.toList, List.map_cons, List.map_nil]
    rw [h1.line, h2.line, h3.line]
  rw [hl]
  simp only [atomLines_eq, lines_steady h.positions]

theorem refined_steady {e : Ext} {refined : Bool} {tr : Option (Specie × ℚ)} {c : GCell} (h : RunOk e refined tr c) :
    SameOutcome SteadyCell (maybeRefined e refined c) (maybeRefined64 e refined c.doubled) := by
  unfold maybeRefined maybeRefined64
  cases refined with
  | false => exact .ok (tame_steady h.lattice h.positions)
  | true =>
    simp only [if_true]
    have hr := h.refine' rfl
    unfold GCell.getRefinedPcell GCell.getRefinedPcell64
    rw [show c.doubled.numbers = c.numbers from rfl]
    generalize e.standardize (c.lattice, c.positions, c.numbers) = a at hr
    generalize e.standardize (c.doubled.lattice, c.doubled.positions, c.numbers) = b at hr
    cases hr with
    | none => exact .error _
    | some hr => exact new_steady hr

/-- refining and writing one structure; the unrounded YAML file of a refined structure is left out -/
theorem terContent_doubled {e : Ext} {refined : Bool} {tr : Option (Specie × ℚ)} {c : GCell} (h : RunOk e refined tr c) {outmode : List Char}
    (hm : refined = false ∨ outmode = "vasp".toList) :
    (do let c' ← maybeRefined64 e refined c.doubled; terContent outmode c') =
      (do let c' ← maybeRefined e refined c; terContent outmode c' : Py FileContent).map FileContent.doubled := by
  by_cases hv : outmode = "vasp".toList
  · have hs := refined_steady h
    generalize maybeRefined e refined c = x at hs
    generalize maybeRefined64 e refined c.doubled = y at hs
    cases hs with
    | error er => rfl
    | @ok d d' hd =>
      simp only [bind, Except.bind, terContent, if_pos hv, vasp_steady hd]
      cases vaspString d 1 true <;> rfl
  · obtain rfl := hm.resolve_right hv
    simp only [maybeRefined64, maybeRefined, Bool.false_eq_true, if_false, bind, Except.bind, terContent, if_neg hv]
    unfold yamlDocOld
    rw [show c.doubled.numbers = c.numbers from rfl]
    cases atomNames c.numbers with
    | error er => rfl
    | ok names =>
      simp only [bind, Except.bind]
      cases orderedAtoms names with
      | error er => rfl
      | ok atoms =>
        simp only [pure, Except.pure, Except.map, FileContent.doubled, YDoc.doubled, Option.map_some, fl64_1]
        rfl

theorem tempPath_doubled (e : Ext) (fs : Fs) (dir pre suf : List Char) (fuel k : ℕ) :
    tempPath e fs.doubled dir pre suf fuel k = tempPath e fs dir pre suf fuel k := by
  induction fuel generalizing k with
  | zero => rfl
  | succ n ih =>
    rw [tempPath, tempPath]
    simp only [has_doubled, ih]

theorem terLoop_doubled {e : Ext} {sq : ℚ → ℚ} (hq : ∀ x, 0 ≤ x → 0 ≤ sq x ∧ |sq x ^ 2 - x| ≤ (x + 1) / 10 ^ 14) (mpr : Bool) {refined : Bool}
    {tr : Option (Specie × ℚ)} {outmode : List Char} (hm : refined = false ∨ outmode = "vasp".toList) (dir : List Char)
    (names : List Char × List Char) {cs : List GCell} (h : ∀ c ∈ cs, RunOk e refined tr c) (k : ℕ) (fs : Fs) :
    terLoop64 e sq mpr (dTr tr) refined outmode dir names (cs.map GCell.doubled) k fs.doubled =
      (((terLoop e mpr tr refined outmode dir names cs k fs).1.1, (terLoop e mpr tr refined outmode dir names cs k fs).1.2.doubled),
        (terLoop e mpr tr refined outmode dir names cs k fs).2) := by
  induction cs generalizing k fs with
  | nil => rfl
  | cons c cs ih =>
    have ih' := fun k fs => ih (fun d hd => h d (List.mem_cons_of_mem _ hd)) k fs
    rw [List.map_cons, terLoop64, terLoop, condition_doubled hq mpr (h c (by simp))]
    cases appCondition e mpr tr c with
    | error er => rfl
    | ok b =>
      cases b with
      | false => exact ih' k fs
      | true =>
        have hc := terContent_doubled (h c (by simp)) hm
        have hstep : (do
            let c' ← maybeRefined64 e refined c.doubled
            let content ← terContent outmode c'
            let pk ← tempPath e fs.doubled dir names.1 names.2 10000 k
            return (pk, content) : Py ((List Char × ℕ) × FileContent)) =
          (do
            let c' ← maybeRefined e refined c
            let content ← terContent outmode c'
            let pk ← tempPath e fs dir names.1 names.2 10000 k
            return (pk, content) : Py ((List Char × ℕ) × FileContent)).map fun r => (r.1, r.2.doubled) := by
          rw [tempPath_doubled]
          generalize tempPath e fs dir names.1 names.2 10000 k = tp
          have e1 : ∀ (x : Py GCell), (do
              let c' ← x
              let content ← terContent outmode c'
              let pk ← tp
              return (pk, content) : Py ((List Char × ℕ) × FileContent)) =
            (do
              let content ← (do let c' ← x; terContent outmode c')
              let pk ← tp
              return (pk, content)) := by
            intro x
            cases x <;> rfl
          rw [e1, e1, hc]
          cases (do let c' ← maybeRefined e refined c; terContent outmode c' : Py FileContent) with
          | error er => rfl
          | ok content => cases tp <;> rfl
        simp only [hstep]
        cases (do
            let c' ← maybeRefined e refined c
            let content ← terContent outmode c'
            let pk ← tempPath e fs dir names.1 names.2 10000 k
            return (pk, content) : Py ((List Char × ℕ) × FileContent)) with
        | error er => rfl
        | ok r =>
          simp only [Except.map, write_doubled]
          exact ih' _ _

/-! ## runs -/

theorem terInit_doubled {settings : YDoc} {o : TerOpts} (ht : TameSettings settings) (hz : ∀ z ∈ o.zoom.or settings.zoom, z = 1) :
    terInit64 settings.doubled o.doubled = (terInit settings o).map dTer ∧
      ∀ a, terInit settings o = .ok a → Built a.cell ∧ Tame a.cell ∧
        (∃ l ps ns, settings.lattice = some l ∧ settings.positions = some ps ∧ settings.numbers = some ns ∧ GCell.new l ps ns = .ok a.cell) ∧
        a.tr = o.trs.head? ∧ a.refined = o.refined ∧ a.outmode = o.outmode := by
  obtain ⟨cm, l, ps, ns, z⟩ := settings
  have hzoom : (o.zoom.or z).getD 1 = 1 := by
    cases h : o.zoom.or z with
    | none => rfl
    | some x => exact hz x h
  have hzoom' : ((o.zoom.map fl64).or (z.map fl64)).getD 1 = 1 := by
    have : (o.zoom.map fl64).or (z.map fl64) = (o.zoom.or z).map fl64 := by cases o.zoom <;> rfl
    rw [this]
    cases h : o.zoom.or z with
    | none => rfl
    | some x =>
      obtain rfl := hz x h
      exact fl64_1
  unfold terInit64 terInit
  simp only [TerOpts.doubled, YDoc.doubled, hzoom, hzoom']
  cases l with
  | none => exact ⟨rfl, fun a h => by cases h⟩
  | some l =>
    cases ps with
    | none => exact ⟨rfl, fun a h => by cases h⟩
    | some ps =>
      cases ns with
      | none => exact ⟨rfl, fun a h => by cases h⟩
      | some ns =>
        have hp : TamePos ps := ht.positions ps rfl
        have e1 : V3.map (V3.map fun x => fl64 (1 * x)) (dM l) = dM l := by
          simp only [one_mul]
          unfold dM dV V3.map
          simp only [fl64_fl64]
        have e2 : smulM 1 l = l := by simp [smulM, V3.map]
        simp only [need, Option.map_some, bind, Except.bind, e1, e2, new64_doubled l hp ns]
        constructor
        · cases GCell.new l ps ns with
          | error er => rfl
          | ok cell =>
            simp only [Except.map]
            cases targetZ ns o.element with
            | error er => rfl
            | ok z =>
              simp only
              cases Specie.fromNum z with
              | error er => rfl
              | ok sp =>
                simp only [pure, Except.pure, dTer, List.head?_map]
        · intro a ha
          cases hc : GCell.new l ps ns with
          | error er => rw [hc] at ha; cases ha
          | ok cell =>
            rw [hc] at ha
            simp only at ha
            cases hz : targetZ ns o.element with
            | error er => rw [hz] at ha; cases ha
            | ok z =>
              rw [hz] at ha
              simp only at ha
              cases hs : Specie.fromNum z with
              | error er => rw [hs] at ha; cases ha
              | ok sp =>
                rw [hs] at ha
                obtain rfl := Except.ok.inj ha
                obtain ⟨-, -, hps, -, hl', -⟩ := new_ok_inv hc
                refine ⟨⟨_, _, _, hc⟩, ⟨hl' ▸ ht.lattice l rfl, fun x hx => hp x ?_⟩, ⟨l, ps, ns, rfl, rfl, rfl, hc⟩, rfl, rfl, rfl⟩
                rw [fancy_ok_iff] at hps
                have : some x ∈ cell.positions.map some := List.mem_map_of_mem hx
                rw [← hps] at this
                obtain ⟨j, -, hj⟩ := List.mem_map.1 this
                exact List.mem_of_getElem? hj

/-- what holds for the structures of a run -/
theorem base_runOk {e : Ext} {refined : Bool} {cell : GCell} (ht : Tame cell) (hs : SpgAgrees e cell)
    (hr : refined = true → RefineAgrees e cell) {otr : Option (String × ℚ)} (hd : ∀ t ∈ otr, ClearDistances cell t.2)
    {tr : Option (Specie × ℚ)} (htr : parseTr otr = .ok tr) {cs : List GCell} (hb : BaseCells cell.lattice cell.positions cs) :
    ∀ c ∈ cs, RunOk e refined tr c := by
  intro c hc
  obtain ⟨k1, k2, k3⟩ := hb c hc
  refine ⟨k3, k1 ▸ ht.lattice, k2 ▸ ht.positions, hs.primitive c k1 k2, fun hrt => hr hrt c k1 k2, ?_⟩
  intro t htt
  cases otr with
  | none =>
    obtain rfl := Except.ok.inj htr
    cases htt
  | some u =>
    obtain ⟨sp, -, htr⟩ := bind_ok htr
    obtain rfl := Except.ok.inj htr
    obtain rfl := Option.some.inj htt
    have := hd u rfl
    exact ⟨this.bound, k1 ▸ k2 ▸ this.margin⟩

theorem ogen_init {c : GCell} {ops : List (M3 ℤ × V3 ℚ)} {w : List String} {g : OGen} (h : OGen.new c ops w = .ok g) : g.init = c := by
  obtain ⟨ps, -, h⟩ := bind_ok h
  rw [← Except.ok.inj h]

/-- **C134, ocutenter.** The run with doubles ends like the run with exact numbers and leaves the same files, with the nearest doubles. -/
theorem C134_ocutenter (e : Ext) (sq : ℚ → ℚ) (hq : ∀ x, 0 ≤ x → 0 ≤ sq x ∧ |sq x ^ 2 - x| ≤ (x + 1) / 10 ^ 14) (settings : YDoc)
    (ht : TameSettings settings) (o : TerOpts) (hz : ∀ z ∈ o.zoom.or settings.zoom, z = 1) (hm : o.refined = false ∨ o.outmode = "vasp".toList)
    (hspg : ∀ l ps ns c, settings.lattice = some l → settings.positions = some ps → settings.numbers = some ns → GCell.new l ps ns = .ok c →
      SpgAgrees e c ∧ (o.refined = true → RefineAgrees e c) ∧ ∀ t ∈ o.trs.head?, ClearDistances c t.2) (n1 n2 : ℤ) (fs : Fs) :
    ocutenter64 e sq settings.doubled o.doubled n1 n2 fs.doubled =
      ((ocutenter e settings o n1 n2 fs).1.doubled, (ocutenter e settings o n1 n2 fs).2) := by
  unfold ocutenter64 ocutenter
  obtain ⟨h1, h2⟩ := terInit_doubled ht hz
  rw [h1]
  cases ha : terInit settings o with
  | error er => rfl
  | ok a =>
    obtain ⟨hb, htame, ⟨l, ps, ns, c1, c2, c3, hnew⟩, htr, href, hout⟩ := h2 a ha
    obtain ⟨s1, s2, s3⟩ := hspg l ps ns a.cell c1 c2 c3 hnew
    simp only [Except.map]
    rw [show structuresDir e (dTer a).comment (e.choices 0) = structuresDir e a.comment (e.choices 0) from rfl, openDir_doubled]
    cases openDir fs (structuresDir e a.comment (e.choices 0)) with
    | error er => rfl
    | ok fs1 =>
      simp only [Except.map]
      have hprep : occPrepare64 e (fun g => terStructures64 e (dTer a) g n1 n2) (dTer a).cell (dTer a).tr =
          (occPrepare e (fun g => terStructures e a g n1 n2) a.cell a.tr).map fun r => (r.1.map GCell.doubled, dTr r.2) := by
        unfold occPrepare64 occPrepare
        show (do let g ← OGen.new64 a.cell.doubled (e.symmetry a.cell.doubled) (e.wyckoffs a.cell.doubled)
                 let tr ← parseTr (a.tr.map fun t : String × ℚ => (t.1, fl64 t.2))
                 let cs ← terStructures64 e (dTer a) g n1 n2
                 return (cs, tr)) = _
        rw [ogen_doubled htame.positions s1, parseTr_doubled]
        cases hg : OGen.new a.cell (e.symmetry a.cell) (e.wyckoffs a.cell) with
        | error er => rfl
        | ok g =>
          simp only [bind, Except.bind, Except.map]
          cases parseTr a.tr with
          | error er => rfl
          | ok tr =>
            simp only [terStructures_doubled e a (ogen_init hg ▸ htame.positions : TamePos g.init.positions)]
            cases terStructures e a g n1 n2 <;> rfl
      rw [hprep]
      cases hp : occPrepare e (fun g => terStructures e a g n1 n2) a.cell a.tr with
      | error er => rfl
      | ok r =>
        obtain ⟨g, hg, hp⟩ := bind_ok hp
        obtain ⟨tr, htr', hp⟩ := bind_ok hp
        obtain ⟨cs, hcs, hp⟩ := bind_ok hp
        obtain rfl := Except.ok.inj hp
        have hgi := ogen_init hg
        have hbase := terStructures_base (hgi ▸ hb) hcs
        rw [hgi] at hbase
        have := terLoop_doubled hq a.mpr (refined := a.refined) (outmode := a.outmode) (by rw [href, hout]; exact hm)
          (structuresDir e a.comment (e.choices 0)) (terNames a.outmode ((a.size : ℤ) - n1 - n2) n1 n2)
          (base_runOk htame s1 (href ▸ s2) (htr ▸ s3) htr' hbase) 0 fs1
        simp only [Except.map]
        exact congrArg (fun out : (ℕ × Fs) × Py Unit => (out.1.2, out.2)) this

theorem makertLoop_doubled {e : Ext} {sq : ℚ → ℚ} (hq : ∀ x, 0 ≤ x → 0 ≤ sq x ∧ |sq x ^ 2 - x| ≤ (x + 1) / 10 ^ 14) {a : TerApp}
    (hm : a.refined = false ∨ a.outmode = "vasp".toList) {g : OGen} (hp : TamePos g.init.positions) {tr : Option (Specie × ℚ)}
    (h : ∀ n1 n2 : ℤ, ∀ cs, terStructures e a g n1 n2 = .ok cs → ∀ c ∈ cs, RunOk e a.refined tr c) (dir : List Char)
    (ps : List (ℕ × ℕ)) (k : ℕ) (fs : Fs) :
    makertLoop64 e sq (dTer a) { g with init := g.init.doubled } (dTr tr) dir ps k fs.doubled =
      ((makertLoop e a g tr dir ps k fs).1.doubled, (makertLoop e a g tr dir ps k fs).2) := by
  induction ps generalizing k fs with
  | nil => rfl
  | cons p ps ih =>
    rw [makertLoop64, makertLoop, terStructures_doubled e a hp]
    cases hcs : terStructures e a g p.1 p.2 with
    | error er => rfl
    | ok cs =>
      simp only [Except.map]
      have := terLoop_doubled hq true hm dir (terNames a.outmode ((a.size : ℤ) - p.1 - p.2) p.1 p.2) (h _ _ cs hcs) k fs
      rw [show (dTer a).refined = a.refined from rfl, show (dTer a).outmode = a.outmode from rfl,
        show (dTer a).size = a.size from rfl, this]
      generalize terLoop e true tr a.refined a.outmode dir (terNames a.outmode ((a.size : ℤ) - p.1 - p.2) p.1 p.2) cs k fs = r
      obtain ⟨⟨k', fs'⟩, res⟩ := r
      cases res with
      | error er => rfl
      | ok u => exact ih k' fs'

/-- **C134, ocumakert.** -/
theorem C134_ocumakert (e : Ext) (sq : ℚ → ℚ) (hq : ∀ x, 0 ≤ x → 0 ≤ sq x ∧ |sq x ^ 2 - x| ≤ (x + 1) / 10 ^ 14) (settings : YDoc)
    (ht : TameSettings settings) (o : TerOpts) (hz : ∀ z ∈ o.zoom.or settings.zoom, z = 1) (hm : o.refined = false ∨ o.outmode = "vasp".toList)
    (hspg : ∀ l ps ns c, settings.lattice = some l → settings.positions = some ps → settings.numbers = some ns → GCell.new l ps ns = .ok c →
      SpgAgrees e c ∧ (o.refined = true → RefineAgrees e c) ∧ ∀ t ∈ o.trs.head?, ClearDistances c t.2) (fs : Fs) :
    ocumakert64 e sq settings.doubled o.doubled fs.doubled = ((ocumakert e settings o fs).1.doubled, (ocumakert e settings o fs).2) := by
  unfold ocumakert64 ocumakert
  obtain ⟨h1, h2⟩ := terInit_doubled ht hz
  rw [h1]
  cases ha : terInit settings o with
  | error er => rfl
  | ok a =>
    obtain ⟨hb, htame, ⟨l, ps, ns, c1, c2, c3, hnew⟩, htr, href, hout⟩ := h2 a ha
    obtain ⟨s1, s2, s3⟩ := hspg l ps ns a.cell c1 c2 c3 hnew
    simp only [Except.map]
    rw [show structuresDir e (dTer a).comment (e.choices 0) = structuresDir e a.comment (e.choices 0) from rfl, openDir_doubled]
    cases openDir fs (structuresDir e a.comment (e.choices 0)) with
    | error er => rfl
    | ok fs1 =>
      simp only [Except.map]
      have hprep : makertPrepare64 e (dTer a) =
          (makertPrepare e a).map fun r => ({ r.1 with init := r.1.init.doubled }, dTr r.2) := by
        unfold makertPrepare64 makertPrepare
        show (do let g ← OGen.new64 a.cell.doubled (e.symmetry a.cell.doubled) (e.wyckoffs a.cell.doubled)
                 let tr ← parseTr (a.tr.map fun t : String × ℚ => (t.1, fl64 t.2))
                 return (g, tr)) = _
        rw [ogen_doubled htame.positions s1, parseTr_doubled]
        cases OGen.new a.cell (e.symmetry a.cell) (e.wyckoffs a.cell) with
        | error er => rfl
        | ok g => cases parseTr a.tr <;> rfl
      rw [hprep]
      cases hp : makertPrepare e a with
      | error er => rfl
      | ok r =>
        obtain ⟨g, hg, hp⟩ := bind_ok hp
        obtain ⟨tr, htr', hp⟩ := bind_ok hp
        obtain rfl := Except.ok.inj hp
        have hgi := ogen_init hg
        refine makertLoop_doubled hq (by rw [href, hout]; exact hm) (hgi ▸ htame.positions) (fun n1 n2 cs hcs => ?_) _ _ 0 fs1
        have hbase := terStructures_base (hgi ▸ hb) hcs
        rw [hgi] at hbase
        exact base_runOk htame s1 (href ▸ s2) (htr ▸ s3) htr' hbase

/-! ### a concrete case -/

/-- the options: silver and gold, silver atoms must be farther apart than 2.4 Å, the structures are refined and written as POSCAR -/
def ex134Opts : TerOpts := ⟨none, none, "Ag", "Au", none, [("Ag", 12 / 5)], true, "vasp".toList, true⟩

theorem ex134_tame : TameSettings ex130Doc := by
  have z : (0 : ℚ) = ((0 : ℤ) : ℚ) / 10 ^ 4 := by norm_num
  have a : (40531 / 10 ^ 4 : ℚ) = ((40531 : ℤ) : ℚ) / 10 ^ 4 := by norm_num
  have b : (3333 / 10 ^ 4 : ℚ) = ((3333 : ℤ) : ℚ) / 10 ^ 4 := by norm_num
  have c : (6667 / 10 ^ 4 : ℚ) = ((6667 : ℤ) : ℚ) / 10 ^ 4 := by norm_num
  have d : (1 / 2 : ℚ) = ((5000 : ℤ) : ℚ) / 10 ^ 4 := by norm_num
  have pos : ∀ {t : ℚ} {n : ℤ}, t = n / 10 ^ 4 → |t| ≤ 1 → n % 10 ≠ 5 → |t| ≤ 1 ∧ Four t ∧ Clear (1 / 10 ^ 5) t :=
    fun h h1 hn => ⟨h1, ⟨_, h⟩, clear_four h hn⟩
  have p0 := pos z (by norm_num) (by norm_num)
  have pb := pos b (by norm_num [abs_of_pos]) (by norm_num)
  have pc := pos c (by norm_num [abs_of_pos]) (by norm_num)
  have pd := pos d (by norm_num [abs_of_pos]) (by norm_num)
  have l0 : |(0 : ℚ)| ≤ 100 ∧ Four 0 := ⟨by norm_num, ⟨0, z⟩⟩
  have la : |(40531 / 10 ^ 4 : ℚ)| ≤ 100 ∧ Four (40531 / 10 ^ 4) := ⟨by norm_num [abs_of_pos], ⟨_, a⟩⟩
  refine ⟨fun l hl => ?_, fun ps hps x hx => ?_⟩
  · obtain rfl := Option.some.inj hl
    exact ⟨⟨la, l0, l0⟩, ⟨l0, la, l0⟩, l0, l0, la⟩
  · obtain rfl := Option.some.inj hps
    simp only [List.mem_cons, List.not_mem_nil, or_false] at hx
    rcases hx with rfl | rfl | rfl
    · exact ⟨p0, p0, p0⟩
    · exact ⟨pb, pc, pd⟩
    · exact ⟨pd, pd, p0⟩

theorem ex134_distances : ∀ c ∈ (terInit ex130Doc ex134Opts).toOption, ∀ p ∈ c.cell.positions, ∀ q ∈ c.cell.positions, ∀ t ∈ nearList,
    1 / 10 ^ 4 < |distSq (cartesian c.cell.lattice p) (cartesian c.cell.lattice (shift q t)) - (12 / 5) ^ 2| := by decide +kernel

/-- the run with doubles ends normally and leaves the six files of the run with exact numbers -/
example (sq : ℚ → ℚ) (hq : ∀ x, 0 ≤ x → 0 ≤ sq x ∧ |sq x ^ 2 - x| ≤ (x + 1) / 10 ^ 14) :
    let e := exExt fun k => natStr (1000 + k)
    let r := ocutenter e ex130Doc ex134Opts 1 1 ⟨[], []⟩
    r.2 = .ok () ∧ r.1.files.length = 6 ∧ ocutenter64 e sq ex130Doc.doubled ex134Opts.doubled 1 1 ⟨[], []⟩ = (r.1.doubled, .ok ()) := by
  intro e r
  have h1 : r.2 = .ok () := by decide +kernel
  have h2 : r.1.files.length = 6 := by decide +kernel
  refine ⟨h1, h2, ?_⟩
  obtain ⟨a, ha⟩ : ∃ a, terInit ex130Doc ex134Opts = .ok a := by
    cases h : terInit ex130Doc ex134Opts with
    | ok a => exact ⟨a, rfl⟩
    | error er =>
      have : (terInit ex130Doc ex134Opts).toOption.isSome = true := by decide +kernel
      rw [h] at this
      cases this
  obtain ⟨-, htame, ⟨l, ps, ns, c1, c2, c3, hnew⟩, -⟩ := (terInit_doubled (o := ex134Opts) ex134_tame (fun z hz => (Option.some.inj hz).symm)).2 a ha
  have := C134_ocutenter e sq hq ex130Doc ex134_tame ex134Opts (fun z hz => (Option.some.inj hz).symm) (.inr rfl)
    (fun l' ps' ns' c d1 d2 d3 hc => by
      have e1 : l' = l := Option.some.inj (d1.symm.trans c1)
      have e2 : ps' = ps := Option.some.inj (d2.symm.trans c2)
      have e3 : ns' = ns := Option.some.inj (d3.symm.trans c3)
      subst e1 e2 e3
      obtain rfl := Except.ok.inj (hnew.symm.trans hc)
      obtain ⟨s1, s2⟩ := exExt_agrees (fun k => natStr (1000 + k)) htame
      refine ⟨s1, fun _ => s2, fun t htt => ?_⟩
      obtain rfl := Option.some.inj htt
      refine ⟨by norm_num [abs_of_pos], fun p q t hp hq' hn => ex134_distances a (by rw [ha]; rfl) p hp q hq' t (mem_nearList hn)⟩) 1 1 ⟨[], []⟩
  rw [← h1]
  exact this

end Verif
