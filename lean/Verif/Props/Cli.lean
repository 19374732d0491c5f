import Verif.Lemmas.Cli
import Mathlib.Data.List.Induction

/-! # C112: command lines

What a command line of `runaba` or `runati` does: the function is called with the defaults, changed by the settings from left to right, in
whatever spelling and order they are given; other lines are rejected before any file is touched. -/

namespace Verif

open Spec

/-- every option takes at least one value or is a switch, and long names start with two dashes -/
def GoodTable (t : List OptDecl) : Prop :=
  (∀ d ∈ t, d.act ≠ .take 0) ∧ ∀ d ∈ t, ∀ n ∈ d.longs, n.take 2 = ['-', '-']

theorem goodTables : GoodTable suplatTable ∧ GoodTable ocumakerTable ∧ GoodTable ocubiterTable ∧ GoodTable ocutenterTable ∧
    GoodTable ocumakertTable ∧ GoodTable atclearTable ∧ GoodTable perturbTable ∧ GoodTable supcellTable ∧ GoodTable pcellTable := by
  unfold GoodTable
  decide +kernel

/-- how `runaba` ends after the function returned or raised -/
def endOf (r : Fs × Py Unit) : Fs × Ended :=
  (r.1, match r.2 with | .ok () => .done | .error er => .raised er)

/-! ### reading a command -/

theorem lastOcc_map_none {S : Type} (occ : S → String × Occ) (dest : String) (h : ∀ s, (occ s).1 ≠ dest) (ss : List S) :
    lastOcc (ss.map occ) dest = none := by
  induction ss using List.reverseRecOn with
  | nil => rfl
  | append_singleton ss s ih => rw [List.map_append, List.map_singleton, lastOcc_snoc, if_neg (h s), ih]

/-- the call, if the values are good and there is one input -/
def callOf {α} (c : Option α) (ps : List Word) : Said α :=
  match c, ps with
  | some c, [p] => .call p c
  | _, _ => .usage

theorem readCommand_parsed {α} {t : List OptDecl} {meaning : List (String × Occ) → Option α} {l os ps} (h : parseAll t l = some (os, ps))
    (hh : lastOcc os "help" = none) :
    readCommand t meaning l = callOf (meaning os) ps := by
  unfold readCommand
  unfold parseAll at h
  rw [h]
  simp only [switchOpt, hh, Bool.false_eq_true, if_false]
  cases meaning os with
  | none => rfl
  | some c =>
    rcases ps with _ | ⟨p, _ | ⟨q, ps⟩⟩ <;> rfl

theorem readCommand_rejected {α} {t : List OptDecl} {meaning : List (String × Occ) → Option α} {l} (h : parseAll t l = none) :
    readCommand t meaning l = .usage := by
  unfold readCommand
  unfold parseAll at h
  rw [h]

theorem parse_settings {S : Type} {t : List OptDecl} (ht : GoodTable t) (names : S → Word × Option Char × List Word)
    (occ : S → String × Occ) {tail qs ss ps l} (hr : ∀ s ∈ ss, Reads t (names s) (occ s))
    (h : Line (fun s ws => Spells (names s).1 (names s).2.1 (names s).2.2 ws) tail ss ps l) (hq : Tail qs tail) :
    parseAll t l = some (ss.map occ, ps ++ qs) := by
  rw [parseAll_line ht.1 names occ hr h, parseAll_tail hq]
  simp [joinParse]

theorem readAba_name {name : Word} (hn : Plain name) (l : List Word) :
    readAba (name :: l) = match abaCommand name with | none => .usage | some c => readCommand c.1 c.2 l := by
  obtain ⟨h1, h2⟩ := optWord_plain hn
  unfold readAba
  rw [if_neg (List.cons_ne_nil _ _), readGroup.eq_def]
  simp only [if_neg h2, h1, Bool.false_eq_true, if_false]
  cases abaCommand name <;> rfl

theorem readAti_name {name : Word} (hn : Plain name) (l : List Word) :
    readAti (name :: l) = match atiCommand name with | none => .usage | some c => readCommand c.1 c.2 l := by
  obtain ⟨h1, h2⟩ := optWord_plain hn
  unfold readAti
  rw [if_neg (List.cons_ne_nil _ _), readGroup.eq_def]
  simp only [if_neg h2, h1, Bool.false_eq_true, if_false]
  cases atiCommand name <;> rfl

theorem plain_of {c : Char} {w : Word} (h : c ≠ '-') : Plain (c :: w) := Or.inl fun t e => by cases e; exact h rfl

theorem plain_suplat : Plain "suplat".toList := plain_of (by decide)
theorem plain_ocumaker : Plain "ocumaker".toList := plain_of (by decide)
theorem plain_ocubiter : Plain "ocubiter".toList := plain_of (by decide)
theorem plain_ocutenter : Plain "ocutenter".toList := plain_of (by decide)
theorem plain_ocumakert : Plain "ocumakert".toList := plain_of (by decide)
theorem plain_atclear : Plain "atclear".toList := plain_of (by decide)
theorem plain_perturb : Plain "perturb".toList := plain_of (by decide)
theorem plain_supcell : Plain "supcell".toList := plain_of (by decide)
theorem plain_pcell : Plain "pcell".toList := plain_of (by decide)

theorem abaCommand_suplat : abaCommand "suplat".toList = some (suplatTable, suplatCall) := by
  unfold abaCommand; rw [if_pos rfl]
theorem abaCommand_ocumaker : abaCommand "ocumaker".toList = some (ocumakerTable, fun os => (occOpts os).map .ocumaker) := by
  unfold abaCommand; rw [if_neg (by decide +kernel), if_pos rfl]
theorem abaCommand_ocubiter : abaCommand "ocubiter".toList = some (ocubiterTable, fun os => (occOpts os).map .ocubiter) := by
  unfold abaCommand; rw [if_neg (by decide +kernel), if_neg (by decide +kernel), if_pos rfl]
theorem abaCommand_ocutenter : abaCommand "ocutenter".toList = some (ocutenterTable, fun os => (terArgs os).map .ocutenter) := by
  unfold abaCommand; rw [if_neg (by decide +kernel), if_neg (by decide +kernel), if_neg (by decide +kernel), if_pos rfl]
theorem abaCommand_ocumakert : abaCommand "ocumakert".toList = some (ocumakertTable, fun os => (terArgs os).map .ocumakert) := by
  unfold abaCommand
  rw [if_neg (by decide +kernel), if_neg (by decide +kernel), if_neg (by decide +kernel), if_neg (by decide +kernel), if_pos rfl]

theorem dictHas_of_get {fs : Fs} {p : Word} {x : FileContent} (h : dictGet fs.files p = some x) : fs.has p = true := by
  unfold Fs.has
  rw [Bool.or_eq_true]
  right
  unfold dictGet at h
  simp only [Option.map_eq_some_iff] at h
  obtain ⟨kv, h1, _⟩ := h
  have hm := List.mem_of_find?_eq_some h1
  have hk := List.find?_some h1
  simp only [decide_eq_true_eq] at hk
  unfold dictHas
  rw [List.any_eq_true]
  exact ⟨kv, hm, by simpa using hk⟩

theorem runaba_call (e : Ext) (env : CliEnv) {words : List Word} {p c} (hr : readAba words = .call p c) {fs : Fs} {content : FileContent}
    (hf : dictGet fs.files p = some content) : runaba e env words fs = endOf (c.onContent e env p content fs) := by
  unfold runaba
  rw [hr]
  simp only [dictHas_of_get hf, hf, if_true]
  unfold endOf
  rcases c.onContent e env p content fs with ⟨fs', (er | ⟨⟨⟩⟩)⟩ <;> rfl

/-! ### `ocumaker` and `ocubiter` -/

/-- a setting changes the options -/
def occApply (o : OccOpts) : OccSet → OccOpts
  | .comment w => { o with comment := some w }
  | .element w => { o with element := some (String.ofList w) }
  | .speckle w => { o with speckle := some (String.ofList w) }
  | .number _ n => { o with nspeckle := some n }
  | .restrict w _ d => { o with trs := o.trs ++ [(String.ofList w, d)] }
  | .refined b => { o with refined := b }
  | .outmode w => { o with outmode := w }
  | .move b => { o with mpr := b }

/-- the documented defaults -/
def occDefaults : OccOpts := ⟨none, none, none, none, [], true, "vasp".toList, true⟩

/-- the values of a setting are of the documented types -/
def occGood : OccSet → Prop
  | .number w n => parseInt w = .ok n
  | .restrict _ x d => parseFloat x = .ok d
  | .outmode w => w = "vasp".toList ∨ w = "yaml".toList
  | _ => True

/-- a setting that only `ocubiter` has -/
def occIsMove : OccSet → Bool
  | .move _ => true
  | _ => false

def occOf : OccSet → String × Occ
  | .comment w => ("comment", .vals [w])
  | .element w => ("element", .vals [w])
  | .speckle w => ("speckle", .vals [w])
  | .number w _ => ("nspeckle", .vals [w])
  | .restrict w x _ => ("trs", .vals [w, x])
  | .refined b => ("refined", .flag b)
  | .outmode w => ("outmode", .vals [w])
  | .move b => ("mpr", .flag b)

theorem ocumaker_reads (s : OccSet) (hs : occIsMove s = false) : Reads ocumakerTable s.names (occOf s) := by
  cases s with
  | comment w => exact reads_value commentDecl (by decide +kernel) rfl (List.cons_ne_nil _ _)
  | element w => exact reads_value elementDecl (by decide +kernel) rfl (List.cons_ne_nil _ _)
  | speckle w => exact reads_value ⟨"speckle", ["--speckle".toList], ['s'], .take 1⟩ (by decide +kernel) rfl (List.cons_ne_nil _ _)
  | number w n => exact reads_value ⟨"nspeckle", ["--number-speckle".toList], ['n'], .take 1⟩ (by decide +kernel) rfl (List.cons_ne_nil _ _)
  | restrict w x d => exact reads_value restrictDecl (by decide +kernel) rfl (List.cons_ne_nil _ _)
  | refined b =>
    cases b
    · exact reads_switch noRefinedDecl (by decide +kernel) rfl
    · exact reads_switch refinedDecl (by decide +kernel) rfl
  | outmode w => exact reads_value ⟨"outmode", ["--outmode".toList], ['o'], .take 1⟩ (by decide +kernel) rfl (List.cons_ne_nil _ _)
  | move b => cases hs

theorem ocubiter_reads (s : OccSet) : Reads ocubiterTable s.names (occOf s) := by
  cases s with
  | comment w => exact reads_value commentDecl (by decide +kernel) rfl (List.cons_ne_nil _ _)
  | element w => exact reads_value elementDecl (by decide +kernel) rfl (List.cons_ne_nil _ _)
  | speckle w => exact reads_value ⟨"speckle", ["--speckle".toList], ['s'], .take 1⟩ (by decide +kernel) rfl (List.cons_ne_nil _ _)
  | number w n => exact reads_value ⟨"nspeckle", ["--number-speckle".toList], ['n'], .take 1⟩ (by decide +kernel) rfl (List.cons_ne_nil _ _)
  | restrict w x d => exact reads_value restrictDecl (by decide +kernel) rfl (List.cons_ne_nil _ _)
  | refined b =>
    cases b
    · exact reads_switch noRefinedDecl (by decide +kernel) rfl
    · exact reads_switch refinedDecl (by decide +kernel) rfl
  | outmode w => exact reads_value ⟨"outmode", ["--outmode".toList], ['o'], .take 1⟩ (by decide +kernel) rfl (List.cons_ne_nil _ _)
  | move b =>
    cases b
    · exact reads_switch noMoveDecl (by decide +kernel) rfl
    · exact reads_switch moveDecl (by decide +kernel) rfl

theorem occOpts_iff (os : List (String × Occ)) (r : OccOpts) : occOpts os = some r ↔
    intOpt os "nspeckle" = some r.nspeckle ∧ restrictOpt os "trs" = some r.trs ∧
      choiceOpt os "outmode" vaspYaml "vasp".toList = some r.outmode ∧ textOpt os "comment" = r.comment ∧
      (textOpt os "element").map String.ofList = r.element ∧ (textOpt os "speckle").map String.ofList = r.speckle ∧
      switchOpt os "refined" true = r.refined ∧ switchOpt os "mpr" true = r.mpr := by
  unfold occOpts
  rcases intOpt os "nspeckle" with _ | n <;> rcases restrictOpt os "trs" with _ | tr <;>
    rcases choiceOpt os "outmode" vaspYaml "vasp".toList with _ | m <;> simp only [reduceCtorEq, false_and, and_false, Option.some.injEq]
  constructor
  · rintro rfl; exact ⟨rfl, rfl, rfl, rfl, rfl, rfl, rfl, rfl⟩
  · rintro ⟨rfl, rfl, rfl, h1, h2, h3, h4, h5⟩; cases r; simp_all

theorem occOpts_fold (ss : List OccSet) (hg : ∀ s ∈ ss, occGood s) :
    occOpts (ss.map occOf) = some (ss.foldl occApply occDefaults) := by
  induction ss using List.reverseRecOn with
  | nil => rfl
  | append_singleton ss s ih =>
    have ih := ih fun s hs => hg s (by simp [hs])
    have hs := hg s (by simp)
    rw [occOpts_iff] at ih ⊢
    obtain ⟨h1, h2, h3, h4, h5, h6, h7, h8⟩ := ih
    rw [List.map_append, List.map_singleton, List.foldl_append, List.foldl_cons, List.foldl_nil]
    set R := ss.foldl occApply occDefaults
    set L := ss.map occOf
    cases s with
    | number w n =>
      exact ⟨intOpt_same hs, (restrictOpt_other (by simp [occOf])).trans h2, (choiceOpt_other (by simp [occOf]) _ _).trans h3, (textOpt_other (by simp [occOf])).trans h4, (congrArg _ (textOpt_other (by simp [occOf]))).trans h5, (congrArg _ (textOpt_other (by simp [occOf]))).trans h6, (switchOpt_other (by simp [occOf]) _).trans h7, (switchOpt_other (by simp [occOf]) _).trans h8⟩
    | restrict w x d =>
      exact ⟨(intOpt_other (by simp [occOf])).trans h1, restrictOpt_same hs h2, (choiceOpt_other (by simp [occOf]) _ _).trans h3, (textOpt_other (by simp [occOf])).trans h4, (congrArg _ (textOpt_other (by simp [occOf]))).trans h5, (congrArg _ (textOpt_other (by simp [occOf]))).trans h6, (switchOpt_other (by simp [occOf]) _).trans h7, (switchOpt_other (by simp [occOf]) _).trans h8⟩
    | outmode w =>
      exact ⟨(intOpt_other (by simp [occOf])).trans h1, (restrictOpt_other (by simp [occOf])).trans h2, choiceOpt_same (by rcases hs with rfl | rfl <;> simp [vaspYaml]) _, (textOpt_other (by simp [occOf])).trans h4, (congrArg _ (textOpt_other (by simp [occOf]))).trans h5, (congrArg _ (textOpt_other (by simp [occOf]))).trans h6, (switchOpt_other (by simp [occOf]) _).trans h7, (switchOpt_other (by simp [occOf]) _).trans h8⟩
    | comment w =>
      exact ⟨(intOpt_other (by simp [occOf])).trans h1, (restrictOpt_other (by simp [occOf])).trans h2, (choiceOpt_other (by simp [occOf]) _ _).trans h3, textOpt_same _, (congrArg _ (textOpt_other (by simp [occOf]))).trans h5, (congrArg _ (textOpt_other (by simp [occOf]))).trans h6, (switchOpt_other (by simp [occOf]) _).trans h7, (switchOpt_other (by simp [occOf]) _).trans h8⟩
    | element w =>
      exact ⟨(intOpt_other (by simp [occOf])).trans h1, (restrictOpt_other (by simp [occOf])).trans h2, (choiceOpt_other (by simp [occOf]) _ _).trans h3, (textOpt_other (by simp [occOf])).trans h4, congrArg _ (textOpt_same _), (congrArg _ (textOpt_other (by simp [occOf]))).trans h6, (switchOpt_other (by simp [occOf]) _).trans h7, (switchOpt_other (by simp [occOf]) _).trans h8⟩
    | speckle w =>
      exact ⟨(intOpt_other (by simp [occOf])).trans h1, (restrictOpt_other (by simp [occOf])).trans h2, (choiceOpt_other (by simp [occOf]) _ _).trans h3, (textOpt_other (by simp [occOf])).trans h4, (congrArg _ (textOpt_other (by simp [occOf]))).trans h5, congrArg _ (textOpt_same _), (switchOpt_other (by simp [occOf]) _).trans h7, (switchOpt_other (by simp [occOf]) _).trans h8⟩
    | refined b =>
      exact ⟨(intOpt_other (by simp [occOf])).trans h1, (restrictOpt_other (by simp [occOf])).trans h2, (choiceOpt_other (by simp [occOf]) _ _).trans h3, (textOpt_other (by simp [occOf])).trans h4, (congrArg _ (textOpt_other (by simp [occOf]))).trans h5, (congrArg _ (textOpt_other (by simp [occOf]))).trans h6, switchOpt_same _ _, (switchOpt_other (by simp [occOf]) _).trans h8⟩
    | move b =>
      exact ⟨(intOpt_other (by simp [occOf])).trans h1, (restrictOpt_other (by simp [occOf])).trans h2, (choiceOpt_other (by simp [occOf]) _ _).trans h3, (textOpt_other (by simp [occOf])).trans h4, (congrArg _ (textOpt_other (by simp [occOf]))).trans h5, (congrArg _ (textOpt_other (by simp [occOf]))).trans h6, (switchOpt_other (by simp [occOf]) _).trans h7, switchOpt_same _ _⟩

/-- the settings of `ocumaker` and `ocubiter`, spelled -/
abbrev occSpells (s : OccSet) (ws : List Word) : Prop := Spells s.names.1 s.names.2.1 s.names.2.2 ws

theorem occOf_ne_help (s : OccSet) : (occOf s).1 ≠ "help" := by
  cases s <;> simp [occOf]

/-- C112: an `ocumaker` line. -/
theorem C112_ocumaker (e : Ext) (env : CliEnv) {ss : List OccSet} {ps qs tail l : List Word} {p : Word} {content : FileContent} {fs : Fs}
    (hl : Line occSpells tail ss ps l) (ht : Tail qs tail) (hp : ps ++ qs = [p]) (hg : ∀ s ∈ ss, occGood s) (hm : ∀ s ∈ ss, occIsMove s = false)
    (hf : dictGet fs.files p = some content) :
    runaba e env ("ocumaker".toList :: l) fs = endOf (ocumaker e p content (ss.foldl occApply occDefaults) fs) := by
  have hpar := parse_settings goodTables.2.1 OccSet.names occOf (fun s hs => ocumaker_reads s (hm s hs)) hl ht
  refine runaba_call (c := .ocumaker (ss.foldl occApply occDefaults)) e env ?_ hf
  rw [readAba_name plain_ocumaker, abaCommand_ocumaker]
  simp only
  rw [readCommand_parsed hpar (lastOcc_map_none _ _ occOf_ne_help ss), occOpts_fold ss hg, hp]
  rfl

/-- C112: an `ocubiter` line. -/
theorem C112_ocubiter (e : Ext) (env : CliEnv) {ss : List OccSet} {ps qs tail l : List Word} {p : Word} {content : FileContent} {fs : Fs}
    (hl : Line occSpells tail ss ps l) (ht : Tail qs tail) (hp : ps ++ qs = [p]) (hg : ∀ s ∈ ss, occGood s)
    (hf : dictGet fs.files p = some content) :
    runaba e env ("ocubiter".toList :: l) fs = endOf (ocubiter e p content (ss.foldl occApply occDefaults) fs) := by
  have hpar := parse_settings goodTables.2.2.1 OccSet.names occOf (fun s _ => ocubiter_reads s) hl ht
  refine runaba_call (c := .ocubiter (ss.foldl occApply occDefaults)) e env ?_ hf
  rw [readAba_name plain_ocubiter, abaCommand_ocubiter]
  simp only
  rw [readCommand_parsed hpar (lastOcc_map_none _ _ occOf_ne_help ss), occOpts_fold ss hg, hp]
  rfl

/-- the option a setting belongs to -/
def occKind : OccSet → ℕ
  | .comment _ => 0
  | .element _ => 1
  | .speckle _ => 2
  | .number _ _ => 3
  | .restrict _ _ _ => 4
  | .refined _ => 5
  | .outmode _ => 6
  | .move _ => 7

/-- C112: settings of different options may change places. -/
theorem C112_order (a b : OccSet) (hab : occKind a ≠ occKind b) (ss ts : List OccSet) :
    (ss ++ a :: b :: ts).foldl occApply occDefaults = (ss ++ b :: a :: ts).foldl occApply occDefaults := by
  rw [List.foldl_append, List.foldl_append, List.foldl_cons, List.foldl_cons, List.foldl_cons, List.foldl_cons]
  congr 1
  cases a <;> cases b <;> first | rfl | exact absurd rfl hab

/-- C112: of two settings of the same option, other than a restriction, the later counts. -/
theorem C112_last (a b : OccSet) (hab : occKind a = occKind b) (hr : occKind a ≠ 4) (ss ts us : List OccSet)
    (hts : ∀ t ∈ ts, occKind t ≠ occKind a) :
    (ss ++ a :: ts ++ b :: us).foldl occApply occDefaults = (ss ++ ts ++ b :: us).foldl occApply occDefaults := by
  simp only [List.foldl_append, List.foldl_cons]
  congr 1
  generalize ss.foldl occApply occDefaults = o
  induction ts generalizing o with
  | nil =>
    cases a <;> cases b <;> first | rfl | exact absurd rfl hr | cases hab
  | cons t ts ih =>
    have ht := hts t (List.mem_cons_self ..)
    have hsw : occApply (occApply o a) t = occApply (occApply o t) a := by
      cases a <;> cases t <;> first | rfl | exact absurd rfl ht
    simp only [List.foldl_cons]
    rw [hsw]
    exact ih (fun t' h' => hts t' (List.mem_cons_of_mem _ h')) _

/-- C112: of several restrictions only the first counts. -/
theorem C112_first_restriction (e : Ext) (p : Word) (content : FileContent) (o : OccOpts) (r : String × ℚ) (rs : List (String × ℚ)) (fs : Fs) :
    ocumaker e p content { o with trs := r :: rs } fs = ocumaker e p content { o with trs := [r] } fs ∧
      ocubiter e p content { o with trs := r :: rs } fs = ocubiter e p content { o with trs := [r] } fs :=
  ⟨rfl, rfl⟩

/-! ### `suplat` -/

/-- the arguments of `suplat` -/
structure SupArgs where
  comment : Option Word
  volumn : ℤ
  ld : Bool
  outmode : Word

def supApply (o : SupArgs) : SupSet → SupArgs
  | .comment w => { o with comment := some w }
  | .volumn _ n => { o with volumn := n }
  | .ld b => { o with ld := b }
  | .outmode w => { o with outmode := w }

/-- the documented defaults: the primitive cell itself, written as YAML -/
def supDefaults : SupArgs := ⟨none, 1, false, "yaml".toList⟩

def supGood : SupSet → Prop
  | .volumn w n => parseInt w = .ok n
  | .outmode w => w = "vasp".toList ∨ w = "yaml".toList
  | _ => True

def supOf : SupSet → String × Occ
  | .comment w => ("comment", .vals [w])
  | .volumn w _ => ("volumn", .vals [w])
  | .ld b => ("ld", .flag b)
  | .outmode w => ("outmode", .vals [w])

abbrev supSpells (s : SupSet) (ws : List Word) : Prop := Spells s.names.1 s.names.2.1 s.names.2.2 ws

theorem suplat_reads (s : SupSet) : Reads suplatTable s.names (supOf s) := by
  cases s with
  | comment w => exact reads_value commentDecl (by decide +kernel) rfl (List.cons_ne_nil _ _)
  | volumn w n => exact reads_value ⟨"volumn", ["--volumn".toList], ['v'], .take 1⟩ (by decide +kernel) rfl (List.cons_ne_nil _ _)
  | ld b =>
    cases b
    · exact reads_switch ⟨"ld", ["--no-ld".toList], [], .set false⟩ (by decide +kernel) rfl
    · exact reads_switch ⟨"ld", ["--ld".toList], ['L'], .set true⟩ (by decide +kernel) rfl
  | outmode w => exact reads_value ⟨"outmode", ["--outmode".toList], ['o'], .take 1⟩ (by decide +kernel) rfl (List.cons_ne_nil _ _)

theorem supOf_ne_help (s : SupSet) : (supOf s).1 ≠ "help" := by
  cases s <;> simp [supOf]

theorem sup_fold (ss : List SupSet) (hg : ∀ s ∈ ss, supGood s) :
    (∃ v, intOpt (ss.map supOf) "volumn" = some v ∧ v.getD 1 = (ss.foldl supApply supDefaults).volumn) ∧
      choiceOpt (ss.map supOf) "outmode" vaspYaml "yaml".toList = some (ss.foldl supApply supDefaults).outmode ∧
      textOpt (ss.map supOf) "comment" = (ss.foldl supApply supDefaults).comment ∧
      switchOpt (ss.map supOf) "ld" false = (ss.foldl supApply supDefaults).ld := by
  induction ss using List.reverseRecOn with
  | nil => exact ⟨⟨none, rfl, rfl⟩, rfl, rfl, rfl⟩
  | append_singleton ss s ih =>
    obtain ⟨⟨v, h1, h1'⟩, h2, h3, h4⟩ := ih fun s hs => hg s (by simp [hs])
    have hs := hg s (by simp)
    rw [List.map_append, List.map_singleton, List.foldl_append, List.foldl_cons, List.foldl_nil]
    set R := ss.foldl supApply supDefaults
    set L := ss.map supOf
    cases s with
    | volumn w n => exact ⟨⟨some n, intOpt_same hs, rfl⟩, (choiceOpt_other (by simp [supOf]) _ _).trans h2, (textOpt_other (by simp [supOf])).trans h3,
        (switchOpt_other (by simp [supOf]) _).trans h4⟩
    | outmode w => exact ⟨⟨v, (intOpt_other (by simp [supOf])).trans h1, h1'⟩, choiceOpt_same (by rcases hs with rfl | rfl <;> simp [vaspYaml]) _,
        (textOpt_other (by simp [supOf])).trans h3, (switchOpt_other (by simp [supOf]) _).trans h4⟩
    | comment w => exact ⟨⟨v, (intOpt_other (by simp [supOf])).trans h1, h1'⟩, (choiceOpt_other (by simp [supOf]) _ _).trans h2, textOpt_same _,
        (switchOpt_other (by simp [supOf]) _).trans h4⟩
    | ld b => exact ⟨⟨v, (intOpt_other (by simp [supOf])).trans h1, h1'⟩, (choiceOpt_other (by simp [supOf]) _ _).trans h2,
        (textOpt_other (by simp [supOf])).trans h3, switchOpt_same _ _⟩

/-- C112: a `suplat` line. -/
theorem C112_suplat (e : Ext) (env : CliEnv) {ss : List SupSet} {ps qs tail l : List Word} {p : Word} {content : FileContent} {fs : Fs}
    (hl : Line supSpells tail ss ps l) (ht : Tail qs tail) (hp : ps ++ qs = [p]) (hg : ∀ s ∈ ss, supGood s)
    (hf : dictGet fs.files p = some content) :
    let a := ss.foldl supApply supDefaults
    runaba e env ("suplat".toList :: l) fs = endOf (suplat e p content a.comment a.volumn.toNat a.ld a.outmode fs) := by
  intro a
  have hpar := parse_settings goodTables.1 SupSet.names supOf (fun s _ => suplat_reads s) hl ht
  refine runaba_call (c := .suplat a.comment a.volumn a.ld a.outmode) e env ?_ hf
  rw [readAba_name plain_suplat, abaCommand_suplat]
  simp only
  rw [readCommand_parsed hpar (lastOcc_map_none _ _ supOf_ne_help ss), hp]
  obtain ⟨⟨v, h1, h1'⟩, h2, h3, h4⟩ := sup_fold ss hg
  unfold suplatCall
  rw [h1, h2, h3, h4]
  simp only [callOf, h1']
  rfl

/-! ### `ocutenter` and `ocumakert` -/

def terApply (o : TerArgs) : TerSet → TerArgs
  | .comment w => { o with comment := some w }
  | .element w => { o with element := some (String.ofList w) }
  | .speckle a b => { o with speckle := some (String.ofList a, String.ofList b) }
  | .number _ _ m n => { o with nspeckle := some (m, n) }
  | .zoom _ x => { o with zoom := some x }
  | .restrict w _ d => { o with trs := o.trs ++ [(String.ofList w, d)] }
  | .refined b => { o with refined := b }
  | .outmode w => { o with outmode := w }
  | .move b => { o with mpr := b }

def terDefaults : TerArgs := ⟨none, none, none, none, none, [], true, "vasp".toList, true⟩

def terGood : TerSet → Prop
  | .number a b m n => parseInt a = .ok m ∧ parseInt b = .ok n
  | .zoom w x => parseFloat w = .ok x
  | .restrict _ x d => parseFloat x = .ok d
  | .outmode w => w = "vasp".toList ∨ w = "yaml".toList
  | _ => True

/-- a setting that only `ocutenter` has -/
def terOnly : TerSet → Bool
  | .number _ _ _ _ => true
  | .move _ => true
  | _ => false

def terOf : TerSet → String × Occ
  | .comment w => ("comment", .vals [w])
  | .element w => ("element", .vals [w])
  | .speckle a b => ("speckle", .vals [a, b])
  | .number a b _ _ => ("nspeckle", .vals [a, b])
  | .zoom w _ => ("zoom", .vals [w])
  | .restrict w x _ => ("trs", .vals [w, x])
  | .refined b => ("refined", .flag b)
  | .outmode w => ("outmode", .vals [w])
  | .move b => ("mpr", .flag b)

abbrev terSpells (s : TerSet) (ws : List Word) : Prop := Spells s.names.1 s.names.2.1 s.names.2.2 ws

theorem ocumakert_reads (s : TerSet) (hs : terOnly s = false) : Reads ocumakertTable s.names (terOf s) := by
  cases s with
  | comment w => exact reads_value ⟨"comment", ["--comment".toList], [], .take 1⟩ (by decide +kernel) rfl (List.cons_ne_nil _ _)
  | element w => exact reads_value ⟨"element", ["--element".toList], [], .take 1⟩ (by decide +kernel) rfl (List.cons_ne_nil _ _)
  | speckle a b => exact reads_value ⟨"speckle", ["--speckle".toList], [], .take 2⟩ (by decide +kernel) rfl (List.cons_ne_nil _ _)
  | number a b m n => cases hs
  | zoom w x => exact reads_value ⟨"zoom", ["--zoom".toList], [], .take 1⟩ (by decide +kernel) rfl (List.cons_ne_nil _ _)
  | restrict w x d => exact reads_value restrictDecl (by decide +kernel) rfl (List.cons_ne_nil _ _)
  | refined b =>
    cases b
    · exact reads_switch noRefinedDecl (by decide +kernel) rfl
    · exact reads_switch refinedDecl (by decide +kernel) rfl
  | outmode w => exact reads_value ⟨"outmode", ["--outmode".toList], [], .take 1⟩ (by decide +kernel) rfl (List.cons_ne_nil _ _)
  | move b => cases hs

theorem ocutenter_reads (s : TerSet) : Reads ocutenterTable s.names (terOf s) := by
  cases s with
  | comment w => exact reads_value ⟨"comment", ["--comment".toList], [], .take 1⟩ (by decide +kernel) rfl (List.cons_ne_nil _ _)
  | element w => exact reads_value ⟨"element", ["--element".toList], [], .take 1⟩ (by decide +kernel) rfl (List.cons_ne_nil _ _)
  | speckle a b => exact reads_value ⟨"speckle", ["--speckle".toList], [], .take 2⟩ (by decide +kernel) rfl (List.cons_ne_nil _ _)
  | number a b m n => exact reads_value ⟨"nspeckle", ["--number-speckle".toList], ['n'], .take 2⟩ (by decide +kernel) rfl (List.cons_ne_nil _ _)
  | zoom w x => exact reads_value ⟨"zoom", ["--zoom".toList], [], .take 1⟩ (by decide +kernel) rfl (List.cons_ne_nil _ _)
  | restrict w x d => exact reads_value restrictDecl (by decide +kernel) rfl (List.cons_ne_nil _ _)
  | refined b =>
    cases b
    · exact reads_switch noRefinedDecl (by decide +kernel) rfl
    · exact reads_switch refinedDecl (by decide +kernel) rfl
  | outmode w => exact reads_value ⟨"outmode", ["--outmode".toList], [], .take 1⟩ (by decide +kernel) rfl (List.cons_ne_nil _ _)
  | move b =>
    cases b
    · exact reads_switch noMoveDecl (by decide +kernel) rfl
    · exact reads_switch moveDecl (by decide +kernel) rfl

theorem terOf_ne_help (s : TerSet) : (terOf s).1 ≠ "help" := by
  cases s <;> simp [terOf]

theorem terArgs_iff (os : List (String × Occ)) (r : TerArgs) : terArgs os = some r ↔
    intPairOpt os "nspeckle" = some r.nspeckle ∧ floatOpt os "zoom" = some r.zoom ∧ restrictOpt os "trs" = some r.trs ∧
      choiceOpt os "outmode" vaspYaml "vasp".toList = some r.outmode ∧ textOpt os "comment" = r.comment ∧
      (textOpt os "element").map String.ofList = r.element ∧
      ((pairOpt os "speckle").map fun p => (String.ofList p.1, String.ofList p.2)) = r.speckle ∧
      switchOpt os "refined" true = r.refined ∧ switchOpt os "mpr" true = r.mpr := by
  unfold terArgs
  rcases intPairOpt os "nspeckle" with _ | n <;> rcases floatOpt os "zoom" with _ | z <;> rcases restrictOpt os "trs" with _ | tr <;>
    rcases choiceOpt os "outmode" vaspYaml "vasp".toList with _ | m <;> simp only [reduceCtorEq, false_and, and_false, Option.some.injEq]
  constructor
  · rintro rfl; exact ⟨rfl, rfl, rfl, rfl, rfl, rfl, rfl, rfl, rfl⟩
  · rintro ⟨rfl, rfl, rfl, rfl, h1, h2, h3, h4, h5⟩; cases r; simp_all

theorem terArgs_fold (ss : List TerSet) (hg : ∀ s ∈ ss, terGood s) :
    terArgs (ss.map terOf) = some (ss.foldl terApply terDefaults) := by
  induction ss using List.reverseRecOn with
  | nil => rfl
  | append_singleton ss s ih =>
    have ih := ih fun s hs => hg s (by simp [hs])
    have hs := hg s (by simp)
    rw [terArgs_iff] at ih ⊢
    obtain ⟨h1, h2, h3, h4, h5, h6, h7, h8, h9⟩ := ih
    rw [List.map_append, List.map_singleton, List.foldl_append, List.foldl_cons, List.foldl_nil]
    set R := ss.foldl terApply terDefaults
    set L := ss.map terOf
    cases s with
    | number a b m n =>
      exact ⟨intPairOpt_same hs.1 hs.2, (floatOpt_other (by simp [terOf])).trans h2, (restrictOpt_other (by simp [terOf])).trans h3, (choiceOpt_other (by simp [terOf]) _ _).trans h4, (textOpt_other (by simp [terOf])).trans h5, (congrArg _ (textOpt_other (by simp [terOf]))).trans h6, (congrArg _ (pairOpt_other (by simp [terOf]))).trans h7, (switchOpt_other (by simp [terOf]) _).trans h8, (switchOpt_other (by simp [terOf]) _).trans h9⟩
    | zoom w x =>
      exact ⟨(intPairOpt_other (by simp [terOf])).trans h1, floatOpt_same hs, (restrictOpt_other (by simp [terOf])).trans h3, (choiceOpt_other (by simp [terOf]) _ _).trans h4, (textOpt_other (by simp [terOf])).trans h5, (congrArg _ (textOpt_other (by simp [terOf]))).trans h6, (congrArg _ (pairOpt_other (by simp [terOf]))).trans h7, (switchOpt_other (by simp [terOf]) _).trans h8, (switchOpt_other (by simp [terOf]) _).trans h9⟩
    | restrict w x d =>
      exact ⟨(intPairOpt_other (by simp [terOf])).trans h1, (floatOpt_other (by simp [terOf])).trans h2, restrictOpt_same hs h3, (choiceOpt_other (by simp [terOf]) _ _).trans h4, (textOpt_other (by simp [terOf])).trans h5, (congrArg _ (textOpt_other (by simp [terOf]))).trans h6, (congrArg _ (pairOpt_other (by simp [terOf]))).trans h7, (switchOpt_other (by simp [terOf]) _).trans h8, (switchOpt_other (by simp [terOf]) _).trans h9⟩
    | outmode w =>
      exact ⟨(intPairOpt_other (by simp [terOf])).trans h1, (floatOpt_other (by simp [terOf])).trans h2, (restrictOpt_other (by simp [terOf])).trans h3, choiceOpt_same (by rcases hs with rfl | rfl <;> simp [vaspYaml]) _, (textOpt_other (by simp [terOf])).trans h5, (congrArg _ (textOpt_other (by simp [terOf]))).trans h6, (congrArg _ (pairOpt_other (by simp [terOf]))).trans h7, (switchOpt_other (by simp [terOf]) _).trans h8, (switchOpt_other (by simp [terOf]) _).trans h9⟩
    | comment w =>
      exact ⟨(intPairOpt_other (by simp [terOf])).trans h1, (floatOpt_other (by simp [terOf])).trans h2, (restrictOpt_other (by simp [terOf])).trans h3, (choiceOpt_other (by simp [terOf]) _ _).trans h4, textOpt_same _, (congrArg _ (textOpt_other (by simp [terOf]))).trans h6, (congrArg _ (pairOpt_other (by simp [terOf]))).trans h7, (switchOpt_other (by simp [terOf]) _).trans h8, (switchOpt_other (by simp [terOf]) _).trans h9⟩
    | element w =>
      exact ⟨(intPairOpt_other (by simp [terOf])).trans h1, (floatOpt_other (by simp [terOf])).trans h2, (restrictOpt_other (by simp [terOf])).trans h3, (choiceOpt_other (by simp [terOf]) _ _).trans h4, (textOpt_other (by simp [terOf])).trans h5, congrArg _ (textOpt_same _), (congrArg _ (pairOpt_other (by simp [terOf]))).trans h7, (switchOpt_other (by simp [terOf]) _).trans h8, (switchOpt_other (by simp [terOf]) _).trans h9⟩
    | speckle a b =>
      exact ⟨(intPairOpt_other (by simp [terOf])).trans h1, (floatOpt_other (by simp [terOf])).trans h2, (restrictOpt_other (by simp [terOf])).trans h3, (choiceOpt_other (by simp [terOf]) _ _).trans h4, (textOpt_other (by simp [terOf])).trans h5, (congrArg _ (textOpt_other (by simp [terOf]))).trans h6, congrArg _ (pairOpt_same _ _), (switchOpt_other (by simp [terOf]) _).trans h8, (switchOpt_other (by simp [terOf]) _).trans h9⟩
    | refined b =>
      exact ⟨(intPairOpt_other (by simp [terOf])).trans h1, (floatOpt_other (by simp [terOf])).trans h2, (restrictOpt_other (by simp [terOf])).trans h3, (choiceOpt_other (by simp [terOf]) _ _).trans h4, (textOpt_other (by simp [terOf])).trans h5, (congrArg _ (textOpt_other (by simp [terOf]))).trans h6, (congrArg _ (pairOpt_other (by simp [terOf]))).trans h7, switchOpt_same _ _, (switchOpt_other (by simp [terOf]) _).trans h9⟩
    | move b =>
      exact ⟨(intPairOpt_other (by simp [terOf])).trans h1, (floatOpt_other (by simp [terOf])).trans h2, (restrictOpt_other (by simp [terOf])).trans h3, (choiceOpt_other (by simp [terOf]) _ _).trans h4, (textOpt_other (by simp [terOf])).trans h5, (congrArg _ (textOpt_other (by simp [terOf]))).trans h6, (congrArg _ (pairOpt_other (by simp [terOf]))).trans h7, (switchOpt_other (by simp [terOf]) _).trans h8, switchOpt_same _ _⟩

/-- C112: an `ocutenter` line that gives both pairs. -/
theorem C112_ocutenter (e : Ext) (env : CliEnv) {ss : List TerSet} {ps qs tail l : List Word} {p : Word} {y : YDoc} {fs : Fs}
    (hl : Line terSpells tail ss ps l) (ht : Tail qs tail) (hp : ps ++ qs = [p]) (hg : ∀ s ∈ ss, terGood s)
    (hf : dictGet fs.files p = some (.doc y)) {s1 s2 : String} {n1 n2 : ℤ}
    (hsp : (ss.foldl terApply terDefaults).speckle = some (s1, s2)) (hnn : (ss.foldl terApply terDefaults).nspeckle = some (n1, n2)) :
    let a := ss.foldl terApply terDefaults
    runaba e env ("ocutenter".toList :: l) fs =
      endOf (ocutenter e y ⟨a.comment, a.element, s1, s2, a.zoom, a.trs, a.refined, a.outmode, a.mpr⟩ n1 n2 fs) := by
  intro a
  have hpar := parse_settings goodTables.2.2.2.1 TerSet.names terOf (fun s _ => ocutenter_reads s) hl ht
  rw [runaba_call (c := .ocutenter a) e env ?_ hf]
  · simp only [AbaCall.onContent, loadSettings, a, hsp, hnn]
    rfl
  · rw [readAba_name plain_ocutenter, abaCommand_ocutenter]
    simp only
    rw [readCommand_parsed hpar (lastOcc_map_none _ _ terOf_ne_help ss), terArgs_fold ss hg, hp]
    rfl

/-- C112: an `ocumakert` line that gives the two species. -/
theorem C112_ocumakert (e : Ext) (env : CliEnv) {ss : List TerSet} {ps qs tail l : List Word} {p : Word} {y : YDoc} {fs : Fs}
    (hl : Line terSpells tail ss ps l) (ht : Tail qs tail) (hp : ps ++ qs = [p]) (hg : ∀ s ∈ ss, terGood s) (hm : ∀ s ∈ ss, terOnly s = false)
    (hf : dictGet fs.files p = some (.doc y)) {s1 s2 : String} (hsp : (ss.foldl terApply terDefaults).speckle = some (s1, s2)) :
    let a := ss.foldl terApply terDefaults
    runaba e env ("ocumakert".toList :: l) fs =
      endOf (ocumakert e y ⟨a.comment, a.element, s1, s2, a.zoom, a.trs, a.refined, a.outmode, a.mpr⟩ fs) := by
  intro a
  have hpar := parse_settings goodTables.2.2.2.2.1 TerSet.names terOf (fun s hs => ocumakert_reads s (hm s hs)) hl ht
  rw [runaba_call (c := .ocumakert a) e env ?_ hf]
  · simp only [AbaCall.onContent, loadSettings, a, hsp]
    rfl
  · rw [readAba_name plain_ocumakert, abaCommand_ocumakert]
    simp only
    rw [readCommand_parsed hpar (lastOcc_map_none _ _ terOf_ne_help ss), terArgs_fold ss hg, hp]
    rfl

/-- C112: without the pair of species (or, for `ocutenter`, of numbers) nothing is written: the line is accepted, but the application
cannot be set up. -/
theorem C112_missing_pair (e : Ext) (env : CliEnv) {ss : List TerSet} {ps qs tail l : List Word} {p : Word} {y : YDoc} {fs : Fs}
    (hl : Line terSpells tail ss ps l) (ht : Tail qs tail) (hp : ps ++ qs = [p]) (hg : ∀ s ∈ ss, terGood s)
    (hf : dictGet fs.files p = some (.doc y))
    (hmiss : (∀ a b, TerSet.speckle a b ∉ ss) ∨ ∀ a b m n, TerSet.number a b m n ∉ ss) :
    (∃ er, runaba e env ("ocutenter".toList :: l) fs = (fs, .raised er)) ∧
      ((∀ s ∈ ss, terOnly s = false) → (∀ a b, TerSet.speckle a b ∉ ss) → ∃ er, runaba e env ("ocumakert".toList :: l) fs = (fs, .raised er)) := by
  have none1 : (∀ a b, TerSet.speckle a b ∉ ss) → (ss.foldl terApply terDefaults).speckle = none := by
    intro h
    clear hl hg hmiss
    induction ss using List.reverseRecOn with
    | nil => rfl
    | append_singleton ss s ih =>
      have := ih fun a b hm => h a b (by simp [hm])
      rw [List.foldl_append, List.foldl_cons, List.foldl_nil]
      cases s with
      | speckle a b => exact absurd (List.mem_append_right _ (List.mem_singleton.2 rfl)) (h a b)
      | _ => exact this
  have none2 : (∀ a b m n, TerSet.number a b m n ∉ ss) → (ss.foldl terApply terDefaults).nspeckle = none := by
    intro h
    clear hl hg hmiss none1
    induction ss using List.reverseRecOn with
    | nil => rfl
    | append_singleton ss s ih =>
      have := ih fun a b m n hm => h a b m n (by simp [hm])
      rw [List.foldl_append, List.foldl_cons, List.foldl_nil]
      cases s with
      | number a b m n => exact absurd (List.mem_append_right _ (List.mem_singleton.2 rfl)) (h a b m n)
      | _ => exact this
  set a := ss.foldl terApply terDefaults with ha
  constructor
  · have hpar := parse_settings goodTables.2.2.2.1 TerSet.names terOf (fun s _ => ocutenter_reads s) hl ht
    refine ⟨terMissing env y a, ?_⟩
    rw [runaba_call (c := .ocutenter a) e env ?_ hf]
    · have : (AbaCall.ocutenter a).onContent e env p (.doc y) fs = (fs, .error (terMissing env y a)) := by
        simp only [AbaCall.onContent, loadSettings]
        rcases hmiss with h | h
        · rw [none1 h]
        · rw [none2 h]; cases a.speckle <;> rfl
      rw [this]
      rfl
    · rw [readAba_name plain_ocutenter, abaCommand_ocutenter]
      simp only
      rw [readCommand_parsed hpar (lastOcc_map_none _ _ terOf_ne_help ss), terArgs_fold ss hg, hp]
      rfl
  · intro hm h
    have hpar := parse_settings goodTables.2.2.2.2.1 TerSet.names terOf (fun s hs => ocumakert_reads s (hm s hs)) hl ht
    refine ⟨terMissing env y a, ?_⟩
    rw [runaba_call (c := .ocumakert a) e env ?_ hf]
    · have : (AbaCall.ocumakert a).onContent e env p (.doc y) fs = (fs, .error (terMissing env y a)) := by
        simp only [AbaCall.onContent, loadSettings]
        rw [none1 h]
      rw [this]
      rfl
    · rw [readAba_name plain_ocumakert, abaCommand_ocumakert]
      simp only
      rw [readCommand_parsed hpar (lastOcc_map_none _ _ terOf_ne_help ss), terArgs_fold ss hg, hp]
      rfl

/-! ### `runati` -/

/-- the arguments of the `runati` commands -/
structure AtiArgs where
  center : Option String
  radius : ℚ
  remove : Option String
  refined : Bool
  scale : Option (V3 ℤ)
  outmode : OutMode

def modeOf (w : Word) : OutMode := if w = "vasp".toList then .vasp else if w = "yaml".toList then .yaml else .stdio

def atiApply (o : AtiArgs) : AtiSet → AtiArgs
  | .center w => { o with center := some (String.ofList w) }
  | .radius _ x => { o with radius := x }
  | .remove w => { o with remove := some (String.ofList w) }
  | .refined b => { o with refined := b }
  | .scale _ _ _ x y z => { o with scale := some (x, y, z) }
  | .outmode w => { o with outmode := modeOf w }

/-- the documented defaults -/
def atiDefaults : AtiArgs := ⟨none, 0, none, true, none, .stdio⟩

def atiGood : AtiSet → Prop
  | .radius w x => parseFloat w = .ok x
  | .scale a b c x y z => parseInt a = .ok x ∧ parseInt b = .ok y ∧ parseInt c = .ok z
  | .outmode w => w = "vasp".toList ∨ w = "yaml".toList ∨ w = "stdio".toList
  | _ => True

def atiOf : AtiSet → String × Occ
  | .center w => ("cenele", .vals [w])
  | .radius w _ => ("radius", .vals [w])
  | .remove w => ("ele", .vals [w])
  | .refined b => ("refined", .flag b)
  | .scale a b c _ _ _ => ("scale", .vals [a, b, c])
  | .outmode w => ("outmode", .vals [w])

/-- the settings each command has -/
def atclearHas : AtiSet → Prop
  | .scale _ _ _ _ _ _ => False
  | .outmode _ => False
  | _ => True

def perturbHas : AtiSet → Prop
  | .radius _ _ => True
  | _ => False

def supcellHas : AtiSet → Prop
  | .scale _ _ _ _ _ _ => True
  | .outmode _ => True
  | _ => False

def pcellHas : AtiSet → Prop
  | .outmode _ => True
  | _ => False

abbrev atiSpells (s : AtiSet) (ws : List Word) : Prop := Spells s.names.1 s.names.2.1 s.names.2.2 ws

theorem atiOf_ne_help (s : AtiSet) : (atiOf s).1 ≠ "help" := by
  cases s <;> simp [atiOf]

theorem atclear_reads (s : AtiSet) (hs : atclearHas s) : Reads atclearTable s.names (atiOf s) := by
  cases s with
  | center w => exact reads_value ⟨"cenele", ["--center-element".toList], ['c'], .take 1⟩ (by decide +kernel) rfl (List.cons_ne_nil _ _)
  | radius w x => exact reads_value ⟨"radius", ["--radius".toList], ['r'], .take 1⟩ (by decide +kernel) rfl (List.cons_ne_nil _ _)
  | remove w => exact reads_value ⟨"ele", ["--element-remove".toList], ['e'], .take 1⟩ (by decide +kernel) rfl (List.cons_ne_nil _ _)
  | refined b =>
    cases b
    · exact reads_switch noRefinedDecl (by decide +kernel) rfl
    · exact reads_switch refinedDecl (by decide +kernel) rfl
  | scale a b c x y z => exact hs.elim
  | outmode w => exact hs.elim

theorem perturb_reads (s : AtiSet) (hs : perturbHas s) : Reads perturbTable s.names (atiOf s) := by
  cases s with
  | radius w x => exact reads_value ⟨"radius", ["--radius".toList], ['r'], .take 1⟩ (by decide +kernel) rfl (List.cons_ne_nil _ _)
  | _ => exact hs.elim

theorem supcell_reads (s : AtiSet) (hs : supcellHas s) : Reads supcellTable s.names (atiOf s) := by
  cases s with
  | scale a b c x y z => exact reads_value ⟨"scale", ["--scale".toList], ['s'], .take 3⟩ (by decide +kernel) rfl (List.cons_ne_nil _ _)
  | outmode w => exact reads_value ⟨"outmode", ["--outmode".toList], [], .take 1⟩ (by decide +kernel) rfl (List.cons_ne_nil _ _)
  | _ => exact hs.elim

theorem pcell_reads (s : AtiSet) (hs : pcellHas s) : Reads pcellTable s.names (atiOf s) := by
  cases s with
  | outmode w => exact reads_value ⟨"outmode", ["--outmode".toList], [], .take 1⟩ (by decide +kernel) rfl (List.cons_ne_nil _ _)
  | _ => exact hs.elim

theorem outModeOpt_other {os : List (String × Occ)} {o : String × Occ} (h : o.1 ≠ "outmode") : outModeOpt (os ++ [o]) = outModeOpt os := by
  unfold outModeOpt; rw [textOpt_other h]

theorem outModeOpt_same {os : List (String × Occ)} {w : Word} (h : w = "vasp".toList ∨ w = "yaml".toList ∨ w = "stdio".toList) :
    outModeOpt (os ++ [("outmode", .vals [w])]) = some (modeOf w) := by
  unfold outModeOpt
  rw [textOpt_same]
  rcases h with rfl | rfl | rfl <;> rfl

theorem ati_fold (ss : List AtiSet) (hg : ∀ s ∈ ss, atiGood s) :
    let a := ss.foldl atiApply atiDefaults
    (∃ r, floatOpt (ss.map atiOf) "radius" = some r ∧ r.getD 0 = a.radius) ∧ outModeOpt (ss.map atiOf) = some a.outmode ∧
      (textOpt (ss.map atiOf) "cenele").map String.ofList = a.center ∧ (textOpt (ss.map atiOf) "ele").map String.ofList = a.remove ∧
      switchOpt (ss.map atiOf) "refined" true = a.refined ∧ intTripleOpt (ss.map atiOf) "scale" = some a.scale := by
  induction ss using List.reverseRecOn with
  | nil => exact ⟨⟨none, rfl, rfl⟩, rfl, rfl, rfl, rfl, rfl⟩
  | append_singleton ss s ih =>
    obtain ⟨⟨r, h1, h1'⟩, h2, h3, h4, h5, h6⟩ := ih fun s hs => hg s (by simp [hs])
    have hs := hg s (by simp)
    rw [List.map_append, List.map_singleton, List.foldl_append, List.foldl_cons, List.foldl_nil]
    set R := ss.foldl atiApply atiDefaults
    set L := ss.map atiOf
    cases s with
    | center w => exact ⟨⟨r, (floatOpt_other (by simp [atiOf])).trans h1, h1'⟩, (outModeOpt_other (by simp [atiOf])).trans h2,
        congrArg _ (textOpt_same _), (congrArg _ (textOpt_other (by simp [atiOf]))).trans h4, (switchOpt_other (by simp [atiOf]) _).trans h5,
        (intTripleOpt_other (by simp [atiOf])).trans h6⟩
    | radius w x => exact ⟨⟨some x, floatOpt_same hs, rfl⟩, (outModeOpt_other (by simp [atiOf])).trans h2,
        (congrArg _ (textOpt_other (by simp [atiOf]))).trans h3, (congrArg _ (textOpt_other (by simp [atiOf]))).trans h4,
        (switchOpt_other (by simp [atiOf]) _).trans h5, (intTripleOpt_other (by simp [atiOf])).trans h6⟩
    | remove w => exact ⟨⟨r, (floatOpt_other (by simp [atiOf])).trans h1, h1'⟩, (outModeOpt_other (by simp [atiOf])).trans h2,
        (congrArg _ (textOpt_other (by simp [atiOf]))).trans h3, congrArg _ (textOpt_same _), (switchOpt_other (by simp [atiOf]) _).trans h5,
        (intTripleOpt_other (by simp [atiOf])).trans h6⟩
    | refined b => exact ⟨⟨r, (floatOpt_other (by simp [atiOf])).trans h1, h1'⟩, (outModeOpt_other (by simp [atiOf])).trans h2,
        (congrArg _ (textOpt_other (by simp [atiOf]))).trans h3, (congrArg _ (textOpt_other (by simp [atiOf]))).trans h4, switchOpt_same _ _,
        (intTripleOpt_other (by simp [atiOf])).trans h6⟩
    | scale a b c x y z => exact ⟨⟨r, (floatOpt_other (by simp [atiOf])).trans h1, h1'⟩, (outModeOpt_other (by simp [atiOf])).trans h2,
        (congrArg _ (textOpt_other (by simp [atiOf]))).trans h3, (congrArg _ (textOpt_other (by simp [atiOf]))).trans h4,
        (switchOpt_other (by simp [atiOf]) _).trans h5, intTripleOpt_same hs.1 hs.2.1 hs.2.2⟩
    | outmode w => exact ⟨⟨r, (floatOpt_other (by simp [atiOf])).trans h1, h1'⟩, outModeOpt_same hs,
        (congrArg _ (textOpt_other (by simp [atiOf]))).trans h3, (congrArg _ (textOpt_other (by simp [atiOf]))).trans h4,
        (switchOpt_other (by simp [atiOf]) _).trans h5, (intTripleOpt_other (by simp [atiOf])).trans h6⟩

/-- the calls of the four commands -/
def atclearCall (os : List (String × Occ)) : Option AtiCall :=
  match textOpt os "cenele", floatOpt os "radius", textOpt os "ele" with
  | some c, some r, some el => some (.atclear (String.ofList c) (r.getD 0) (String.ofList el) (switchOpt os "refined" true))
  | _, _, _ => none

def perturbCall (os : List (String × Occ)) : Option AtiCall := (floatOpt os "radius").map fun r => .perturb (r.getD 0)

def supcellCall (os : List (String × Occ)) : Option AtiCall :=
  match intTripleOpt os "scale", outModeOpt os with
  | some s, some m => some (.supcell s m)
  | _, _ => none

def pcellCall (os : List (String × Occ)) : Option AtiCall := (outModeOpt os).map .pcell

theorem atiCommand_atclear : atiCommand "atclear".toList = some (atclearTable, atclearCall) := by
  unfold atiCommand; rw [if_pos rfl]; rfl
theorem atiCommand_perturb : atiCommand "perturb".toList = some (perturbTable, perturbCall) := by
  unfold atiCommand; rw [if_neg (by decide +kernel), if_pos rfl]; rfl
theorem atiCommand_supcell : atiCommand "supcell".toList = some (supcellTable, supcellCall) := by
  unfold atiCommand; rw [if_neg (by decide +kernel), if_neg (by decide +kernel), if_pos rfl]; rfl
theorem atiCommand_pcell : atiCommand "pcell".toList = some (pcellTable, pcellCall) := by
  unfold atiCommand; rw [if_neg (by decide +kernel), if_neg (by decide +kernel), if_neg (by decide +kernel), if_pos rfl]; rfl

/-- C112: an `atclear` line: both elements are required. -/
theorem C112_atclear (e : Ext) (fuel : ℕ) (norm : V3 ℚ → ℚ) (rand : List (V3 ℚ)) {ss : List AtiSet} {ps qs tail l : List Word} {p : Word} (fs : Fs)
    (hl : Line atiSpells tail ss ps l) (ht : Tail qs tail) (hp : ps ++ qs = [p]) (hg : ∀ s ∈ ss, atiGood s) (hh : ∀ s ∈ ss, atclearHas s) :
    let a := ss.foldl atiApply atiDefaults
    runati e fuel norm rand ("atclear".toList :: l) fs =
      match a.center, a.remove with
      | some c, some el =>
        (((AtiCmd.atclear p c a.radius el a.refined).step e fuel norm fs).1, some ((AtiCmd.atclear p c a.radius el a.refined).step e fuel norm fs).2)
      | _, _ => (fs, some .usage) := by
  intro a
  have hpar := parse_settings goodTables.2.2.2.2.2.1 AtiSet.names atiOf (fun s hs => atclear_reads s (hh s hs)) hl ht
  obtain ⟨⟨r, h1, h1'⟩, h2, h3, h4, h5, h6⟩ := ati_fold ss hg
  unfold runati
  rw [readAti_name plain_atclear, atiCommand_atclear]
  simp only
  rw [readCommand_parsed hpar (lastOcc_map_none _ _ atiOf_ne_help ss), hp]
  unfold atclearCall
  rw [h1, h5]
  simp only [a, ← h3, ← h4, ← h1']
  cases textOpt (ss.map atiOf) "cenele" <;> cases textOpt (ss.map atiOf) "ele" <;> rfl

/-- C112: a `perturb` line. -/
theorem C112_perturb (e : Ext) (fuel : ℕ) (norm : V3 ℚ → ℚ) (rand : List (V3 ℚ)) {ss : List AtiSet} {ps qs tail l : List Word} {p : Word} (fs : Fs)
    (hl : Line atiSpells tail ss ps l) (ht : Tail qs tail) (hp : ps ++ qs = [p]) (hg : ∀ s ∈ ss, atiGood s) (hh : ∀ s ∈ ss, perturbHas s) :
    let c := AtiCmd.perturb p (ss.foldl atiApply atiDefaults).radius rand
    runati e fuel norm rand ("perturb".toList :: l) fs = ((c.step e fuel norm fs).1, some (c.step e fuel norm fs).2) := by
  intro c
  have hpar := parse_settings goodTables.2.2.2.2.2.2.1 AtiSet.names atiOf (fun s hs => perturb_reads s (hh s hs)) hl ht
  obtain ⟨⟨r, h1, h1'⟩, h2, h3, h4, h5, h6⟩ := ati_fold ss hg
  unfold runati
  rw [readAti_name plain_perturb, atiCommand_perturb]
  simp only
  rw [readCommand_parsed hpar (lastOcc_map_none _ _ atiOf_ne_help ss), hp]
  unfold perturbCall
  rw [h1]
  simp only [c, ← h1']
  rfl

/-- C112: a `supcell` line; without `--scale` the file is read, but nothing is written. -/
theorem C112_supcell (e : Ext) (fuel : ℕ) (norm : V3 ℚ → ℚ) (rand : List (V3 ℚ)) {ss : List AtiSet} {ps qs tail l : List Word} {p : Word} (fs : Fs)
    (hl : Line atiSpells tail ss ps l) (ht : Tail qs tail) (hp : ps ++ qs = [p]) (hg : ∀ s ∈ ss, atiGood s) (hh : ∀ s ∈ ss, supcellHas s) :
    let a := ss.foldl atiApply atiDefaults
    (∀ v, a.scale = some v → runati e fuel norm rand ("supcell".toList :: l) fs =
      (((AtiCmd.supcell p v a.outmode).step e fuel norm fs).1, some ((AtiCmd.supcell p v a.outmode).step e fuel norm fs).2)) ∧
    (a.scale = none → (runati e fuel norm rand ("supcell".toList :: l) fs).1 = fs ∧
      ∀ x y, (runati e fuel norm rand ("supcell".toList :: l) fs).2 ≠ some (.wrote x y) ∧
        (runati e fuel norm rand ("supcell".toList :: l) fs).2 ≠ some (.printed y)) := by
  intro a
  have hpar := parse_settings goodTables.2.2.2.2.2.2.2.1 AtiSet.names atiOf (fun s hs => supcell_reads s (hh s hs)) hl ht
  obtain ⟨⟨r, h1, h1'⟩, h2, h3, h4, h5, h6⟩ := ati_fold ss hg
  have key : readAti ("supcell".toList :: l) = .call p (.supcell a.scale a.outmode) := by
    rw [readAti_name plain_supcell, atiCommand_supcell]
    simp only
    rw [readCommand_parsed hpar (lastOcc_map_none _ _ atiOf_ne_help ss), hp]
    unfold supcellCall
    rw [h2, h6]
    rfl
  unfold runati
  rw [key]
  constructor
  · intro v hv
    simp only [hv, AtiCall.cmd]
  · intro hv
    simp only [hv, AtiCall.cmd, true_and]
    intro x y
    unfold supcellNoScale
    split
    · split
      · simp
      · split
        · simp
        · split <;> simp
    · simp

/-- C112: a `pcell` line. -/
theorem C112_pcell (e : Ext) (fuel : ℕ) (norm : V3 ℚ → ℚ) (rand : List (V3 ℚ)) {ss : List AtiSet} {ps qs tail l : List Word} {p : Word} (fs : Fs)
    (hl : Line atiSpells tail ss ps l) (ht : Tail qs tail) (hp : ps ++ qs = [p]) (hg : ∀ s ∈ ss, atiGood s) (hh : ∀ s ∈ ss, pcellHas s) :
    let c := AtiCmd.pcell p (ss.foldl atiApply atiDefaults).outmode
    runati e fuel norm rand ("pcell".toList :: l) fs = ((c.step e fuel norm fs).1, some (c.step e fuel norm fs).2) := by
  intro c
  have hpar := parse_settings goodTables.2.2.2.2.2.2.2.2 AtiSet.names atiOf (fun s hs => pcell_reads s (hh s hs)) hl ht
  obtain ⟨⟨r, h1, h1'⟩, h2, h3, h4, h5, h6⟩ := ati_fold ss hg
  unfold runati
  rw [readAti_name plain_pcell, atiCommand_pcell]
  simp only
  rw [readCommand_parsed hpar (lastOcc_map_none _ _ atiOf_ne_help ss), hp]
  unfold pcellCall
  rw [h2]
  rfl

/-! ### Rejected lines -/

/-- what the documentation says about a command: its settings, and its long and short names (with `--help`) -/
structure Documented where
  name : Word
  S : Type
  names : S → Word × Option Char × List Word
  has : S → Prop
  longs : List String
  shorts : List Char

def abaDocs : List Documented :=
  [⟨"suplat".toList, SupSet, SupSet.names, fun _ => True, ["--comment", "--volumn", "--ld", "--no-ld", "--outmode", "--help"], ['c', 'v', 'L', 'o']⟩,
   ⟨"ocumaker".toList, OccSet, OccSet.names, fun s => occIsMove s = false,
    ["--comment", "--element", "--speckle", "--number-speckle", "--dist-restrict", "--refined", "--no-refined", "--outmode", "--help"],
    ['c', 'e', 's', 'n', 'r', 'o']⟩,
   ⟨"ocubiter".toList, OccSet, OccSet.names, fun _ => True,
    ["--comment", "--element", "--speckle", "--number-speckle", "--dist-restrict", "--refined", "--no-refined", "--outmode", "--move-supercell",
      "--no-move-supercell", "--help"], ['c', 'e', 's', 'n', 'r', 'o', 'S', 'N']⟩,
   ⟨"ocutenter".toList, TerSet, TerSet.names, fun _ => True,
    ["--comment", "--element", "--speckle", "--number-speckle", "--zoom", "--dist-restrict", "--refined", "--no-refined", "--outmode",
      "--move-supercell", "--no-move-supercell", "--help"], ['n', 'r', 'S', 'N']⟩,
   ⟨"ocumakert".toList, TerSet, TerSet.names, fun s => terOnly s = false,
    ["--comment", "--element", "--speckle", "--zoom", "--dist-restrict", "--refined", "--no-refined", "--outmode", "--help"], ['r']⟩]

def atiDocs : List Documented :=
  [⟨"atclear".toList, AtiSet, AtiSet.names, atclearHas, ["--center-element", "--radius", "--element-remove", "--refined", "--no-refined", "--help"],
    ['c', 'r', 'e']⟩,
   ⟨"perturb".toList, AtiSet, AtiSet.names, perturbHas, ["--radius", "--help"], ['r']⟩,
   ⟨"supcell".toList, AtiSet, AtiSet.names, supcellHas, ["--scale", "--outmode", "--help"], ['s']⟩,
   ⟨"pcell".toList, AtiSet, AtiSet.names, pcellHas, ["--outmode", "--help"], []⟩]

abbrev Documented.spells (c : Documented) (s : c.S) (ws : List Word) : Prop := Spells (c.names s).1 (c.names s).2.1 (c.names s).2.2 ws

/-- a table agrees with the documentation -/
structure Agrees (c : Documented) (t : List OptDecl) (occ : c.S → String × Occ) : Prop where
  plain : Plain c.name
  good : GoodTable t
  reads : ∀ s, c.has s → Reads t (c.names s) (occ s)
  noHelp : ∀ s, (occ s).1 ≠ "help"
  longs : ∀ n, n ∈ t.flatMap (·.longs) → n ∈ c.longs.map String.toList
  shorts : ∀ n, n ∈ t.flatMap (·.shorts) → n ∈ c.shorts
  help : findLong t "--help".toList = some helpDecl

theorem aba_agrees : ∀ c ∈ abaDocs, ∃ t m occ, abaCommand c.name = some (t, m) ∧ Agrees c t occ := by
  intro c hc
  simp only [abaDocs, List.mem_cons, List.not_mem_nil, or_false] at hc
  rcases hc with rfl | rfl | rfl | rfl | rfl
  · exact ⟨_, _, supOf, abaCommand_suplat, plain_suplat, goodTables.1, fun s _ => suplat_reads s, supOf_ne_help,
      by decide +kernel, by decide +kernel, by decide +kernel⟩
  · exact ⟨_, _, occOf, abaCommand_ocumaker, plain_ocumaker, goodTables.2.1, fun s hs => ocumaker_reads s hs, occOf_ne_help,
      by decide +kernel, by decide +kernel, by decide +kernel⟩
  · exact ⟨_, _, occOf, abaCommand_ocubiter, plain_ocubiter, goodTables.2.2.1, fun s _ => ocubiter_reads s, occOf_ne_help,
      by decide +kernel, by decide +kernel, by decide +kernel⟩
  · exact ⟨_, _, terOf, abaCommand_ocutenter, plain_ocutenter, goodTables.2.2.2.1, fun s _ => ocutenter_reads s, terOf_ne_help,
      by decide +kernel, by decide +kernel, by decide +kernel⟩
  · exact ⟨_, _, terOf, abaCommand_ocumakert, plain_ocumakert, goodTables.2.2.2.2.1, fun s hs => ocumakert_reads s hs, terOf_ne_help,
      by decide +kernel, by decide +kernel, by decide +kernel⟩

theorem ati_agrees : ∀ c ∈ atiDocs, ∃ t m occ, atiCommand c.name = some (t, m) ∧ Agrees c t occ := by
  intro c hc
  simp only [atiDocs, List.mem_cons, List.not_mem_nil, or_false] at hc
  rcases hc with rfl | rfl | rfl | rfl
  · exact ⟨_, _, atiOf, atiCommand_atclear, plain_atclear, goodTables.2.2.2.2.2.1, fun s hs => atclear_reads s hs, atiOf_ne_help,
      by decide +kernel, by decide +kernel, by decide +kernel⟩
  · exact ⟨_, _, atiOf, atiCommand_perturb, plain_perturb, goodTables.2.2.2.2.2.2.1, fun s hs => perturb_reads s hs, atiOf_ne_help,
      by decide +kernel, by decide +kernel, by decide +kernel⟩
  · exact ⟨_, _, atiOf, atiCommand_supcell, plain_supcell, goodTables.2.2.2.2.2.2.2.1, fun s hs => supcell_reads s hs, atiOf_ne_help,
      by decide +kernel, by decide +kernel, by decide +kernel⟩
  · exact ⟨_, _, atiOf, atiCommand_pcell, plain_pcell, goodTables.2.2.2.2.2.2.2.2, fun s hs => pcell_reads s hs, atiOf_ne_help,
      by decide +kernel, by decide +kernel, by decide +kernel⟩

/-- lines that are rejected whatever is on disk: an unknown option, an option without all of its values, a number of inputs other than one -/
def Wrong (c : Documented) (l : List Word) : Prop :=
  (∃ w rest ss ps, Line c.spells (w :: rest) ss ps l ∧ (∀ s ∈ ss, c.has s) ∧ Unknown (c.longs.map String.toList) c.shorts w) ∨
  (∃ s vs ss ps, c.has s ∧ vs.length < (c.names s).2.2.length ∧ Line c.spells ((c.names s).1 :: vs) ss ps l ∧ ∀ s ∈ ss, c.has s) ∨
  (∃ tail qs ss ps, Line c.spells tail ss ps l ∧ Tail qs tail ∧ (∀ s ∈ ss, c.has s) ∧ (ps ++ qs).length ≠ 1)

theorem readCommand_wrong {α} {c : Documented} {t : List OptDecl} {occ : c.S → String × Occ} (ha : Agrees c t occ)
    (m : List (String × Occ) → Option α) {l : List Word} (hw : Wrong c l) : readCommand t m l = .usage := by
  rcases hw with ⟨w, rest, ss, ps, hl, hh, hu⟩ | ⟨s, vs, ss, ps, hs, hv, hl, hh⟩ | ⟨tail, qs, ss, ps, hl, ht, hh, hn⟩
  · apply readCommand_rejected
    rw [parseAll_line ha.good.1 c.names occ (fun s hs => ha.reads s (hh s hs)) hl]
    have hu' : Unknown (t.flatMap (·.longs)) (t.flatMap (·.shorts)) w := by
      rcases hu with ⟨n, r, h1, h2, h3, h4, h5⟩ | ⟨ch, r, h1, h2, h3⟩
      · exact Or.inl ⟨n, r, h1, h2, h3, fun h => h4 (ha.longs _ h), h5⟩
      · exact Or.inr ⟨ch, r, h1, h2, fun h => h3 (ha.shorts _ h)⟩
    rw [parseAll_unknown hu' ha.good.2]
    rfl
  · apply readCommand_rejected
    rw [parseAll_line ha.good.1 c.names occ (fun s hs => ha.reads s (hh s hs)) hl]
    obtain ⟨d, hd, ⟨hact, -, -⟩ | ⟨b, -, hnil, -⟩⟩ := ha.reads s hs
    · obtain ⟨mm, hm, hm0⟩ := hd.dashes
      have hbad : parseAll t ((c.names s).1 :: vs) = none := by
        refine parseAll_bad ?_ ?_ ?_
        · rw [hm]; rfl
        · rw [hm]; simpa using hm0
        · unfold useWord
          rw [splitEq_no hd.noEq, hd.long_ok]
          simp [useLong, hact, hv]
      rw [hbad]
      rfl
    · rw [hnil] at hv
      exact absurd hv (Nat.not_lt_zero _)
  · rw [readCommand_parsed (parse_settings ha.good c.names occ (fun s hs => ha.reads s (hh s hs)) hl ht) (lastOcc_map_none _ _ ha.noHelp ss)]
    unfold callOf
    split
    · rename_i heq
      rw [heq] at hn
      exact absurd rfl hn
    · rfl

/-- C112: wrong lines of `runaba` are rejected, and no file is touched. -/
theorem C112_rejected (e : Ext) (env : CliEnv) (fs : Fs) (c : Documented) (hc : c ∈ abaDocs) {l : List Word} (hw : Wrong c l) :
    runaba e env (c.name :: l) fs = (fs, .usage) := by
  obtain ⟨t, m, occ, h1, h2⟩ := aba_agrees c hc
  unfold runaba
  rw [readAba_name h2.plain, h1]
  simp only
  rw [readCommand_wrong h2 m hw]

/-- C112: wrong lines of `runati` are rejected, and no file is touched. -/
theorem C112_rejected_ati (e : Ext) (fuel : ℕ) (norm : V3 ℚ → ℚ) (rand : List (V3 ℚ)) (fs : Fs) (c : Documented) (hc : c ∈ atiDocs) {l : List Word}
    (hw : Wrong c l) : runati e fuel norm rand (c.name :: l) fs = (fs, some .usage) := by
  obtain ⟨t, m, occ, h1, h2⟩ := ati_agrees c hc
  unfold runati
  rw [readAti_name h2.plain, h1]
  simp only
  rw [readCommand_wrong h2 m hw]

/-- C112: names other than those of the documentation are no commands. -/
theorem C112_unknown_command (e : Ext) (env : CliEnv) (fuel : ℕ) (norm : V3 ℚ → ℚ) (rand : List (V3 ℚ)) (fs : Fs) (name : Word) (hn : Plain name)
    (l : List Word) :
    ((∀ c ∈ abaDocs, c.name ≠ name) → runaba e env (name :: l) fs = (fs, .usage)) ∧
      ((∀ c ∈ atiDocs, c.name ≠ name) → runati e fuel norm rand (name :: l) fs = (fs, some .usage)) := by
  constructor
  · intro h
    have h0 : abaCommand name = none := by
      simp only [abaDocs, List.mem_cons, List.not_mem_nil, or_false, forall_eq_or_imp, forall_eq] at h
      obtain ⟨h1, h2, h3, h4, h5⟩ := h
      unfold abaCommand
      rw [if_neg (Ne.symm h1), if_neg (Ne.symm h2), if_neg (Ne.symm h3), if_neg (Ne.symm h4), if_neg (Ne.symm h5)]
    unfold runaba
    rw [readAba_name hn, h0]
  · intro h
    have h0 : atiCommand name = none := by
      simp only [atiDocs, List.mem_cons, List.not_mem_nil, or_false, forall_eq_or_imp, forall_eq] at h
      obtain ⟨h1, h2, h3, h4⟩ := h
      unfold atiCommand
      rw [if_neg (Ne.symm h1), if_neg (Ne.symm h2), if_neg (Ne.symm h3), if_neg (Ne.symm h4)]
    unfold runati
    rw [readAti_name hn, h0]

/-- C112: `--help` among well-formed settings shows the help and does nothing else, whatever the values and inputs are. -/
theorem C112_help (e : Ext) (env : CliEnv) (fs : Fs) (c : Documented) (hc : c ∈ abaDocs) {l rest : List Word} {ss ss' ps ps' qs tail}
    (hl : Line c.spells ("--help".toList :: rest) ss ps l) (hr : Line c.spells tail ss' ps' rest) (ht : Tail qs tail)
    (hs : ∀ s ∈ ss, c.has s) (hs' : ∀ s ∈ ss', c.has s) : runaba e env (c.name :: l) fs = (fs, .info) := by
  obtain ⟨t, m, occ, h1, h2⟩ := aba_agrees c hc
  have hp' := parse_settings h2.good c.names occ (fun s h => h2.reads s (hs' s h)) hr ht
  have hu : useWord t "--help".toList rest = some ([("help", .flag true)], rest) := by
    unfold useWord
    rw [splitEq_no (by decide +kernel), h2.help]
    rfl
  have hp := parseAll_line h2.good.1 c.names occ (fun s h => h2.reads s (hs s h)) hl
  rw [parseAll_opt h2.good.1 (by decide +kernel) (by decide +kernel) hu, hp'] at hp
  have hlast : lastOcc (ss.map occ ++ ("help", Occ.flag true) :: ss'.map occ) "help" = some (.flag true) := by
    clear hp' hp hr hs'
    induction ss' using List.reverseRecOn with
    | nil => rw [List.map_nil, lastOcc_snoc, if_pos rfl]
    | append_singleton ss' s ih =>
      rw [List.map_append, List.map_singleton, ← List.cons_append, ← List.append_assoc, lastOcc_snoc, if_neg (h2.noHelp s), ih]
  unfold runaba
  rw [readAba_name h2.plain, h1]
  simp only
  have : readCommand t m l = .info := by
    unfold readCommand
    unfold parseAll at hp
    rw [hp]
    simp only [joinParse, Option.map_some, switchOpt, List.nil_append, List.cons_append, hlast, if_true]
  rw [this]

/-- C112: an input that does not exist is rejected. -/
theorem C112_no_input (e : Ext) (env : CliEnv) (fs : Fs) (c : Documented) (hc : c ∈ abaDocs) {l : List Word} {ss ps qs tail} {p : Word}
    (hl : Line c.spells tail ss ps l) (ht : Tail qs tail) (hs : ∀ s ∈ ss, c.has s) (hp : ps ++ qs = [p])
    (hf : fs.has p = false) : runaba e env (c.name :: l) fs = (fs, .usage) := by
  obtain ⟨t, m, occ, h1, h2⟩ := aba_agrees c hc
  unfold runaba
  rw [readAba_name h2.plain, h1]
  simp only
  rw [readCommand_parsed (parse_settings h2.good c.names occ (fun s h => h2.reads s (hs s h)) hl ht) (lastOcc_map_none _ _ h2.noHelp ss), hp]
  cases m (ss.map occ) <;> simp [callOf, hf]

/-- C112: of a rejected or informative line no file is touched. -/
theorem C112_untouched (e : Ext) (env : CliEnv) (fs : Fs) (words : List Word)
    (h : (runaba e env words fs).2 = .usage ∨ (runaba e env words fs).2 = .info) : (runaba e env words fs).1 = fs := by
  unfold runaba at h ⊢
  cases hr : readAba words with
  | usage => rfl
  | info => rfl
  | call p c =>
    rw [hr] at h
    simp only at h ⊢
    by_cases hf : fs.has p
    · simp only [hf, if_true] at h ⊢
      cases hg : dictGet fs.files p with
      | none => rfl
      | some content =>
        simp only [hg] at h ⊢
        rcases hc : c.onContent e env p content fs with ⟨fs', (er | ⟨⟨⟩⟩)⟩ <;> rw [hc] at h <;> simp at h
    · simp only [hf, Bool.false_eq_true, if_false]

/-! ### Values of the wrong type -/

theorem lastOcc_mid {S : Type} (occ : S → String × Occ) (a b : List S) (s : S) (h : ∀ t ∈ b, (occ t).1 ≠ (occ s).1) :
    lastOcc ((a ++ s :: b).map occ) (occ s).1 = some (occ s).2 := by
  induction b using List.reverseRecOn with
  | nil => rw [List.map_append, List.map_singleton, lastOcc_snoc, if_pos rfl]
  | append_singleton b t ih =>
    rw [← List.cons_append, ← List.append_assoc, List.map_append, List.map_singleton, lastOcc_snoc, if_neg (h t (by simp))]
    exact ih fun t' h' => h t' (by simp [h'])

theorem textOpt_mid {S : Type} {occ : S → String × Occ} {a b : List S} {s : S} {dest w} (hs : occ s = (dest, .vals [w]))
    (h : ∀ t ∈ b, (occ t).1 ≠ dest) : textOpt ((a ++ s :: b).map occ) dest = some w := by
  have := lastOcc_mid occ a b s (by rw [hs]; exact h)
  rw [hs] at this
  unfold textOpt
  rw [this]

theorem mapM_bad {α β} {f : α → Option β} {l : List α} {x : α} (hx : x ∈ l) (hf : f x = none) : l.mapM f = none := by
  induction l with
  | nil => cases hx
  | cons y l ih =>
    rw [List.mapM_cons]
    rcases List.mem_cons.1 hx with rfl | h
    · rw [hf]; rfl
    · rw [ih h]
      cases f y <;> rfl

/-- a value that is not of the documented type -/
def occBad : OccSet → Prop
  | .number w _ => ∃ er, parseInt w = .error er
  | .restrict _ x _ => ∃ er, parseFloat x = .error er
  | .outmode w => w ≠ "vasp".toList ∧ w ≠ "yaml".toList
  | _ => False

theorem occOf_dest {s t : OccSet} (h : occKind t ≠ occKind s) : (occOf t).1 ≠ (occOf s).1 := by
  cases s <;> cases t <;> first | exact absurd rfl h | simp [occOf]

theorem occOpts_bad {a b : List OccSet} {s : OccSet} (hb : occBad s) (h : occKind s = 4 ∨ ∀ t ∈ b, occKind t ≠ occKind s) :
    occOpts ((a ++ s :: b).map occOf) = none := by
  cases s with
  | number w n =>
    obtain ⟨er, hb⟩ := hb
    have := textOpt_mid (occ := occOf) (a := a) (b := b) (s := .number w n) rfl
      fun t ht => occOf_dest (s := .number w n) ((h.resolve_left (by simp [occKind])) t ht)
    unfold occOpts intOpt
    rw [this]
    simp only [hb]
  | restrict w x d =>
    obtain ⟨er, hb⟩ := hb
    have hm : Occ.vals [w, x] ∈ allOcc ((a ++ .restrict w x d :: b).map occOf) "trs" := by
      unfold allOcc
      simp only [List.mem_map, List.mem_filter, decide_eq_true_eq]
      exact ⟨("trs", .vals [w, x]), ⟨⟨.restrict w x d, by simp, rfl⟩, rfl⟩, rfl⟩
    have : restrictOpt ((a ++ .restrict w x d :: b).map occOf) "trs" = none := by
      unfold restrictOpt
      exact mapM_bad hm (by simp only [hb])
    unfold occOpts
    rw [this]
    cases intOpt ((a ++ .restrict w x d :: b).map occOf) "nspeckle" <;> rfl
  | outmode w =>
    have := textOpt_mid (occ := occOf) (a := a) (b := b) (s := .outmode w) rfl
      fun t ht => occOf_dest (s := .outmode w) ((h.resolve_left (by simp [occKind])) t ht)
    have hc : choiceOpt ((a ++ .outmode w :: b).map occOf) "outmode" vaspYaml "vasp".toList = none := by
      unfold choiceOpt
      rw [this]
      have hw : w ∉ vaspYaml := by
        rw [vaspYaml, List.mem_cons, List.mem_singleton]
        rintro (h1 | h1)
        · exact hb.1 h1
        · exact hb.2 h1
      simp only [hw, if_false]
    unfold occOpts
    rw [hc]
    cases intOpt ((a ++ .outmode w :: b).map occOf) "nspeckle" <;> cases restrictOpt ((a ++ .outmode w :: b).map occOf) "trs" <;> rfl
  | comment w => exact hb.elim
  | element w => exact hb.elim
  | speckle w => exact hb.elim
  | refined w => exact hb.elim
  | move w => exact hb.elim

/-- C112: a number that is no integer, a distance that is no number, an output format other than `vasp` and `yaml` are rejected by
`ocumaker` and `ocubiter`, if the setting is the last of its option (for restrictions: anywhere). -/
theorem C112_bad_value (e : Ext) (env : CliEnv) (fs : Fs) {a b : List OccSet} {s : OccSet} {ps qs tail l : List Word}
    (hl : Line occSpells tail (a ++ s :: b) ps l) (ht : Tail qs tail) (hb : occBad s) (h : occKind s = 4 ∨ ∀ t ∈ b, occKind t ≠ occKind s) :
    runaba e env ("ocubiter".toList :: l) fs = (fs, .usage) ∧
      ((∀ t ∈ a ++ s :: b, occIsMove t = false) → runaba e env ("ocumaker".toList :: l) fs = (fs, .usage)) := by
  constructor
  · unfold runaba
    rw [readAba_name plain_ocubiter, abaCommand_ocubiter]
    simp only
    rw [readCommand_parsed (parse_settings goodTables.2.2.1 OccSet.names occOf (fun s _ => ocubiter_reads s) hl ht)
      (lastOcc_map_none _ _ occOf_ne_help _), occOpts_bad hb h]
    rfl
  · intro hm
    unfold runaba
    rw [readAba_name plain_ocumaker, abaCommand_ocumaker]
    simp only
    rw [readCommand_parsed (parse_settings goodTables.2.1 OccSet.names occOf (fun s hs => ocumaker_reads s (hm s hs)) hl ht)
      (lastOcc_map_none _ _ occOf_ne_help _), occOpts_bad hb h]
    rfl

/-- C112: the same for the volume and the format of `suplat`. -/
theorem C112_bad_value_suplat (e : Ext) (env : CliEnv) (fs : Fs) {a b : List SupSet} {s : SupSet} {ps qs tail l : List Word}
    (hl : Line supSpells tail (a ++ s :: b) ps l) (ht : Tail qs tail)
    (hb : (∃ w n er, s = .volumn w n ∧ parseInt w = .error er ∧ ∀ t ∈ b, ∀ w' n', t ≠ .volumn w' n') ∨
      ∃ w, s = .outmode w ∧ w ≠ "vasp".toList ∧ w ≠ "yaml".toList ∧ ∀ t ∈ b, ∀ w', t ≠ .outmode w') :
    runaba e env ("suplat".toList :: l) fs = (fs, .usage) := by
  unfold runaba
  rw [readAba_name plain_suplat, abaCommand_suplat]
  simp only
  rw [readCommand_parsed (parse_settings goodTables.1 SupSet.names supOf (fun s _ => suplat_reads s) hl ht) (lastOcc_map_none _ _ supOf_ne_help _)]
  have : suplatCall ((a ++ s :: b).map supOf) = none := by
    rcases hb with ⟨w, n, er, rfl, hw, hno⟩ | ⟨w, rfl, h1, h2, hno⟩
    · have := textOpt_mid (occ := supOf) (a := a) (b := b) (s := .volumn w n) rfl
        fun t ht => by
          cases t with
          | volumn w' n' => exact absurd rfl (hno _ ht w' n')
          | _ => simp [supOf]
      unfold suplatCall intOpt
      rw [this]
      simp only [hw]
    · have := textOpt_mid (occ := supOf) (a := a) (b := b) (s := .outmode w) rfl
        fun t ht => by
          cases t with
          | outmode w' => exact absurd rfl (hno _ ht w')
          | _ => simp [supOf]
      have hc : choiceOpt ((a ++ .outmode w :: b).map supOf) "outmode" vaspYaml "yaml".toList = none := by
        unfold choiceOpt
        rw [this]
        have hw : w ∉ vaspYaml := by
          rw [vaspYaml, List.mem_cons, List.mem_singleton]
          rintro (h | h)
          · exact h1 h
          · exact h2 h
        simp only [hw, if_false]
      unfold suplatCall
      rw [hc]
      cases intOpt ((a ++ .outmode w :: b).map supOf) "volumn" <;> rfl
  rw [this]
  rfl

/-! ### Concrete lines -/

/-- `-n2 --speckle=Ti in.vasp -e Fe -NS -r Ti 2.5 --no-refined` -/
example : Line occSpells []
    [.number ['2'] 2, .speckle "Ti".toList, .element "Fe".toList, .move false, .move true, .restrict "Ti".toList "2.5".toList (5 / 2), .refined false]
    ["in.vasp".toList]
    ["-n2".toList, "--speckle=Ti".toList, "in.vasp".toList, "-e".toList, "Fe".toList, "-NS".toList, "-r".toList, "Ti".toList, "2.5".toList,
      "--no-refined".toList] ∧
    (∀ s ∈ [OccSet.number ['2'] 2, .speckle "Ti".toList, .element "Fe".toList, .move false, .move true,
      .restrict "Ti".toList "2.5".toList (5 / 2), .refined false], occGood s) := by
  constructor
  · refine .setting (OccSet.number ['2'] 2) ["-n2".toList] (Or.inr (Or.inr ⟨'n', rfl, Or.inr ⟨['2'], [], rfl, by decide, by decide +kernel⟩⟩)) ?_
    refine .setting (OccSet.speckle "Ti".toList) ["--speckle=Ti".toList] (Or.inr (Or.inl ⟨"Ti".toList, [], rfl, by decide +kernel⟩)) ?_
    refine .word "in.vasp".toList (plain_of (by decide)) ?_
    refine .setting (OccSet.element "Fe".toList) ["-e".toList, "Fe".toList] (Or.inr (Or.inr ⟨'e', rfl, Or.inl (by decide +kernel)⟩)) ?_
    refine .joined (OccSet.move false) 'N' ['S'] (Or.inr (Or.inr ⟨'N', rfl, Or.inl rfl⟩)) (by decide) (by intro t h; cases h) ?_
    refine .setting (OccSet.move true) ["-S".toList] (Or.inr (Or.inr ⟨'S', rfl, Or.inl (by decide +kernel)⟩)) ?_
    refine .setting (OccSet.restrict "Ti".toList "2.5".toList (5 / 2)) ["-r".toList, "Ti".toList, "2.5".toList]
      (Or.inr (Or.inr ⟨'r', rfl, Or.inl (by decide +kernel)⟩)) ?_
    exact .setting (OccSet.refined false) ["--no-refined".toList] (Or.inl rfl) .done
  · intro s hs
    simp only [List.mem_cons, List.not_mem_nil, or_false] at hs
    rcases hs with rfl | rfl | rfl | rfl | rfl | rfl | rfl
    · show parseInt ['2'] = .ok 2
      decide +kernel
    · trivial
    · trivial
    · trivial
    · trivial
    · show parseFloat "2.5".toList = .ok (5 / 2)
      decide +kernel
    · trivial

/-- the options of that line -/
example : [OccSet.number ['2'] 2, .speckle "Ti".toList, .element "Fe".toList, .move false, .move true,
      .restrict "Ti".toList "2.5".toList (5 / 2), .refined false].foldl occApply occDefaults =
    ⟨none, some "Fe", some "Ti", some 2, [("Ti", 5 / 2)], false, "vasp".toList, true⟩ := by
  simp [occApply, occDefaults]

/-- `--bogus in.vasp`, `-n` without a number, two inputs, and `-n two` are wrong -/
example : Wrong ⟨"ocumaker".toList, OccSet, OccSet.names, fun s => occIsMove s = false,
    ["--comment", "--element", "--speckle", "--number-speckle", "--dist-restrict", "--refined", "--no-refined", "--outmode", "--help"],
    ['c', 'e', 's', 'n', 'r', 'o']⟩ ["--bogus=1".toList, "in.vasp".toList] :=
  Or.inl ⟨"--bogus=1".toList, ["in.vasp".toList], [], [], .done, by simp,
    Or.inl ⟨"bogus".toList, "=1".toList, by decide +kernel, by decide +kernel, by decide +kernel, by decide +kernel, Or.inr ⟨['1'], by decide +kernel⟩⟩⟩

example : Wrong ⟨"ocumaker".toList, OccSet, OccSet.names, fun s => occIsMove s = false,
    ["--comment", "--element", "--speckle", "--number-speckle", "--dist-restrict", "--refined", "--no-refined", "--outmode", "--help"],
    ['c', 'e', 's', 'n', 'r', 'o']⟩ ["in.vasp".toList, "--number-speckle".toList] :=
  Or.inr (Or.inl ⟨OccSet.number [] 0, [], [], ["in.vasp".toList], rfl, by decide, .word _ (plain_of (by decide)) .done, by simp⟩)

example : occBad (.number "two".toList 2) ∧ occBad (.restrict "Ti".toList "near".toList 0) ∧ occBad (.outmode "cif".toList) :=
  ⟨⟨.valueError, by decide +kernel⟩, ⟨.valueError, by decide +kernel⟩, by decide +kernel, by decide +kernel⟩

/-- the program run on a file system: two unknown lines and one that is accepted up to the missing primitive cell -/
example (e : Ext) (env : CliEnv) (fs : Fs) : runaba e env [] fs = (fs, .info) ∧ runaba e env ["--version".toList] fs = (fs, .info) ∧
    runaba e env ["--bogus".toList, "suplat".toList] fs = (fs, .usage) ∧ runaba e env ["nothing".toList] fs = (fs, .usage) := ⟨rfl, rfl, rfl, rfl⟩

end Verif
