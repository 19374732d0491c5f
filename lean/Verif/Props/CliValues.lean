import Verif.Props.Cli
import Verif.Lemmas.Cell
import Verif.Props.Io

/-! # C112: values of the wrong type, for the remaining commands, and the errors of incomplete lines -/

namespace Verif

open _root_.Spec

theorem allOcc_mid {S : Type} {occ : S → String × Occ} {a b : List S} {s : S} {dest o} (hs : occ s = (dest, o)) :
    o ∈ allOcc ((a ++ s :: b).map occ) dest := by
  unfold allOcc
  simp only [List.mem_map, List.mem_filter, decide_eq_true_eq]
  exact ⟨(dest, o), ⟨⟨s, by simp, hs⟩, rfl⟩, rfl⟩

theorem lastOcc_at {S : Type} {occ : S → String × Occ} {a b : List S} {s : S} {dest o} (hs : occ s = (dest, o))
    (h : ∀ t ∈ b, (occ t).1 ≠ dest) : lastOcc ((a ++ s :: b).map occ) dest = some o := by
  have := lastOcc_mid occ a b s (by rw [hs]; exact h)
  rw [hs] at this
  exact this

/-! ### `ocutenter` and `ocumakert` -/

/-- the option a setting belongs to -/
def terKind : TerSet → ℕ
  | .comment _ => 0
  | .element _ => 1
  | .speckle _ _ => 2
  | .number _ _ _ _ => 3
  | .zoom _ _ => 4
  | .restrict _ _ _ => 5
  | .refined _ => 6
  | .outmode _ => 7
  | .move _ => 8

/-- a value that is not of the documented type -/
def terBad : TerSet → Prop
  | .number a b _ _ => (∃ er, parseInt a = .error er) ∨ ∃ er, parseInt b = .error er
  | .zoom w _ => ∃ er, parseFloat w = .error er
  | .restrict _ x _ => ∃ er, parseFloat x = .error er
  | .outmode w => w ≠ "vasp".toList ∧ w ≠ "yaml".toList
  | _ => False

theorem terOf_dest {s t : TerSet} (h : terKind t ≠ terKind s) : (terOf t).1 ≠ (terOf s).1 := by
  cases s <;> cases t <;> first | exact absurd rfl h | simp [terOf]

theorem terArgs_bad {a b : List TerSet} {s : TerSet} (hb : terBad s) (h : terKind s = 5 ∨ ∀ t ∈ b, terKind t ≠ terKind s) :
    terArgs ((a ++ s :: b).map terOf) = none := by
  have last : terKind s ≠ 5 → lastOcc ((a ++ s :: b).map terOf) (terOf s).1 = some (terOf s).2 := fun hk =>
    lastOcc_mid terOf a b s fun t ht => terOf_dest (h.resolve_left hk t ht)
  suffices hn : intPairOpt ((a ++ s :: b).map terOf) "nspeckle" = none ∨ floatOpt ((a ++ s :: b).map terOf) "zoom" = none ∨
      restrictOpt ((a ++ s :: b).map terOf) "trs" = none ∨ choiceOpt ((a ++ s :: b).map terOf) "outmode" vaspYaml "vasp".toList = none by
    unfold terArgs
    generalize intPairOpt ((a ++ s :: b).map terOf) "nspeckle" = n at hn ⊢
    generalize floatOpt ((a ++ s :: b).map terOf) "zoom" = z at hn ⊢
    generalize restrictOpt ((a ++ s :: b).map terOf) "trs" = tr at hn ⊢
    generalize choiceOpt ((a ++ s :: b).map terOf) "outmode" vaspYaml "vasp".toList = m at hn ⊢
    rcases hn with rfl | rfl | rfl | rfl
    · rfl
    · cases n <;> rfl
    · cases n <;> cases z <;> rfl
    · cases n <;> cases z <;> cases tr <;> rfl
  cases s with
  | number w w' m n =>
    left
    unfold intPairOpt pairOpt
    rw [show lastOcc _ "nspeckle" = _ from last (by simp [terKind])]
    simp only [terOf]
    rcases hb with ⟨er, h⟩ | ⟨er, h⟩
    · rw [h]
    · rw [h]; cases parseInt w <;> rfl
  | zoom w x =>
    right; left
    obtain ⟨er, hb⟩ := hb
    unfold floatOpt textOpt
    rw [show lastOcc _ "zoom" = _ from last (by simp [terKind])]
    simp only [terOf, hb]
  | restrict w x d =>
    right; right; left
    obtain ⟨er, hb⟩ := hb
    unfold restrictOpt
    exact mapM_bad (allOcc_mid (s := TerSet.restrict w x d) rfl) (by simp only [hb])
  | outmode w =>
    right; right; right
    unfold choiceOpt textOpt
    rw [show lastOcc _ "outmode" = _ from last (by simp [terKind])]
    have hw : w ∉ vaspYaml := by
      rw [vaspYaml, List.mem_cons, List.mem_singleton]
      rintro (h1 | h1)
      · exact hb.1 h1
      · exact hb.2 h1
    simp only [terOf, hw, if_false]
  | _ => exact hb.elim

/-- C112: numbers that are no integers, a zoom or a distance that is no number, and other output formats are rejected by `ocutenter` and `ocumakert`, if the
setting is the last of its option (for restrictions: anywhere). -/
theorem C112_bad_value_ter (e : Ext) (env : CliEnv) (fs : Fs) {a b : List TerSet} {s : TerSet} {ps qs tail l : List Word}
    (hl : Line terSpells tail (a ++ s :: b) ps l) (ht : Tail qs tail) (hb : terBad s) (h : terKind s = 5 ∨ ∀ t ∈ b, terKind t ≠ terKind s) :
    runaba e env ("ocutenter".toList :: l) fs = (fs, .usage) ∧
      ((∀ t ∈ a ++ s :: b, terOnly t = false) → runaba e env ("ocumakert".toList :: l) fs = (fs, .usage)) := by
  constructor
  · unfold runaba
    rw [readAba_name plain_ocutenter, abaCommand_ocutenter]
    simp only
    rw [readCommand_parsed (parse_settings goodTables.2.2.2.1 TerSet.names terOf (fun s _ => ocutenter_reads s) hl ht)
      (lastOcc_map_none _ _ terOf_ne_help _), terArgs_bad hb h]
    rfl
  · intro hm
    unfold runaba
    rw [readAba_name plain_ocumakert, abaCommand_ocumakert]
    simp only
    rw [readCommand_parsed (parse_settings goodTables.2.2.2.2.1 TerSet.names terOf (fun s hs => ocumakert_reads s (hm s hs)) hl ht)
      (lastOcc_map_none _ _ terOf_ne_help _), terArgs_bad hb h]
    rfl

/-- how the setting up of a ternary application ends if a pair is not given: the first thing that is wrong, the missing pair last -/
inductive MissingError (env : CliEnv) (y : YDoc) (element : Option String) : PyErr → Prop
  | key : (y.lattice = none ∨ y.positions = none ∨ y.numbers = none) → MissingError env y element .keyError
  | empty {L num} : y.lattice = some L → y.positions = some [] → y.numbers = some num → MissingError env y element .valueError
  | short {L pos num} : y.lattice = some L → y.positions = some pos → y.numbers = some num → num.length < pos.length → MissingError env y element .indexError
  | single {L pos num} : y.lattice = some L → y.positions = some pos → y.numbers = some num → pos ≠ [] → pos.length ≤ num.length →
      element = none → num.length < 2 → MissingError env y element .indexError
  | unknown {L pos num s er} : y.lattice = some L → y.positions = some pos → y.numbers = some num → pos ≠ [] → pos.length ≤ num.length →
      element = some s → Specie.ofSymbol s = .error er → MissingError env y element er
  | unpack {L pos num} : y.lattice = some L → y.positions = some pos → y.numbers = some num → pos ≠ [] → pos.length ≤ num.length →
      (element = none ∧ 2 ≤ num.length ∨ ∃ s sp, element = some s ∧ Specie.ofSymbol s = .ok sp) → MissingError env y element env.missing

/-- one of the cases always applies -/
theorem missingError_exists (env : CliEnv) (y : YDoc) (element : Option String) : ∃ er, MissingError env y element er := by
  rcases h1 : y.lattice with _ | L
  · exact ⟨_, .key (.inl h1)⟩
  rcases h2 : y.positions with _ | pos
  · exact ⟨_, .key (.inr (.inl h2))⟩
  rcases h3 : y.numbers with _ | num
  · exact ⟨_, .key (.inr (.inr h3))⟩
  by_cases hn : pos = []
  · subst hn; exact ⟨_, .empty h1 h2 h3⟩
  rcases Nat.lt_or_ge num.length pos.length with hl | hl
  · exact ⟨_, .short h1 h2 h3 hl⟩
  rcases element with _ | s
  · rcases Nat.lt_or_ge num.length 2 with h | h
    · exact ⟨_, .single h1 h2 h3 hn hl rfl h⟩
    · exact ⟨_, .unpack h1 h2 h3 hn hl (.inl ⟨rfl, h⟩)⟩
  · rcases hs : Specie.ofSymbol s with er | sp
    · exact ⟨_, .unknown h1 h2 h3 hn hl rfl hs⟩
    · exact ⟨_, .unpack h1 h2 h3 hn hl (.inr ⟨s, sp, rfl, hs⟩)⟩

theorem terMissing_of {env : CliEnv} {y : YDoc} {a : TerArgs} {er : PyErr} (h : MissingError env y a.element er) : terMissing env y a = er := by
  unfold terMissing terBefore
  cases h with
  | key h =>
    rcases h1 : y.lattice with _ | L
    · rfl
    rcases h2 : y.positions with _ | pos
    · rfl
    rcases h3 : y.numbers with _ | num
    · rfl
    simp [h1, h2, h3] at h
  | empty h1 h2 h3 => rw [h1, h2, h3]; rfl
  | short h1 h2 h3 h =>
    rw [h1, h2, h3]
    simp only [need, bind, Except.bind]
    rw [new_short (by rintro rfl; simp at h) h]
  | @single L pos num h1 h2 h3 h4 h5 h6 h7 =>
    obtain ⟨_, _, -, -, hc⟩ := new_spec (smulM ((a.zoom.or y.zoom).getD 1) L) h4 h5
    rw [h1, h2, h3, h6]
    simp only [need, bind, Except.bind, hc, targetZ]
    rw [List.getElem?_eq_none (by omega)]
  | @unknown L pos num s er h1 h2 h3 h4 h5 h6 h7 =>
    obtain ⟨_, _, -, -, hc⟩ := new_spec (smulM ((a.zoom.or y.zoom).getD 1) L) h4 h5
    rw [h1, h2, h3, h6]
    simp only [need, bind, Except.bind, hc, targetZ, h7]
  | @unpack L pos num h1 h2 h3 h4 h5 h6 =>
    obtain ⟨_, _, -, -, hc⟩ := new_spec (smulM ((a.zoom.or y.zoom).getD 1) L) h4 h5
    rw [h1, h2, h3]
    rcases h6 with ⟨h6, h7⟩ | ⟨s, sp, h6, h7⟩
    · rw [h6]
      simp only [need, bind, Except.bind, hc, targetZ]
      rw [List.getElem?_eq_getElem (by omega)]
      rfl
    · rw [h6]
      simp only [need, bind, Except.bind, hc, targetZ, h7]
      rfl

/-- C112: how an `ocutenter` or `ocumakert` line without a pair ends; `element` is the element of the line, if any. -/
theorem C112_missing_error (e : Ext) (env : CliEnv) {ss : List TerSet} {ps qs tail l : List Word} {p : Word} {y : YDoc} {fs : Fs}
    (hl : Line terSpells tail ss ps l) (ht : Tail qs tail) (hp : ps ++ qs = [p]) (hg : ∀ s ∈ ss, terGood s)
    (hf : dictGet fs.files p = some (.doc y)) {er : PyErr} (her : MissingError env y (ss.foldl terApply terDefaults).element er) :
    ((∀ a b, TerSet.speckle a b ∉ ss) ∨ (∀ a b m n, TerSet.number a b m n ∉ ss) → runaba e env ("ocutenter".toList :: l) fs = (fs, .raised er)) ∧
      ((∀ s ∈ ss, terOnly s = false) → (∀ a b, TerSet.speckle a b ∉ ss) → runaba e env ("ocumakert".toList :: l) fs = (fs, .raised er)) := by
  have none1 : (∀ a b, TerSet.speckle a b ∉ ss) → (ss.foldl terApply terDefaults).speckle = none := by
    intro h
    clear hl hg her
    induction ss using List.reverseRecOn with
    | nil => rfl
    | append_singleton ss s ih =>
      have := ih fun a b hm => h a b (by simp [hm])
      rw [List.foldl_append, List.foldl_cons, List.foldl_nil]
      cases s with
      | speckle a b => exact absurd (List.mem_append_right _ (List.mem_singleton.2 rfl)) (h a b)
      | _ => exact this
  have none2 : (∀ a b m n, TerSet.number a b m n ∉ ss) → (ss.foldl terApply terDefaults).nspeckle = none := by
    intro h
    clear hl hg her none1
    induction ss using List.reverseRecOn with
    | nil => rfl
    | append_singleton ss s ih =>
      have := ih fun a b m n hm => h a b m n (by simp [hm])
      rw [List.foldl_append, List.foldl_cons, List.foldl_nil]
      cases s with
      | number a b m n => exact absurd (List.mem_append_right _ (List.mem_singleton.2 rfl)) (h a b m n)
      | _ => exact this
  set a := ss.foldl terApply terDefaults with ha
  rw [← terMissing_of her]
  constructor
  · intro hmiss
    have hpar := parse_settings goodTables.2.2.2.1 TerSet.names terOf (fun s _ => ocutenter_reads s) hl ht
    rw [runaba_call (c := .ocutenter a) e env ?_ hf]
    · have : (AbaCall.ocutenter a).onContent e env p (.doc y) fs = (fs, .error (terMissing env y a)) := by
        simp only [AbaCall.onContent, loadSettings]
        rcases hmiss with h | h
        · rw [none1 h]
        · rw [none2 h]; cases a.speckle <;> rfl
      rw [this]
      rfl
    · rw [readAba_name plain_ocutenter, abaCommand_ocutenter]
      simp only
      rw [readCommand_parsed hpar (lastOcc_map_none _ _ terOf_ne_help ss), terArgs_fold ss hg, hp]
      rfl
  · intro hm h
    have hpar := parse_settings goodTables.2.2.2.2.1 TerSet.names terOf (fun s hs => ocumakert_reads s (hm s hs)) hl ht
    rw [runaba_call (c := .ocumakert a) e env ?_ hf]
    · have : (AbaCall.ocumakert a).onContent e env p (.doc y) fs = (fs, .error (terMissing env y a)) := by
        simp only [AbaCall.onContent, loadSettings]
        rw [none1 h]
      rw [this]
      rfl
    · rw [readAba_name plain_ocumakert, abaCommand_ocumakert]
      simp only
      rw [readCommand_parsed hpar (lastOcc_map_none _ _ terOf_ne_help ss), terArgs_fold ss hg, hp]
      rfl

/-! ### `runati` -/

/-- a value that is not of the documented type -/
def atiBad : AtiSet → Prop
  | .radius w _ => ∃ er, parseFloat w = .error er
  | .scale a b c _ _ _ => (∃ er, parseInt a = .error er) ∨ (∃ er, parseInt b = .error er) ∨ ∃ er, parseInt c = .error er
  | .outmode w => w ≠ "vasp".toList ∧ w ≠ "yaml".toList ∧ w ≠ "stdio".toList
  | _ => False

/-- the option a setting belongs to -/
def atiKind : AtiSet → ℕ
  | .center _ => 0
  | .radius _ _ => 1
  | .remove _ => 2
  | .refined _ => 3
  | .scale _ _ _ _ _ _ => 4
  | .outmode _ => 5

theorem atiOf_dest {s t : AtiSet} (h : atiKind t ≠ atiKind s) : (atiOf t).1 ≠ (atiOf s).1 := by
  cases s <;> cases t <;> first | exact absurd rfl h | simp [atiOf]

/-- C112: a radius that is no number, factors that are no integers and other output formats are rejected by the commands of `runati`, if the setting is the
last of its option. -/
theorem C112_bad_value_ati (e : Ext) (fuel : ℕ) (norm : V3 ℚ → ℚ) (rand : List (V3 ℚ)) (fs : Fs) {a b : List AtiSet} {s : AtiSet} {ps qs tail l : List Word}
    (hl : Line atiSpells tail (a ++ s :: b) ps l) (ht : Tail qs tail) (hb : atiBad s) (h : ∀ t ∈ b, atiKind t ≠ atiKind s) :
    ((∀ t ∈ a ++ s :: b, atclearHas t) → runati e fuel norm rand ("atclear".toList :: l) fs = (fs, some .usage)) ∧
    ((∀ t ∈ a ++ s :: b, perturbHas t) → runati e fuel norm rand ("perturb".toList :: l) fs = (fs, some .usage)) ∧
    ((∀ t ∈ a ++ s :: b, supcellHas t) → runati e fuel norm rand ("supcell".toList :: l) fs = (fs, some .usage)) ∧
    ((∀ t ∈ a ++ s :: b, pcellHas t) → runati e fuel norm rand ("pcell".toList :: l) fs = (fs, some .usage)) := by
  have last : lastOcc ((a ++ s :: b).map atiOf) (atiOf s).1 = some (atiOf s).2 := lastOcc_mid atiOf a b s fun t ht => atiOf_dest (h t ht)
  have hs : s ∈ a ++ s :: b := by simp
  have bad : (atiKind s = 1 ∧ floatOpt ((a ++ s :: b).map atiOf) "radius" = none) ∨ (atiKind s = 4 ∧ intTripleOpt ((a ++ s :: b).map atiOf) "scale" = none) ∨
      (atiKind s = 5 ∧ outModeOpt ((a ++ s :: b).map atiOf) = none) := by
    cases s with
    | radius w x =>
      left
      obtain ⟨er, hb⟩ := hb
      refine ⟨rfl, ?_⟩
      unfold floatOpt textOpt
      rw [show lastOcc _ "radius" = _ from last]
      simp only [atiOf, hb]
    | scale w1 w2 w3 x y z =>
      right; left
      refine ⟨rfl, ?_⟩
      unfold intTripleOpt
      rw [show lastOcc _ "scale" = _ from last]
      simp only [atiOf]
      rcases hb with ⟨er, h⟩ | ⟨er, h⟩ | ⟨er, h⟩
      · rw [h]
      · rw [h]; cases parseInt w1 <;> rfl
      · rw [h]; cases parseInt w1 <;> cases parseInt w2 <;> rfl
    | outmode w =>
      right; right
      refine ⟨rfl, ?_⟩
      unfold outModeOpt textOpt
      rw [show lastOcc _ "outmode" = _ from last]
      simp only [atiOf]
      rw [if_neg hb.1, if_neg hb.2.1, if_neg hb.2.2]
    | _ => exact hb.elim
  refine ⟨fun hh => ?_, fun hh => ?_, fun hh => ?_, fun hh => ?_⟩
  · have hpar := parse_settings goodTables.2.2.2.2.2.1 AtiSet.names atiOf (fun s hs => atclear_reads s (hh s hs)) hl ht
    have hf : floatOpt ((a ++ s :: b).map atiOf) "radius" = none := by
      have := hh s hs
      rcases bad with h | h | h
      · exact h.2
      all_goals cases s <;> simp [atiKind, atclearHas] at h this
    unfold runati
    rw [readAti_name plain_atclear, atiCommand_atclear]
    simp only
    rw [readCommand_parsed hpar (lastOcc_map_none _ _ atiOf_ne_help _)]
    unfold atclearCall
    rw [hf]
    cases textOpt ((a ++ s :: b).map atiOf) "cenele" <;> rfl
  · have hpar := parse_settings goodTables.2.2.2.2.2.2.1 AtiSet.names atiOf (fun s hs => perturb_reads s (hh s hs)) hl ht
    have hf : floatOpt ((a ++ s :: b).map atiOf) "radius" = none := by
      have := hh s hs
      rcases bad with h | h | h
      · exact h.2
      all_goals cases s <;> simp [atiKind, perturbHas] at h this
    unfold runati
    rw [readAti_name plain_perturb, atiCommand_perturb]
    simp only
    rw [readCommand_parsed hpar (lastOcc_map_none _ _ atiOf_ne_help _)]
    unfold perturbCall
    rw [hf]
    rfl
  · have hpar := parse_settings goodTables.2.2.2.2.2.2.2.1 AtiSet.names atiOf (fun s hs => supcell_reads s (hh s hs)) hl ht
    have hf : supcellCall ((a ++ s :: b).map atiOf) = none := by
      have := hh s hs
      unfold supcellCall
      rcases bad with h | h | h
      · cases s <;> simp [atiKind, supcellHas] at h this
      · rw [h.2]
      · rw [h.2]; cases intTripleOpt ((a ++ s :: b).map atiOf) "scale" <;> rfl
    unfold runati
    rw [readAti_name plain_supcell, atiCommand_supcell]
    simp only
    rw [readCommand_parsed hpar (lastOcc_map_none _ _ atiOf_ne_help _), hf]
    rfl
  · have hpar := parse_settings goodTables.2.2.2.2.2.2.2.2 AtiSet.names atiOf (fun s hs => pcell_reads s (hh s hs)) hl ht
    have hf : outModeOpt ((a ++ s :: b).map atiOf) = none := by
      have := hh s hs
      rcases bad with h | h | h
      · cases s <;> simp [atiKind, pcellHas] at h this
      · cases s <;> simp [atiKind, pcellHas] at h this
      · exact h.2
    unfold runati
    rw [readAti_name plain_pcell, atiCommand_pcell]
    simp only
    rw [readCommand_parsed hpar (lastOcc_map_none _ _ atiOf_ne_help _)]
    unfold pcellCall
    rw [hf]
    rfl

/-! ### Inputs that are directories, and `supcell` without a scale -/

/-- the error of reading a directory as a structure: without a known ending the format is not chosen -/
def DirError (p : Word) (er : PyErr) : Prop :=
  ((WantsYaml p none ∨ WantsVasp p none) ∧ er = .osError) ∨ (¬ WantsYaml p none ∧ ¬ WantsVasp p none ∧ er = .unboundLocalError)

theorem dirError_dispatch (p : Word) : ∃ er, DirError p er ∧ (∀ o, (AbaCall.ocubiter o).onDirectory p = er) ∧ (∀ o, (AbaCall.ocumaker o).onDirectory p = er) ∧
    ∀ c v ld m, (AbaCall.suplat c v ld m).onDirectory p = er := by
  obtain ⟨h1, h2, h3⟩ := C51_dispatch p none
  by_cases a : WantsYaml p none
  · exact ⟨_, .inl ⟨.inl a, rfl⟩, by simp [AbaCall.onDirectory, h1.2 a]⟩
  by_cases b : WantsVasp p none
  · exact ⟨_, .inl ⟨.inr b, rfl⟩, by simp [AbaCall.onDirectory, h2.2 ⟨a, b⟩]⟩
  · exact ⟨_, .inr ⟨a, b, rfl⟩, by simp [AbaCall.onDirectory, h3.2 ⟨a, b⟩]⟩

theorem runaba_directory (e : Ext) (env : CliEnv) {words : List Word} {p c} (hr : readAba words = .call p c) {fs : Fs} (h1 : p ∈ fs.dirs)
    (h2 : dictGet fs.files p = none) : runaba e env words fs = (fs, .raised (c.onDirectory p)) := by
  unfold runaba
  have : fs.has p = true := by
    unfold Fs.has
    rw [Bool.or_eq_true]
    left
    simpa using h1
  rw [hr]
  simp only [this, h2, if_true]

/-- C112: a directory given as the input of a correct line is not read: `ocutenter` and `ocumakert` fail on opening it, the others on choosing the format by
its name or on opening it. Nothing is written. -/
theorem C112_directory (e : Ext) (env : CliEnv) {p : Word} {fs : Fs} (h1 : p ∈ fs.dirs) (h2 : dictGet fs.files p = none) {ps qs tail l : List Word}
    (ht : Tail qs tail) (hp : ps ++ qs = [p]) :
    (∀ ss, Line terSpells tail ss ps l → (∀ s ∈ ss, terGood s) → runaba e env ("ocutenter".toList :: l) fs = (fs, .raised .osError) ∧
      ((∀ s ∈ ss, terOnly s = false) → runaba e env ("ocumakert".toList :: l) fs = (fs, .raised .osError))) ∧
    (∀ ss, Line occSpells tail ss ps l → (∀ s ∈ ss, occGood s) → ∃ er, DirError p er ∧ runaba e env ("ocubiter".toList :: l) fs = (fs, .raised er) ∧
      ((∀ s ∈ ss, occIsMove s = false) → runaba e env ("ocumaker".toList :: l) fs = (fs, .raised er))) ∧
    ∀ ss, Line supSpells tail ss ps l → (∀ s ∈ ss, supGood s) → ∃ er, DirError p er ∧ runaba e env ("suplat".toList :: l) fs = (fs, .raised er) := by
  refine ⟨fun ss hl hg => ⟨?_, fun hm => ?_⟩, fun ss hl hg => ?_, fun ss hl hg => ?_⟩
  · have hpar := parse_settings goodTables.2.2.2.1 TerSet.names terOf (fun s _ => ocutenter_reads s) hl ht
    rw [runaba_directory (c := .ocutenter (ss.foldl terApply terDefaults)) e env ?_ h1 h2]
    · rfl
    rw [readAba_name plain_ocutenter, abaCommand_ocutenter]
    simp only
    rw [readCommand_parsed hpar (lastOcc_map_none _ _ terOf_ne_help ss), terArgs_fold ss hg, hp]
    rfl
  · have hpar := parse_settings goodTables.2.2.2.2.1 TerSet.names terOf (fun s hs => ocumakert_reads s (hm s hs)) hl ht
    rw [runaba_directory (c := .ocumakert (ss.foldl terApply terDefaults)) e env ?_ h1 h2]
    · rfl
    rw [readAba_name plain_ocumakert, abaCommand_ocumakert]
    simp only
    rw [readCommand_parsed hpar (lastOcc_map_none _ _ terOf_ne_help ss), terArgs_fold ss hg, hp]
    rfl
  · obtain ⟨er, her, d1, d2, d3⟩ := dirError_dispatch p
    refine ⟨er, her, ?_, fun hm => ?_⟩
    · have hpar := parse_settings goodTables.2.2.1 OccSet.names occOf (fun s _ => ocubiter_reads s) hl ht
      rw [runaba_directory (c := .ocubiter (ss.foldl occApply occDefaults)) e env ?_ h1 h2]
      · rw [d1]
      rw [readAba_name plain_ocubiter, abaCommand_ocubiter]
      simp only
      rw [readCommand_parsed hpar (lastOcc_map_none _ _ occOf_ne_help ss), occOpts_fold ss hg, hp]
      rfl
    · have hpar := parse_settings goodTables.2.1 OccSet.names occOf (fun s hs => ocumaker_reads s (hm s hs)) hl ht
      rw [runaba_directory (c := .ocumaker (ss.foldl occApply occDefaults)) e env ?_ h1 h2]
      · rw [d2]
      rw [readAba_name plain_ocumaker, abaCommand_ocumaker]
      simp only
      rw [readCommand_parsed hpar (lastOcc_map_none _ _ occOf_ne_help ss), occOpts_fold ss hg, hp]
      rfl
  · obtain ⟨er, her, d1, d2, d3⟩ := dirError_dispatch p
    refine ⟨er, her, ?_⟩
    have hpar := parse_settings goodTables.1 SupSet.names supOf (fun s _ => suplat_reads s) hl ht
    set a := ss.foldl supApply supDefaults with ha
    rw [runaba_directory (c := .suplat a.comment a.volumn a.ld a.outmode) e env ?_ h1 h2]
    · rw [d3]
    rw [readAba_name plain_suplat, abaCommand_suplat]
    simp only
    rw [readCommand_parsed hpar (lastOcc_map_none _ _ supOf_ne_help ss), hp]
    obtain ⟨⟨v, h1, h1'⟩, h2, h3, h4⟩ := sup_fold ss hg
    unfold suplatCall
    rw [h1, h2, h3, h4]
    simp only [callOf, h1']
    rfl

/-- C112: `supcell` without `--scale` ends with a ValueError after the file was read, or with the error of reading it. -/
theorem C112_no_scale (e : Ext) (fuel : ℕ) (norm : V3 ℚ → ℚ) (rand : List (V3 ℚ)) {ss : List AtiSet} {ps qs tail l : List Word} {p : Word} {fs : Fs}
    (hl : Line atiSpells tail ss ps l) (ht : Tail qs tail) (hp : ps ++ qs = [p]) (hg : ∀ s ∈ ss, atiGood s) (hh : ∀ s ∈ ss, pcellHas s)
    {content : FileContent} (hf : dictGet fs.files p = some content) :
    (∀ c, readFile e.root content p none = .ok c → runati e fuel norm rand ("supcell".toList :: l) fs = (fs, some (.raised .valueError))) ∧
      ∀ er, readFile e.root content p none = .error er → runati e fuel norm rand ("supcell".toList :: l) fs = (fs, some (.raised er)) := by
  have hpar := parse_settings goodTables.2.2.2.2.2.2.2.1 AtiSet.names atiOf (fun s hs => supcell_reads s (by
    have := hh s hs; cases s <;> simp_all [pcellHas, supcellHas])) hl ht
  obtain ⟨⟨r, h1, h1'⟩, h2, h3, h4, h5, h6⟩ := ati_fold ss hg
  have hnone : (ss.foldl atiApply atiDefaults).scale = none := by
    clear hl hg hpar h1 h1' h2 h3 h4 h5 h6
    induction ss using List.reverseRecOn with
    | nil => rfl
    | append_singleton ss s ih =>
      have := ih fun s hs => hh s (by simp [hs])
      have hs := hh s (by simp)
      rw [List.foldl_append, List.foldl_cons, List.foldl_nil]
      cases s with
      | outmode w => exact this
      | _ => exact hs.elim
  have key : readAti ("supcell".toList :: l) = .call p (.supcell none (ss.foldl atiApply atiDefaults).outmode) := by
    rw [readAti_name plain_supcell, atiCommand_supcell]
    simp only
    rw [readCommand_parsed hpar (lastOcc_map_none _ _ atiOf_ne_help ss), hp]
    unfold supcellCall
    rw [h2, h6, hnone]
    rfl
  have hrun : runati e fuel norm rand ("supcell".toList :: l) fs = (fs, some (supcellNoScale e p fs)) := by
    unfold runati
    rw [key]
    rfl
  have hno : supcellNoScale e p fs = match readFile e.root content p none with | .error er => .raised er | .ok _ => .raised .valueError := by
    unfold supcellNoScale
    rw [if_pos (dictHas_of_get hf), hf]
    simp only
    unfold readFile
    cases dispatch p none <;> rfl
  constructor
  · intro c hc
    rw [hrun, hno, hc]
  · intro er hc
    rw [hrun, hno, hc]

/-! ### Concrete lines -/

/-- `--zoom=big in.yaml` and `-r x in.vasp` -/
example (e : Ext) (env : CliEnv) (fs : Fs) : runaba e env ["ocumakert".toList, "--zoom=big".toList, "in.yaml".toList] fs = (fs, .usage) :=
  (C112_bad_value_ter e env fs (a := []) (b := []) (s := .zoom "big".toList 0)
    (.setting (TerSet.zoom "big".toList 0) ["--zoom=big".toList] (Or.inr (Or.inl ⟨"big".toList, [], rfl, by decide +kernel⟩)) (.word "in.yaml".toList (plain_of (by decide)) .done))
    .nil ⟨.valueError, by decide +kernel⟩ (.inr (by simp))).2 (by simp [terOnly])

example (e : Ext) (fuel : ℕ) (norm : V3 ℚ → ℚ) (rand : List (V3 ℚ)) (fs : Fs) :
    runati e fuel norm rand ["perturb".toList, "-r".toList, "x".toList, "in.vasp".toList] fs = (fs, some .usage) :=
  (C112_bad_value_ati e fuel norm rand fs (a := []) (b := []) (s := .radius "x".toList 0)
    (.setting (AtiSet.radius "x".toList 0) ["-r".toList, "x".toList] (Or.inr (Or.inr ⟨'r', rfl, Or.inl (by decide +kernel)⟩)) (.word "in.vasp".toList (plain_of (by decide)) .done))
    .nil ⟨.valueError, by decide +kernel⟩ (by simp)).2.1 (by simp [perturbHas])

/-- settings without numbers, and complete ones -/
example (env : CliEnv) : MissingError env ⟨none, some ((3, 0, 0), (0, 3, 0), (0, 0, 3)), some [(0, 0, 0)], none, none⟩ none .keyError ∧
    MissingError env ⟨none, some ((3, 0, 0), (0, 3, 0), (0, 0, 3)), some [(0, 0, 0), (1 / 2, 0, 0)], some [5, 5], none⟩ none env.missing :=
  ⟨.key (by simp), .unpack rfl rfl rfl (by simp) (by simp) (.inl ⟨rfl, by simp⟩)⟩

/-- a directory `out.vasp`, and a directory without an ending -/
example (e : Ext) (env : CliEnv) : runaba e env ["ocubiter".toList, "out.vasp".toList] ⟨["out.vasp".toList], []⟩ = (⟨["out.vasp".toList], []⟩, .raised .osError) ∧
    runaba e env ["suplat".toList, "out".toList] ⟨["out".toList], []⟩ = (⟨["out".toList], []⟩, .raised .unboundLocalError) := by
  constructor
  · obtain ⟨er, h1, h2, -⟩ := (C112_directory e env (p := "out.vasp".toList) (fs := ⟨["out.vasp".toList], []⟩) (by simp) rfl (ps := ["out.vasp".toList]) .nil rfl).2.1 []
      (.word _ (plain_of (by decide)) .done) (by simp)
    rcases h1 with ⟨-, rfl⟩ | ⟨-, h1, -⟩
    · exact h2
    · exact absurd (Or.inr (Or.inl (by decide +kernel))) h1
  · obtain ⟨er, h1, h2⟩ := (C112_directory e env (p := "out".toList) (fs := ⟨["out".toList], []⟩) (by simp) rfl (ps := ["out".toList]) .nil rfl).2.2 []
      (.word _ (plain_of (by decide)) .done) (by simp)
    rcases h1 with ⟨h | h, -⟩ | ⟨-, -, rfl⟩
    · exact absurd ((C51_dispatch "out".toList none).1.2 h) (by decide +kernel)
    · by_cases hy : WantsYaml "out".toList none
      · exact absurd ((C51_dispatch "out".toList none).1.2 hy) (by decide +kernel)
      · exact absurd ((C51_dispatch "out".toList none).2.1.2 ⟨hy, h⟩) (by decide +kernel)
    · exact h2

/-- `supcell in.yaml` without a scale -/
example (e : Ext) (fuel : ℕ) (norm : V3 ℚ → ℚ) (rand : List (V3 ℚ)) (fs : Fs)
    (hf : dictGet fs.files "in.yaml".toList = some (.doc ⟨none, some ((3, 0, 0), (0, 3, 0), (0, 0, 3)), some [(0, 0, 0)], some [5], some 1⟩)) :
    runati e fuel norm rand ["supcell".toList, "in.yaml".toList] fs = (fs, some (.raised .valueError)) := by
  refine (C112_no_scale e fuel norm rand (ss := []) (.word "in.yaml".toList (plain_of (by decide)) .done) .nil rfl (by simp) (by simp) hf).1
    ⟨((3, 0, 0), (0, 3, 0), (0, 0, 3)), [(0, 0, 0)], [5], [5], 1⟩ ?_
  have h : ∀ r : ℚ → ℚ, readFile r (.doc ⟨none, some ((3, 0, 0), (0, 3, 0), (0, 0, 3)), some [(0, 0, 0)], some [5], some 1⟩) "in.yaml".toList none =
      readFile id (.doc ⟨none, some ((3, 0, 0), (0, 3, 0), (0, 0, 3)), some [(0, 0, 0)], some [5], some 1⟩) "in.yaml".toList none := by
    intro r
    have hd : dispatch "in.yaml".toList none = .ok .yaml := by decide +kernel
    unfold readFile
    rw [hd]
    rfl
  rw [h]
  decide +kernel

end Verif
