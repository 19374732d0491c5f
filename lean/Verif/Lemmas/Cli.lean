import Verif.Model.Cli
import Verif.Spec.Cli

/-! # Lemmas on the reading of command lines -/

namespace Verif

open Spec

/-! ### fuel -/

theorem useLong_length {d : OptDecl} {g rest o rest'} (hd : d.act ≠ .take 0) (h : useLong d g rest = some (o, rest')) :
    rest'.length ≤ rest.length := by
  unfold useLong at h
  cases ha : d.act with
  | take n =>
    rw [ha] at h hd
    simp only at h
    split at h
    · cases h
    · cases h
      have hn : n ≠ 0 := fun e => hd (by rw [e])
      cases g <;> simp only [Option.toList_none, Option.toList_some, List.length_drop, List.length_append, List.length_nil,
        List.length_singleton] <;> omega
  | set b =>
    rw [ha] at h
    cases g with
    | none => cases h; exact le_rfl
    | some v => cases h

theorem useShorts_length {t : List OptDecl} (ht : ∀ d ∈ t, d.act ≠ .take 0) :
    ∀ (cs : List Char) {rest os rest'}, useShorts t cs rest = some (os, rest') → rest'.length ≤ rest.length := by
  intro cs
  induction cs with
  | nil => intro rest os rest' h; cases h; exact le_rfl
  | cons c cs ih =>
    intro rest os rest' h
    unfold useShorts at h
    cases hf : findShort t c with
    | none => rw [hf] at h; cases h
    | some d =>
      have hd := ht d (List.mem_of_find?_eq_some hf)
      rw [hf] at h
      cases ha : d.act with
      | take n =>
        have hn : n ≠ 0 := fun e => hd (by rw [ha, e])
        simp only [ha, Option.ite_none_left_eq_some] at h
        obtain ⟨-, h⟩ := h
        cases h
        split <;> simp only [List.length_drop, List.length_append, List.length_nil, List.length_singleton] <;> omega
      | set b =>
        simp only [ha] at h
        cases hr : useShorts t cs rest with
        | none => rw [hr] at h; cases h
        | some r =>
          rw [hr] at h
          cases h
          exact ih hr

theorem useWord_length {t : List OptDecl} (ht : ∀ d ∈ t, d.act ≠ .take 0) {w rest os rest'} (h : useWord t w rest = some (os, rest')) :
    rest'.length ≤ rest.length := by
  unfold useWord at h
  cases hf : findLong t (splitEq w).1 with
  | some d =>
    rw [hf] at h
    simp only [Option.map_eq_some_iff] at h
    obtain ⟨⟨o, r⟩, h1, h2⟩ := h
    cases h2
    exact useLong_length (ht d (List.mem_of_find?_eq_some hf)) h1
  | none =>
    rw [hf] at h
    simp only at h
    split at h
    · cases h
    · exact useShorts_length ht _ h

theorem parseArgs_fuel {t : List OptDecl} (ht : ∀ d ∈ t, d.act ≠ .take 0) :
    ∀ (k : ℕ) (l : List Word), l.length < k → parseArgs t k l = parseArgs t (l.length + 1) l := by
  intro k
  induction k using Nat.strong_induction_on with
  | _ k ih =>
  intro l hl
  obtain ⟨k, rfl⟩ : ∃ j, k = j + 1 := ⟨k - 1, by omega⟩
  cases l with
  | nil => rfl
  | cons w rest =>
    simp only [List.length_cons] at hl
    have key : ∀ r : List Word, r.length ≤ rest.length → parseArgs t k r = parseArgs t (rest.length + 1) r := by
      intro r hr
      rw [ih k (by omega) r (by omega)]
      by_cases hk : rest.length + 1 < k + 1
      · rw [ih (rest.length + 1) hk r (by omega)]
      · have : k = rest.length + 1 := by omega
        rw [← this, ih k (by omega) r (by omega)]
    rw [parseArgs, List.length_cons, parseArgs]
    rw [key rest le_rfl]
    cases hu : useWord t w rest with
    | none => rfl
    | some r =>
      have := useWord_length ht (os := r.1) (rest' := r.2) (by rw [hu])
      simp only [key r.2 this]

/-- parsing with enough fuel -/
def parseAll (t : List OptDecl) (l : List Word) : Option (List (String × Occ) × List Word) := parseArgs t (l.length + 1) l

theorem parseAll_nil (t : List OptDecl) : parseAll t [] = some ([], []) := rfl

theorem parseAll_stop (t : List OptDecl) (qs : List Word) : parseAll t (['-', '-'] :: qs) = some ([], qs) := by
  simp [parseAll, parseArgs]

/-- results before and after -/
def joinParse (o : List (String × Occ)) (p : List Word) (r : Option (List (String × Occ) × List Word)) : Option (List (String × Occ) × List Word) :=
  r.map fun r => (o ++ r.1, p ++ r.2)

theorem optWord_plain {w : Word} (hw : Plain w) : optWord w = false ∧ w ≠ ['-', '-'] := by
  rcases hw with hw | rfl
  · constructor
    · unfold optWord
      split
      · rename_i c r
        exact absurd rfl (hw (c :: r))
      · rfl
    · exact hw _
  · exact ⟨rfl, by decide⟩

theorem parseAll_word (t : List OptDecl) {w : Word} (hw : Plain w) (l : List Word) :
    parseAll t (w :: l) = joinParse [] [w] (parseAll t l) := by
  obtain ⟨h1, h2⟩ := optWord_plain hw
  unfold parseAll joinParse
  rw [List.length_cons, parseArgs, if_neg h2, h1, if_neg Bool.false_ne_true]
  cases parseArgs t (l.length + 1) l <;> rfl

theorem parseAll_opt {t : List OptDecl} (ht : ∀ d ∈ t, d.act ≠ .take 0) {w : Word} (h1 : optWord w = true) (h2 : w ≠ ['-', '-'])
    {rest rest' : List Word} {os} (hu : useWord t w rest = some (os, rest')) :
    parseAll t (w :: rest) = joinParse os [] (parseAll t rest') := by
  have hl := useWord_length ht hu
  unfold parseAll joinParse
  rw [List.length_cons, parseArgs, if_neg h2, h1, if_pos rfl, hu]
  simp only
  rw [parseArgs_fuel ht _ rest' (by omega)]
  cases parseArgs t (rest'.length + 1) rest' <;> rfl

theorem parseAll_bad {t : List OptDecl} {w : Word} (h1 : optWord w = true) (h2 : w ≠ ['-', '-']) {rest : List Word}
    (hu : useWord t w rest = none) : parseAll t (w :: rest) = none := by
  unfold parseAll
  rw [List.length_cons, parseArgs, if_neg h2, h1, if_pos rfl, hu]

/-! ### one setting -/

theorem splitEq_no {w : Word} (h : '=' ∉ w) : splitEq w = (w, none) := by
  have hp : ∀ x ∈ w, decide (x ≠ '=') = true := by
    intro x hx
    simp only [ne_eq, decide_eq_true_eq]
    rintro rfl; exact h hx
  have h1 : w.takeWhile (· ≠ '=') = w := by
    have := List.takeWhile_append_of_pos (l₂ := []) hp
    simpa using this
  have h2 : w.dropWhile (· ≠ '=') = [] := by
    have := List.dropWhile_append_of_pos (l₂ := []) hp
    simpa using this
  unfold splitEq
  rw [h1, h2]

theorem splitEq_eq {w v : Word} (h : '=' ∉ w) : splitEq (w ++ '=' :: v) = (w, some v) := by
  have hp : ∀ x ∈ w, decide (x ≠ '=') = true := by
    intro x hx
    simp only [ne_eq, decide_eq_true_eq]
    rintro rfl; exact h hx
  have h1 : (w ++ '=' :: v).takeWhile (· ≠ '=') = w := by
    rw [List.takeWhile_append_of_pos hp]; simp
  have h2 : (w ++ '=' :: v).dropWhile (· ≠ '=') = '=' :: v := by
    rw [List.dropWhile_append_of_pos hp]; simp
  unfold splitEq
  rw [h1, h2]

/-- the table knows the names of a setting: `long` and `short` lead to `d`, and a word with a single dash is no long name -/
structure Declared (t : List OptDecl) (long : Word) (short : Option Char) (d : OptDecl) : Prop where
  long_ok : findLong t long = some d
  dashes : ∃ m, long = '-' :: '-' :: m ∧ m ≠ []
  noEq : '=' ∉ long
  short_ok : ∀ c, short = some c → findShort t c = some d ∧ c ≠ '-'
  longs : ∀ d' ∈ t, ∀ n ∈ d'.longs, n.take 2 = ['-', '-']

theorem findLong_single {t : List OptDecl} (hl : ∀ d' ∈ t, ∀ n ∈ d'.longs, n.take 2 = ['-', '-']) {c : Char} (hc : c ≠ '-') (v : Word) :
    findLong t (splitEq ('-' :: c :: v)).1 = none := by
  unfold findLong
  rw [List.find?_eq_none]
  intro d hd hcon
  have hm : (splitEq ('-' :: c :: v)).1 ∈ d.longs := by simpa using hcon
  have := hl d hd _ hm
  unfold splitEq at this
  by_cases he : c = '='
  · subst he; simp at this
  · simp [he, hc] at this

/-- the setting of an option that takes values -/
theorem useWord_value {t : List OptDecl} {long short d} (h : Declared t long short d) {values ws : List Word}
    (ha : d.act = .take values.length) (hv : values ≠ []) (hs : Spells long short values ws) (l : List Word) :
    ∃ w r, ws = w :: r ∧ optWord w = true ∧ w ≠ ['-', '-'] ∧ useWord t w (r ++ l) = some ([(d.dest, .vals values)], l) := by
  obtain ⟨m, hm, hm0⟩ := h.dashes
  have hlong : optWord long = true ∧ long ≠ ['-', '-'] := by
    subst hm
    refine ⟨rfl, ?_⟩
    simpa using hm0
  rcases hs with rfl | ⟨v, vs, rfl, rfl⟩ | ⟨c, hc, hs⟩
  · refine ⟨_, _, rfl, hlong.1, hlong.2, ?_⟩
    unfold useWord
    rw [splitEq_no h.noEq, h.long_ok]
    simp [useLong, ha]
  · refine ⟨_, _, rfl, ?_, ?_, ?_⟩
    · subst hm; rfl
    · subst hm; simp
    · unfold useWord
      rw [splitEq_eq h.noEq, h.long_ok]
      simp [useLong, ha]
  · obtain ⟨hf, hd⟩ := h.short_ok c hc
    rcases hs with rfl | ⟨v, vs, rfl, hv0, rfl⟩
    · refine ⟨_, _, rfl, rfl, by simpa using hd, ?_⟩
      unfold useWord
      rw [findLong_single h.longs hd]
      simp [useShorts, hf, ha, hd]
    · refine ⟨_, _, rfl, rfl, by simp [hd], ?_⟩
      unfold useWord
      rw [findLong_single h.longs hd]
      simp [useShorts, hf, ha, hd, hv0]

/-- the setting of a switch -/
theorem useWord_switch {t : List OptDecl} {long short d} (h : Declared t long short d) {ws : List Word} {b}
    (ha : d.act = .set b) (hs : Spells long short [] ws) (l : List Word) :
    ∃ w r, ws = w :: r ∧ optWord w = true ∧ w ≠ ['-', '-'] ∧ useWord t w (r ++ l) = some ([(d.dest, .flag b)], l) := by
  obtain ⟨m, hm, hm0⟩ := h.dashes
  rcases hs with rfl | ⟨v, vs, hv, rfl⟩ | ⟨c, hc, hs⟩
  · refine ⟨_, _, rfl, by subst hm; rfl, by subst hm; simpa using hm0, ?_⟩
    unfold useWord
    rw [splitEq_no h.noEq, h.long_ok]
    simp [useLong, ha]
  · cases hv
  · obtain ⟨hf, hd⟩ := h.short_ok c hc
    rcases hs with rfl | ⟨v, vs, hv, _, rfl⟩
    · refine ⟨_, _, rfl, rfl, by simpa using hd, ?_⟩
      unfold useWord
      rw [findLong_single h.longs hd]
      simp [useShorts, hf, ha, hd]
    · cases hv

/-- a setting leads to a setting of the table -/
def Reads (t : List OptDecl) (names : Word × Option Char × List Word) (o : String × Occ) : Prop :=
  ∃ d, Declared t names.1 names.2.1 d ∧
    ((d.act = .take names.2.2.length ∧ names.2.2 ≠ [] ∧ o = (d.dest, .vals names.2.2)) ∨
      ∃ b, d.act = .set b ∧ names.2.2 = [] ∧ o = (d.dest, .flag b))

/-- `Declared`, decidable -/
def declaredB (t : List OptDecl) (long : Word) (short : Option Char) (d : OptDecl) : Bool :=
  decide (findLong t long = some d) && decide (long.take 2 = ['-', '-']) && decide (2 < long.length) && decide ('=' ∉ long) &&
    (match short with | none => true | some c => decide (findShort t c = some d) && decide (c ≠ '-')) &&
    decide (∀ d' ∈ t, ∀ n ∈ d'.longs, n.take 2 = ['-', '-'])

theorem declared_of {t long short d} (h : declaredB t long short d = true) : Declared t long short d := by
  simp only [declaredB, Bool.and_eq_true, decide_eq_true_eq] at h
  obtain ⟨⟨⟨⟨⟨h1, h2⟩, h3⟩, h4⟩, h5⟩, h6⟩ := h
  refine ⟨h1, ⟨long.drop 2, ?_, ?_⟩, h4, ?_, h6⟩
  · calc long = long.take 2 ++ long.drop 2 := (List.take_append_drop 2 long).symm
      _ = _ := by rw [h2]; rfl
  · intro e
    have := congrArg List.length e
    simp only [List.length_drop, List.length_nil] at this
    omega
  · rintro c rfl
    simpa using h5

theorem reads_value {t : List OptDecl} {long short values} (d : OptDecl) (h : declaredB t long short d = true)
    (ha : d.act = .take values.length) (hv : values ≠ []) : Reads t (long, short, values) (d.dest, .vals values) :=
  ⟨d, declared_of h, Or.inl ⟨ha, hv, rfl⟩⟩

theorem reads_switch {t : List OptDecl} {long short b} (d : OptDecl) (h : declaredB t long short d = true)
    (ha : d.act = .set b) : Reads t (long, short, []) (d.dest, .flag b) :=
  ⟨d, declared_of h, Or.inr ⟨b, ha, rfl, rfl⟩⟩

theorem useWord_reads {t : List OptDecl} {names o} (h : Reads t names o) {ws : List Word} (hs : Spells names.1 names.2.1 names.2.2 ws) (l : List Word) :
    ∃ w r, ws = w :: r ∧ optWord w = true ∧ w ≠ ['-', '-'] ∧ useWord t w (r ++ l) = some ([o], l) := by
  obtain ⟨d, hd, ⟨ha, hv, rfl⟩ | ⟨b, ha, hv, rfl⟩⟩ := h
  · exact useWord_value hd ha hv hs l
  · rw [hv] at hs
    exact useWord_switch hd ha hs l

theorem switch_letter {t : List OptDecl} {names o} (h : Reads t names o) {c : Char} (hs : Spells names.1 names.2.1 names.2.2 [['-', c]]) :
    ∃ d b, findShort t c = some d ∧ c ≠ '-' ∧ d.act = .set b ∧ o = (d.dest, .flag b) ∧ ∀ d' ∈ t, ∀ n ∈ d'.longs, n.take 2 = ['-', '-'] := by
  obtain ⟨d, hd, hact⟩ := h
  obtain ⟨m, hm, hm0⟩ := hd.dashes
  have hv : names.2.2 = [] ∧ names.2.1 = some c := by
    rcases hs with h1 | ⟨v, vs, h1, h2⟩ | ⟨c0, h0, h1 | ⟨v, vs, h1, h2, h3⟩⟩
    · rw [hm] at h1
      simp only [List.cons.injEq, true_and] at h1
      exact absurd h1.1.2.symm hm0
    · rw [hm] at h2
      simp at h2
    · simp only [List.cons.injEq, true_and, and_true] at h1
      exact ⟨h1.2.symm, by rw [h0, h1.1]⟩
    · simp only [List.cons.injEq, true_and] at h3
      exact absurd h3.1.2.symm h2
  obtain ⟨hf, hc⟩ := hd.short_ok c hv.2
  rcases hact with ⟨_, h2, _⟩ | ⟨b, h1, _, h3⟩
  · exact absurd hv.1 h2
  · exact ⟨d, b, hf, hc, h1, h3, hd.longs⟩

theorem parseAll_joined {t : List OptDecl} (ht : ∀ d ∈ t, d.act ≠ .take 0) {names o} (h : Reads t names o) {c : Char}
    (hs : Spells names.1 names.2.1 names.2.2 [['-', c]]) {r : Word} (hr : r ≠ []) (hr' : ∀ t, r ≠ '-' :: t) (l : List Word) :
    parseAll t (('-' :: c :: r) :: l) = joinParse [o] [] (parseAll t (('-' :: r) :: l)) := by
  obtain ⟨d, b, hf, hc, hact, rfl, hlongs⟩ := switch_letter h hs
  obtain ⟨c', r', rfl⟩ := List.exists_cons_of_ne_nil hr
  have hc' : c' ≠ '-' := fun e => hr' r' (by rw [e])
  have e1 : useWord t ('-' :: c :: c' :: r') l = (useShorts t (c' :: r') l).map fun x => ((d.dest, Occ.flag b) :: x.1, x.2) := by
    unfold useWord
    rw [findLong_single hlongs hc]
    simp only [List.take_succ_cons, List.take_zero, List.cons.injEq, hc, and_false, false_and, if_false, List.drop_succ_cons, List.drop_zero]
    rw [useShorts, hf]
    simp only [hact]
    cases useShorts t (c' :: r') l <;> rfl
  have e2 : useWord t ('-' :: c' :: r') l = useShorts t (c' :: r') l := by
    unfold useWord
    rw [findLong_single hlongs hc']
    simp [hc']
  cases hu : useShorts t (c' :: r') l with
  | none =>
    rw [parseAll_bad rfl (by simp [hc]) (by rw [e1, hu]; rfl), parseAll_bad rfl (by simp [hc']) (by rw [e2, hu])]
    rfl
  | some x =>
    rw [parseAll_opt ht rfl (by simp [hc]) (by rw [e1, hu]; rfl), parseAll_opt ht rfl (by simp [hc']) (os := x.1) (rest' := x.2) (by rw [e2, hu])]
    unfold joinParse
    cases parseAll t x.2 <;> rfl

theorem parseAll_line {S : Type} {t : List OptDecl} (ht : ∀ d ∈ t, d.act ≠ .take 0) (names : S → Word × Option Char × List Word)
    (occ : S → String × Occ) {tail ss ps l} (hr : ∀ s ∈ ss, Reads t (names s) (occ s))
    (h : Line (fun s ws => Spells (names s).1 (names s).2.1 (names s).2.2 ws) tail ss ps l) :
    parseAll t l = joinParse (ss.map occ) ps (parseAll t tail) := by
  induction h with
  | done => unfold joinParse; cases parseAll t tail <;> rfl
  | word w hw _ ih =>
    rw [parseAll_word t hw, ih hr]
    unfold joinParse
    cases parseAll t tail <;> rfl
  | setting s ws hs _ ih =>
    rename_i l0 _
    obtain ⟨w, r, rfl, h1, h2, hu⟩ := useWord_reads (hr s (List.mem_cons_self ..)) hs l0
    rw [List.cons_append, parseAll_opt ht h1 h2 hu, ih fun s' hs' => hr s' (List.mem_cons_of_mem _ hs')]
    unfold joinParse
    cases parseAll t tail <;> rfl
  | joined s c r hs h1 h2 _ ih =>
    rw [parseAll_joined ht (hr s (List.mem_cons_self ..)) hs h1 h2, ih fun s' hs' => hr s' (List.mem_cons_of_mem _ hs')]
    unfold joinParse
    cases parseAll t tail <;> rfl

theorem parseAll_tail {t : List OptDecl} {qs tail} (h : Tail qs tail) : parseAll t tail = some ([], qs) := by
  cases h with
  | nil => rfl
  | stop => exact parseAll_stop t qs

theorem parseAll_unknown {t : List OptDecl} {w : Word} (hw : Unknown (t.flatMap (·.longs)) (t.flatMap (·.shorts)) w)
    (hlongs : ∀ d' ∈ t, ∀ n ∈ d'.longs, n.take 2 = ['-', '-']) (rest : List Word) : parseAll t (w :: rest) = none := by
  rcases hw with ⟨n, r, rfl, hn0, hn, hnm, hr⟩ | ⟨c, r, rfl, hc, hs⟩
  · refine parseAll_bad rfl ?_ ?_
    · intro e
      have : n ++ r = [] := by simpa using e
      exact hn0 (List.append_eq_nil_iff.1 this).1
    · have he : '=' ∉ ('-' :: '-' :: n) := by simp [hn]
      have hs : (splitEq ('-' :: '-' :: n ++ r)).1 = '-' :: '-' :: n := by
        rcases hr with rfl | ⟨v, rfl⟩
        · rw [List.append_nil, splitEq_no he]
        · rw [splitEq_eq he]
      have hf : findLong t ('-' :: '-' :: n) = none := by
        unfold findLong
        rw [List.find?_eq_none]
        intro d hd hcon
        exact hnm (List.mem_flatMap.2 ⟨d, hd, by simpa using hcon⟩)
      unfold useWord
      rw [hs, hf]
      simp
  · refine parseAll_bad rfl (by simp [hc]) ?_
    unfold useWord
    rw [findLong_single hlongs hc]
    have hf : findShort t c = none := by
      unfold findShort
      rw [List.find?_eq_none]
      intro d hd hcon
      exact hs (List.mem_flatMap.2 ⟨d, hd, by simpa using hcon⟩)
    simp [hc, useShorts, hf]

/-! ### values -/

theorem lastOcc_snoc (os : List (String × Occ)) (o : String × Occ) (dest : String) :
    lastOcc (os ++ [o]) dest = if o.1 = dest then some o.2 else lastOcc os dest := by
  unfold lastOcc
  rw [List.foldl_append]
  rfl

theorem allOcc_snoc (os : List (String × Occ)) (o : String × Occ) (dest : String) :
    allOcc (os ++ [o]) dest = if o.1 = dest then allOcc os dest ++ [o.2] else allOcc os dest := by
  unfold allOcc
  rw [List.filter_append, List.map_append]
  by_cases h : o.1 = dest <;> simp [h]

theorem mapM_snoc {α β} (f : α → Option β) (l : List α) (a : α) :
    (l ++ [a]).mapM f = (l.mapM f).bind fun r => (f a).map fun b => r ++ [b] := by
  rw [List.mapM_append]
  simp only [bind, Option.bind, pure, List.mapM_cons, List.mapM_nil]
  cases l.mapM f with
  | none => rfl
  | some r => cases f a <;> rfl

section Snoc

variable {os : List (String × Occ)} {o : String × Occ} {dest : String}

theorem textOpt_other (h : o.1 ≠ dest) : textOpt (os ++ [o]) dest = textOpt os dest := by
  unfold textOpt; rw [lastOcc_snoc, if_neg h]
theorem switchOpt_other (h : o.1 ≠ dest) (b : Bool) : switchOpt (os ++ [o]) dest b = switchOpt os dest b := by
  unfold switchOpt; rw [lastOcc_snoc, if_neg h]
theorem pairOpt_other (h : o.1 ≠ dest) : pairOpt (os ++ [o]) dest = pairOpt os dest := by
  unfold pairOpt; rw [lastOcc_snoc, if_neg h]
theorem intOpt_other (h : o.1 ≠ dest) : intOpt (os ++ [o]) dest = intOpt os dest := by
  unfold intOpt; rw [textOpt_other h]
theorem floatOpt_other (h : o.1 ≠ dest) : floatOpt (os ++ [o]) dest = floatOpt os dest := by
  unfold floatOpt; rw [textOpt_other h]
theorem choiceOpt_other (h : o.1 ≠ dest) (c : List Word) (d : Word) : choiceOpt (os ++ [o]) dest c d = choiceOpt os dest c d := by
  unfold choiceOpt; rw [textOpt_other h]
theorem intPairOpt_other (h : o.1 ≠ dest) : intPairOpt (os ++ [o]) dest = intPairOpt os dest := by
  unfold intPairOpt; rw [pairOpt_other h]
theorem intTripleOpt_other (h : o.1 ≠ dest) : intTripleOpt (os ++ [o]) dest = intTripleOpt os dest := by
  unfold intTripleOpt; rw [lastOcc_snoc, if_neg h]
theorem restrictOpt_other (h : o.1 ≠ dest) : restrictOpt (os ++ [o]) dest = restrictOpt os dest := by
  unfold restrictOpt; rw [allOcc_snoc, if_neg h]

theorem textOpt_same (w : Word) : textOpt (os ++ [(dest, .vals [w])]) dest = some w := by
  unfold textOpt; rw [lastOcc_snoc, if_pos rfl]
theorem switchOpt_same (b d : Bool) : switchOpt (os ++ [(dest, .flag b)]) dest d = b := by
  unfold switchOpt; rw [lastOcc_snoc, if_pos rfl]
theorem pairOpt_same (a b : Word) : pairOpt (os ++ [(dest, .vals [a, b])]) dest = some (a, b) := by
  unfold pairOpt; rw [lastOcc_snoc, if_pos rfl]
theorem intOpt_same {w : Word} {n : ℤ} (h : parseInt w = .ok n) : intOpt (os ++ [(dest, .vals [w])]) dest = some (some n) := by
  unfold intOpt; rw [textOpt_same]; simp only [h]
theorem floatOpt_same {w : Word} {x : ℚ} (h : parseFloat w = .ok x) : floatOpt (os ++ [(dest, .vals [w])]) dest = some (some x) := by
  unfold floatOpt; rw [textOpt_same]; simp only [h]
theorem choiceOpt_same {w : Word} {c : List Word} (h : w ∈ c) (d : Word) : choiceOpt (os ++ [(dest, .vals [w])]) dest c d = some w := by
  unfold choiceOpt; rw [textOpt_same]; simp only [h, if_true]
theorem intPairOpt_same {a b : Word} {m n : ℤ} (h : parseInt a = .ok m) (h' : parseInt b = .ok n) :
    intPairOpt (os ++ [(dest, .vals [a, b])]) dest = some (some (m, n)) := by
  unfold intPairOpt; rw [pairOpt_same]; simp only [h, h']
theorem intTripleOpt_same {a b c : Word} {x y z : ℤ} (h : parseInt a = .ok x) (h' : parseInt b = .ok y) (h'' : parseInt c = .ok z) :
    intTripleOpt (os ++ [(dest, .vals [a, b, c])]) dest = some (some (x, y, z)) := by
  unfold intTripleOpt; rw [lastOcc_snoc, if_pos rfl]; simp only [h, h', h'']
theorem restrictOpt_same {w x : Word} {d : ℚ} (h : parseFloat x = .ok d) {r} (hr : restrictOpt os dest = some r) :
    restrictOpt (os ++ [(dest, .vals [w, x])]) dest = some (r ++ [(String.ofList w, d)]) := by
  unfold restrictOpt at *
  rw [allOcc_snoc, if_pos rfl, mapM_snoc, hr]
  simp only [h, Option.bind_some, Option.map_some]

end Snoc

end Verif
