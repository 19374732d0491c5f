import Verif.Model.Session
import Verif.Props.Commands
import Verif.Props.Writers
import Verif.Props.AppFiles
import Verif.Props.SupAborts

/-! # C111: commands on the file system -/

namespace Verif

open Spec (round64 Known)

/-- what a command appends to the stem of its input; nothing is written for `stdio` -/
def Spec.endings : AtiCmd → Option (List Char)
  | .atclear .. => some "_ACLR.vasp".toList
  | .perturb .. => some "_PURB.vasp".toList
  | .supcell _ _ .vasp => some "_SUPC.vasp".toList
  | .supcell _ _ .yaml => some "_SUPC.yaml".toList
  | .supcell _ _ .stdio => none
  | .pcell _ .vasp => some "_PRIMC.vasp".toList
  | .pcell _ .yaml => some "_PRIMC.yaml".toList
  | .pcell _ .stdio => none

/-- the name `p` of the file the command writes -/
def Spec.WritesTo (c : AtiCmd) (p : List Char) : Prop := ∃ s t, Spec.FileStem c.infile s ∧ Spec.endings c = some t ∧ p = s ++ t

theorem output_path {e : Ext} {fuel : ℕ} {norm : V3 ℚ → ℚ} {content : FileContent} {c : AtiCmd} {q : Option (List Char)} {x : FileContent}
    (h : c.output e fuel norm content = some (.ok (q, x))) : q = (Spec.endings c).map fun t => stem c.infile ++ t := by
  cases c with
  | atclear p cen r ele refined =>
    simp only [AtiCmd.output, Option.map_eq_some_iff] at h
    obtain ⟨y, h1, h2⟩ := h
    cases y with
    | error er => cases h2
    | ok y =>
      cases h2
      unfold atclearCmd at h1
      split at h1
      · cases h1
      · split at h1
        · cases h1
        · have h1 := Option.some.inj h1
          obtain ⟨g, -, h1⟩ := bind_ok h1
          obtain ⟨g', -, h1⟩ := bind_ok h1
          obtain ⟨z, -, h1⟩ := bind_ok h1
          cases h1
          rfl
  | perturb p r rand =>
    simp only [AtiCmd.output, Option.map_eq_some_iff] at h
    obtain ⟨y, h1, h2⟩ := h
    cases y with
    | error er => cases h2
    | ok y =>
      cases h2
      unfold perturbCmd at h1
      split at h1
      · cases h1
      · split at h1
        · cases h1
        · cases h1
        · have h1 := Option.some.inj h1
          obtain ⟨g, -, h1⟩ := bind_ok h1
          obtain ⟨z, -, h1⟩ := bind_ok h1
          cases h1
          rfl
  | supcell p scale m =>
    have h := Option.some.inj h
    obtain ⟨g, -, h⟩ := bind_ok h
    obtain ⟨g', -, h⟩ := bind_ok h
    unfold cmdOutput at h
    cases m with
    | stdio => rw [if_pos (by decide)] at h; obtain ⟨z, -, h⟩ := bind_ok h; cases h; rfl
    | vasp => rw [if_neg (by decide)] at h; obtain ⟨z, -, h⟩ := bind_ok h; cases h; simp [Spec.endings, OutMode.word, AtiCmd.infile]
    | yaml => rw [if_neg (by decide)] at h; obtain ⟨z, -, h⟩ := bind_ok h; cases h; simp [Spec.endings, OutMode.word, AtiCmd.infile]
  | pcell p m =>
    have h := Option.some.inj h
    obtain ⟨g, -, h⟩ := bind_ok h
    obtain ⟨g', -, h⟩ := bind_ok h
    unfold cmdOutput at h
    cases m with
    | stdio => rw [if_pos (by decide)] at h; obtain ⟨z, -, h⟩ := bind_ok h; cases h; rfl
    | vasp => rw [if_neg (by decide)] at h; obtain ⟨z, -, h⟩ := bind_ok h; cases h; simp [Spec.endings, OutMode.word, AtiCmd.infile]
    | yaml => rw [if_neg (by decide)] at h; obtain ⟨z, -, h⟩ := bind_ok h; cases h; simp [Spec.endings, OutMode.word, AtiCmd.infile]

/-- an ending is a tag without dots, then a dot -/
theorem endings_split {c : AtiCmd} {t : List Char} (h : Spec.endings c = some t) :
    ∃ tag rest, t = tag ++ '.' :: rest ∧ tag ≠ [] ∧ '.' ∉ tag ∧ '/' ∉ tag ∧ '/' ∉ rest := by
  cases c with
  | atclear => cases h; exact ⟨"_ACLR".toList, "vasp".toList, by decide, by decide, by decide, by decide, by decide⟩
  | perturb => cases h; exact ⟨"_PURB".toList, "vasp".toList, by decide, by decide, by decide, by decide, by decide⟩
  | supcell _ _ m =>
    cases m <;> cases h
    · exact ⟨"_SUPC".toList, "vasp".toList, by decide, by decide, by decide, by decide, by decide⟩
    · exact ⟨"_SUPC".toList, "yaml".toList, by decide, by decide, by decide, by decide, by decide⟩
  | pcell _ m =>
    cases m <;> cases h
    · exact ⟨"_PRIMC".toList, "vasp".toList, by decide, by decide, by decide, by decide, by decide⟩
    · exact ⟨"_PRIMC".toList, "yaml".toList, by decide, by decide, by decide, by decide, by decide⟩

/-- **C111, one command.** Whatever happens, directories stay and at most one file changes. A command that is rejected, fails, prints or does
not end changes nothing; the input is looked for first. A command that writes puts its output under the stem of the input followed by the
ending of the command, in the working directory; all other files keep their content. The output is that of C79 for the content of the input. -/
theorem C111_step (e : Ext) (fuel : ℕ) (norm : V3 ℚ → ℚ) (c : AtiCmd) (fs fs' : Fs) (o : Outcome) (h : c.step e fuel norm fs = (fs', o)) :
    fs'.dirs = fs.dirs ∧
    (o = .usage ↔ fs.has c.infile = false) ∧
    ((∀ p x, o ≠ .wrote p x) → fs' = fs) ∧
    (∀ x, o = .printed x → Spec.endings c = none ∧
      ∃ content, dictGet fs.files c.infile = some content ∧ c.output e fuel norm content = some (.ok (none, x))) ∧
    (∀ p x, o = .wrote p x → Spec.WritesTo c p ∧ '/' ∉ p ∧ p ∉ fs.dirs ∧
      (∃ content, dictGet fs.files c.infile = some content ∧ c.output e fuel norm content = some (.ok (some p, x))) ∧
      ∀ q, dictGet fs'.files q = if q = p then some x else dictGet fs.files q) := by
  unfold AtiCmd.step at h
  by_cases hh : fs.has c.infile = true
  · rw [if_pos hh] at h
    have nu : fs.has c.infile ≠ false := by rw [hh]; decide
    cases hc : dictGet fs.files c.infile with
    | none =>
      simp only [hc] at h
      split at h <;> cases h <;> simp [nu]
    | some content =>
      simp only [hc] at h
      split at h
      · cases h; simp [nu]
      · cases h; simp [nu]
      · rename_i x hx
        cases h
        have := output_path hx
        refine ⟨rfl, by simp [nu], fun _ => rfl, fun y _ => ?_, fun p y he => by cases he⟩
        refine ⟨?_, content, rfl, by cases ‹Outcome.printed _ = _›; exact hx⟩
        cases ht : Spec.endings c with
        | none => rfl
        | some t => rw [ht] at this; cases this
      · rename_i p x hx
        have hp := output_path hx
        split at h
        · cases h; simp [nu]
        · rename_i hd
          cases h
          refine ⟨rfl, by simp [nu], fun hn => absurd rfl (hn p x), fun y he => (by cases he), fun p' y he => ?_⟩
          cases he
          cases ht : Spec.endings c with
          | none => rw [ht] at hp; cases hp
          | some t =>
            rw [ht] at hp
            have hp' : p = stem c.infile ++ t := Option.some.inj hp
            refine ⟨⟨_, t, C79_stem c.infile, ht, hp'⟩, ?_, hd, ⟨content, rfl, hx⟩, fun q => ?_⟩
            · rw [hp']
              obtain ⟨_, _, _, _, hs, _⟩ := C79_stem c.infile
              intro hm
              rcases List.mem_append.1 hm with hm | hm
              · exact hs hm
              · obtain ⟨tag, rest, rfl, -, -, t3, t4⟩ := endings_split ht
                rcases List.mem_append.1 hm with hm | hm
                · exact t3 hm
                · rcases List.mem_cons.1 hm with hm | hm
                  · revert hm; decide
                  · exact t4 hm
            · simp only [Fs.write, dictGet_dictSet]
  · rw [if_neg hh] at h
    cases h
    simp at hh
    simp [hh]

theorem step_spec (e : Ext) (fuel : ℕ) (norm : V3 ℚ → ℚ) (c : AtiCmd) (fs : Fs) :
    (c.step e fuel norm fs).1.dirs = fs.dirs ∧
    ((∀ p x, (c.step e fuel norm fs).2 ≠ .wrote p x) → (c.step e fuel norm fs).1 = fs) ∧
    (∀ p x, (c.step e fuel norm fs).2 = .wrote p x → Spec.WritesTo c p ∧ '/' ∉ p ∧ p ∉ fs.dirs ∧
      ∀ q, dictGet (c.step e fuel norm fs).1.files q = if q = p then some x else dictGet fs.files q) := by
  obtain ⟨h1, -, h3, -, h5⟩ := C111_step e fuel norm c fs (c.step e fuel norm fs).1 (c.step e fuel norm fs).2 rfl
  exact ⟨h1, h3, fun p x hw => ⟨(h5 p x hw).1, (h5 p x hw).2.1, (h5 p x hw).2.2.1, (h5 p x hw).2.2.2.2⟩⟩

/-- **C111, the input.** The last part of the path of the input is never the name of the output: no command overwrites its own input. -/
theorem C111_input (c : AtiCmd) :
    (∀ p, Spec.WritesTo c p → ∀ d, (d = [] ∨ ∃ d', d = d' ++ ['/']) → c.infile ≠ d ++ p) ∧
    ∀ (e : Ext) (fuel : ℕ) (norm : V3 ℚ → ℚ) (fs : Fs), dictGet (c.step e fuel norm fs).1.files c.infile = dictGet fs.files c.infile := by
  have key : ∀ p, Spec.WritesTo c p → ∀ d, (d = [] ∨ ∃ d', d = d' ++ ['/']) → c.infile ≠ d ++ p := by
    rintro p ⟨s, t, hs, ht, rfl⟩ d hd he
    obtain ⟨tag, rest, rfl, t1, t2, t3, t4⟩ := endings_split ht
    have hs0 := hs
    obtain ⟨_, _, -, -, s1, -, s2, -⟩ := hs0
    have h2 : Spec.FileStem c.infile (s ++ tag) := by
      refine ⟨d, '.' :: rest, by rw [he]; simp, hd, ?_, ?_, ?_, .inr ⟨rest, rfl⟩⟩
      · intro h; rcases List.mem_append.1 h with h | h
        · exact s1 h
        · exact t3 h
      · intro h; rcases List.mem_cons.1 h with h | h
        · revert h; decide
        · exact t4 h
      · intro h; rcases List.mem_append.1 h with h | h
        · exact s2 h
        · exact t2 h
    have := fileStem_unique hs h2
    exact t1 (by simpa using this.symm)
  refine ⟨key, fun e fuel norm fs => ?_⟩
  obtain ⟨-, h3, h5⟩ := step_spec e fuel norm c fs
  by_cases hw : ∃ p x, (c.step e fuel norm fs).2 = .wrote p x
  · obtain ⟨p, x, hw⟩ := hw
    obtain ⟨w1, -, -, w4⟩ := h5 p x hw
    rw [w4, if_neg (show c.infile ≠ p from key p w1 [] (.inl rfl))]
  · rw [h3 fun p x hx => hw ⟨p, x, hx⟩]

/-- the content of a file system, without the order of its entries -/
def Spec.SameFiles (a b : Fs) : Prop := (∀ d, d ∈ a.dirs ↔ d ∈ b.dirs) ∧ ∀ q, dictGet a.files q = dictGet b.files q

/-- a command sees of the file system only its input and the directories -/
theorem step_local (e : Ext) (fuel : ℕ) (norm : V3 ℚ → ℚ) (c : AtiCmd) (a b : Fs) (hd : ∀ d, d ∈ a.dirs ↔ d ∈ b.dirs)
    (hf : dictGet a.files c.infile = dictGet b.files c.infile) : (c.step e fuel norm a).2 = (c.step e fuel norm b).2 := by
  have hh : a.has c.infile = b.has c.infile := by
    rw [Bool.eq_iff_iff]
    simp only [Fs.has, Bool.or_eq_true, decide_eq_true_iff, dictHas_iff_get, hd, hf]
  unfold AtiCmd.step
  rw [hh]
  by_cases h : b.has c.infile = true
  · rw [if_pos h, if_pos h]
    rw [← hf]
    cases dictGet a.files c.infile with
    | none => simp only; cases dispatch c.infile none <;> rfl
    | some content =>
      simp only
      rcases c.output e fuel norm content with _ | (er | ⟨_ | p, x⟩)
      · rfl
      · rfl
      · rfl
      · simp only
        by_cases hp : p ∈ a.dirs
        · rw [if_pos hp, if_pos ((hd p).1 hp)]
        · rw [if_neg hp, if_neg (fun h => hp ((hd p).2 h))]
  · rw [if_neg h, if_neg h]

/-- **C111, sessions.** After any number of commands, directories are as before, and only files named like the output of one of the commands
can be different; in particular files in subdirectories and inputs that are no output names are untouched. -/
theorem C111_session (e : Ext) (fuel : ℕ) (norm : V3 ℚ → ℚ) (cs : List AtiCmd) (fs : Fs) :
    (runAti e fuel norm cs fs).1.dirs = fs.dirs ∧ (runAti e fuel norm cs fs).2.length = cs.length ∧
    ∀ q, (∀ c ∈ cs, ¬ Spec.WritesTo c q) → dictGet (runAti e fuel norm cs fs).1.files q = dictGet fs.files q := by
  induction cs generalizing fs with
  | nil => exact ⟨rfl, rfl, fun _ _ => rfl⟩
  | cons c cs ih =>
    obtain ⟨h1, h3, h5⟩ := step_spec e fuel norm c fs
    obtain ⟨i1, i2, i3⟩ := ih (c.step e fuel norm fs).1
    refine ⟨i1.trans h1, by simp only [runAti, List.length_cons, i2], fun q hq => ?_⟩
    simp only [runAti]
    rw [i3 q fun c' hc' => hq c' (List.mem_cons_of_mem _ hc')]
    by_cases hw : ∃ p x, (c.step e fuel norm fs).2 = .wrote p x
    · obtain ⟨p, x, hw⟩ := hw
      obtain ⟨w1, -, -, w4⟩ := h5 p x hw
      rw [w4, if_neg]
      rintro rfl
      exact hq c List.mem_cons_self w1
    · rw [h3 fun p x hx => hw ⟨p, x, hx⟩]

/-- no command writes what another one reads or writes -/
def Spec.Independent (a b : AtiCmd) : Prop :=
  (∀ p, Spec.WritesTo a p → p ≠ b.infile ∧ ¬ Spec.WritesTo b p) ∧ ∀ p, Spec.WritesTo b p → p ≠ a.infile

/-- **C111, batches.** Commands none of which writes what another one reads or writes: every command ends as it would alone, and every file is
the one a command alone would have written, or as before. -/
theorem C111_batch (e : Ext) (fuel : ℕ) (norm : V3 ℚ → ℚ) (cs : List AtiCmd) (hc : cs.Pairwise Spec.Independent) (fs : Fs) :
    (runAti e fuel norm cs fs).2 = cs.map (fun c => (c.step e fuel norm fs).2) ∧
    (∀ c ∈ cs, ∀ p x, (c.step e fuel norm fs).2 = .wrote p x → dictGet (runAti e fuel norm cs fs).1.files p = some x) ∧
    ∀ q, (∀ c ∈ cs, ∀ x, (c.step e fuel norm fs).2 ≠ .wrote q x) → dictGet (runAti e fuel norm cs fs).1.files q = dictGet fs.files q := by
  induction cs generalizing fs with
  | nil => exact ⟨rfl, fun _ h => (by cases h), fun _ _ => rfl⟩
  | cons c cs ih =>
    obtain ⟨hc1, hc2⟩ := List.pairwise_cons.1 hc
    obtain ⟨h1, h3, h5⟩ := step_spec e fuel norm c fs
    obtain ⟨i1, i2, i3⟩ := ih hc2 (c.step e fuel norm fs).1
    -- the other commands see the same
    have hsame : ∀ c' ∈ cs, (c'.step e fuel norm (c.step e fuel norm fs).1).2 = (c'.step e fuel norm fs).2 := by
      intro c' hc'
      refine step_local e fuel norm c' _ _ (fun d => by rw [h1]) ?_
      by_cases hw : ∃ p x, (c.step e fuel norm fs).2 = .wrote p x
      · obtain ⟨p, x, hw⟩ := hw
        obtain ⟨w1, -, -, w4⟩ := h5 p x hw
        rw [w4, if_neg (Ne.symm ((hc1 c' hc').1 p w1).1)]
      · rw [h3 fun p x hx => hw ⟨p, x, hx⟩]
    simp only [runAti]
    refine ⟨?_, ?_, ?_⟩
    · rw [i1, List.map_cons]
      congr 1
      exact List.map_congr_left hsame
    · intro c' hc' p x hw
      rcases List.mem_cons.1 hc' with rfl | hc'
      · obtain ⟨w1, -, -, w4⟩ := h5 p x hw
        rw [(C111_session e fuel norm cs _).2.2 p fun c'' hc'' => ((hc1 c'' hc'').1 p w1).2, w4, if_pos rfl]
      · exact i2 c' hc' p x (by rw [hsame c' hc']; exact hw)
    · intro q hq
      rw [i3 q fun c' hc' x => by rw [hsame c' hc']; exact hq c' (List.mem_cons_of_mem _ hc') x]
      by_cases hw : ∃ p x, (c.step e fuel norm fs).2 = .wrote p x
      · obtain ⟨p, x, hw⟩ := hw
        obtain ⟨-, -, -, w4⟩ := h5 p x hw
        rw [w4, if_neg]
        rintro rfl
        exact hq c List.mem_cons_self x hw
      · rw [h3 fun p x hx => hw ⟨p, x, hx⟩]

/-- **C111, order.** The order of such commands does not matter. -/
theorem C111_order (e : Ext) (fuel : ℕ) (norm : V3 ℚ → ℚ) (cs cs' : List AtiCmd) (hp : cs.Perm cs') (hc : cs.Pairwise Spec.Independent)
    (hc' : cs'.Pairwise Spec.Independent) (fs : Fs) :
    Spec.SameFiles (runAti e fuel norm cs fs).1 (runAti e fuel norm cs' fs).1 ∧ (runAti e fuel norm cs fs).2.Perm (runAti e fuel norm cs' fs).2 := by
  obtain ⟨a1, a2, a3⟩ := C111_batch e fuel norm cs hc fs
  obtain ⟨b1, b2, b3⟩ := C111_batch e fuel norm cs' hc' fs
  refine ⟨⟨fun d => by rw [(C111_session e fuel norm cs fs).1, (C111_session e fuel norm cs' fs).1], fun q => ?_⟩, by rw [a1, b1]; exact hp.map _⟩
  by_cases h : ∃ c ∈ cs, ∃ x, (c.step e fuel norm fs).2 = .wrote q x
  · obtain ⟨c, hm, x, hx⟩ := h
    rw [a2 c hm q x hx, b2 c (hp.mem_iff.1 hm) q x hx]
  · rw [a3 q fun c hm x hx => h ⟨c, hm, x, hx⟩, b3 q fun c hm x hx => h ⟨c, hp.mem_iff.2 hm, x, hx⟩]

/-- **C111, lost output.** Two inputs with the same name up to the first dot, wherever they are, handled by the same kind of command: both
outputs have the same path, and after both only the second is left. -/
theorem C111_lost (e : Ext) (fuel : ℕ) (norm : V3 ℚ → ℚ) (a b : AtiCmd) (s : List Char) (ha : Spec.FileStem a.infile s) (hb : Spec.FileStem b.infile s)
    (hk : Spec.endings a = Spec.endings b) (fs : Fs) (p q : List Char) (x y : FileContent)
    (h1 : (a.step e fuel norm fs).2 = .wrote p x) (h2 : (b.step e fuel norm (a.step e fuel norm fs).1).2 = .wrote q y) :
    p = q ∧ dictGet (runAti e fuel norm [a, b] fs).1.files p = some y := by
  obtain ⟨-, -, h5⟩ := step_spec e fuel norm a fs
  obtain ⟨-, -, g5⟩ := step_spec e fuel norm b (a.step e fuel norm fs).1
  obtain ⟨⟨s1, t1, e1, f1, r1⟩, -⟩ := h5 p x h1
  obtain ⟨⟨s2, t2, e2, f2, r2⟩, -, -, w⟩ := g5 q y h2
  have hpq : p = q := by
    rw [hk, f2] at f1
    cases f1
    rw [r1, r2, fileStem_unique e1 ha, fileStem_unique e2 hb]
  refine ⟨hpq, ?_⟩
  simp only [runAti]
  rw [w, if_pos hpq]

theorem supercell_built {c g : GCell} {m : M3 ℤ} (h : c.supercell m = .ok g) : Built g := by
  unfold GCell.supercell enlarge at h
  obtain ⟨_, _, h⟩ := bind_ok h
  obtain ⟨_, _, h⟩ := bind_ok h
  simp only at h
  split at h
  · cases h
  · obtain ⟨_, _, h⟩ := bind_ok h
    exact ⟨_, _, _, h⟩

/-- the cell behind an output -/
theorem output_cell {e : Ext} {fuel : ℕ} {norm : V3 ℚ → ℚ} {content : FileContent} {c : AtiCmd} {p : List Char} {x : FileContent}
    (h : c.output e fuel norm content = some (.ok (some p, x))) : ∃ g, Built g ∧ writeFile g p none = .ok x := by
  have out : ∀ {g : GCell} {infile tag mode : List Char}, Built g → cmdOutput g infile tag mode = .ok (some p, x) → ∃ g, Built g ∧ writeFile g p none = .ok x := by
    intro g infile tag mode hg h
    unfold cmdOutput at h
    split at h
    · obtain ⟨z, -, h⟩ := bind_ok h; cases h
    · obtain ⟨z, hz, h⟩ := bind_ok h
      cases h
      exact ⟨g, hg, hz⟩
  cases c with
  | atclear q cen r ele refined =>
    simp only [AtiCmd.output, Option.map_eq_some_iff] at h
    obtain ⟨y, h1, h2⟩ := h
    cases y with
    | error er => cases h2
    | ok y =>
      cases h2
      unfold atclearCmd at h1
      split at h1
      · cases h1
      · split at h1
        · cases h1
        · have h1 := Option.some.inj h1
          obtain ⟨g, hg, h1⟩ := bind_ok h1
          obtain ⟨g', hg', h1⟩ := bind_ok h1
          obtain ⟨z, hz, h1⟩ := bind_ok h1
          cases h1
          exact ⟨g', maybeRefined_built (new_built hg) hg', hz⟩
  | perturb q r rand =>
    simp only [AtiCmd.output, Option.map_eq_some_iff] at h
    obtain ⟨y, h1, h2⟩ := h
    cases y with
    | error er => cases h2
    | ok y =>
      cases h2
      unfold perturbCmd at h1
      split at h1
      · cases h1
      · split at h1
        · cases h1
        · cases h1
        · have h1 := Option.some.inj h1
          obtain ⟨g, hg, h1⟩ := bind_ok h1
          obtain ⟨z, hz, h1⟩ := bind_ok h1
          cases h1
          exact ⟨g, new_built hg, hz⟩
  | supcell q scale m =>
    have h := Option.some.inj h
    obtain ⟨g, -, h⟩ := bind_ok h
    obtain ⟨g', hg', h⟩ := bind_ok h
    exact out (supercell_built hg') h
  | pcell q m =>
    have h := Option.some.inj h
    obtain ⟨g, hg, h⟩ := bind_ok h
    obtain ⟨g', hg', h⟩ := bind_ok h
    exact out (maybeRefined_built (refined := true) (readFile_built hg) hg') h

/-- **C111, chains.** What a command writes is the text of a cell of known elements, and unless all its atoms are ghosts the next command can
read it: the file name is recognised and the rounded lattice and atoms come back. -/
theorem C111_readable (e : Ext) (root : ℚ → ℚ) (fuel : ℕ) (norm : V3 ℚ → ℚ) (c : AtiCmd) (fs fs' : Fs) (p : List Char) (x : FileContent)
    (h : c.step e fuel norm fs = (fs', .wrote p x)) :
    ∃ g : GCell, writeFile g p none = .ok x ∧ (∀ n ∈ g.numbers, Known n) ∧ g.positions.length = g.numbers.length ∧
      ((∃ n ∈ g.numbers, n ≠ 0) → ∃ c', gioRead root (some p) none fs' = .ok c' ∧ c'.lattice = V3.map (V3.map round64) g.lattice ∧
        ((c'.positions.zip c'.numbers).filter fun s => s.2 ≠ 0).Perm
          (((g.positions.zip g.numbers).filter fun s => s.2 ≠ 0).map fun s => (V3.map round64 s.1, s.2))) := by
  have hfile : dictGet fs'.files p = some x := by
    have := (step_spec e fuel norm c fs).2.2 p x (by rw [h])
    rw [h] at this
    rw [this.2.2.2, if_pos rfl]
  have hout : ∃ content, c.output e fuel norm content = some (.ok (some p, x)) := by
    obtain ⟨-, -, -, -, h5⟩ := C111_step e fuel norm c fs fs' _ h
    obtain ⟨-, -, -, ⟨content, -, ho⟩, -⟩ := h5 p x rfl
    exact ⟨content, ho⟩
  obtain ⟨content, hout⟩ := hout
  obtain ⟨g, hg, hx⟩ := output_cell hout
  have hlen : g.positions.length = g.numbers.length := hg.length.symm
  have hdisp : ∃ f, dispatch p none = .ok f := by
    unfold writeFile at hx
    obtain ⟨f, hf, -⟩ := bind_ok hx
    exact ⟨f, hf⟩
  obtain ⟨f, hf⟩ := hdisp
  have hk : ∀ n ∈ g.numbers, Known n := by
    by_contra hno
    push Not at hno
    rw [writeFile_content g p none hf] at hx
    unfold contentOf at hx
    cases f <;> simp [Fmt.writer, vaspString, vaspLines, yamlDoc, atomNames_unknown hno, bind, Except.bind] at hx
  have hw : WantsYaml p none ∨ WantsVasp p none := by
    by_contra hno
    obtain ⟨-, -, d3⟩ := C51_dispatch p none
    rw [d3.2 ⟨fun h => hno (.inl h), fun h => hno (.inr h)⟩] at hf
    cases hf
  refine ⟨g, hx, hk, hlen, fun hr => ?_⟩
  obtain ⟨file, c', f1, f2, f3⟩ := C51_write_read root g p none hw hlen hk hr
  rw [hx] at f1
  obtain rfl := Except.ok.inj f1
  refine ⟨c', ?_, f3⟩
  unfold gioRead
  simp only [Option.getD_some, hf, hfile, f2]

/-! ## concrete runs -/

/-- names of the files and how the commands ended -/
def showRun (r : Fs × List Outcome) : List String × List String :=
  (r.1.files.map fun f => String.ofList f.1, r.2.map fun o => match o with
    | .usage => "usage" | .raised _ => "raised" | .printed _ => "printed" | .wrote p _ => String.ofList p | .running => "running")

/-- two inputs with the same name in different directories -/
def exSession : Fs := ⟨["c".toList], [("a/POSCAR".toList, exClear), ("b/POSCAR.1".toList, exClear), ("x.txt".toList, exClear)]⟩

set_option maxRecDepth 100000 in
/-- two commands write the same file, the third reads it; an unknown name, a directory and a missing file -/
example : showRun (runAti (exExt fun _ => []) 10 (fun _ => 1)
    [.supcell "a/POSCAR".toList (1, 1, 1) .vasp, .supcell "b/POSCAR.1".toList (1, 1, 1) .vasp, .supcell "POSCAR_SUPC.vasp".toList (1, 1, 1) .stdio,
     .supcell "x.txt".toList (1, 1, 1) .vasp, .pcell "c".toList .vasp, .pcell "d".toList .vasp,
     .atclear "POSCAR_SUPC.vasp".toList "Zn" 1 "B" false] exSession) =
    (["a/POSCAR", "b/POSCAR.1", "x.txt", "POSCAR_SUPC.vasp", "POSCAR_SUPC_ACLR.vasp"],
     ["POSCAR_SUPC.vasp", "POSCAR_SUPC.vasp", "printed", "raised", "raised", "usage", "POSCAR_SUPC_ACLR.vasp"]) := by decide +kernel

/-- independent commands -/
example : Spec.Independent (.supcell "a/POSCAR".toList (1, 1, 1) .vasp) (.supcell "b/POSCAR.1".toList (1, 1, 1) .yaml) := by
  have st : ∀ (c : AtiCmd) (p s t : List Char), Spec.WritesTo c p → Spec.FileStem c.infile s → Spec.endings c = some t → p = s ++ t := by
    rintro c p s t ⟨s', t', h1, h2, rfl⟩ h3 h4
    rw [fileStem_unique h1 h3]
    rw [h2] at h4
    cases h4
    rfl
  have s1 : Spec.FileStem "a/POSCAR".toList "POSCAR".toList := C79_stem "a/POSCAR".toList
  have s2 : Spec.FileStem "b/POSCAR.1".toList "POSCAR".toList := C79_stem "b/POSCAR.1".toList
  refine ⟨fun p hp => ⟨?_, fun hq => ?_⟩, fun p hp => ?_⟩
  · rw [st _ p _ _ hp s1 rfl]; decide
  · have := (st _ p _ _ hp s1 rfl).symm.trans (st _ p _ _ hq s2 rfl)
    revert this; decide
  · rw [st _ p _ _ hp s2 rfl]; decide

end Verif
