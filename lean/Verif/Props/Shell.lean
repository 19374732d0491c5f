import Verif.Model.Shell
import Verif.Props.Session
import Verif.Props.AppsMore
import Verif.Props.SupAborts
import Verif.Props.Cli

/-! # C114: sessions of both programs

What command lines of `runaba` and `runati`, in any number and order, can do to a file that was there before. -/

namespace Verif

/-- some part of the path begins with these letters -/
def Spec.HasPart (s q : List Char) : Prop := ∃ a b, q = a ++ s ++ b ∧ (a = [] ∨ ∃ a', a = a' ++ ['/'])

/-- the file holds `x`, and every directory on the way to it is known as a directory -/
def Spec.KeepsFile (fs : Fs) (q : List Char) (x : FileContent) : Prop :=
  dictGet fs.files q = some x ∧ ∀ d, d ≠ [] → (d ++ ['/']) <+: q → d ∈ fs.dirs

/-- the name is one `runati` could write to: in the working directory, with one of its endings -/
def Spec.AtiName (q : List Char) : Prop :=
  '/' ∉ q ∧ ∃ t ∈ ["_ACLR.vasp".toList, "_PURB.vasp".toList, "_SUPC.vasp".toList, "_SUPC.yaml".toList, "_PRIMC.vasp".toList, "_PRIMC.yaml".toList], t <:+ q

open _root_.Verif.Spec (HasPart KeepsFile AtiName)

/-! ### paths -/

theorem pathJoin_front (a b : List Char) : ∃ t, pathJoin a b = t ++ b ∧ (t = [] ∨ ∃ t', t = t' ++ ['/']) := by
  unfold pathJoin
  split
  · exact ⟨[], rfl, .inl rfl⟩
  · rename_i h
    obtain ⟨t', rfl⟩ := List.getLast?_eq_some_iff.1 h
    exact ⟨_, rfl, .inr ⟨t', rfl⟩⟩
  · exact ⟨a ++ ['/'], rfl, .inr ⟨a, rfl⟩⟩

theorem pathJoin_prefix (a b : List Char) : a <+: pathJoin a b := by
  unfold pathJoin
  split
  · rename_i h
    rw [List.getLast?_eq_none_iff.1 h]
    exact List.nil_prefix
  · exact List.prefix_append _ _
  · rw [List.append_assoc]
    exact List.prefix_append _ _

theorem pathJoin_inside {a : List Char} (h : ∃ a' c, a = a' ++ [c] ∧ c ≠ '/') (b : List Char) : pathJoin a b = a ++ '/' :: b := by
  obtain ⟨a', c, rfl, hc⟩ := h
  unfold pathJoin
  rw [List.getLast?_concat]
  split
  · rename_i h; cases h
  · rename_i h; exact absurd (Option.some.inj h) hc
  · simp

theorem hasPart_of_prefix {cwd b q : List Char} {s : List Char} (h : pathJoin cwd (s ++ b) <+: q) : HasPart s q := by
  obtain ⟨r, rfl⟩ := h
  obtain ⟨t, ht, h'⟩ := pathJoin_front cwd (s ++ b)
  exact ⟨t, b ++ r, by rw [ht]; simp, h'⟩

/-- the output directory of an occupation command does not end in a slash -/
theorem structuresDir_last (e : Ext) (cm s : List Char) (hs : '/' ∉ s) : ∃ a c, structuresDir e cm s = a ++ [c] ∧ c ≠ '/' := by
  obtain ⟨t, ht, -⟩ := pathJoin_front e.cwd ("STRUCTURES_".toList ++ cm ++ ['_'] ++ s)
  unfold structuresDir
  rw [ht]
  rcases List.eq_nil_or_concat s with rfl | ⟨s', c, rfl⟩
  · exact ⟨t ++ ("STRUCTURES_".toList ++ cm), '_', by simp, by decide⟩
  · exact ⟨t ++ ("STRUCTURES_".toList ++ cm ++ ['_'] ++ s'), c, by simp, fun h => hs (by simp [h])⟩

/-! ### the occupation commands -/

theorem occLoop_dirs (e : Ext) (mpr : Bool) (tr : Option (Specie × ℚ)) (refined : Bool) (outmode dir : List Char) : ∀ (cs : List GCell) (k : ℕ) (fs : Fs),
    (occLoop e mpr tr refined outmode dir cs k fs).1.dirs = fs.dirs
  | [], k, fs => rfl
  | c :: cs, k, fs => by
    rw [occLoop]
    split
    · rfl
    · exact occLoop_dirs e mpr tr refined outmode dir cs k fs
    · split
      · rfl
      · rename_i fs1 hw
        obtain ⟨w, -, rfl⟩ := occWriteOne_inv hw
        rw [occLoop_dirs e mpr tr refined outmode dir cs (k + 1) _]
        rfl

theorem terLoop_dirs (e : Ext) (mpr : Bool) (tr : Option (Specie × ℚ)) (refined : Bool) (outmode dir : List Char) (names : List Char × List Char) :
    ∀ (cs : List GCell) (k : ℕ) (fs : Fs), (terLoop e mpr tr refined outmode dir names cs k fs).1.2.dirs = fs.dirs
  | [], k, fs => rfl
  | c :: cs, k, fs => by
    rw [terLoop]
    split
    · rfl
    · exact terLoop_dirs e mpr tr refined outmode dir names cs k fs
    · split
      · rfl
      · rw [terLoop_dirs e mpr tr refined outmode dir names cs _ _]
        rfl

theorem makertLoop_holds (e : Ext) (a : TerApp) (g : OGen) (tr : Option (Specie × ℚ)) (dir : List Char) (q : List Char) (x : FileContent) :
    ∀ (ps : List (ℕ × ℕ)) (k : ℕ) (fs : Fs), dictGet fs.files q = some x →
      dictGet (makertLoop e a g tr dir ps k fs).1.files q = some x ∧ (makertLoop e a g tr dir ps k fs).1.dirs = fs.dirs
  | [], k, fs, h => ⟨h, rfl⟩
  | p :: ps, k, fs, h => by
    rw [makertLoop]
    split
    · exact ⟨h, rfl⟩
    · rename_i cs hcs
      have h1 := terLoop_keeps e true tr a.refined a.outmode dir (terNames a.outmode ((a.size : ℤ) - p.1 - p.2) p.1 p.2) q x cs k fs h
      have h2 := terLoop_dirs e true tr a.refined a.outmode dir (terNames a.outmode ((a.size : ℤ) - p.1 - p.2) p.1 p.2) cs k fs
      split
      · rename_i s er hs
        rw [hs] at h1 h2
        exact ⟨h1, h2⟩
      · rename_i s hs
        rw [hs] at h1 h2
        obtain ⟨h3, h4⟩ := makertLoop_holds e a g tr dir q x ps s.1 s.2 h1
        exact ⟨h3, h4.trans h2⟩

theorem openDir_inv {fs fs1 : Fs} {dir : List Char} (h : openDir fs dir = .ok fs1) : fs.has dir = false ∧ fs1 = ⟨dir :: fs.dirs, fs.files⟩ := by
  unfold openDir at h
  split at h
  · cases h
  · rename_i hh
    injection h with h
    exact ⟨by simpa using hh, h.symm⟩

theorem occRun_holds (e : Ext) (structures : OccApp → OGen → Py (List GCell)) (a : OccApp) {fs : Fs} {q : List Char} {x : FileContent}
    (hch : '/' ∉ e.choices 0) (h : KeepsFile fs q x) : KeepsFile (occRun e structures a fs).1 q x := by
  unfold occRun
  split
  · exact h
  · rename_i fs1 ho
    obtain ⟨h1, rfl⟩ := openDir_inv ho
    have hm : KeepsFile ⟨structuresDir e a.comment (e.choices 0) :: fs.dirs, fs.files⟩ q x := ⟨h.1, fun d hd hi => List.mem_cons_of_mem _ (h.2 d hd hi)⟩
    split
    · exact hm
    · have hl := structuresDir_last e a.comment (e.choices 0) hch
      refine ⟨?_, fun d hd hi => by rw [occLoop_dirs]; exact hm.2 d hd hi⟩
      rw [occLoop_keeps]
      · exact hm.1
      · intro s cm hq
        rw [pathJoin_inside hl] at hq
        have : structuresDir e a.comment (e.choices 0) ∈ fs.dirs := by
          refine h.2 _ ?_ (by rw [hq]; exact ⟨structureName cm s a.outmode, by simp⟩)
          obtain ⟨a', c, h', -⟩ := hl
          rw [h']; simp
        rw [(Fs.has_iff _ _).2 (.inl this)] at h1
        cases h1

theorem ocutenter_holds (e : Ext) (y : YDoc) (o : TerOpts) (n1 n2 : ℤ) {fs : Fs} {q : List Char} {x : FileContent} (h : KeepsFile fs q x) :
    KeepsFile (ocutenter e y o n1 n2 fs).1 q x := by
  unfold ocutenter
  split
  · exact h
  · split
    · exact h
    · rename_i a _ _ fs1 ho
      obtain ⟨-, rfl⟩ := openDir_inv ho
      have hm : KeepsFile ⟨structuresDir e a.comment (e.choices 0) :: fs.dirs, fs.files⟩ q x := ⟨h.1, fun d hd hi => List.mem_cons_of_mem _ (h.2 d hd hi)⟩
      split
      · exact hm
      · exact ⟨terLoop_keeps _ _ _ _ _ _ _ _ _ _ _ _ hm.1, fun d hd hi => by simp only; rw [terLoop_dirs]; exact hm.2 d hd hi⟩

theorem ocumakert_holds (e : Ext) (y : YDoc) (o : TerOpts) {fs : Fs} {q : List Char} {x : FileContent} (h : KeepsFile fs q x) :
    KeepsFile (ocumakert e y o fs).1 q x := by
  unfold ocumakert
  split
  · exact h
  · split
    · exact h
    · rename_i a _ _ fs1 ho
      obtain ⟨-, rfl⟩ := openDir_inv ho
      have hm : KeepsFile ⟨structuresDir e a.comment (e.choices 0) :: fs.dirs, fs.files⟩ q x := ⟨h.1, fun d hd hi => List.mem_cons_of_mem _ (h.2 d hd hi)⟩
      split
      · exact hm
      · obtain ⟨k1, k2⟩ := makertLoop_holds e a _ _ (structuresDir e a.comment (e.choices 0)) q x (makertPairs a.size) 0 _ hm.1
        exact ⟨k1, fun d hd hi => by rw [k2]; exact hm.2 d hd hi⟩

/-! ### `suplat` -/

theorem supWriteOne_write {e : Ext} {v : ℕ} {outmode dir suffix : List Char} {s : SLCell} {fs fs' : Fs} (h : supWriteOne e v outmode dir suffix s fs = .ok fs') :
    ∃ y, fs' = fs.write (pathJoin dir (suplatName v suffix outmode)) y := by
  obtain ⟨c, -, h⟩ := bind_ok h
  obtain ⟨d, -, h⟩ := bind_ok h
  obtain ⟨y, -, h⟩ := bind_ok h
  injection h with h
  exact ⟨y, h.symm⟩

theorem supLoop_files (e : Ext) (v : ℕ) (outmode dir : List Char) : ∀ (ss : List SLCell) (k : ℕ) (fs : Fs),
    (supLoop e v outmode dir ss k fs).1.dirs = fs.dirs ∧
    ∀ q, dictGet (supLoop e v outmode dir ss k fs).1.files q = dictGet fs.files q ∨ ∃ s, q = pathJoin dir (suplatName v s outmode)
  | [], k, fs => ⟨rfl, fun _ => .inl rfl⟩
  | s :: ss, k, fs => by
    rw [supLoop]
    split
    · exact ⟨rfl, fun _ => .inl rfl⟩
    · rename_i fs1 hw
      obtain ⟨y, rfl⟩ := supWriteOne_write hw
      obtain ⟨h1, h2⟩ := supLoop_files e v outmode dir ss (k + 1) (fs.write (pathJoin dir (suplatName v (e.choices k) outmode)) y)
      refine ⟨h1, fun q => ?_⟩
      rcases h2 q with h | h
      · by_cases hq : q = pathJoin dir (suplatName v (e.choices k) outmode)
        · exact .inr ⟨_, hq⟩
        · rw [h]
          left
          unfold Fs.write
          rw [dictGet_dictSet, if_neg hq]
      · exact .inr h

theorem freshDir_inv {fs fs1 : Fs} {dir : List Char} (h : freshDir fs dir = .ok fs1) : SupPrepared fs dir fs1 := by
  have hd : fs.has dir = true → dir ∈ fs.dirs := by
    intro hh
    unfold freshDir Fs.rmtree at h
    rw [if_pos hh] at h
    by_contra hn
    rw [if_neg hn] at h
    cases h
  obtain ⟨fs2, h2, h3⟩ := freshDir_ok hd
  rw [h] at h2
  cases h2
  exact h3

theorem suplat_holds (e : Ext) (infile : List Char) (content : FileContent) (comment : Option (List Char)) (v : ℕ) (ld : Bool) (outmode : List Char)
    {fs : Fs} {q : List Char} {x : FileContent} (hq : ¬ HasPart "SUPLAT_".toList q) (h : KeepsFile fs q x) :
    KeepsFile (suplat e infile content comment v ld outmode fs).1 q x := by
  unfold suplat
  split
  · exact h
  · rename_i a _
    split
    · exact h
    · rename_i fs1 hf
      have hp := freshDir_inv hf
      have hno : ¬ pathJoin e.cwd ("SUPLAT_".toList ++ a.comment) <+: q := fun hh => hq (hasPart_of_prefix hh)
      obtain ⟨l1, l2⟩ := supLoop_files e a.v a.outmode (pathJoin e.cwd ("SUPLAT_".toList ++ a.comment)) a.hnfs 0 fs1
      refine ⟨?_, fun d hd hi => ?_⟩
      · rcases l2 q with h' | ⟨s, h'⟩
        · rw [h', hp.files, if_neg]
          · exact h.1
          · rintro ⟨-, hh⟩
            exact hno ((List.prefix_append _ _).trans hh)
        · exact absurd (by rw [h']; exact pathJoin_prefix _ _) hno
      · rw [l1, hp.dirs]
        refine .inr ⟨h.2 d hd hi, ?_⟩
        rintro ⟨-, hh⟩
        exact hno (((List.prefix_append _ _).trans hh).trans ((List.prefix_append _ _).trans hi))

/-! ### one line -/

theorem runaba_holds (e : Ext) (env : CliEnv) (words : List Word) {fs : Fs} {q : List Char} {x : FileContent} (hch : '/' ∉ e.choices 0)
    (hs : ¬ HasPart "SUPLAT_".toList q ∨ ∀ p c v ld m, readAba words ≠ .call p (.suplat c v ld m)) (h : KeepsFile fs q x) :
    KeepsFile (runaba e env words fs).1 q x := by
  unfold runaba
  cases hr : readAba words with
  | usage => exact h
  | info => exact h
  | call p c =>
    simp only
    split
    · split
      · exact h
      · rename_i content _
        have key : KeepsFile (c.onContent e env p content fs).1 q x := by
          cases c with
          | suplat c v ld m =>
            rcases hs with hs | hs
            · exact suplat_holds _ _ _ _ _ _ _ hs h
            · exact absurd hr (hs _ _ _ _ _)
          | ocumaker o =>
            simp only [AbaCall.onContent, ocumaker]
            split
            · exact h
            · exact occRun_holds _ _ _ hch h
          | ocubiter o =>
            simp only [AbaCall.onContent, ocubiter]
            split
            · exact h
            · exact occRun_holds _ _ _ hch h
          | ocutenter a =>
            simp only [AbaCall.onContent]
            split
            · exact h
            · split
              · exact ocutenter_holds _ _ _ _ _ h
              · exact h
          | ocumakert a =>
            simp only [AbaCall.onContent]
            split
            · exact h
            · split
              · exact ocumakert_holds _ _ _ h
              · exact h
        split <;> rename_i hc <;> rw [hc] at key <;> exact key
    · exact h

theorem endings_name {c : AtiCmd} {q : List Char} (h : Spec.WritesTo c q) (hn : '/' ∉ q) : AtiName q := by
  obtain ⟨s, t, -, ht, rfl⟩ := h
  refine ⟨hn, t, ?_, List.suffix_append _ _⟩
  cases c with
  | atclear => cases ht; simp
  | perturb => cases ht; simp
  | supcell _ _ m => cases m <;> cases ht <;> simp
  | pcell _ m => cases m <;> cases ht <;> simp

theorem runati_holds (e : Ext) (fuel : ℕ) (norm : V3 ℚ → ℚ) (rand : List (V3 ℚ)) (words : List Word) {fs : Fs} {q : List Char} {x : FileContent}
    (hq : ¬ AtiName q) (h : KeepsFile fs q x) : KeepsFile (runati e fuel norm rand words fs).1 q x := by
  unfold runati
  cases readAti words with
  | usage => exact h
  | info => exact h
  | call p c =>
    simp only
    split
    · rename_i cmd _
      simp only
      obtain ⟨h1, h3, h5⟩ := step_spec e fuel norm cmd fs
      refine ⟨?_, fun d hd hi => by rw [h1]; exact h.2 d hd hi⟩
      by_cases hw : ∃ p x, (cmd.step e fuel norm fs).2 = .wrote p x
      · obtain ⟨p, y, hw⟩ := hw
        obtain ⟨w1, w2, -, w4⟩ := h5 p y hw
        rw [w4, if_neg]
        · exact h.1
        · rintro rfl
          exact hq (endings_name w1 w2)
      · rw [h3 fun p y hx => hw ⟨p, y, hx⟩]
        exact h.1
    · exact h

/-! ### sessions -/

/-- **C114, what is safe.** Command lines of both programs, in any number and order, good or bad, finished or not, from whatever working directories: a file
keeps its content, and the directories on the way to it stay, provided that (1) no part of its path begins with `SUPLAT_`, or no line is one of `suplat`, and
(2) it is not named in the working directory like an output of `runati`, or no line is one of `runati`. The random letters contain no slash. -/
theorem C114_safe (is : List Invocation) (fs : Fs) (q : List Char) (x : FileContent) (hch : ∀ i ∈ is, '/' ∉ i.e.choices 0)
    (hsup : ¬ HasPart "SUPLAT_".toList q ∨ ∀ i ∈ is, i.aba = true → ∀ p c v ld m, readAba i.words ≠ .call p (.suplat c v ld m))
    (hati : ¬ AtiName q ∨ ∀ i ∈ is, i.aba = true) (h : KeepsFile fs q x) : KeepsFile (shellRun is fs) q x := by
  induction is generalizing fs with
  | nil => exact h
  | cons i is ih =>
    rw [shellRun]
    refine ih _ (fun j hj => hch j (List.mem_cons_of_mem _ hj)) (hsup.imp_right fun hs j hj => hs j (List.mem_cons_of_mem _ hj))
      (hati.imp_right fun hs j hj => hs j (List.mem_cons_of_mem _ hj)) ?_
    unfold Invocation.after
    by_cases hi : i.aba = true
    · rw [if_pos hi]
      exact runaba_holds _ _ _ (hch i (by simp)) (hsup.imp_right fun hs => hs i (by simp) hi) h
    · rw [if_neg hi]
      exact runati_holds _ _ _ _ _ (hati.resolve_right fun hs => hi (hs i (by simp))) h

/-- **C114, the input.** In particular an input in the working directory, whose name begins neither with `SUPLAT_` nor ends like an output of `runati`,
survives every session. -/
theorem C114_input (is : List Invocation) (fs : Fs) (q : List Char) (x : FileContent) (hch : ∀ i ∈ is, '/' ∉ i.e.choices 0)
    (h1 : '/' ∉ q) (h2 : ¬ "SUPLAT_".toList <+: q) (h3 : ¬ AtiName q) (h : dictGet fs.files q = some x) : dictGet (shellRun is fs).files q = some x := by
  refine (C114_safe is fs q x hch (.inl ?_) (.inl h3) ⟨h, ?_⟩).1
  · rintro ⟨a, b, rfl, rfl | ⟨a', rfl⟩⟩
    · exact h2 ⟨b, by simp⟩
    · exact h1 (by simp)
  · rintro d - ⟨r, rfl⟩
    exact absurd (by simp) h1

theorem suplat_finished {e : Ext} {infile : List Char} {content : FileContent} {comment : Option (List Char)} {v : ℕ} {ld : Bool} {m : List Char} {fs : Fs}
    (hd : (suplat e infile content comment v ld m fs).2 = .ok ()) {dir : List Char} (hdir : SupDir e comment dir) :
    ∃ ss fs1, SupPrepared fs dir fs1 ∧ suplat e infile content comment v ld m fs = supLoop e v m dir ss 0 fs1 := by
  unfold suplat at hd ⊢
  cases ha : supInit e infile content comment v ld m with
  | error er => rw [ha] at hd; cases hd
  | ok a =>
    rw [ha] at hd
    simp only at hd ⊢
    have ha' := ha
    unfold supInit at ha'
    obtain ⟨cell, -, ha'⟩ := bind_ok ha'
    obtain ⟨b, -, ha'⟩ := bind_ok ha'
    split at ha'
    · obtain ⟨hn, -, ha'⟩ := bind_ok ha'
      injection ha' with ha'
      subst ha'
      simp only at hd ⊢
      rw [← supDir_eq hdir] at hd ⊢
      cases hf : freshDir fs dir with
      | error er => rw [hf] at hd; cases hd
      | ok fs1 => exact ⟨hn, fs1, freshDir_inv hf, rfl⟩
    · cases ha'

/-- **C114, what is lost.** After a line of `suplat` that finished, whatever lies inside its output directory was written by this very line: its name has the
volume and the output mode of this line. (Files lie inside existing directories.) -/
theorem C114_suplat_only (e : Ext) (env : CliEnv) (words : List Word) (fs : Fs) (p : Word) (comment : Option (List Char)) (v : ℤ) (ld : Bool)
    (m : List Char) (hr : readAba words = .call p (.suplat comment v ld m)) (hd : (runaba e env words fs).2 = .done)
    (dir : List Char) (hdir : SupDir e comment dir) (htree : ∀ q x, (dir ++ ['/']) <+: q → dictGet fs.files q = some x → dir ∈ fs.dirs)
    (q : List Char) (x : FileContent) (hq : (dir ++ ['/']) <+: q) (hx : dictGet (runaba e env words fs).1.files q = some x) :
    ∃ s, q = pathJoin dir ("SUPLAT_".toList ++ natStr v.toNat ++ ['_'] ++ s ++ ['.'] ++ m) := by
  unfold runaba at hd hx
  rw [hr] at hd hx
  simp only at hd hx
  by_cases hh : fs.has p = true
  · rw [if_pos hh] at hd hx
    cases hg : dictGet fs.files p with
    | none => rw [hg] at hd; cases hd
    | some content =>
      rw [hg] at hd hx
      simp only [AbaCall.onContent] at hd hx
      rcases hc : suplat e p content comment v.toNat ld m fs with ⟨fs', (er | ⟨⟨⟩⟩)⟩
      · rw [hc] at hd; cases hd
      · rw [hc] at hx
        simp only at hx
        obtain ⟨ss, fs1, hp, hs⟩ := suplat_finished (by rw [hc]) hdir
        rw [hc] at hs
        obtain ⟨-, l2⟩ := supLoop_files e v.toNat m dir ss 0 fs1
        rw [← hs] at l2
        rcases l2 q with h' | h'
        · rw [h', hp.files] at hx
          split at hx
          · cases hx
          · rename_i hn
            exact absurd ⟨(Fs.has_iff _ _).2 (.inl (htree q x hq hx)), hq⟩ hn
        · exact h'
  · rw [if_neg hh] at hd
    cases hd

/-- **C114, what is lost.** A line of `suplat` that finished has removed every result an earlier line left in the same directory for another volume. The comment
of the directory does not end in a slash. -/
theorem C114_suplat_lost (e : Ext) (env : CliEnv) (words : List Word) (fs : Fs) (p : Word) (comment : Option (List Char)) (v : ℤ) (ld : Bool)
    (m : List Char) (hr : readAba words = .call p (.suplat comment v ld m)) (hd : (runaba e env words fs).2 = .done)
    (dir : List Char) (hdir : SupDir e comment dir) (hlast : ∃ a c, dir = a ++ [c] ∧ c ≠ '/')
    (htree : ∀ q x, (dir ++ ['/']) <+: q → dictGet fs.files q = some x → dir ∈ fs.dirs)
    (w : ℕ) (hw : w ≠ v.toNat) (s m' : List Char) :
    dictGet (runaba e env words fs).1.files (dir ++ ['/'] ++ "SUPLAT_".toList ++ natStr w ++ ['_'] ++ s ++ ['.'] ++ m') = none := by
  cases hx : dictGet (runaba e env words fs).1.files (dir ++ ['/'] ++ "SUPLAT_".toList ++ natStr w ++ ['_'] ++ s ++ ['.'] ++ m') with
  | none => rfl
  | some x =>
    obtain ⟨s', h⟩ := C114_suplat_only e env words fs p comment v ld m hr hd dir hdir htree _ x
      ⟨"SUPLAT_".toList ++ natStr w ++ ['_'] ++ s ++ ['.'] ++ m', by simp⟩ hx
    rw [pathJoin_inside hlast] at h
    have h' : natStr w ++ '_' :: (s ++ '.' :: m') = natStr v.toNat ++ '_' :: (s' ++ '.' :: m) := by simpa using h
    have key : ∀ (a b : List Char) (r t : List Char), (∀ c ∈ a, c ≠ '_') → (∀ c ∈ b, c ≠ '_') → a ++ '_' :: r = b ++ '_' :: t → a = b := by
      intro a
      induction a with
      | nil =>
        intro b r t _ hb h
        cases b with
        | nil => rfl
        | cons y b => exact absurd (List.cons.inj h).1.symm (hb y (by simp))
      | cons y a ih =>
        intro b r t ha hb h
        cases b with
        | nil => exact absurd (List.cons.inj h).1 (ha y (by simp))
        | cons z b =>
          obtain ⟨rfl, h2⟩ := List.cons.inj h
          rw [ih b r t (fun c hc => ha c (by simp [hc])) (fun c hc => hb c (by simp [hc])) h2]
    exact absurd (natStr_inj (key _ _ _ _ (natStr_plain w) (natStr_plain _) h')) hw

/-! ### a session -/

/-- a line of `runaba` -/
def exAba (e : Ext) (words : List String) : Invocation := ⟨e, ⟨.typeError, fun _ => .error .valueError⟩, 10, fun _ => 1, [], true, words.map String.toList⟩

/-- a line of `runati` -/
def exAti (e : Ext) (words : List String) : Invocation := ⟨e, ⟨.typeError, fun _ => .error .valueError⟩, 10, fun _ => 1, [], false, words.map String.toList⟩

def exShellLines : List Invocation :=
  let e := exExt fun k => natStr (1000 + k)
  [exAba e ["ocubiter", "POSCAR"], exAba e ["ocubiter", "POSCAR"], exAti e ["supcell", "-s", "2", "1", "1", "--outmode", "vasp", "POSCAR"], exAba e ["nothing"]]

set_option maxRecDepth 100000 in
/-- a run that writes, one that fails, one of the other program, and a wrong line -/
example : (shellRun exShellLines ⟨[], [("POSCAR".toList, exPoscar)]⟩).files.map (fun f => String.ofList f.1) =
    ["POSCAR", "/w/STRUCTURES_B3_1000/STRUCTURE_B1_1001.vasp", "/w/STRUCTURES_B3_1000/STRUCTURE_B1_1002.vasp",
      "/w/STRUCTURES_B3_1000/STRUCTURE_B1_1003.vasp", "POSCAR_SUPC.vasp"] := by decide +kernel

example : dictGet (shellRun exShellLines ⟨[], [("POSCAR".toList, exPoscar)]⟩).files "POSCAR".toList = some exPoscar := by
  refine C114_input exShellLines _ _ _ ?_ (by decide) (by decide) ?_ rfl
  · intro i hi
    have : i.e.choices 0 = natStr 1000 := by
      simp only [exShellLines, List.mem_cons, List.not_mem_nil, or_false] at hi
      rcases hi with rfl | rfl | rfl | rfl <;> rfl
    rw [this]
    decide +kernel
  · rintro ⟨-, t, ht, h⟩
    simp only [List.mem_cons, List.not_mem_nil, or_false] at ht
    rcases ht with rfl | rfl | rfl | rfl | rfl | rfl <;> revert h <;> decide +kernel

/-- a file system with the input and a result for volume 2 -/
def exShellFs : Fs := ⟨["/w/SUPLAT_x".toList], [("a.yaml".toList, exAtom 5), ("/w/SUPLAT_x/SUPLAT_2_AAAA.vasp".toList, .text [])]⟩

/-- a line asking for volume 4 -/
def exShellLine : List Word := ["suplat", "-c", "x", "-v", "4", "a.yaml"].map String.toList

theorem exShellLine_reads : readAba exShellLine = .call "a.yaml".toList (.suplat (some ['x']) 4 false "yaml".toList) := rfl

theorem exShellLine_ends : (suplat exSup "a.yaml".toList (exAtom 5) (some ['x']) 4 false "yaml".toList exShellFs).2 = .ok () := by
  refine (C102_finishes (cell := exAtomCell 5) ⟨by decide +kernel, _, rfl, rfl⟩ exSup_setOrder (exSup_pointGroup _) exSup_dir (by norm_num) (by norm_num) false
    (.inr rfl) exShellFs (fun _ => by decide) (exSup_standardises _)).2 fun z hz => ?_
  rw [List.mem_singleton.1 hz]
  unfold Spec.Known; omega

theorem endOf_done {r : Fs × Py Unit} (h : r.2 = .ok ()) : (endOf r).2 = .done := by
  unfold endOf
  rw [h]

/-- running volume 4 removes the result for volume 2 -/
example (env : CliEnv) : dictGet (runaba exSup env exShellLine exShellFs).1.files "/w/SUPLAT_x/SUPLAT_2_AAAA.vasp".toList = none := by
  have hg : dictGet exShellFs.files "a.yaml".toList = some (exAtom 5) := rfl
  have hA : "/w/SUPLAT_x/SUPLAT_2_AAAA.vasp".toList =
      "/w/SUPLAT_x".toList ++ ['/'] ++ "SUPLAT_".toList ++ natStr 2 ++ ['_'] ++ "AAAA".toList ++ ['.'] ++ "vasp".toList := by decide +kernel
  rw [hA]
  exact C114_suplat_lost exSup env exShellLine exShellFs _ _ _ _ _ exShellLine_reads (by rw [runaba_call exSup env exShellLine_reads hg]; exact endOf_done exShellLine_ends)
    "/w/SUPLAT_x".toList exSup_dir ⟨"/w/SUPLAT_".toList, 'x', by decide, by decide⟩ (fun _ _ _ _ => by decide) 2 (by decide) "AAAA".toList "vasp".toList

end Verif
