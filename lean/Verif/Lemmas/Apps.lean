import Verif.Model.Apps
import Verif.Spec.Writes
import Verif.Lemmas.Dict
import Verif.Lemmas.Lazy
import Verif.Lemmas.Symmetry

/-! # Lemmas about the applications -/

namespace Verif

/-- performing writes one after the other -/
def Fs.writes (fs : Fs) (ws : List (List Char × FileContent)) : Fs := ws.foldl (fun f w => f.write w.1 w.2) fs

theorem Fs.writes_append (fs : Fs) (a b : List (List Char × FileContent)) : fs.writes (a ++ b) = (fs.writes a).writes b := by
  unfold Fs.writes; rw [List.foldl_append]

theorem Fs.writes_dirs (fs : Fs) (ws : List (List Char × FileContent)) : (fs.writes ws).dirs = fs.dirs := by
  induction ws generalizing fs with
  | nil => rfl
  | cons w ws ih => exact ih (fs.write w.1 w.2)

theorem Fs.writes_get (fs : Fs) (ws : List (List Char × FileContent)) (p : List Char) :
    dictGet (fs.writes ws).files p = Spec.afterWrites (dictGet fs.files p) ws p := by
  induction ws generalizing fs with
  | nil => rfl
  | cons w ws ih =>
    change dictGet ((fs.write w.1 w.2).writes ws).files p = _
    rw [ih, Spec.afterWrites]
    congr 1
    unfold Fs.write
    rw [dictGet_dictSet]
    by_cases h : w.1 = p
    · rw [if_pos h, if_pos h.symm]
    · rw [if_neg h, if_neg (Ne.symm h)]

theorem Fs.has_iff (fs : Fs) (p : List Char) : fs.has p = true ↔ p ∈ fs.dirs ∨ ∃ x, dictGet fs.files p = some x := by
  unfold Fs.has
  rw [Bool.or_eq_true, decide_eq_true_eq, dictHas_iff_get]

/-! ### generated structures are built by the constructor -/

theorem mapM_mem_ok {α β} (f : α → Py β) : ∀ (l : List α) (bs : List β), l.mapM f = .ok bs → ∀ b ∈ bs, ∃ a ∈ l, f a = .ok b
  | [], bs, h, b, hb => by
    rw [List.mapM_nil] at h
    injection h with h
    subst h; cases hb
  | a :: l, bs, h, b, hb => by
    rw [List.mapM_cons] at h
    obtain ⟨x, h1, h2⟩ := bind_ok h
    obtain ⟨xs, h3, h4⟩ := bind_ok h2
    injection h4 with h4
    subst h4
    rcases List.mem_cons.1 hb with rfl | hb
    · exact ⟨a, by simp, h1⟩
    · obtain ⟨a', ha', hf⟩ := mapM_mem_ok f l xs h3 b hb
      exact ⟨a', List.mem_cons_of_mem _ ha', hf⟩

theorem gen2NodupLoop_subset (hash : List ℤ → ℕ) (perms : List (List ℕ)) : ∀ (cs : List GCell) (iso : List ℕ) (out : List GCell),
    gen2NodupLoop hash perms iso cs = .ok out → ∀ c ∈ out, c ∈ cs
  | [], iso, out, h, c, hc => by
    rw [gen2NodupLoop] at h; injection h with h; subst h; cases hc
  | a :: cs, iso, out, h, c, hc => by
    rw [gen2NodupLoop] at h
    split at h
    · exact List.mem_cons_of_mem _ (gen2NodupLoop_subset hash perms cs iso out h c hc)
    · obtain ⟨i', _, h2⟩ := bind_ok h
      obtain ⟨rest, h3, h4⟩ := bind_ok h2
      injection h4 with h4
      subst h4
      rcases List.mem_cons.1 hc with rfl | hc
      · simp
      · exact List.mem_cons_of_mem _ (gen2NodupLoop_subset hash perms cs i' rest h3 c hc)

theorem genNodupOfEle_built {hash : List ℤ → ℕ} {g : OGen} {ele sp : Specie} {n : ℕ} {cs : List GCell}
    (h : g.genNodupOfEle hash ele n sp = .ok cs) : ∀ c ∈ cs, Built c := by
  intro c hc
  obtain ⟨dup, h1, h2⟩ := bind_ok h
  obtain ⟨a, _, ha⟩ := mapM_mem_ok _ _ _ h1 c (gen2NodupLoop_subset _ _ _ _ _ h2 c hc)
  exact ⟨_, _, _, ha⟩

theorem genNodupTrinary_built {hash : List ℤ → ℕ} {g : OGen} {sp1 sp2 : Specie} {n1 n2 : ℕ} {cs : List GCell}
    (h : g.genNodupTrinary hash sp1 n1 sp2 n2 = .ok cs) : ∀ c ∈ cs, Built c := by
  intro c hc
  obtain ⟨dup, h1, h2⟩ := bind_ok h
  obtain ⟨a, _, ha⟩ := mapM_mem_ok _ _ _ h1 c (gen2NodupLoop_subset _ _ _ _ _ h2 c hc)
  exact ⟨_, _, _, ha⟩

theorem addOneInner_built (hash : List ℤ → ℕ) (c : GCell) : ∀ (cands : List (List ℤ)) (db : List ℕ) (r : List GCell × List ℕ),
    addOneInner hash c cands db = .ok r → ∀ d ∈ r.1, Built d
  | [], db, r, h, d, hd => by rw [addOneInner] at h; injection h with h; subst h; cases hd
  | nn :: rest, db, r, h, d, hd => by
    rw [addOneInner] at h
    split at h
    · exact addOneInner_built hash c rest db r h d hd
    · obtain ⟨cell, h1, h2⟩ := bind_ok h
      obtain ⟨r', h3, h4⟩ := bind_ok h2
      injection h4 with h4
      subst h4
      rcases List.mem_cons.1 hd with rfl | hd
      · exact ⟨_, _, _, h1⟩
      · exact addOneInner_built hash c rest _ r' h3 d hd

theorem addOneLoop_built (hash : List ℤ → ℕ) (ok : ℕ → ℤ → Bool) (atom : ℤ) : ∀ (cs : List GCell) (db : List ℕ) (out : List GCell),
    addOneLoop hash ok atom cs db = .ok out → ∀ d ∈ out, Built d
  | [], db, out, h, d, hd => by rw [addOneLoop] at h; injection h with h; subst h; cases hd
  | c :: cs, db, out, h, d, hd => by
    rw [addOneLoop] at h
    obtain ⟨r, h1, h2⟩ := bind_ok h
    obtain ⟨rest, h3, h4⟩ := bind_ok h2
    injection h4 with h4
    subst h4
    rcases List.mem_append.1 hd with hd | hd
    · exact addOneInner_built hash c _ db r h1 d hd
    · exact addOneLoop_built hash ok atom cs r.2 rest h3 d hd

theorem levels_built (step : List GCell → Py (List GCell)) (hs : ∀ gen out, step gen = .ok out → ∀ d ∈ out, Built d) :
    ∀ (k : ℕ) (gen : List GCell) (ls : List (List GCell)), levels step k gen = .ok ls → ∀ l ∈ ls, ∀ d ∈ l, Built d
  | 0, gen, ls, h, l, hl => by rw [levels] at h; injection h with h; subst h; cases hl
  | k + 1, gen, ls, h, l, hl => by
    rw [levels] at h
    obtain ⟨g', h1, h2⟩ := bind_ok h
    obtain ⟨rest, h3, h4⟩ := bind_ok h2
    injection h4 with h4
    subst h4
    rcases List.mem_cons.1 hl with rfl | hl
    · exact hs gen _ h1
    · exact levels_built step hs k g' rest h3 l hl

theorem allSpeckleOfEle_built {hash : List ℤ → ℕ} {g : OGen} {ele sp : Specie} {n : ℕ} {ls : List (List GCell)}
    (h : g.allSpeckleOfEle hash n ele sp = .ok ls) : ∀ l ∈ ls, ∀ d ∈ l, Built d := by
  refine levels_built _ ?_ _ _ _ h
  intro gen out ho d hd
  obtain ⟨dup, h1, h2⟩ := bind_ok ho
  exact addOneLoop_built _ _ _ _ _ _ h1 d (gen2NodupLoop_subset _ _ _ _ _ h2 d hd)

/-! ### the loops -/

/-- the structures that meet the condition -/
def passing (e : Ext) (mpr : Bool) (tr : Option (Specie × ℚ)) (cs : List GCell) : List GCell :=
  cs.filter fun c => decide (appCondition e mpr tr c = .ok true)

/-- `w` is the write `ocumaker`/`ocubiter` makes for the structure `c` when `random.choices` gives `suffix` -/
def OccRecord (e : Ext) (refined : Bool) (outmode dir suffix : List Char) (c : GCell) (w : List Char × FileContent) : Prop :=
  ∃ d cm, maybeRefined e refined c = .ok d ∧ d.comment = .ok cm ∧
    w.1 = pathJoin dir ("STRUCTURE_".toList ++ cm ++ ['_'] ++ suffix ++ ['.'] ++ outmode) ∧ writeFile d w.1 none = .ok w.2

theorem occWriteOne_inv {e : Ext} {refined : Bool} {outmode dir suffix : List Char} {c : GCell} {fs fs' : Fs}
    (h : occWriteOne e refined outmode dir suffix c fs = .ok fs') : ∃ w, OccRecord e refined outmode dir suffix c w ∧ fs' = fs.write w.1 w.2 := by
  obtain ⟨d, h1, h⟩ := bind_ok h
  obtain ⟨cm, h2, h⟩ := bind_ok h
  obtain ⟨x, h3, h⟩ := bind_ok h
  injection h with h
  exact ⟨(_, x), ⟨d, cm, h1, h2, rfl, h3⟩, h.symm⟩

theorem occLoop_inv (e : Ext) (mpr : Bool) (tr : Option (Specie × ℚ)) (refined : Bool) (outmode dir : List Char) :
    ∀ (cs : List GCell) (k : ℕ) (fs fs' : Fs), occLoop e mpr tr refined outmode dir cs k fs = (fs', .ok ()) →
      (∀ c ∈ cs, ∃ b, appCondition e mpr tr c = .ok b) ∧
      ∃ ws, List.Forall₂ (fun ci w => OccRecord e refined outmode dir (e.choices ci.2) ci.1 w) ((passing e mpr tr cs).zipIdx k) ws ∧
        fs' = fs.writes ws
  | [], k, fs, fs', h => by
    rw [occLoop] at h
    injection h with h _
    exact ⟨fun c hc => (by cases hc), [], .nil, h.symm⟩
  | c :: cs, k, fs, fs', h => by
    rw [occLoop] at h
    split at h
    · injection h with _ h; cases h
    · rename_i hc
      obtain ⟨h1, ws, h2, h3⟩ := occLoop_inv e mpr tr refined outmode dir cs k fs fs' h
      refine ⟨fun d hd => ?_, ws, ?_, h3⟩
      · rcases List.mem_cons.1 hd with rfl | hd
        · exact ⟨_, hc⟩
        · exact h1 d hd
      · have : passing e mpr tr (c :: cs) = passing e mpr tr cs := by
          unfold passing
          rw [List.filter_cons_of_neg (by rw [hc]; decide)]
        rw [this]; exact h2
    · rename_i hc
      split at h
      · injection h with _ h; cases h
      · rename_i fs1 hw
        obtain ⟨w, hw1, rfl⟩ := occWriteOne_inv hw
        obtain ⟨h1, ws, h2, h3⟩ := occLoop_inv e mpr tr refined outmode dir cs (k + 1) _ fs' h
        refine ⟨fun d hd => ?_, w :: ws, ?_, h3⟩
        · rcases List.mem_cons.1 hd with rfl | hd
          · exact ⟨_, hc⟩
          · exact h1 d hd
        · have : passing e mpr tr (c :: cs) = c :: passing e mpr tr cs := by
            unfold passing
            rw [List.filter_cons_of_pos (by rw [hc]; decide)]
          rw [this, List.zipIdx_cons]
          exact .cons hw1 h2

/-- the write of a ternary application for the structure `c`: the name is the prefix, anything, the suffix -/
def TerRecord (e : Ext) (refined : Bool) (outmode dir : List Char) (names : List Char × List Char) (c : GCell) (w : List Char × FileContent) : Prop :=
  ∃ d x, maybeRefined e refined c = .ok d ∧ w.1 = pathJoin dir (names.1 ++ x ++ names.2) ∧ terContent outmode d = .ok w.2

theorem tempPath_inv (e : Ext) (fs : Fs) (dir pre suf : List Char) : ∀ (fuel k : ℕ) (r : List Char × ℕ), tempPath e fs dir pre suf fuel k = .ok r →
    fs.has r.1 = false ∧ ∃ x, r.1 = pathJoin dir (pre ++ x ++ suf)
  | 0, k, r, h => by rw [tempPath] at h; cases h
  | fuel + 1, k, r, h => by
    rw [tempPath] at h
    split at h
    · exact tempPath_inv e fs dir pre suf fuel (k + 1) r h
    · rename_i hn
      injection h with h
      subst h
      exact ⟨by simpa using hn, _, rfl⟩

theorem has_write (fs : Fs) (p q : List Char) (x : FileContent) : (fs.write q x).has p = true ↔ p = q ∨ fs.has p = true := by
  rw [Fs.has_iff, Fs.has_iff]
  unfold Fs.write
  simp only [dictGet_dictSet]
  by_cases h : p = q
  · subst h; simp
  · simp [h]

theorem terLoop_inv (e : Ext) (mpr : Bool) (tr : Option (Specie × ℚ)) (refined : Bool) (outmode dir : List Char) (names : List Char × List Char) :
    ∀ (cs : List GCell) (k k' : ℕ) (fs fs' : Fs), terLoop e mpr tr refined outmode dir names cs k fs = ((k', fs'), .ok ()) →
      (∀ c ∈ cs, ∃ b, appCondition e mpr tr c = .ok b) ∧
      ∃ ws, List.Forall₂ (TerRecord e refined outmode dir names) (passing e mpr tr cs) ws ∧
        fs' = fs.writes ws ∧ (ws.map (·.1)).Nodup ∧ ∀ w ∈ ws, fs.has w.1 = false
  | [], k, k', fs, fs', h => by
    rw [terLoop] at h
    simp only [Prod.mk.injEq] at h
    exact ⟨fun c hc => (by cases hc), [], .nil, h.1.2.symm, by simp, by simp⟩
  | c :: cs, k, k', fs, fs', h => by
    rw [terLoop] at h
    split at h
    · injection h with _ h; cases h
    · rename_i hc
      obtain ⟨h1, ws, h2, h3⟩ := terLoop_inv e mpr tr refined outmode dir names cs k k' fs fs' h
      refine ⟨fun d hd => ?_, ws, ?_, h3⟩
      · rcases List.mem_cons.1 hd with rfl | hd
        · exact ⟨_, hc⟩
        · exact h1 d hd
      · have : passing e mpr tr (c :: cs) = passing e mpr tr cs := by
          unfold passing
          rw [List.filter_cons_of_neg (by rw [hc]; decide)]
        rw [this]; exact h2
    · rename_i hc
      split at h
      · injection h with _ h; cases h
      · rename_i r hw
        obtain ⟨d, e1, hw⟩ := bind_ok hw
        obtain ⟨x, e2, hw⟩ := bind_ok hw
        obtain ⟨pk, e3, hw⟩ := bind_ok hw
        injection hw with hw
        subst hw
        obtain ⟨p1, y, p2⟩ := tempPath_inv _ _ _ _ _ _ _ _ e3
        obtain ⟨h1, ws, h2, h3, h4, h5⟩ := terLoop_inv e mpr tr refined outmode dir names cs pk.2 k' _ fs' h
        refine ⟨fun d hd => ?_, (pk.1, x) :: ws, ?_, h3, ?_, ?_⟩
        · rcases List.mem_cons.1 hd with rfl | hd
          · exact ⟨_, hc⟩
          · exact h1 d hd
        · have : passing e mpr tr (c :: cs) = c :: passing e mpr tr cs := by
            unfold passing
            rw [List.filter_cons_of_pos (by rw [hc]; decide)]
          rw [this]
          exact .cons ⟨d, y, e1, p2, e2⟩ h2
        · rw [List.map_cons, List.nodup_cons]
          refine ⟨fun hm => ?_, h4⟩
          obtain ⟨w, hw, hwe⟩ := List.mem_map.1 hm
          have := h5 w hw
          rw [hwe, Bool.eq_false_iff] at this
          exact this ((has_write _ _ _ _).2 (.inl rfl))
        · intro w hw
          rcases List.mem_cons.1 hw with rfl | hw
          · exact p1
          · have := h5 w hw
            rw [Bool.eq_false_iff] at this ⊢
            exact fun hh => this ((has_write _ _ _ _).2 (.inr hh))

theorem has_writes (fs : Fs) (ws : List (List Char × FileContent)) (p : List Char) :
    (fs.writes ws).has p = true ↔ p ∈ ws.map (·.1) ∨ fs.has p = true := by
  induction ws generalizing fs with
  | nil => simp [Fs.writes]
  | cons w ws ih =>
    change ((fs.write w.1 w.2).writes ws).has p = true ↔ _
    rw [ih, has_write, List.map_cons, List.mem_cons]
    tauto

theorem makertLoop_inv (e : Ext) (a : TerApp) (g : OGen) (tr : Option (Specie × ℚ)) (dir : List Char) :
    ∀ (ps : List (ℕ × ℕ)) (k : ℕ) (fs fs' : Fs), makertLoop e a g tr dir ps k fs = (fs', .ok ()) →
      ∃ wss : List (List (List Char × FileContent)), List.Forall₂ (fun p ws => ∃ cs, terStructures e a g p.1 p.2 = .ok cs ∧
          (∀ c ∈ cs, ∃ b, appCondition e true tr c = .ok b) ∧
          List.Forall₂ (TerRecord e a.refined a.outmode dir (terNames a.outmode ((a.size : ℤ) - p.1 - p.2) p.1 p.2)) (passing e true tr cs) ws) ps wss ∧
        fs' = fs.writes wss.flatten ∧ (wss.flatten.map (·.1)).Nodup ∧ ∀ w ∈ wss.flatten, fs.has w.1 = false
  | [], k, fs, fs', h => by
    rw [makertLoop] at h
    injection h with h _
    exact ⟨[], .nil, h.symm, by simp, by simp⟩
  | p :: ps, k, fs, fs', h => by
    rw [makertLoop] at h
    split at h
    · injection h with _ h; cases h
    · rename_i cs hcs
      split at h
      · injection h with _ h; cases h
      · rename_i s hs
        obtain ⟨k', fs1⟩ := s
        obtain ⟨h1, ws, h2, h3, h4, h5⟩ := terLoop_inv _ _ _ _ _ _ _ _ _ _ _ _ hs
        obtain ⟨wss, i1, i2, i3, i4⟩ := makertLoop_inv e a g tr dir ps k' fs1 fs' h
        subst h3
        refine ⟨ws :: wss, .cons ⟨cs, hcs, h1, h2⟩ i1, ?_, ?_, ?_⟩
        · rw [List.flatten_cons, Fs.writes_append]; exact i2
        · rw [List.flatten_cons, List.map_append, List.nodup_append]
          refine ⟨h4, i3, fun x hx y hy hxy => ?_⟩
          subst hxy
          obtain ⟨w, hw, rfl⟩ := List.mem_map.1 hy
          have := i4 w hw
          rw [Bool.eq_false_iff] at this
          exact this ((has_writes _ _ _).2 (.inl hx))
        · intro w hw
          rw [List.flatten_cons, List.mem_append] at hw
          rcases hw with hw | hw
          · exact h5 w hw
          · have := i4 w hw
            rw [Bool.eq_false_iff] at this ⊢
            exact fun hh => this ((has_writes _ _ _).2 (.inr hh))

/-- the write of `suplat` for one superlattice -/
def SupRecord (e : Ext) (v : ℕ) (outmode dir suffix : List Char) (s : SLCell) (w : List Char × FileContent) : Prop :=
  ∃ c d, s.toGeneralCell = .ok c ∧ c.getShapedCell e = .ok d ∧
    w.1 = pathJoin dir ("SUPLAT_".toList ++ natStr v ++ ['_'] ++ suffix ++ ['.'] ++ outmode) ∧ writeFile d w.1 none = .ok w.2

theorem supLoop_inv (e : Ext) (v : ℕ) (outmode dir : List Char) :
    ∀ (ss : List SLCell) (k : ℕ) (fs fs' : Fs), supLoop e v outmode dir ss k fs = (fs', .ok ()) →
      ∃ ws, List.Forall₂ (fun si w => SupRecord e v outmode dir (e.choices si.2) si.1 w) (ss.zipIdx k) ws ∧ fs' = fs.writes ws
  | [], k, fs, fs', h => by
    rw [supLoop] at h
    injection h with h _
    exact ⟨[], .nil, h.symm⟩
  | s :: ss, k, fs, fs', h => by
    rw [supLoop] at h
    split at h
    · injection h with _ h; cases h
    · rename_i fs1 hw
      obtain ⟨c, h1, hw⟩ := bind_ok hw
      obtain ⟨d, h2, hw⟩ := bind_ok hw
      obtain ⟨x, h3, hw⟩ := bind_ok hw
      injection hw with hw
      subst hw
      obtain ⟨ws, i1, i2⟩ := supLoop_inv e v outmode dir ss (k + 1) _ fs' h
      refine ⟨(_, x) :: ws, ?_, i2⟩
      rw [List.zipIdx_cons]
      exact .cons ⟨c, d, h1, h2, rfl, h3⟩ i1

end Verif
