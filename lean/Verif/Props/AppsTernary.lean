import Verif.Props.Apps
import Verif.Lemmas.DedupNum

/-! # C65, C66, C67: the ternary applications and `suplat` -/

namespace Verif

open Spec

/-- **C65.** The compositions that `ocumakert` goes through: all pairs of positive counts whose sum leaves at least one target atom, each once. -/
theorem C65_pairs (n : ℕ) : (makertPairs n).Nodup ∧ ∀ n1 n2 : ℕ, (n1, n2) ∈ makertPairs n ↔ 1 ≤ n1 ∧ 1 ≤ n2 ∧ n1 + n2 < n := by
  constructor
  · unfold makertPairs
    rw [List.nodup_flatMap]
    refine ⟨fun n1 _ => ?_, ?_⟩
    · exact (List.nodup_range' (s := 1) (n := n - n1 - 1) (step := 1)).map fun a b h => (Prod.mk.inj h).2
    · refine (List.nodup_range' (s := 1) (n := n - 1 - 1) (step := 1)).imp_of_mem ?_
      intro a b _ _ hab x hx hy
      obtain ⟨_, _, rfl⟩ := List.mem_map.1 hx
      obtain ⟨_, _, h⟩ := List.mem_map.1 hy
      exact hab (Prod.mk.inj h).1.symm
  · intro n1 n2
    unfold makertPairs
    simp only [List.mem_flatMap, List.mem_map, List.mem_range'_1, Prod.mk.injEq]
    constructor
    · rintro ⟨a, ⟨h1, h2⟩, b, ⟨h3, h4⟩, rfl, rfl⟩
      omega
    · rintro ⟨h1, h2, h3⟩
      exact ⟨n1, by omega, n2, by omega, rfl, rfl⟩

example : makertPairs 5 = [(1, 1), (1, 2), (1, 3), (2, 1), (2, 2), (3, 1)] := by decide

/-- what the ternary applications set up: `size` is the number of atoms of the target species -/
structure TerSetup (e : Ext) (settings : YDoc) (o : TerOpts) (cell : GCell) (size : ℕ) (comment : List Char) (tr : Option (Specie × ℚ)) (g : OGen) : Prop where
  source : ∃ lat pos num, settings.lattice = some lat ∧ settings.positions = some pos ∧ settings.numbers = some num ∧
    GCell.new (smulM ((o.zoom.or settings.zoom).getD 1) lat) pos num = .ok cell ∧
    ∃ z, TargetSpecies num o.element z ∧ size = num.count z
  named : comment = (o.comment.or settings.comment).getD "default".toList
  restricted : FirstRestriction o.trs tr
  gen : OGen.new cell (e.symmetry cell) (e.wyckoffs cell) = .ok g

theorem need_inv {α} {x : Option α} {a : α} (h : need x = .ok a) : x = some a := by
  cases x with
  | none => cases h
  | some b => injection h with h; rw [h]

theorem terInit_inv {settings : YDoc} {o : TerOpts} {a : TerApp} (h : terInit settings o = .ok a) :
    (∃ lat pos num, settings.lattice = some lat ∧ settings.positions = some pos ∧ settings.numbers = some num ∧
      GCell.new (smulM ((o.zoom.or settings.zoom).getD 1) lat) pos num = .ok a.cell ∧
      ∃ z, TargetSpecies num o.element z ∧ a.size = num.count z) ∧
    a.comment = (o.comment.or settings.comment).getD "default".toList ∧ a.tr = o.trs.head? ∧ a.refined = o.refined ∧
    a.outmode = o.outmode ∧ a.mpr = o.mpr ∧ a.s1 = o.s1 ∧ a.s2 = o.s2 := by
  obtain ⟨lat, h1, h⟩ := bind_ok h
  obtain ⟨pos, h2, h⟩ := bind_ok h
  obtain ⟨num, h3, h⟩ := bind_ok h
  obtain ⟨cell, h4, h⟩ := bind_ok h
  obtain ⟨z, h5, h⟩ := bind_ok h
  obtain ⟨_, _, h⟩ := bind_ok h
  injection h with h
  subst h
  exact ⟨⟨lat, pos, num, need_inv h1, need_inv h2, need_inv h3, h4, z, targetZ_inv h5, rfl⟩, rfl, rfl, rfl, rfl, rfl, rfl, rfl⟩

theorem terStructures_inv {e : Ext} {a : TerApp} {g : OGen} {n1 n2 : ℤ} {cs : List GCell} (h : terStructures e a g n1 n2 = .ok cs) :
    ∃ sp1 sp2, Specie.ofSymbol a.s1 = .ok sp1 ∧ Specie.ofSymbol a.s2 = .ok sp2 ∧ 0 ≤ n1 ∧ 0 ≤ n2 ∧
      g.genNodupTrinary e.hash sp1 n1.toNat sp2 n2.toNat = .ok cs := by
  obtain ⟨sp1, h1, h⟩ := bind_ok h
  obtain ⟨sp2, h2, h⟩ := bind_ok h
  split at h
  · cases h
  · rename_i hn
    push Not at hn
    exact ⟨sp1, sp2, h1, h2, hn.1, hn.2, h⟩

theorem makedirs_has {fs : Fs} {dir p : List Char} (h : (fs.makedirs dir).has p = false) : fs.has p = false := by
  rw [Bool.eq_false_iff] at h ⊢
  intro hh
  refine h ((Fs.has_iff _ _).2 ?_)
  rcases (Fs.has_iff _ _).1 hh with h1 | h1
  · exact .inl (List.mem_cons_of_mem _ h1)
  · exact .inr h1

/-- the outcome of a finished ternary run: the passing structures correspond one to one to new files, which hold them; everything else is as before -/
structure TerOutcome (e : Ext) (o : TerOpts) (mpr : Bool) (comment : List Char) (tr : Option (Specie × ℚ))
    (parts : List ((List Char × List Char) × List GCell)) (wss : List (List (List Char × FileContent))) (fs fs' : Fs) : Prop where
  fresh : fs.has (structuresDir e comment (e.choices 0)) = false
  records : List.Forall₂ (fun part ws => List.Forall₂ (TerRecord e o.refined o.outmode (structuresDir e comment (e.choices 0)) part.1)
    (passers e mpr tr part.2) ws) parts wss
  distinct : (wss.flatten.map (·.1)).Nodup
  new : ∀ w ∈ wss.flatten, fs.has w.1 = false
  holds : ∀ w ∈ wss.flatten, dictGet fs'.files w.1 = some w.2
  others : ∀ p, p ∉ wss.flatten.map (·.1) → dictGet fs'.files p = dictGet fs.files p
  dirs : fs'.dirs = structuresDir e comment (e.choices 0) :: fs.dirs

/-- **C66, C67.** A finished run of `ocutenter` writes exactly the passing ternary structures, each into a file of its own that did not exist before. -/
theorem C66_ocutenter {e : Ext} {settings : YDoc} {o : TerOpts} {n1 n2 : ℤ} {fs fs' : Fs}
    (h : ocutenter e settings o n1 n2 fs = (fs', .ok ())) :
    ∃ cell size comment tr g sp1 sp2 cs ws, TerSetup e settings o cell size comment tr g ∧
      Specie.ofSymbol o.s1 = .ok sp1 ∧ Specie.ofSymbol o.s2 = .ok sp2 ∧ 0 ≤ n1 ∧ 0 ≤ n2 ∧
      g.genNodupTrinary e.hash sp1 n1.toNat sp2 n2.toNat = .ok cs ∧
      TerOutcome e o o.mpr comment tr [(terNames o.outmode ((size : ℤ) - n1 - n2) n1 n2, cs)] [ws] fs fs' := by
  unfold ocutenter at h
  split at h
  · injection h with _ h; cases h
  · rename_i a ha
    obtain ⟨hc, q1, q2, q3, q4, q5, q6, q7⟩ := terInit_inv ha
    split at h
    · injection h with _ h; cases h
    · rename_i fs1 ho
      unfold openDir at ho
      split at ho
      · cases ho
      · rename_i hh
        injection ho with ho
        subst ho
        split at h
        · injection h with _ h; cases h
        · rename_i r hp
          obtain ⟨g, p1, hp⟩ := bind_ok hp
          obtain ⟨tr, p2, hp⟩ := bind_ok hp
          obtain ⟨cs, p3, hp⟩ := bind_ok hp
          injection hp with hp
          subst hp
          obtain ⟨sp1, sp2, t1, t2, t3, t4, t5⟩ := terStructures_inv p3
          simp only at h
          generalize hout : terLoop e a.mpr tr a.refined a.outmode (structuresDir e a.comment (e.choices 0))
            (terNames a.outmode ((a.size : ℤ) - n1 - n2) n1 n2) cs 0 (fs.makedirs (structuresDir e a.comment (e.choices 0))) = out at h
          obtain ⟨⟨k', fs2⟩, x⟩ := out
          injection h with h1 h2
          simp only at h1 h2
          subst h1 h2
          obtain ⟨_, ws, l1, l2, l3, l4⟩ := terLoop_inv _ _ _ _ _ _ _ _ _ _ _ _ hout
          rw [passing_eq _ _ _ _ (genNodupTrinary_built t5)] at l1
          rw [q3, q4, q5] at l1
          refine ⟨a.cell, a.size, a.comment, tr, g, sp1, sp2, cs, ws, ⟨hc, q1, parseTr_inv (q2 ▸ p2), p1⟩, q6 ▸ t1, q7 ▸ t2, t3, t4, t5, ?_⟩
          have hflat : [ws].flatten = ws := by simp
          refine ⟨by simpa using hh, .cons l1 .nil, by rw [hflat]; exact l3, ?_, ?_, ?_, ?_⟩
          · rw [hflat]; exact fun w hw => makedirs_has (l4 w hw)
          · rw [hflat]
            intro w hw
            rw [l2, Fs.writes_get]
            exact afterWrites_own _ _ l3 _ hw
          · rw [hflat]
            intro p hp
            rw [l2, Fs.writes_get, afterWrites_other _ _ _ hp]; rfl
          · rw [l2, Fs.writes_dirs]; rfl

theorem forall₂_imp_mem {α β} {R S : α → β → Prop} {l : List α} {m : List β} (h : List.Forall₂ R l m) (f : ∀ a ∈ l, ∀ b ∈ m, R a b → S a b) :
    List.Forall₂ S l m := by
  induction h with
  | nil => exact .nil
  | cons hab _ ih => exact .cons (f _ (by simp) _ (by simp) hab) (ih fun a ha b hb => f a (List.mem_cons_of_mem _ ha) b (List.mem_cons_of_mem _ hb))

theorem forall₂_map_left' {α β γ} {R : β → γ → Prop} (f : α → β) {l : List α} {m : List γ} (h : List.Forall₂ (fun a c => R (f a) c) l m) :
    List.Forall₂ R (l.map f) m := by
  induction h with
  | nil => exact .nil
  | cons hab _ ih => exact .cons hab ih

/-- **C65, C66, C67.** A finished run of `ocumakert` goes through all compositions and writes, for each of them, exactly the primitive structures that pass
the restriction, each into a file of its own that did not exist before. `structs n1 n2` are the structures of the composition. -/
theorem C65_ocumakert {e : Ext} {settings : YDoc} {o : TerOpts} {fs fs' : Fs} (h : ocumakert e settings o fs = (fs', .ok ())) :
    ∃ cell size comment tr g, ∃ structs : ℕ × ℕ → List GCell, ∃ wss, TerSetup e settings o cell size comment tr g ∧
      (∀ n1 n2 : ℕ, 1 ≤ n1 → 1 ≤ n2 → n1 + n2 < size → ∃ sp1 sp2, Specie.ofSymbol o.s1 = .ok sp1 ∧ Specie.ofSymbol o.s2 = .ok sp2 ∧
        g.genNodupTrinary e.hash sp1 n1 sp2 n2 = .ok (structs (n1, n2))) ∧
      TerOutcome e o true comment tr ((makertPairs size).map fun p => (terNames o.outmode ((size : ℤ) - p.1 - p.2) p.1 p.2, structs p)) wss fs fs' := by
  unfold ocumakert at h
  split at h
  · injection h with _ h; cases h
  · rename_i a ha
    obtain ⟨hc, q1, q2, q3, q4, q5, q6, q7⟩ := terInit_inv ha
    split at h
    · injection h with _ h; cases h
    · rename_i fs1 ho
      unfold openDir at ho
      split at ho
      · cases ho
      · rename_i hh
        injection ho with ho
        subst ho
        split at h
        · injection h with _ h; cases h
        · rename_i r hp
          obtain ⟨g, p1, hp⟩ := bind_ok hp
          obtain ⟨tr, p2, hp⟩ := bind_ok hp
          injection hp with hp
          subst hp
          obtain ⟨wss, l1, l2, l3, l4⟩ := makertLoop_inv _ _ _ _ _ _ _ _ _ h
          let structs : ℕ × ℕ → List GCell := fun p => match terStructures e a g p.1 p.2 with | .ok cs => cs | .error _ => []
          have hst : ∀ p cs, terStructures e a g p.1 p.2 = .ok cs → structs p = cs := fun p cs hcs => by simp only [structs, hcs]
          refine ⟨a.cell, a.size, a.comment, tr, g, structs, wss, ⟨hc, q1, parseTr_inv (q2 ▸ p2), p1⟩, ?_, ?_⟩
          · intro n1 n2 h1 h2 h3
            obtain ⟨_, _, cs, hcs, _⟩ := forall₂_mem_left l1 (((C65_pairs a.size).2 n1 n2).2 ⟨h1, h2, h3⟩)
            obtain ⟨sp1, sp2, t1, t2, -, -, t5⟩ := terStructures_inv hcs
            rw [hst _ _ hcs]
            exact ⟨sp1, sp2, q6 ▸ t1, q7 ▸ t2, by simpa using t5⟩
          · refine ⟨by simpa using hh, ?_, l3, fun w hw => makedirs_has (l4 w hw), ?_, ?_, ?_⟩
            · refine forall₂_map_left' _ (forall₂_imp_mem l1 ?_)
              rintro p _ ws _ ⟨cs, hcs, -, hr⟩
              obtain ⟨sp1, sp2, -, -, -, -, t5⟩ := terStructures_inv hcs
              rw [passing_eq _ _ _ _ (genNodupTrinary_built t5), q3, q4] at hr
              simp only [hst _ _ hcs]
              exact hr
            · intro w hw
              rw [l2, Fs.writes_get]
              exact afterWrites_own _ _ l3 _ hw
            · intro p hp
              rw [l2, Fs.writes_get, afterWrites_other _ _ _ hp]; rfl
            · rw [l2, Fs.writes_dirs]; rfl

/-! ## `suplat` -/

theorem dictGet_filter {β} (d : List (List Char × β)) (q : List Char → Bool) (p : List Char) :
    dictGet (d.filter fun f => q f.1) p = if q p = true then dictGet d p else none := by
  unfold dictGet
  induction d with
  | nil => simp
  | cons f d ih =>
    by_cases hf : q f.1 = true
    · rw [List.filter_cons_of_pos (by simpa using hf)]
      by_cases hp : f.1 = p
      · subst hp
        rw [List.find?_cons_of_pos (by simp), List.find?_cons_of_pos (by simp), if_pos hf]
      · rw [List.find?_cons_of_neg (by simpa using hp), List.find?_cons_of_neg (by simpa using hp)]
        exact ih
    · rw [List.filter_cons_of_neg (by simpa using hf), ih]
      by_cases hp : f.1 = p
      · subst hp
        rw [if_neg hf, if_neg hf]
      · rw [List.find?_cons_of_neg (by simpa using hp)]

/-- the outcome of a finished run of `suplat`: an existing output directory is emptied first -/
structure SupOutcome (e : Ext) (v : ℕ) (outmode dir : List Char) (ss : List SLCell) (ws : List (List Char × FileContent)) (fs fs' : Fs) : Prop where
  noFile : fs.has dir = true → dir ∈ fs.dirs
  records : List.Forall₂ (fun si w => SupRecord e v outmode dir (e.choices si.2) si.1 w) (ss.zipIdx 0) ws
  files : ∀ p, dictGet fs'.files p = afterWrites (if fs.has dir = true ∧ (dir ++ ['/']) <+: p then none else dictGet fs.files p) ws p

/-- **C66.** A finished run of `suplat` writes the shaped cell of every superlattice of the asked volume, in order; what the files hold is what these writes leave. -/
theorem C66_suplat {e : Ext} {infile : List Char} {content : FileContent} {comment : Option (List Char)} {v : ℕ} {ld : Bool} {outmode : List Char}
    {fs fs' : Fs} (h : suplat e infile content comment v ld outmode fs = (fs', .ok ())) :
    ∃ cell cm ss ws, readFile e.root content infile none = .ok cell ∧
      (∃ p, e.findPrimitive (cell.lattice, cell.positions, cell.numbers) = some p ∧ p.2.2.length = cell.numbers.length) ∧
      (cm = "default".toList ∨ comment = some cm) ∧
      (if ld then hnfsFromN2D e.setList e.itemFirst cell ((e.symmetry cell).map (·.1)) v
        else hnfsFromN e.setList e.itemFirst cell ((e.symmetry cell).map (·.1)) v) = .ok ss ∧
      SupOutcome e v outmode (pathJoin e.cwd ("SUPLAT_".toList ++ cm)) ss ws fs fs' := by
  unfold suplat at h
  split at h
  · injection h with _ h; cases h
  · rename_i a ha
    obtain ⟨cell, i1, ha⟩ := bind_ok ha
    obtain ⟨b, i2, ha⟩ := bind_ok ha
    cases b with
    | false => cases ha
    | true =>
      simp only [if_true] at ha
      obtain ⟨ss, i3, ha⟩ := bind_ok ha
      injection ha with ha
      subst ha
      have hcm : commentDefault comment = "default".toList ∨ comment = some (commentDefault comment) := by
        rcases comment with _ | _ | ⟨x, xs⟩
        · exact .inl rfl
        · exact .inl rfl
        · exact .inr rfl
      simp only at h
      generalize commentDefault comment = cm at h hcm
      refine ⟨cell, cm, ss, ?_⟩
      generalize pathJoin e.cwd ("SUPLAT_".toList ++ cm) = dir at h ⊢
      split at h
      · injection h with _ h; cases h
      · rename_i fs1 hf
        obtain ⟨ws, l1, l2⟩ := supLoop_inv _ _ _ _ _ _ _ _ h
        have hp := (isPrimitive_iff e (readFile_built i1)).1 i2
        refine ⟨ws, i1, hp, hcm, i3, ?_, l1, fun p => ?_⟩
        · intro hh
          unfold freshDir at hf
          rw [if_pos hh] at hf
          obtain ⟨fs2, hr, _⟩ := bind_ok hf
          unfold Fs.rmtree at hr
          split at hr
          · assumption
          · cases hr
        · rw [l2, Fs.writes_get]
          congr 1
          unfold freshDir at hf
          by_cases hh : fs.has dir = true
          · rw [if_pos hh] at hf
            obtain ⟨fs2, hr, hf⟩ := bind_ok hf
            injection hf with hf
            subst hf
            unfold Fs.rmtree at hr
            split at hr
            · injection hr with hr
              subst hr
              unfold Fs.makedirs
              have := dictGet_filter fs.files (fun q => !inside dir q) p
              simp only at this ⊢
              rw [this]
              unfold inside
              by_cases hi : (dir ++ ['/']) <+: p
              · rw [if_neg (by simpa using hi), if_pos ⟨hh, hi⟩]
              · rw [if_pos (by rw [Bool.not_eq_true', Bool.eq_false_iff]; simpa [List.isPrefixOf_iff_prefix] using hi), if_neg (fun h => hi h.2)]
            · cases hr
          · rw [if_neg (fun h => hh h.1)]
            rw [if_neg hh] at hf
            injection hf with hf
            subst hf
            rfl

/-- **C66 (partial).** If no two of the writes have the same path, every superlattice ends up in its own file. Missing: names with 4 random characters can
coincide, and must when there are more than 36⁴ superlattices (`C66_suplat_crowded`). -/
theorem C66_suplat_own_files_partial {e : Ext} {v : ℕ} {outmode dir : List Char} {ss : List SLCell} {ws : List (List Char × FileContent)} {fs fs' : Fs}
    (h : SupOutcome e v outmode dir ss ws fs fs') (hn : (ws.map (·.1)).Nodup) (i : ℕ) (s : SLCell) (hs : ss[i]? = some s) :
    ∃ w, ws[i]? = some w ∧ SupRecord e v outmode dir (e.choices i) s w ∧ dictGet fs'.files w.1 = some w.2 ∧
      ∀ j w', j ≠ i → ws[j]? = some w' → w'.1 ≠ w.1 := by
  have hlen : ws.length = ss.length := by rw [← h.records.length_eq, List.length_zipIdx]
  obtain ⟨hi, rfl⟩ := List.getElem?_eq_some_iff.1 hs
  refine ⟨ws[i], by simp [hlen, hi], ?_, ?_, ?_⟩
  · have := List.forall₂_iff_get.1 h.records |>.2 i (by simpa using hi) (by omega)
    simpa using this
  · rw [h.files]; exact afterWrites_own _ _ hn _ (List.getElem_mem _)
  · intro j w' hj hw' he
    obtain ⟨hj', rfl⟩ := List.getElem?_eq_some_iff.1 hw'
    have hinj := List.nodup_iff_injective_get.1 hn
    have := @hinj ⟨j, by simpa using hj'⟩ ⟨i, by simpa [hlen] using hi⟩ (by simpa using he)
    exact hj (by simpa using this)

/-- four characters of `A–Z` and `0–9`, as given by `random.choices(string.ascii_uppercase + string.digits, k=4)` -/
def RandomSuffix (s : List Char) : Prop := s.length = 4 ∧ ∀ c ∈ s, c ∈ "ABCDEFGHIJKLMNOPQRSTUVWXYZ0123456789".toList

/-- names made of words of length `k` over an alphabet -/
theorem names_card (A : Finset Char) (k : ℕ) (name : List Char → List Char) (ps : Finset (List Char))
    (h : ∀ p ∈ ps, ∃ s, s.length = k ∧ (∀ c ∈ s, c ∈ A) ∧ p = name s) : ps.card ≤ A.card ^ k := by
  have hsub : ps ⊆ Finset.univ.image (fun f : Fin k → A => name (List.ofFn fun i => (f i : Char))) := by
    intro p hp
    obtain ⟨s, h1, h2, rfl⟩ := h p hp
    rw [Finset.mem_image]
    refine ⟨fun i => ⟨s[i.val]'(by omega), h2 _ (List.getElem_mem _)⟩, Finset.mem_univ _, ?_⟩
    simp only
    congr 1
    exact List.ext_getElem (by simp [h1]) fun i h1 h2 => by simp
  calc ps.card ≤ _ := Finset.card_le_card hsub
    _ ≤ (Finset.univ : Finset (Fin k → A)).card := Finset.card_image_le
    _ = A.card ^ k := by rw [Finset.card_univ, Fintype.card_fun, Fintype.card_coe, Fintype.card_fin]

/-- with the four random characters of the name, at most 36⁴ = 1679616 superlattices can have files of their own; all further ones overwrite -/
theorem C66_suplat_crowded {e : Ext} {v : ℕ} {outmode dir : List Char} {ss : List SLCell} {ws : List (List Char × FileContent)} {fs fs' : Fs}
    (h : SupOutcome e v outmode dir ss ws fs fs') (hr : ∀ k, RandomSuffix (e.choices k)) :
    (ws.map (·.1)).toFinset.card ≤ 36 ^ 4 ∧ (36 ^ 4 < ss.length → ¬ (ws.map (·.1)).Nodup) := by
  have hcard : (ws.map (·.1)).toFinset.card ≤ 36 ^ 4 := by
    have hA : "ABCDEFGHIJKLMNOPQRSTUVWXYZ0123456789".toList.toFinset.card = 36 := by decide +kernel
    rw [← hA]
    refine names_card _ 4 (fun s => pathJoin dir ("SUPLAT_".toList ++ natStr v ++ ['_'] ++ s ++ ['.'] ++ outmode)) _ fun p hp => ?_
    rw [List.mem_toFinset] at hp
    obtain ⟨w, hw, rfl⟩ := List.mem_map.1 hp
    obtain ⟨si, _, c, d, _, _, hpath, _⟩ := forall₂_mem_right h.records hw
    obtain ⟨r1, r2⟩ := hr si.2
    exact ⟨e.choices si.2, r1, fun ch hch => List.mem_toFinset.2 (r2 ch hch), hpath⟩
  refine ⟨hcard, fun hlt hn => ?_⟩
  rw [List.toFinset_card_of_nodup hn, List.length_map, ← h.records.length_eq, List.length_zipIdx] at hcard
  omega

end Verif
