import Verif.Props.AppsTernary
import Verif.Props.AppAborts
import Verif.Lemmas.Birthday

/-! # C129: how likely a run of the applications loses structures

`ocumaker`, `ocubiter` and `suplat` name every file with four random characters and do not look whether the file exists (C66). -/

namespace Verif
open Spec

/-! ## the draws -/

/-- the characters `random.choices` draws from -/
def suffixChars : Finset Char := "ABCDEFGHIJKLMNOPQRSTUVWXYZ0123456789".toList.toFinset

/-- one draw of four characters -/
abbrev Suffix := {s : List Char // RandomSuffix s}

def suffixEquiv : (Fin 4 → suffixChars) ≃ Suffix where
  toFun f := ⟨List.ofFn fun i => (f i : Char), by simp, fun c hc => by
    obtain ⟨i, rfl⟩ := (List.mem_ofFn' _ _).1 hc
    exact List.mem_toFinset.1 (f i).2⟩
  invFun s i := ⟨s.1[i.val]'(by rw [s.2.1]; exact i.2), List.mem_toFinset.2 (s.2.2 _ (List.getElem_mem _))⟩
  left_inv f := by funext i; exact Subtype.ext (List.getElem_ofFn _)
  right_inv s := by
    apply Subtype.ext
    exact List.ext_getElem (by simp [s.2.1]) fun i h1 h2 => List.getElem_ofFn _

instance : Fintype Suffix := Fintype.ofEquiv _ suffixEquiv

theorem card_suffix : Fintype.card Suffix = 36 ^ 4 := by
  rw [Fintype.card_congr suffixEquiv.symm, Fintype.card_fun, Fintype.card_coe, Fintype.card_fin]
  have : suffixChars.card = 36 := by decide +kernel
  rw [this]

/-! ## which runs are complete -/

theorem append_same_tail {cm cm' suf suf' : List Char} (h : cm ++ ['_'] ++ suf = cm' ++ ['_'] ++ suf') (hl : suf.length = suf'.length) :
    cm = cm' ∧ suf = suf' := by
  obtain ⟨h1, h2⟩ := List.append_inj' h hl
  exact ⟨(List.append_inj' h1 rfl).1, h2⟩

theorem pathJoin_inj {dir a b : List Char} (h : pathJoin dir a = pathJoin dir b) : a = b := by
  unfold pathJoin at h
  split at h
  · exact h
  · exact List.append_cancel_left h
  · exact List.append_cancel_left h

theorem structureName_inj {dir cm cm' suf suf' outmode : List Char} (hl : suf.length = suf'.length)
    (h : pathJoin dir ("STRUCTURE_".toList ++ cm ++ ['_'] ++ suf ++ ['.'] ++ outmode) =
      pathJoin dir ("STRUCTURE_".toList ++ cm' ++ ['_'] ++ suf' ++ ['.'] ++ outmode)) : cm = cm' ∧ suf = suf' := by
  have h := pathJoin_inj h
  have h := List.append_cancel_right (List.append_cancel_right h)
  simp only [List.append_assoc] at h
  have h := List.append_cancel_left h
  rw [← List.append_assoc, ← List.append_assoc] at h
  exact append_same_tail h hl

theorem suplatName_inj {dir suf suf' outmode : List Char} {v : ℕ}
    (h : pathJoin dir ("SUPLAT_".toList ++ natStr v ++ ['_'] ++ suf ++ ['.'] ++ outmode) =
      pathJoin dir ("SUPLAT_".toList ++ natStr v ++ ['_'] ++ suf' ++ ['.'] ++ outmode)) : suf = suf' := by
  have h := pathJoin_inj h
  have h := List.append_cancel_right (List.append_cancel_right h)
  exact List.append_cancel_left h

theorem nodup_paths {m : ℕ} {ws : List (List Char × FileContent)} (hm : ws.length = m) {β : Type} (key : Fin m → β)
    (h : ∀ i j : Fin m, (ws[i.val]'(by omega)).1 = (ws[j.val]'(by omega)).1 ↔ key i = key j) :
    ((ws.map (·.1)).Nodup ↔ Function.Injective key) := by
  subst hm
  rw [List.nodup_iff_injective_get]
  constructor
  · intro hi i j hij
    have := (h i j).2 hij
    have := @hi ⟨i.val, by simp⟩ ⟨j.val, by simp⟩ (by simpa using this)
    exact Fin.ext (by simpa using this)
  · intro hk i j hij
    have hi : i.val < ws.length := by simpa using i.2
    have hj : j.val < ws.length := by simpa using j.2
    have := hk ((h ⟨i.val, hi⟩ ⟨j.val, hj⟩).1 (by simpa using hij))
    exact Fin.ext (by simpa using congrArg Fin.val this)

theorem card_paths {m : ℕ} {ws : List (List Char × FileContent)} (hm : ws.length = m) {β : Type} [DecidableEq β] (key : Fin m → β)
    (h : ∀ i j : Fin m, (ws[i.val]'(by omega)).1 = (ws[j.val]'(by omega)).1 ↔ key i = key j) :
    (ws.map (·.1)).toFinset.card = (Finset.univ.image key).card := by
  subst hm
  have e : (ws.map (·.1)).toFinset = Finset.univ.image fun i : Fin ws.length => (ws[i.val]).1 := by
    ext p
    simp only [List.mem_toFinset, Finset.mem_image, Finset.mem_univ, true_and]
    constructor
    · intro hp
      obtain ⟨w, hw, rfl⟩ := List.mem_map.1 hp
      obtain ⟨i, hi, rfl⟩ := List.getElem_of_mem hw
      exact ⟨⟨i, hi⟩, rfl⟩
    · rintro ⟨i, rfl⟩
      exact List.mem_map_of_mem (List.getElem_mem _)
  rw [e]
  refine Finset.card_bij (fun p hp => key (Finset.mem_image.1 hp).choose) ?_ ?_ ?_
  · intro p hp; exact Finset.mem_image_of_mem _ (Finset.mem_univ _)
  · intro p hp q hq hpq
    have h1 := (Finset.mem_image.1 hp).choose_spec.2
    have h2 := (Finset.mem_image.1 hq).choose_spec.2
    rw [← h1, ← h2]
    exact (h _ _).2 hpq
  · intro b hb
    obtain ⟨i, -, rfl⟩ := Finset.mem_image.1 hb
    have hp : (ws[i.val]).1 ∈ Finset.univ.image fun i : Fin ws.length => (ws[i.val]).1 := Finset.mem_image_of_mem _ (Finset.mem_univ i)
    refine ⟨_, hp, ?_⟩
    exact (h _ _).1 (Finset.mem_image.1 hp).choose_spec.2

theorem occ_paths {e : Ext} {o : OccOpts} {mpr : Bool} {comment : List Char} {tr : Option (Specie × ℚ)} {cs : List GCell}
    {ws : List (List Char × FileContent)} {fs fs' : Fs} (h : OccOutcome e o mpr comment tr cs ws fs fs')
    (f : Fin (passers e mpr tr cs).length → Suffix) (hf : ∀ i, e.choices (i.val + 1) = (f i).1)
    (cm : Fin (passers e mpr tr cs).length → List Char)
    (hcm : ∀ i : Fin (passers e mpr tr cs).length, ∃ d, maybeRefined e o.refined (passers e mpr tr cs)[i] = .ok d ∧ d.comment = .ok (cm i)) :
    ∃ hl : ws.length = (passers e mpr tr cs).length, ∀ i j : Fin (passers e mpr tr cs).length,
      (ws[i.val]'(by omega)).1 = (ws[j.val]'(by omega)).1 ↔ (cm i, f i) = (cm j, f j) := by
  have hl : ws.length = (passers e mpr tr cs).length := by rw [← h.records.length_eq, List.length_zipIdx]
  refine ⟨hl, fun i j => ?_⟩
  have hp : ∀ i : Fin (passers e mpr tr cs).length, (ws[i.val]'(by omega)).1 =
      pathJoin (structuresDir e comment (e.choices 0)) ("STRUCTURE_".toList ++ cm i ++ ['_'] ++ (f i).1 ++ ['.'] ++ o.outmode) := by
    intro i
    have := (List.forall₂_iff_get.1 h.records).2 i.val (by simp) (by omega)
    obtain ⟨d, c', r1, r2, r3, -⟩ := this
    obtain ⟨d', s1, s2⟩ := hcm i
    simp only [List.get_eq_getElem, List.getElem_zipIdx] at r1 r3
    have hd : d = d' := Except.ok.inj (r1.symm.trans s1)
    subst hd
    obtain rfl : c' = cm i := Except.ok.inj (r2.symm.trans s2)
    rw [r3, ← hf i, Nat.add_comm]
  rw [hp, hp]
  constructor
  · intro he
    obtain ⟨h1, h2⟩ := structureName_inj (by rw [(f i).2.1, (f j).2.1]) he
    rw [h1, Subtype.ext h2]
  · intro he
    injection he with h1 h2
    rw [h1, h2]

/-- **C129.** A finished run of `ocumaker` or `ocubiter` puts every passing structure into its own file exactly if the random characters
differ for any two structures with the same comment (`cm i` is the comment of the `i`-th structure as written). It writes as many files as
there are different pairs of comment and characters. -/
theorem C129_complete {e : Ext} {o : OccOpts} {mpr : Bool} {comment : List Char} {tr : Option (Specie × ℚ)} {cs : List GCell}
    {ws : List (List Char × FileContent)} {fs fs' : Fs} (h : OccOutcome e o mpr comment tr cs ws fs fs')
    (f : Fin (passers e mpr tr cs).length → Suffix) (hf : ∀ i, e.choices (i.val + 1) = (f i).1)
    (cm : Fin (passers e mpr tr cs).length → List Char)
    (hcm : ∀ i : Fin (passers e mpr tr cs).length, ∃ d, maybeRefined e o.refined (passers e mpr tr cs)[i] = .ok d ∧ d.comment = .ok (cm i)) :
    ((ws.map (·.1)).Nodup ↔ DrawnApart cm f) ∧
    (ws.map (·.1)).toFinset.card = (Finset.univ.image fun i => (cm i, f i)).card := by
  obtain ⟨hl, hk⟩ := occ_paths h f hf cm hcm
  refine ⟨(nodup_paths hl (fun i => (cm i, f i)) hk).trans ?_, card_paths hl (fun i => (cm i, f i)) hk⟩
  unfold DrawnApart
  constructor
  · intro hi a b h1 h2; exact hi (by simp only [h1, h2])
  · intro hi a b hab
    injection hab with h1 h2
    exact hi a b h1 h2

/-- **C129.** The number of draws, out of `(36⁴)^m`, for which all `m` structures get their own files: for every comment the number of ways
to draw without repetition as often as there are structures with this comment. -/
theorem C129_count {m : ℕ} (cm : Fin m → List Char) :
    Nat.card {f : Fin m → Suffix // DrawnApart cm f} =
      ∏ l ∈ Finset.univ.image cm, (36 ^ 4).descFactorial (Finset.univ.filter fun i => cm i = l).card ∧
    Nat.card (Fin m → Suffix) = (36 ^ 4) ^ m := by
  constructor
  · rw [card_apart, card_suffix]
  · rw [Nat.card_eq_fintype_card, Fintype.card_fun, card_suffix, Fintype.card_fin]

/-! ### `ocubiter`: all structures have the same comment -/

theorem comment_perm {c d : GCell} (h : c.numbers.Perm d.numbers) : c.comment = d.comment := by
  by_cases hk : ∀ n ∈ c.numbers, Known n
  · obtain ⟨zs, t, a1, a2, a3, -⟩ := (C48_comment c).1 hk
    obtain ⟨zs', t', b1, b2, b3, -⟩ := (C48_comment d).1 fun n hn => hk n (h.mem_iff.2 hn)
    have hz : zs = zs' := by
      have hp : zs.Perm zs' := by
        refine (List.perm_ext_iff_of_nodup (a1.1.imp fun h => h.ne) (b1.1.imp fun h => h.ne)).2 fun z => ?_
        rw [a1.2, b1.2, h.mem_iff]
      exact hp.eq_of_pairwise (fun a b _ _ h1 h2 => absurd (h1.trans h2) (lt_irrefl _)) a1.1 b1.1
    rw [a2, b2, a3, b3, hz]
    congr 1
    exact List.flatMap_congr fun z _ => by rw [h.count_eq]
  · push Not at hk
    obtain ⟨n, hn, hu⟩ := hk
    rw [(C48_comment c).2 ⟨n, hn, hu⟩, (C48_comment d).2 ⟨n, h.mem_iff.1 hn, hu⟩]

theorem subst_count {base m : List ℤ} {S : Finset ℕ} {a z : ℤ} (h : Spec.Subst base S z m) (hS : ∀ i ∈ S, base[i]? = some a) (x : ℤ) :
    m.count x + (if x = a then S.card else 0) = base.count x + (if x = z then S.card else 0) := by
  rw [count_eq_card, count_eq_card, h.1]
  have hSr : S ⊆ Finset.range base.length := fun i hi => Finset.mem_range.2 (List.getElem?_eq_some_iff.1 (hS i hi)).1
  have split : ∀ l : List ℤ, ((Finset.range base.length).filter fun i => l[i]? = some x).card =
      ((Finset.range base.length \ S).filter fun i => l[i]? = some x).card + (S.filter fun i => l[i]? = some x).card := by
    intro l
    conv_lhs => rw [← Finset.sdiff_union_of_subset hSr, Finset.filter_union]
    refine Finset.card_union_of_disjoint (Finset.disjoint_filter_filter ?_)
    exact Finset.sdiff_disjoint
  rw [split m, split base]
  have e1 : ((Finset.range base.length \ S).filter fun i => m[i]? = some x) = (Finset.range base.length \ S).filter fun i => base[i]? = some x := by
    refine Finset.filter_congr fun i hi => ?_
    obtain ⟨h1, h2⟩ := Finset.mem_sdiff.1 hi
    rw [h.2 i (Finset.mem_range.1 h1), if_neg h2]
  have e2 : (S.filter fun i => m[i]? = some x).card = if x = z then S.card else 0 := by
    have : ∀ i ∈ S, (m[i]? = some x ↔ x = z) := fun i hi => by
      rw [h.2 i (Finset.mem_range.1 (hSr hi)), if_pos hi]
      exact ⟨fun h => (Option.some.inj h).symm, fun h => by rw [h]⟩
    rw [Finset.filter_congr this]
    split <;> simp_all
  have e3 : (S.filter fun i => base[i]? = some x).card = if x = a then S.card else 0 := by
    have : ∀ i ∈ S, (base[i]? = some x ↔ x = a) := fun i hi => by
      rw [hS i hi]
      exact ⟨fun h => (Option.some.inj h).symm, fun h => by rw [h]⟩
    rw [Finset.filter_congr this]
    split <;> simp_all
  rw [e1, e2, e3]
  omega

/-- **C129.** All structures of a run of `ocubiter` have the same comment, so without refinement the run is complete exactly if no two of its
random draws coincide, and writes as many files as there are different draws. -/
theorem C129_ocubiter {e : Ext} {infile : List Char} {content : FileContent} {o : OccOpts} {fs fs' : Fs} (hr : o.refined = false)
    (h : ocubiter e infile content o fs = (fs', .ok ())) (hs : ∀ k, RandomSuffix (e.choices (k + 1))) :
    ∃ cell ele sp n comment tr g cs ws, OccSetup e (fun s => ((s / 2 + 1 : ℕ) : ℤ)) infile content o cell ele sp n comment tr g ∧
      g.genNodupOfEle e.hash ele n.toNat sp = .ok cs ∧ OccOutcome e o o.mpr comment tr cs ws fs fs' ∧
      ((ws.map (·.1)).Nodup ↔ Function.Injective fun i : Fin (passers e o.mpr tr cs).length => e.choices (i.val + 1)) ∧
      (ws.map (·.1)).toFinset.card = (Finset.univ.image fun i : Fin (passers e o.mpr tr cs).length => e.choices (i.val + 1)).card := by
  obtain ⟨cell, ele, sp, n, comment, tr, g, cs, ws, h1, h2, h3, h4⟩ := C67_ocubiter h
  refine ⟨cell, ele, sp, n, comment, tr, g, cs, ws, h1, h3, h4, ?_⟩
  obtain ⟨cs', k1, k2, -⟩ := genNodupOfEle_total e.hash (readFile_built h1.read) h1.gen ele n.toNat sp
  obtain rfl := Except.ok.inj (h3.symm.trans k1)
  -- one comment for all
  have same : ∀ c ∈ cs, ∀ d ∈ cs, c.comment = d.comment := by
    intro c hc d hd
    obtain ⟨S, s1, s2, s3⟩ := k2 c hc
    obtain ⟨T, t1, t2, t3⟩ := k2 d hd
    refine comment_perm (List.perm_iff_count.2 fun x => ?_)
    have a := subst_count s3.2.2 s1 x
    have b := subst_count t3.2.2 t1 x
    rw [s2] at a
    rw [t2] at b
    omega
  have hlen : ws.length = (passers e o.mpr tr cs).length := by rw [← h4.records.length_eq, List.length_zipIdx]
  have hmem : ∀ i : Fin (passers e o.mpr tr cs).length, (passers e o.mpr tr cs)[i] ∈ cs := fun i =>
    (mem_passers.1 (List.getElem_mem i.2)).1
  have hcm : ∃ t : List Char, ∀ i : Fin (passers e o.mpr tr cs).length,
      ∃ d, maybeRefined e o.refined (passers e o.mpr tr cs)[i] = .ok d ∧ d.comment = .ok t := by
    rcases Nat.eq_zero_or_pos (passers e o.mpr tr cs).length with h0 | h0
    · exact ⟨[], fun i => absurd i.2 (by omega)⟩
    · have := (List.forall₂_iff_get.1 h4.records).2 0 (by simpa using h0) (by omega)
      obtain ⟨d, t, r1, r2, -⟩ := this
      simp only [List.get_eq_getElem, List.getElem_zipIdx, maybeRefined, hr, Bool.false_eq_true, if_false] at r1
      obtain rfl := Except.ok.inj r1
      refine ⟨t, fun i => ⟨_, by rw [maybeRefined, hr]; rfl, ?_⟩⟩
      rw [← r2]
      exact same _ (hmem i) _ (hmem ⟨0, h0⟩)
  obtain ⟨t, ht⟩ := hcm
  obtain ⟨c1, c2⟩ := C129_complete h4 (fun i => ⟨_, hs i⟩) (fun _ => rfl) (fun _ => t) ht
  constructor
  · rw [c1]
    unfold DrawnApart
    constructor
    · intro hi a b hab; exact hi a b rfl (Subtype.ext hab)
    · intro hi a b _ hab; exact hi (congrArg Subtype.val hab)
  · rw [c2]
    have e1 : (Finset.univ.image fun i : Fin (passers e o.mpr tr cs).length => (t, (⟨_, hs i⟩ : Suffix))) =
        (Finset.univ.image fun i : Fin (passers e o.mpr tr cs).length => (⟨_, hs i⟩ : Suffix)).image fun s => (t, s) := by
      rw [Finset.image_image]; rfl
    have e2 : (Finset.univ.image fun i : Fin (passers e o.mpr tr cs).length => e.choices (i.val + 1)) =
        (Finset.univ.image fun i : Fin (passers e o.mpr tr cs).length => (⟨_, hs i⟩ : Suffix)).image Subtype.val := by
      rw [Finset.image_image]; rfl
    rw [e1, e2, Finset.card_image_of_injective _ (fun a b hab => (Prod.mk.inj hab).2), Finset.card_image_of_injective _ Subtype.val_injective]

/-- **C129.** The same for `suplat`. -/
theorem C129_suplat {e : Ext} {v : ℕ} {outmode dir : List Char} {ss : List SLCell} {ws : List (List Char × FileContent)} {fs fs' : Fs}
    (h : SupOutcome e v outmode dir ss ws fs fs') :
    ((ws.map (·.1)).Nodup ↔ Function.Injective fun i : Fin ss.length => e.choices i) ∧
      (ws.map (·.1)).toFinset.card = (Finset.univ.image fun i : Fin ss.length => e.choices i).card := by
  have hl : ws.length = ss.length := by rw [← h.records.length_eq, List.length_zipIdx]
  have hk : ∀ i j : Fin ss.length, (ws[i.val]'(by omega)).1 = (ws[j.val]'(by omega)).1 ↔ e.choices i = e.choices j := by
    have hp : ∀ i : Fin ss.length, (ws[i.val]'(by omega)).1 =
        pathJoin dir ("SUPLAT_".toList ++ natStr v ++ ['_'] ++ e.choices i ++ ['.'] ++ outmode) := by
      intro i
      have := (List.forall₂_iff_get.1 h.records).2 i.val (by simp) (by omega)
      obtain ⟨c, d, -, -, r3, -⟩ := this
      simpa using r3
    intro i j
    rw [hp, hp]
    exact ⟨suplatName_inj, fun h => by rw [h]⟩
  exact ⟨nodup_paths hl _ hk, card_paths hl _ hk⟩

/-! ## numbers -/

/-- **C129.** With `m` structures of one comment, at most `m(m-1)/2` in `36⁴` of the draws lose a structure. From 1527 structures on more than
half of the draws lose one, up to 1526 more than half lose none. Over all draws, `m` structures leave `36⁴ ((36⁴)^m - (36⁴-1)^m)` files. -/
theorem C129_numbers (m : ℕ) :
    Nat.card {f : Fin m → Suffix // Function.Injective f} = (36 ^ 4).descFactorial m ∧
    (36 ^ 4) ^ m ≤ (36 ^ 4).descFactorial m + m.choose 2 * (36 ^ 4) ^ (m - 1) ∧
    (2 * (36 ^ 4).descFactorial m < (36 ^ 4) ^ m ↔ 1527 ≤ m) ∧
    ∑ f : Fin m → Suffix, (Finset.univ.image f).card = 36 ^ 4 * ((36 ^ 4) ^ m - (36 ^ 4 - 1) ^ m) := by
  refine ⟨?_, descFactorial_bound _ _, ⟨fun h => ?_, fun h => ?_⟩, ?_⟩
  · classical
    rw [Nat.card_congr (Equiv.subtypeInjectiveEquivEmbedding (Fin m) Suffix), Nat.card_eq_fintype_card, Fintype.card_embedding_eq,
      card_suffix, Fintype.card_fin]
  · by_contra hc
    have := descFactorial_half_anti (N := 36 ^ 4) (k := 1526) (m := m) (by decide +kernel) (by omega) (by norm_num)
    omega
  · exact descFactorial_half_mono (by decide +kernel) h (by norm_num)
  · rw [sum_image_card, card_suffix]

/-! ## Examples -/

/-- four structures of two comments: `N (N-1)` draws for each comment -/
example : Nat.card {f : Fin 4 → Suffix // DrawnApart (![['A'], ['A'], ['B'], ['B']] : Fin 4 → List Char) f} = (36 ^ 4 * (36 ^ 4 - 1)) ^ 2 := by
  rw [(C129_count _).1]
  decide +kernel

end Verif
