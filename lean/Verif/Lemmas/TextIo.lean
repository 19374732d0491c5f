import Verif.Lemmas.Text
import Verif.Lemmas.Round
import Mathlib.Tactic.Linarith
import Mathlib.Tactic.FieldSimp
import Mathlib.Tactic.Push
import Mathlib.Data.List.Induction
import Mathlib.Data.List.TakeWhile

namespace Verif

/-! ### numerals -/

theorem isWs_of_isDig {c : Char} (h : isDig c = true) : isWs c = false := by
  simp only [isDig, Bool.and_eq_true, decide_eq_true_eq] at h
  simp only [isWs, Bool.or_eq_false_iff, beq_eq_false_iff_ne]
  refine ⟨⟨⟨⟨⟨⟨⟨⟨⟨?_, ?_⟩, ?_⟩, ?_⟩, ?_⟩, ?_⟩, ?_⟩, ?_⟩, ?_⟩, ?_⟩ <;> (rintro rfl; revert h; decide)

theorem isDig_ne_point {c : Char} (h : isDig c = true) : c ≠ '.' ∧ c ≠ '-' ∧ c ≠ '+' ∧ c ≠ '\n' := by
  refine ⟨?_, ?_, ?_, ?_⟩ <;> (rintro rfl; revert h; decide)

theorem natOfDigits_append' (a b : List Char) : natOfDigits (a ++ b) = natOfDigits a * 10 ^ b.length + natOfDigits b := by
  induction b using List.reverseRecOn with
  | nil => simp [natOfDigits]
  | append_singleton b c ih =>
    rw [← List.append_assoc, natOfDigits_append, ih, natOfDigits_append]
    simp [pow_succ]; ring

theorem padDigits_length (k m : ℕ) : (padDigits k m).length = k := by
  induction k generalizing m with
  | zero => rfl
  | succ k ih => simp [padDigits, ih]

theorem padDigits_dig (k m : ℕ) : ∀ c ∈ padDigits k m, isDig c = true := by
  induction k generalizing m with
  | zero => simp [padDigits]
  | succ k ih =>
    intro c hc
    rw [padDigits, List.mem_append, List.mem_singleton] at hc
    rcases hc with h | rfl
    · exact ih _ c h
    · exact isDig_digChar (Nat.mod_lt _ (by norm_num))

theorem natOfDigits_padDigits (k m : ℕ) : natOfDigits (padDigits k m) = m % 10 ^ k := by
  induction k generalizing m with
  | zero => simp [padDigits, natOfDigits, Nat.mod_one]
  | succ k ih =>
    rw [padDigits, natOfDigits_append, ih, digVal_digChar (Nat.mod_lt _ (by norm_num)), pow_succ, mul_comm (10 ^ k) 10,
      Nat.mod_mul]
    ring

theorem takeWhile_dig (a : List Char) (ha : ∀ c ∈ a, isDig c = true) (c : Char) (b : List Char) (hc : isDig c = false) :
    (a ++ c :: b).takeWhile isDig = a ∧ (a ++ c :: b).dropWhile isDig = c :: b := by
  induction a with
  | nil => simp [hc]
  | cons x a ih =>
    have := ih (fun c hc => ha c (by simp [hc]))
    simp [ha x (by simp), this]

theorem takeWhile_dig' (a : List Char) (ha : ∀ c ∈ a, isDig c = true) :
    a.takeWhile isDig = a ∧ a.dropWhile isDig = [] := by
  induction a with
  | nil => simp
  | cons x a ih =>
    have := ih (fun c hc => ha c (by simp [hc]))
    simp [ha x (by simp), this]

theorem isDig_plain {c : Char} (h : isDig c = true) : c ≠ '_' ∧ isExp c = false := by
  have h1 : c ≠ '_' := by rintro rfl; revert h; decide
  have h2 : c ≠ 'e' := by rintro rfl; revert h; decide
  have h3 : c ≠ 'E' := by rintro rfl; revert h; decide
  simp [isExp, h1, h2, h3]

theorem dropUnderscores_eq {s : List Char} (h : ∀ c ∈ s, c ≠ '_') (b : Bool) : dropUnderscores b s = some s := by
  induction s generalizing b with
  | nil => rfl
  | cons c s ih => rw [dropUnderscores, if_neg (h c (by simp)), ih fun c hc => h c (by simp [hc])]; rfl

theorem parseUnsigned_eq {s : List Char} (h : ∀ c ∈ s, isExp c = false) : parseUnsigned s = parseDecimal s := by
  have : s.dropWhile (fun c => !isExp c) = [] := by
    rw [List.dropWhile_eq_nil_iff]; intro c hc; simp [h c hc]
  unfold parseUnsigned
  rw [this]

theorem parseUnsigned_nat (n : ℕ) : parseUnsigned (natStr n) = some (n : ℚ) := by
  obtain ⟨e1, e2⟩ := takeWhile_dig' _ (natStr_dig n)
  rw [parseUnsigned_eq fun c hc => (isDig_plain (natStr_dig n c hc)).2]
  simp [parseDecimal, e1, e2, natStr_ne, natOfDigits_natStr]

theorem parseUnsigned_fixed (n : ℕ) :
    parseUnsigned (natStr (n / 10 ^ 6) ++ '.' :: padDigits 6 (n % 10 ^ 6)) = some ((n : ℚ) / 10 ^ 6) := by
  obtain ⟨e1, e2⟩ := takeWhile_dig _ (natStr_dig (n / 10 ^ 6)) '.' (padDigits 6 (n % 10 ^ 6)) (by decide)
  have e3 : natOfDigits (natStr (n / 10 ^ 6) ++ padDigits 6 (n % 10 ^ 6)) = n := by
    rw [natOfDigits_append', natOfDigits_natStr, natOfDigits_padDigits, padDigits_length, Nat.mod_mod, Nat.div_add_mod']
  have e4 : (padDigits 6 (n % 10 ^ 6)).all isDig = true := by
    rw [List.all_eq_true]; exact padDigits_dig _ _
  rw [parseUnsigned_eq (by
    intro c hc
    rcases List.mem_append.1 hc with h | h
    · exact (isDig_plain (natStr_dig _ c h)).2
    · rcases List.mem_cons.1 h with rfl | h
      · decide
      · exact (isDig_plain (padDigits_dig _ _ c h)).2)]
  unfold parseDecimal
  rw [e1, e2]
  simp only [e3, e4, padDigits_length]
  rw [if_pos]
  exact ⟨trivial, trivial, by simp [natStr_ne]⟩

theorem dropWhile_none {s : List Char} (h : ∀ c ∈ s, isWs c = false) : s.dropWhile isWs = s := by
  cases s with
  | nil => rfl
  | cons c s => simp [h c (by simp)]

theorem pyStrip_eq {s : List Char} (h : ∀ c ∈ s, isWs c = false) : pyStrip s = s := by
  unfold pyStrip
  rw [dropWhile_none h, dropWhile_none (by simpa using h), List.reverse_reverse]

theorem rint_nonneg {x : ℚ} (h : 0 ≤ x) : 0 ≤ rint x := by
  have := rint_mono h
  have e : rint 0 = 0 := by simpa using rint_intCast 0
  omega

theorem rint_nonpos {x : ℚ} (h : x ≤ 0) : rint x ≤ 0 := by
  have := rint_mono h
  have e : rint 0 = 0 := by simpa using rint_intCast 0
  omega

theorem fixed6_noWs (x : ℚ) : ∀ c ∈ fixed6 x, isWs c = false := by
  intro c hc
  simp only [fixed6, List.mem_append, List.mem_cons] at hc
  rcases hc with (h | h) | h | h
  · split at h
    · simp at h; subst h; decide
    · simp at h
  · exact isWs_of_isDig (natStr_dig _ c h)
  · subst h; decide
  · exact isWs_of_isDig (padDigits_dig _ _ c h)

theorem fixed6_plain (x : ℚ) : ∀ c ∈ fixed6 x, c ≠ '_' := by
  intro c hc
  simp only [fixed6, List.mem_append, List.mem_cons] at hc
  rcases hc with (h | h) | h | h
  · split at h
    · simp at h; subst h; decide
    · simp at h
  · exact (isDig_plain (natStr_dig _ c h)).1
  · subst h; decide
  · exact (isDig_plain (padDigits_dig _ _ c h)).1

theorem fixed6_ne (x : ℚ) : fixed6 x ≠ [] := by simp [fixed6]

theorem unsigned_head (n _m : ℕ) (rest : List Char) :
    ∃ c t, natStr n ++ rest = c :: t ∧ c ≠ '-' ∧ c ≠ '+' := by
  cases h : natStr n with
  | nil => exact absurd h (natStr_ne n)
  | cons c t =>
    have := isDig_ne_point (natStr_dig n c (by rw [h]; simp))
    exact ⟨c, t ++ rest, rfl, this.2.1, this.2.2.1⟩

theorem parseFloat_unsigned {s : List Char} {x : ℚ} (hw : ∀ c ∈ s, isWs c = false) (hu : ∀ c ∈ s, c ≠ '_') (hs : parseUnsigned s = some x)
    (hh : ∃ c t, s = c :: t ∧ c ≠ '-' ∧ c ≠ '+') : parseFloat s = .ok x := by
  obtain ⟨c, t, rfl, h1, h2⟩ := hh
  unfold parseFloat
  rw [pyStrip_eq hw, dropUnderscores_eq hu, Option.bind_some]
  have : parseSigned (c :: t) = some x := by
    unfold parseSigned
    split
    · rename_i e; simp at e; exact absurd e.1 h1
    · rename_i e; simp at e; exact absurd e.1 h2
    · exact hs
  rw [this]

theorem parseFloat_neg {s : List Char} {x : ℚ} (hw : ∀ c ∈ s, isWs c = false) (hu : ∀ c ∈ s, c ≠ '_') (hs : parseUnsigned s = some x) :
    parseFloat ('-' :: s) = .ok (-x) := by
  unfold parseFloat
  rw [pyStrip_eq (by simpa using ⟨by decide, hw⟩), dropUnderscores_eq (by simpa using hu), Option.bind_some]
  simp [parseSigned, hs]

/-- reading what `'{:.6f}'` wrote gives the number rounded to 6 decimals -/
theorem parseFloat_fixed6 (x : ℚ) : parseFloat (fixed6 x) = .ok (around 6 x) := by
  have hw := fixed6_noWs x
  have hu := fixed6_plain x
  by_cases hx : x < 0
  · have hr : rint (x * 10 ^ 6) ≤ 0 := rint_nonpos (by nlinarith)
    have e : fixed6 x = '-' :: (natStr ((rint (x * 10 ^ 6)).natAbs / 10 ^ 6) ++ '.' :: padDigits 6 ((rint (x * 10 ^ 6)).natAbs % 10 ^ 6)) := by
      simp [fixed6, hx]
    rw [e] at hw hu ⊢
    rw [parseFloat_neg (fun c hc => hw c (by simp only [List.mem_cons]; exact Or.inr hc))
      (fun c hc => hu c (by simp only [List.mem_cons]; exact Or.inr hc)) (parseUnsigned_fixed _)]
    have : (((rint (x * 10 ^ 6)).natAbs : ℕ) : ℚ) = -((rint (x * 10 ^ 6) : ℤ) : ℚ) := by
      rw [Nat.cast_natAbs, abs_of_nonpos hr]; push_cast; rfl
    rw [this]
    simp [around, neg_div]
  · have hr : 0 ≤ rint (x * 10 ^ 6) := rint_nonneg (by push Not at hx; positivity)
    have e : fixed6 x = natStr ((rint (x * 10 ^ 6)).natAbs / 10 ^ 6) ++ '.' :: padDigits 6 ((rint (x * 10 ^ 6)).natAbs % 10 ^ 6) := by
      simp [fixed6, hx]
    rw [e] at hw hu ⊢
    rw [parseFloat_unsigned hw hu (parseUnsigned_fixed _) (unsigned_head _ 0 _)]
    have : (((rint (x * 10 ^ 6)).natAbs : ℕ) : ℚ) = ((rint (x * 10 ^ 6) : ℤ) : ℚ) := by
      rw [Nat.cast_natAbs, abs_of_nonneg hr]
    rw [this]
    simp [around]

theorem natStr_noWs (n : ℕ) : ∀ c ∈ natStr n, isWs c = false := fun c hc => isWs_of_isDig (natStr_dig n c hc)

theorem natStr_plain (n : ℕ) : ∀ c ∈ natStr n, c ≠ '_' := fun c hc => (isDig_plain (natStr_dig n c hc)).1

theorem intStr_noWs (n : ℤ) : ∀ c ∈ intStr n, isWs c = false := by
  intro c hc
  unfold intStr at hc
  split at hc
  · rcases List.mem_cons.1 hc with rfl | h
    · decide
    · exact natStr_noWs _ c h
  · exact natStr_noWs _ c hc

theorem intStr_ne (n : ℤ) : intStr n ≠ [] := by
  unfold intStr; split <;> simp [natStr_ne]

theorem parseFloat_intStr (n : ℤ) : parseFloat (intStr n) = .ok (n : ℚ) := by
  unfold intStr
  split
  · rename_i h
    rw [parseFloat_neg (natStr_noWs _) (natStr_plain _) (parseUnsigned_nat _)]
    have : ((n.natAbs : ℕ) : ℚ) = -(n : ℚ) := by rw [Nat.cast_natAbs, abs_of_neg h]; push_cast; rfl
    rw [this]; simp
  · rename_i h
    have hh := unsigned_head n.natAbs 0 []
    rw [List.append_nil] at hh
    rw [parseFloat_unsigned (natStr_noWs _) (natStr_plain _) (parseUnsigned_nat _) hh]
    have : ((n.natAbs : ℕ) : ℚ) = (n : ℚ) := by rw [Nat.cast_natAbs, abs_of_nonneg (by omega)]
    rw [this]

theorem parseInt_natStr (n : ℕ) : parseInt (natStr n) = .ok (n : ℤ) := by
  obtain ⟨c, t, e, h1, h2⟩ := unsigned_head n 0 []
  rw [List.append_nil] at e
  have hd : parseDigits (natStr n) = some n := by
    unfold parseDigits
    rw [if_pos ⟨natStr_ne n, by rw [List.all_eq_true]; exact natStr_dig n⟩, natOfDigits_natStr]
  unfold parseInt
  rw [pyStrip_eq (natStr_noWs n), dropUnderscores_eq (natStr_plain n), Option.bind_some]
  have : parseSignedInt (natStr n) = some (n : ℤ) := by
    rw [e] at hd ⊢
    unfold parseSignedInt
    split
    · rename_i e; simp at e; exact absurd e.1 h1
    · rename_i e; simp at e; exact absurd e.1 h2
    · rw [hd]; rfl
  rw [this]

/-! ### words of a line -/

theorem wordsAux_word (w rest acc : List Char) (h : ∀ c ∈ w, isWs c = false) :
    wordsAux (w ++ rest) acc = wordsAux rest (w.reverse ++ acc) := by
  induction w generalizing acc with
  | nil => rfl
  | cons c w ih =>
    simp only [List.cons_append, wordsAux, h c (by simp)]
    rw [if_neg (by simp), ih _ (fun c hc => h c (by simp [hc]))]
    simp

theorem words_blanks (n : ℕ) (rest : List Char) : words (List.replicate n ' ' ++ rest) = words rest := by
  induction n with
  | zero => rfl
  | succ n ih =>
    rw [List.replicate_succ, List.cons_append]
    unfold words at ih ⊢
    rw [wordsAux]
    simpa [show isWs ' ' = true from rfl] using ih

theorem words_word_space (w rest : List Char) (h : ∀ c ∈ w, isWs c = false) (hne : w ≠ []) :
    words (w ++ ' ' :: rest) = w :: words rest := by
  unfold words
  rw [wordsAux_word w _ [] h, wordsAux]
  simp [show isWs ' ' = true from rfl, hne]

theorem words_word (w : List Char) (h : ∀ c ∈ w, isWs c = false) (hne : w ≠ []) : words w = [w] := by
  have := wordsAux_word w [] [] h
  rw [List.append_nil] at this
  unfold words
  rw [this, wordsAux]
  simp [hne]

/-- `" ".join(words).split()` gives the words back -/
theorem words_join (ws : List (List Char)) (h : ∀ w ∈ ws, (∀ c ∈ w, isWs c = false) ∧ w ≠ []) :
    words (pyJoin [' '] ws) = ws := by
  induction ws with
  | nil => rfl
  | cons w ws ih =>
    have hw := h w (by simp)
    cases ws with
    | nil => simpa [pyJoin] using words_word w hw.1 hw.2
    | cons w' ws =>
      have ih' := ih (fun w hw => h w (by simp [hw]))
      rw [pyJoin, List.append_assoc, List.singleton_append, words_word_space w _ hw.1 hw.2, ih']

/-! ### lines of a text -/

theorem splitNL_line (l rest : List Char) (h : '\n' ∉ l) : splitNL (l ++ '\n' :: rest) = l :: splitNL rest := by
  induction l with
  | nil => simp [splitNL]
  | cons c l ih =>
    have hc : c ≠ '\n' := by rintro rfl; exact h (by simp)
    rw [List.cons_append, splitNL, if_neg hc, ih (fun hm => h (by simp [hm]))]

/-- `("\n".join(lines) + "\n").split("\n")` -/
theorem splitNL_join (lines : List (List Char)) (hne : lines ≠ []) (h : ∀ l ∈ lines, '\n' ∉ l) :
    splitNL (pyJoin ['\n'] lines ++ ['\n']) = lines ++ [[]] := by
  induction lines with
  | nil => exact absurd rfl hne
  | cons l ls ih =>
    cases ls with
    | nil =>
      have := splitNL_line l [] (h l (by simp))
      simpa [pyJoin, splitNL] using this
    | cons l' ls =>
      have ih' := ih (by simp) (fun l hl => h l (by simp [hl]))
      rw [pyJoin, List.append_assoc, List.append_assoc, List.singleton_append, splitNL_line l _ (h l (by simp)), ih']
      rfl

theorem join_eq_flatMap (ls : List (List Char)) (hne : ls ≠ []) :
    pyJoin ['\n'] ls ++ ['\n'] = ls.flatMap fun l => l ++ ['\n'] := by
  induction ls with
  | nil => exact absurd rfl hne
  | cons l ls ih =>
    cases ls with
    | nil => simp [pyJoin]
    | cons l' ls => rw [pyJoin, List.append_assoc, ih (by simp)]; simp [List.flatMap_cons]

theorem notBlank_iff (s : List Char) : notBlank s = true ↔ ∃ c ∈ s, isWs c = false := by
  simp [notBlank]

theorem mem_pyJoin {sep : List Char} {ws : List (List Char)} {c : Char} (h : c ∈ pyJoin sep ws) :
    c ∈ sep ∨ ∃ w ∈ ws, c ∈ w := by
  induction ws with
  | nil => simp [pyJoin] at h
  | cons w ws ih =>
    cases ws with
    | nil => exact Or.inr ⟨w, by simp, by simpa [pyJoin] using h⟩
    | cons w' ws =>
      rw [pyJoin, List.append_assoc, List.mem_append, List.mem_append] at h
      rcases h with h | h | h
      · exact Or.inr ⟨w, by simp, h⟩
      · exact Or.inl h
      · rcases ih h with h | ⟨v, hv, hc⟩
        · exact Or.inl h
        · exact Or.inr ⟨v, by simp [hv], hc⟩

theorem mem_pyJoin_of {sep : List Char} {ws : List (List Char)} {w : List Char} {c : Char} (hw : w ∈ ws) (h : c ∈ w) :
    c ∈ pyJoin sep ws := by
  induction ws with
  | nil => simp at hw
  | cons v ws ih =>
    cases ws with
    | nil =>
      rw [List.mem_singleton] at hw
      subst hw
      simpa [pyJoin] using h
    | cons w' ws =>
      rw [pyJoin, List.append_assoc, List.mem_append, List.mem_append]
      rcases List.mem_cons.1 hw with rfl | hw
      · exact Or.inl h
      · exact Or.inr (Or.inr (ih hw))

end Verif
