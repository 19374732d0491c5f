import Verif.Spec.Numerals
import Verif.Lemmas.TextIo
import Verif.Props.Io

/-! # C99: which words are numbers -/

namespace Verif

/-! ### digits -/

theorem digChar_digVal {c : Char} (h : isDig c = true) : digVal c < 10 ∧ digChar (digVal c) = c := by
  simp only [isDig, Bool.and_eq_true, decide_eq_true_eq] at h
  obtain ⟨h1, h2⟩ := h
  have h1' : 48 ≤ c.toNat := h1
  have h2' : c.toNat ≤ 57 := h2
  unfold digVal digChar
  refine ⟨by omega, ?_⟩
  rw [show 48 + (c.toNat - 48) = c.toNat by omega]
  exact Char.ofNat_toNat c

theorem DigitText.digits {s : List Char} {ds : List ℕ} (h : DigitText s ds) : ds ≠ [] ∧ ∀ d ∈ ds, d < 10 := by
  induction h with
  | last h => simpa using h
  | next h r ih => simpa using ⟨h, ih.2⟩
  | under h r ih => simpa using ⟨h, ih.2⟩

theorem DigitText.head {s : List Char} {ds : List ℕ} (h : DigitText s ds) : ∃ c t, s = c :: t ∧ isDig c = true := by
  cases h with
  | last h => exact ⟨_, _, rfl, isDig_digChar h⟩
  | next h r => exact ⟨_, _, rfl, isDig_digChar h⟩
  | under h r => exact ⟨_, _, rfl, isDig_digChar h⟩

theorem DigitText.noWs {s : List Char} {ds : List ℕ} (h : DigitText s ds) : ∀ c ∈ s, isWs c = false := by
  induction h with
  | last h => simpa using isWs_of_isDig (isDig_digChar h)
  | next h r ih => simpa using ⟨isWs_of_isDig (isDig_digChar h), ih⟩
  | under h r ih => simpa using ⟨isWs_of_isDig (isDig_digChar h), by decide, ih⟩

theorem dropUnderscores_digits {s : List Char} {ds : List ℕ} (h : DigitText s ds) (rest : List Char) (b : Bool) :
    dropUnderscores b (s ++ rest) = (dropUnderscores true rest).map (ds.map digChar ++ ·) := by
  induction h generalizing b with
  | @last d h =>
    have := isDig_digChar h
    simp [dropUnderscores, (isDig_plain this).1, this]
  | @next d s ds h r ih =>
    have := isDig_digChar h
    simp [dropUnderscores, (isDig_plain this).1, this, ih, Function.comp_def]
  | @under d s ds h r ih =>
    have := isDig_digChar h
    obtain ⟨c, t, e, hc⟩ := r.head
    have hh : (s ++ rest).head?.any isDig = true := by simp [e, hc]
    rw [List.cons_append, List.cons_append, dropUnderscores, if_neg (isDig_plain this).1, dropUnderscores, if_pos rfl, this, hh, ih]
    simp [Function.comp_def]

theorem dropUnderscores_other {c : Char} (h1 : c ≠ '_') (h2 : isDig c = false) (rest : List Char) (b : Bool) :
    dropUnderscores b (c :: rest) = (dropUnderscores false rest).map (c :: ·) := by
  simp [dropUnderscores, h1, h2]

theorem dropUnderscores_run {b : Bool} {s t : List Char} (h : dropUnderscores b s = some t) (ht : ∀ c ∈ t, isDig c = true) :
    (s = [] ∧ t = []) ∨ (∃ ds, DigitText s ds ∧ t = ds.map digChar) ∨
      (b = true ∧ ∃ s' ds, s = '_' :: s' ∧ DigitText s' ds ∧ t = ds.map digChar) := by
  induction s generalizing b t with
  | nil => simp [dropUnderscores] at h; exact Or.inl ⟨rfl, h⟩
  | cons c s ih =>
    rw [dropUnderscores] at h
    split at h
    · rename_i hc
      split at h
      · rename_i hb
        rw [Bool.and_eq_true] at hb
        subst hc
        rcases ih h ht with ⟨rfl, -⟩ | ⟨ds, hr, e⟩ | ⟨hf, -⟩
        · simp at hb
        · exact Or.inr (Or.inr ⟨hb.1, s, ds, rfl, hr, e⟩)
        · cases hf
      · cases h
    · rw [Option.map_eq_some_iff] at h
      obtain ⟨u, hu, rfl⟩ := h
      have hc := ht c (by simp)
      obtain ⟨l1, l2⟩ := digChar_digVal hc
      refine Or.inr (Or.inl ?_)
      rw [hc] at hu
      rcases ih hu (fun x hx => ht x (by simp [hx])) with ⟨rfl, rfl⟩ | ⟨ds, hr, rfl⟩ | ⟨-, s', ds, rfl, hr, rfl⟩
      · exact ⟨[digVal c], by simpa [l2] using DigitText.last l1, by simp [l2]⟩
      · exact ⟨digVal c :: ds, by simpa [l2] using DigitText.next l1 hr, by simp [l2]⟩
      · exact ⟨digVal c :: ds, by simpa [l2] using DigitText.under l1 hr, by simp [l2]⟩

theorem dropUnderscores_split {b : Bool} {s t1 t2 : List Char} {c : Char} (hc : isDig c = false) (h : dropUnderscores b s = some (t1 ++ c :: t2)) :
    ∃ s1 s2, s = s1 ++ c :: s2 ∧ dropUnderscores b s1 = some t1 ∧ dropUnderscores false s2 = some t2 := by
  induction s generalizing b t1 with
  | nil => simp [dropUnderscores] at h
  | cons x s ih =>
    rw [dropUnderscores] at h
    split at h
    · rename_i hx
      split at h
      · rename_i hb
        obtain ⟨s1, s2, rfl, h1, h2⟩ := ih h
        cases s1 with
        | nil =>
          simp [hc] at hb
        | cons y s1 =>
          refine ⟨x :: y :: s1, s2, rfl, ?_, h2⟩
          rw [dropUnderscores, if_pos hx, if_pos (by simpa using hb)]
          exact h1
      · cases h
    · rename_i hx
      rw [Option.map_eq_some_iff] at h
      obtain ⟨u, hu, e⟩ := h
      cases t1 with
      | nil =>
        simp only [List.nil_append, List.cons.injEq] at e
        obtain ⟨rfl, rfl⟩ := e
        rw [hc] at hu
        exact ⟨[], s, rfl, rfl, hu⟩
      | cons y t1 =>
        simp only [List.cons_append, List.cons.injEq] at e
        obtain ⟨rfl, rfl⟩ := e
        obtain ⟨s1, s2, rfl, h1, h2⟩ := ih hu
        exact ⟨x :: s1, s2, rfl, by rw [dropUnderscores, if_neg hx, h1]; rfl, h2⟩

theorem natOfDigits_digits {ds : List ℕ} (h : ∀ d ∈ ds, d < 10) : natOfDigits (ds.map digChar) = digitsValue ds := by
  induction ds using List.reverseRecOn with
  | nil => simp [natOfDigits, digitsValue]
  | append_singleton l d ih =>
    rw [List.map_append, List.map_singleton, natOfDigits_append, ih fun x hx => h x (by simp [hx]), digVal_digChar (h d (by simp))]
    simp [digitsValue, Nat.ofDigits_cons]; ring

theorem map_digChar_dig {ds : List ℕ} (h : ∀ d ∈ ds, d < 10) : ∀ c ∈ ds.map digChar, isDig c = true := by
  intro c hc
  obtain ⟨d, hd, rfl⟩ := List.mem_map.1 hc
  exact isDig_digChar (h d hd)

/-! ### white space around -/

theorem dropWhile_blank {a u : List Char} (ha : BlankText a) : (a ++ u).dropWhile isWs = u.dropWhile isWs := by
  induction a with
  | nil => rfl
  | cons c a ih => simp [ha c (by simp), ih fun x hx => ha x (by simp [hx])]

theorem dropWhile_all {b : List Char} (hb : BlankText b) : b.dropWhile isWs = [] := by
  have := dropWhile_blank (u := []) hb
  simpa using this

theorem pyStrip_around {a u b : List Char} (ha : BlankText a) (hb : BlankText b) (hu : ∀ c ∈ u, isWs c = false) : pyStrip (a ++ u ++ b) = u := by
  unfold pyStrip
  rw [List.append_assoc, dropWhile_blank ha]
  cases u with
  | nil => rw [List.nil_append, dropWhile_all hb]; rfl
  | cons c u =>
    rw [List.cons_append, List.dropWhile_cons_of_neg (by simp [hu c (by simp)]), ← List.cons_append, List.reverse_append,
      dropWhile_blank (by intro x hx; exact hb x (by simpa using hx)), dropWhile_none (by intro x hx; exact hu x (List.mem_reverse.1 hx)),
      List.reverse_reverse]

theorem pyStrip_split (s : List Char) : ∃ a b, s = a ++ pyStrip s ++ b ∧ BlankText a ∧ BlankText b := by
  refine ⟨s.takeWhile isWs, ((s.dropWhile isWs).reverse.takeWhile isWs).reverse, ?_, fun c hc => List.mem_takeWhile_imp hc,
    fun c hc => List.mem_takeWhile_imp (List.mem_reverse.1 hc)⟩
  unfold pyStrip
  rw [List.append_assoc, ← List.reverse_append, List.takeWhile_append_dropWhile, List.reverse_reverse, List.takeWhile_append_dropWhile]

/-! ### the parts of a number -/

theorem parseDigits_iff {t : List Char} {n : ℕ} :
    parseDigits t = some n ↔ t ≠ [] ∧ (∀ c ∈ t, isDig c = true) ∧ n = natOfDigits t := by
  unfold parseDigits
  split
  · rename_i h
    rw [Option.some.injEq]
    exact ⟨fun e => ⟨h.1, List.all_eq_true.1 h.2, e.symm⟩, fun hh => hh.2.2.symm⟩
  · rename_i h
    exact ⟨fun e => by simp at e, fun hh => absurd ⟨hh.1, List.all_eq_true.2 hh.2.1⟩ h⟩

/-- digits after removing underscores -/
theorem dropUnderscores_digits_iff {s t : List Char} (ht : t ≠ []) :
    (dropUnderscores false s = some t ∧ ∀ c ∈ t, isDig c = true) ↔ ∃ ds, DigitText s ds ∧ t = ds.map digChar := by
  constructor
  · rintro ⟨h1, h2⟩
    rcases dropUnderscores_run h1 h2 with ⟨-, h⟩ | h | ⟨h, -⟩
    · exact absurd h ht
    · exact h
    · cases h
  · rintro ⟨ds, h, rfl⟩
    have := dropUnderscores_digits h [] false
    simp [dropUnderscores] at this
    exact ⟨this, map_digChar_dig h.digits.2⟩

/-- an optional sign and digits -/
theorem signedInt_iff {s : List Char} {n : ℤ} : (dropUnderscores false s).bind parseSignedInt = some n ↔
    ∃ sg t, ∃ sign : ℤ, ∃ ds, s = sg ++ t ∧ SignText sg sign ∧ DigitText t ds ∧ n = sign * digitsValue ds := by
  have key : ∀ {t u : List Char} {k : ℕ}, dropUnderscores false t = some u → parseDigits u = some k →
      ∃ ds, DigitText t ds ∧ k = digitsValue ds := by
    intro t u k h1 h2
    obtain ⟨hne, hd, rfl⟩ := parseDigits_iff.1 h2
    obtain ⟨ds, hr, rfl⟩ := (dropUnderscores_digits_iff hne).1 ⟨h1, hd⟩
    exact ⟨ds, hr, natOfDigits_digits hr.digits.2⟩
  have key' : ∀ {t : List Char} {ds : List ℕ}, DigitText t ds →
      ∃ c u, dropUnderscores false t = some (c :: u) ∧ isDig c = true ∧ parseDigits (c :: u) = some (digitsValue ds) := by
    intro t ds h
    obtain ⟨hne, hlt⟩ := h.digits
    have e := dropUnderscores_digits h [] false
    simp [dropUnderscores] at e
    have hd := map_digChar_dig hlt
    have hp := parseDigits_iff.2 ⟨by simpa using hne, hd, (natOfDigits_digits hlt).symm⟩
    cases hc : ds.map digChar with
    | nil => simp at hc; exact absurd hc hne
    | cons c u =>
      rw [hc] at e hd hp
      exact ⟨c, u, e, hd c (by simp), hp⟩
  constructor
  · intro h
    rw [Option.bind_eq_some_iff] at h
    obtain ⟨t, ht, hp⟩ := h
    unfold parseSignedInt at hp
    split at hp
    · rw [Option.map_eq_some_iff] at hp
      obtain ⟨k, hk, rfl⟩ := hp
      obtain ⟨s1, s2, rfl, h1, h2⟩ := dropUnderscores_split (t1 := []) (by decide) ht
      have : s1 = [] := by
        rcases dropUnderscores_run h1 (by simp) with ⟨h, -⟩ | ⟨ds, h, e⟩ | ⟨h, -⟩
        · exact h
        · exact absurd (by simpa using e.symm) h.digits.1
        · cases h
      subst this
      obtain ⟨ds, hr, rfl⟩ := key h2 hk
      exact ⟨['-'], s2, -1, ds, rfl, .minus, hr, by simp⟩
    · rw [Option.map_eq_some_iff] at hp
      obtain ⟨k, hk, rfl⟩ := hp
      obtain ⟨s1, s2, rfl, h1, h2⟩ := dropUnderscores_split (t1 := []) (by decide) ht
      have : s1 = [] := by
        rcases dropUnderscores_run h1 (by simp) with ⟨h, -⟩ | ⟨ds, h, e⟩ | ⟨h, -⟩
        · exact h
        · exact absurd (by simpa using e.symm) h.digits.1
        · cases h
      subst this
      obtain ⟨ds, hr, rfl⟩ := key h2 hk
      exact ⟨['+'], s2, 1, ds, rfl, .plus, hr, by simp⟩
    · rw [Option.map_eq_some_iff] at hp
      obtain ⟨k, hk, rfl⟩ := hp
      obtain ⟨ds, hr, rfl⟩ := key ht hk
      exact ⟨[], s, 1, ds, rfl, .none, hr, by simp⟩
  · rintro ⟨sg, t, sign, ds, rfl, hs, hd, rfl⟩
    obtain ⟨c, u, e, hc, hp⟩ := key' hd
    have hne := isDig_ne_point hc
    cases hs with
    | none =>
      rw [List.nil_append, e, Option.bind_some]
      unfold parseSignedInt
      split
      · rename_i e; simp at e; exact absurd e.1 hne.2.1
      · rename_i e; simp at e; exact absurd e.1 hne.2.2.1
      · rw [hp]; simp
    | plus =>
      rw [List.singleton_append, dropUnderscores_other (by decide) (by decide), e]
      simp [parseSignedInt, hp]
    | minus =>
      rw [List.singleton_append, dropUnderscores_other (by decide) (by decide), e]
      simp [parseSignedInt, hp]

theorem SignText.noWs {sg : List Char} {k : ℤ} (h : SignText sg k) : ∀ c ∈ sg, isWs c = false := by
  cases h <;> simp [isWs]

/-- **C99, integers.** `int(s)` succeeds with `n` exactly on the texts that denote `n`: blanks around, an optional sign, digits with single
underscores between them. Everything else is a `ValueError`. -/
theorem C99_int (s : List Char) : (∀ n, parseInt s = .ok n ↔ IntText s n) ∧
    ((∀ n, ¬ IntText s n) ↔ parseInt s = .error .valueError) := by
  have h : ∀ n, (dropUnderscores false (pyStrip s)).bind parseSignedInt = some n ↔ IntText s n := by
    intro n
    rw [signedInt_iff]
    constructor
    · rintro ⟨sg, t, sign, ds, e, h1, h2, rfl⟩
      obtain ⟨a, b, e', ha, hb⟩ := pyStrip_split s
      rw [e] at e'
      exact ⟨a, sg, t, b, sign, ds, e', ha, hb, h1, h2, rfl⟩
    · rintro ⟨a, sg, t, b, sign, ds, rfl, ha, hb, h1, h2, rfl⟩
      refine ⟨sg, t, sign, ds, pyStrip_around ha hb ?_, h1, h2, rfl⟩
      intro c hc
      rcases List.mem_append.1 hc with h | h
      · exact h1.noWs c h
      · exact h2.noWs c h
  unfold parseInt
  cases hd : (dropUnderscores false (pyStrip s)).bind parseSignedInt with
  | none =>
    rw [hd] at h
    simp at h
    simp [h]
  | some x =>
    rw [hd] at h
    simp at h
    simp [← h]

/-! ### decimals -/

theorem parseDecimal_iff {t : List Char} {x : ℚ} : parseDecimal t = some x ↔
    (t ≠ [] ∧ (∀ c ∈ t, isDig c = true) ∧ x = natOfDigits t) ∨
    (∃ ip fp, t = ip ++ '.' :: fp ∧ (∀ c ∈ ip, isDig c = true) ∧ (∀ c ∈ fp, isDig c = true) ∧ ip ++ fp ≠ [] ∧
      x = (natOfDigits (ip ++ fp) : ℚ) / 10 ^ fp.length) := by
  constructor
  · intro h
    have hsplit : t = t.takeWhile isDig ++ t.dropWhile isDig := List.takeWhile_append_dropWhile.symm
    have htd : ∀ c ∈ t.takeWhile isDig, isDig c = true := fun c hc => List.mem_takeWhile_imp hc
    unfold parseDecimal at h
    cases hd : t.dropWhile isDig with
    | nil =>
      rw [hd, List.append_nil] at hsplit
      rw [hd] at h
      simp only at h
      split at h
      · cases h
      · rename_i hne
        rw [← hsplit] at hne h htd
        exact Or.inl ⟨hne, htd, (Option.some.inj h).symm⟩
    | cons c fp =>
      rw [hd] at hsplit h
      simp only at h
      split at h
      · rename_i hc
        obtain ⟨rfl, h2, h3⟩ := hc
        exact Or.inr ⟨_, fp, hsplit, htd, List.all_eq_true.1 h2, h3, (Option.some.inj h).symm⟩
      · cases h
  · rintro (⟨hne, hd, rfl⟩ | ⟨ip, fp, rfl, h1, h2, h3, rfl⟩)
    · obtain ⟨e1, e2⟩ := takeWhile_dig' _ hd
      simp [parseDecimal, e1, e2, hne]
    · obtain ⟨e1, e2⟩ := takeWhile_dig _ h1 '.' fp (by decide)
      unfold parseDecimal
      simp only [e1, e2]
      rw [if_pos ⟨trivial, List.all_eq_true.2 h2, h3⟩]

theorem digits_or_nil {s t : List Char} (h : dropUnderscores false s = some t) (ht : ∀ c ∈ t, isDig c = true) :
    (s = [] ∧ t = []) ∨ ∃ ds, DigitText s ds ∧ t = ds.map digChar := by
  rcases dropUnderscores_run h ht with h | h | ⟨h, -⟩
  · exact Or.inl h
  · exact Or.inr h
  · cases h

theorem decimal_iff {s : List Char} {x : ℚ} : (dropUnderscores false s).bind parseDecimal = some x ↔ MantissaText s x := by
  constructor
  · intro h
    rw [Option.bind_eq_some_iff] at h
    obtain ⟨t, ht, hp⟩ := h
    rcases parseDecimal_iff.1 hp with ⟨hne, hd, rfl⟩ | ⟨ip, fp, rfl, h1, h2, h3, rfl⟩
    · obtain ⟨ds, hr, rfl⟩ := (dropUnderscores_digits_iff hne).1 ⟨ht, hd⟩
      rw [natOfDigits_digits hr.digits.2]
      exact .int hr
    · obtain ⟨s1, s2, rfl, e1, e2⟩ := dropUnderscores_split (by decide) ht
      rcases digits_or_nil e1 h1 with ⟨rfl, rfl⟩ | ⟨ds, hr, rfl⟩
      · rcases digits_or_nil e2 h2 with ⟨rfl, rfl⟩ | ⟨fs, hf, rfl⟩
        · simp at h3
        · simp only [List.nil_append, List.length_map]
          rw [natOfDigits_digits hf.digits.2]
          exact .frac hf
      · rcases digits_or_nil e2 h2 with ⟨rfl, rfl⟩ | ⟨fs, hf, rfl⟩
        · simp only [List.append_nil, List.length_nil, pow_zero, div_one]
          rw [natOfDigits_digits hr.digits.2]
          exact .intPoint hr
        · rw [natOfDigits_append', natOfDigits_digits hr.digits.2, natOfDigits_digits hf.digits.2, List.length_map]
          have : (((digitsValue ds * 10 ^ fs.length + digitsValue fs : ℕ) : ℚ)) / 10 ^ fs.length =
              (digitsValue ds : ℚ) + (digitsValue fs : ℚ) / 10 ^ fs.length := by
            push_cast
            field_simp
          rw [this]
          exact .both hr hf
  · intro h
    have e0 : ∀ {s : List Char} {ds : List ℕ}, DigitText s ds → dropUnderscores false s = some (ds.map digChar) := by
      intro s ds h
      have := dropUnderscores_digits h [] false
      simpa [dropUnderscores] using this
    have hp : ∀ rest b, dropUnderscores b ('.' :: rest) = (dropUnderscores false rest).map ('.' :: ·) :=
      fun rest b => dropUnderscores_other (by decide) (by decide) rest b
    cases h with
    | @int s ds h =>
      rw [e0 h, Option.bind_some]
      exact parseDecimal_iff.2 (Or.inl ⟨by simpa using h.digits.1, map_digChar_dig h.digits.2, by rw [natOfDigits_digits h.digits.2]⟩)
    | @intPoint s ds h =>
      rw [dropUnderscores_digits h, hp]
      simp only [dropUnderscores, Option.map_some, Option.bind_some]
      exact parseDecimal_iff.2 (Or.inr ⟨ds.map digChar, [], rfl, map_digChar_dig h.digits.2, by simp, by simpa using h.digits.1,
        by simp [natOfDigits_digits h.digits.2]⟩)
    | @frac f fs h =>
      rw [hp, e0 h]
      simp only [Option.map_some, Option.bind_some]
      exact parseDecimal_iff.2 (Or.inr ⟨[], fs.map digChar, rfl, by simp, map_digChar_dig h.digits.2, by simpa using h.digits.1,
        by simp [natOfDigits_digits h.digits.2]⟩)
    | @both s f ds fs h h' =>
      rw [dropUnderscores_digits h, hp, e0 h']
      simp only [Option.map_some, Option.bind_some]
      refine parseDecimal_iff.2 (Or.inr ⟨ds.map digChar, fs.map digChar, rfl, map_digChar_dig h.digits.2, map_digChar_dig h'.digits.2,
        by simp [h.digits.1], ?_⟩)
      rw [natOfDigits_append', natOfDigits_digits h.digits.2, natOfDigits_digits h'.digits.2, List.length_map]
      push_cast
      field_simp

theorem MantissaText.chars {s : List Char} {x : ℚ} (h : MantissaText s x) :
    (∀ c ∈ s, isWs c = false ∧ isExp c = false) ∧ ∃ c t, s = c :: t ∧ c ≠ '-' ∧ c ≠ '+' := by
  have hd : ∀ {s : List Char} {ds : List ℕ}, DigitText s ds → ∀ c ∈ s, isWs c = false ∧ isExp c = false := by
    intro s ds h
    induction h with
    | last h => simpa using ⟨isWs_of_isDig (isDig_digChar h), (isDig_plain (isDig_digChar h)).2⟩
    | next h r ih => simpa using ⟨⟨isWs_of_isDig (isDig_digChar h), (isDig_plain (isDig_digChar h)).2⟩, ih⟩
    | under h r ih => simpa using ⟨⟨isWs_of_isDig (isDig_digChar h), (isDig_plain (isDig_digChar h)).2⟩, ⟨by decide, by decide⟩, ih⟩
  have hh : ∀ {s : List Char} {ds : List ℕ}, DigitText s ds → ∀ rest, ∃ c t, s ++ rest = c :: t ∧ c ≠ '-' ∧ c ≠ '+' := by
    intro s ds h rest
    obtain ⟨c, t, rfl, hc⟩ := h.head
    exact ⟨c, t ++ rest, rfl, (isDig_ne_point hc).2.1, (isDig_ne_point hc).2.2.1⟩
  have hpt : isWs '.' = false ∧ isExp '.' = false := ⟨by decide, by decide⟩
  cases h with
  | int h => exact ⟨hd h, by simpa using hh h []⟩
  | intPoint h =>
    refine ⟨?_, hh h _⟩
    intro c hc
    rcases List.mem_append.1 hc with h' | h'
    · exact hd h c h'
    · rw [List.mem_singleton.1 h']; exact hpt
  | frac h =>
    refine ⟨?_, '.', _, rfl, by decide, by decide⟩
    intro c hc
    rcases List.mem_cons.1 hc with rfl | h'
    · exact hpt
    · exact hd h c h'
  | both h h' =>
    refine ⟨?_, hh h _⟩
    intro c hc
    rcases List.mem_append.1 hc with h2 | h2
    · exact hd h c h2
    · rcases List.mem_cons.1 h2 with rfl | h3
      · exact hpt
      · exact hd h' c h3

theorem ExponentText.noWs {s : List Char} {k : ℤ} (h : ExponentText s k) : ∀ c ∈ s, isWs c = false := by
  cases h with
  | none => simp
  | some hc h h' =>
    intro x hx
    rcases List.mem_cons.1 hx with rfl | hx
    · rcases hc with rfl | rfl <;> decide
    · rcases List.mem_append.1 hx with hx | hx
      · exact h.noWs x hx
      · exact h'.noWs x hx

theorem dropWhile_exp {m : List Char} (hm : ∀ c ∈ m, isExp c = false) {c : Char} (hc : isExp c = true) (r : List Char) :
    (m ++ c :: r).dropWhile (fun c => !isExp c) = c :: r ∧ (m ++ c :: r).takeWhile (fun c => !isExp c) = m := by
  induction m with
  | nil => simp [hc]
  | cons x m ih => simp [hm x (by simp), ih fun y hy => hm y (by simp [hy])]

theorem isExp_notDig {c : Char} (hc : isExp c = true) : isDig c = false ∧ c ≠ '_' ∧ (c = 'e' ∨ c = 'E') := by
  simp only [isExp, Bool.or_eq_true, beq_iff_eq] at hc
  rcases hc with rfl | rfl <;> decide

/-- what follows is cut off at a character that is neither a digit nor an underscore -/
theorem dropUnderscores_append {s t r : List Char} {b : Bool} {c : Char} (h : dropUnderscores b s = some t) (h1 : c ≠ '_') (h2 : isDig c = false) :
    dropUnderscores b (s ++ c :: r) = (dropUnderscores false r).map (t ++ c :: ·) := by
  induction s generalizing b t with
  | nil =>
    simp [dropUnderscores] at h
    subst h
    rw [List.nil_append, dropUnderscores_other h1 h2]; rfl
  | cons x s ih =>
    rw [dropUnderscores] at h
    split at h
    · rename_i hx
      split at h
      · rename_i hb
        rw [List.cons_append, dropUnderscores, if_pos hx, if_pos]
        · exact ih h
        · cases s with
          | nil => simp at hb
          | cons d s => simpa using hb
      · cases h
    · rename_i hx
      rw [Option.map_eq_some_iff] at h
      obtain ⟨u, hu, rfl⟩ := h
      rw [List.cons_append, dropUnderscores, if_neg hx, ih hu]
      simp [Function.comp_def]

theorem unsigned_iff {s : List Char} {x : ℚ} : (dropUnderscores false s).bind parseUnsigned = some x ↔
    ∃ m ex, ∃ v : ℚ, ∃ k : ℤ, s = m ++ ex ∧ MantissaText m v ∧ ExponentText ex k ∧ x = v * 10 ^ k := by
  constructor
  · intro h
    rw [Option.bind_eq_some_iff] at h
    obtain ⟨t, ht, hp⟩ := h
    unfold parseUnsigned at hp
    cases hd : t.dropWhile (fun c => !isExp c) with
    | nil =>
      rw [hd] at hp
      exact ⟨s, [], x, 0, by simp, decimal_iff.1 (by rw [ht]; exact hp), .none, by simp⟩
    | cons c ex =>
      have hsplit : t = t.takeWhile (fun c => !isExp c) ++ c :: ex := by rw [← hd]; exact List.takeWhile_append_dropWhile.symm
      have hc : isExp c = true := by
        have := List.head_dropWhile_not (fun c => !isExp c) (by rw [hd]; simp : t.dropWhile (fun c => !isExp c) ≠ [])
        simpa [hd] using this
      obtain ⟨c1, c2, c3⟩ := isExp_notDig hc
      rw [hd] at hp
      simp only at hp
      split at hp
      · rename_i m k hm hk
        rw [hsplit] at ht
        obtain ⟨s1, s2, rfl, e1, e2⟩ := dropUnderscores_split c1 ht
        obtain ⟨sg, t', sign, ds, rfl, hs, hds, rfl⟩ := signedInt_iff.1 (show (dropUnderscores false s2).bind parseSignedInt = some k by rw [e2]; exact hk)
        refine ⟨s1, c :: (sg ++ t'), m, _, rfl, decimal_iff.1 (by rw [e1]; exact hm), .some c3 hs hds, (Option.some.inj hp).symm⟩
      · cases hp
  · rintro ⟨m, ex, v, k, rfl, hm, he, rfl⟩
    obtain ⟨hch, -⟩ := hm.chars
    have h1 := decimal_iff.2 hm
    rw [Option.bind_eq_some_iff] at h1
    obtain ⟨t, ht, hp⟩ := h1
    have hte : ∀ c ∈ t, isExp c = false := by
      rcases parseDecimal_iff.1 hp with ⟨-, hd, -⟩ | ⟨ip, fp, rfl, d1, d2, -, -⟩
      · exact fun c hc => (isDig_plain (hd c hc)).2
      · intro c hc
        rcases List.mem_append.1 hc with h | h
        · exact (isDig_plain (d1 c h)).2
        · rcases List.mem_cons.1 h with rfl | h
          · decide
          · exact (isDig_plain (d2 c h)).2
    cases he with
    | none =>
      rw [List.append_nil, ht, Option.bind_some, parseUnsigned_eq hte, hp]
      simp
    | @some c sg s sign ds hc hs hd =>
      have hcE : isExp c = true := by rcases hc with rfl | rfl <;> decide
      obtain ⟨c1, c2, -⟩ := isExp_notDig hcE
      have h2 := signedInt_iff.2 ⟨sg, s, sign, ds, rfl, hs, hd, rfl⟩
      rw [Option.bind_eq_some_iff] at h2
      obtain ⟨u, hu, hk⟩ := h2
      rw [dropUnderscores_append ht c2 c1, hu, Option.map_some, Option.bind_some]
      obtain ⟨f1, f2⟩ := dropWhile_exp hte hcE u
      unfold parseUnsigned
      rw [f1, f2]
      simp [hp, hk]

theorem signed_iff {s : List Char} {x : ℚ} : (dropUnderscores false s).bind parseSigned = some x ↔
    ∃ sg m ex, ∃ sign k : ℤ, ∃ v : ℚ, s = sg ++ (m ++ ex) ∧ SignText sg sign ∧ MantissaText m v ∧ ExponentText ex k ∧
      x = sign * (v * 10 ^ k) := by
  constructor
  · intro h
    rw [Option.bind_eq_some_iff] at h
    obtain ⟨t, ht, hp⟩ := h
    have hs1 : ∀ {s1 : List Char}, dropUnderscores false s1 = some [] → s1 = [] := by
      intro s1 h1
      rcases digits_or_nil h1 (by simp) with ⟨h, -⟩ | ⟨ds, h, e⟩
      · exact h
      · exact absurd (by simpa using e.symm) h.digits.1
    unfold parseSigned at hp
    split at hp
    · rw [Option.map_eq_some_iff] at hp
      obtain ⟨y, hy, rfl⟩ := hp
      obtain ⟨s1, s2, rfl, h1, h2⟩ := dropUnderscores_split (t1 := []) (by decide) ht
      obtain rfl := hs1 h1
      obtain ⟨m, ex, v, k, rfl, a, b, rfl⟩ := unsigned_iff.1 (show (dropUnderscores false s2).bind parseUnsigned = some y by rw [h2]; exact hy)
      exact ⟨['-'], m, ex, -1, k, v, rfl, .minus, a, b, by push_cast; ring⟩
    · obtain ⟨s1, s2, rfl, h1, h2⟩ := dropUnderscores_split (t1 := []) (by decide) ht
      obtain rfl := hs1 h1
      obtain ⟨m, ex, v, k, rfl, a, b, rfl⟩ := unsigned_iff.1 (show (dropUnderscores false s2).bind parseUnsigned = some x by rw [h2]; exact hp)
      exact ⟨['+'], m, ex, 1, k, v, rfl, .plus, a, b, by push_cast; ring⟩
    · obtain ⟨m, ex, v, k, rfl, a, b, rfl⟩ := unsigned_iff.1 (show (dropUnderscores false s).bind parseUnsigned = some x by rw [ht]; exact hp)
      exact ⟨[], m, ex, 1, k, v, rfl, .none, a, b, by push_cast; ring⟩
  · rintro ⟨sg, m, ex, sign, k, v, rfl, hs, hm, he, rfl⟩
    have hu := unsigned_iff.2 ⟨m, ex, v, k, rfl, hm, he, rfl⟩
    rw [Option.bind_eq_some_iff] at hu
    obtain ⟨t, ht, hp⟩ := hu
    have htop : ∀ t', parseSigned ('-' :: t') = (parseUnsigned t').map (fun x => -x) ∧ parseSigned ('+' :: t') = parseUnsigned t' :=
      fun t' => ⟨rfl, rfl⟩
    cases hs with
    | none =>
      rw [List.nil_append, ht, Option.bind_some]
      obtain ⟨c, r, e, n1, n2⟩ := hm.chars.2
      have hcu : c ≠ '_' := by
        rintro rfl
        rw [e, List.cons_append, dropUnderscores, if_pos rfl] at ht
        simp at ht
      rw [e, List.cons_append, dropUnderscores, if_neg hcu, Option.map_eq_some_iff] at ht
      obtain ⟨u, -, rfl⟩ := ht
      unfold parseSigned
      split
      · rename_i e; simp at e; exact absurd e.1 n1
      · rename_i e; simp at e; exact absurd e.1 n2
      · rw [hp]; simp
    | plus =>
      rw [List.singleton_append, dropUnderscores_other (by decide) (by decide), ht, Option.map_some, Option.bind_some, (htop t).2, hp]
      simp
    | minus =>
      rw [List.singleton_append, dropUnderscores_other (by decide) (by decide), ht, Option.map_some, Option.bind_some, (htop t).1, hp]
      simp

/-- **C99, decimal numbers.** `float(s)` succeeds with `x` exactly on the texts that denote `x`: blanks around, an optional sign, digits with an
optional point (at least one digit), an optional exponent, single underscores between digits. Everything else is a `ValueError`. -/
theorem C99_float (s : List Char) : (∀ x, parseFloat s = .ok x ↔ FloatText s x) ∧
    ((∀ x, ¬ FloatText s x) ↔ parseFloat s = .error .valueError) := by
  have h : ∀ x, (dropUnderscores false (pyStrip s)).bind parseSigned = some x ↔ FloatText s x := by
    intro x
    rw [signed_iff]
    constructor
    · rintro ⟨sg, m, ex, sign, k, v, e, h1, h2, h3, rfl⟩
      obtain ⟨a, b, e', ha, hb⟩ := pyStrip_split s
      rw [e] at e'
      exact ⟨a, sg, m, ex, b, sign, k, v, e', ha, hb, h1, h2, h3, rfl⟩
    · rintro ⟨a, sg, m, ex, b, sign, k, v, rfl, ha, hb, h1, h2, h3, rfl⟩
      refine ⟨sg, m, ex, sign, k, v, pyStrip_around ha hb ?_, h1, h2, h3, rfl⟩
      intro c hc
      rcases List.mem_append.1 hc with h | h
      · exact h1.noWs c h
      · rcases List.mem_append.1 h with h | h
        · exact (h2.chars.1 c h).1
        · exact h3.noWs c h
  unfold parseFloat
  cases hd : (dropUnderscores false (pyStrip s)).bind parseSigned with
  | none =>
    rw [hd] at h
    simp at h
    simp [h]
  | some x =>
    rw [hd] at h
    simp at h
    simp [← h]

/-- A text denotes at most one number. -/
theorem C99_unique {s : List Char} {x y : ℚ} {m n : ℤ} :
    (FloatText s x → FloatText s y → x = y) ∧ (IntText s m → IntText s n → m = n) ∧ (IntText s m → FloatText s x → x = m) := by
  have hif : IntText s m → FloatText s m := by
    rintro ⟨a, sg, t, b, sign, ds, rfl, ha, hb, h1, h2, rfl⟩
    exact ⟨a, sg, t, [], b, sign, 0, _, by simp, ha, hb, h1, .int h2, .none, by simp⟩
  have hf : ∀ {x y}, FloatText s x → FloatText s y → x = y := by
    intro x y hx hy
    have h1 := ((C99_float s).1 x).2 hx
    rw [((C99_float s).1 y).2 hy] at h1
    exact (Except.ok.inj h1).symm
  refine ⟨hf, ?_, fun h1 h2 => hf h2 (hif h1)⟩
  intro h1 h2
  have h1 := ((C99_int s).1 m).2 h1
  rw [((C99_int s).1 n).2 h2] at h1
  exact (Except.ok.inj h1).symm

example : FloatText " -1_0.5E+0_2\n".toList (-1050) := ((C99_float _).1 _).1 (by decide +kernel)
example : ∀ x, ¬ FloatText "1__0".toList x := (C99_float _).2.2 (by decide +kernel)
example : ∀ x, ¬ FloatText "1_.0".toList x := (C99_float _).2.2 (by decide +kernel)
example : ∀ x, ¬ FloatText "1.0 2.0".toList x := (C99_float _).2.2 (by decide +kernel)
example : ∀ x, ¬ FloatText "e5".toList x := (C99_float _).2.2 (by decide +kernel)
example : FloatText ".5e-3".toList (1 / 2000) := ((C99_float _).1 _).1 (by decide +kernel)
example : IntText "+1_2".toList 12 := ((C99_int _).1 _).1 (by decide +kernel)
example : ∀ n, ¬ IntText "1.0".toList n := (C99_int _).2.2 (by decide +kernel)

end Verif
