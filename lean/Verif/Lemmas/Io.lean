import Verif.Model.Io
import Verif.Lemmas.TextIo
import Verif.Lemmas.Symmetry
import Verif.Props.Element
import Verif.Spec.Files

namespace Verif

/-! ### symbols -/

theorem known_mem {z : ℤ} (h : Spec.Known z) : (Spec.symbol z, z) ∈ ptDb := by
  obtain ⟨sp, e⟩ := (C01_number_domain z).1.2 h
  have hm := ((fromNum_ok_iff z sp).1 e).2
  unfold Spec.symbol
  cases hf : ptDb.find? (fun kv => decide (kv.2 = z)) with
  | none =>
    rw [List.find?_eq_none] at hf
    exact absurd (hf _ hm) (by simp)
  | some kv =>
    have h1 := List.find?_some hf
    have h2 := List.mem_of_find?_eq_some hf
    simp only [decide_eq_true_eq] at h1
    subst h1
    exact h2

theorem toName_symbol {z : ℤ} (h : Spec.Known z) : Specie.toName z = .ok (Spec.symbol z) :=
  (toName_ok_iff _ _).2 (known_mem h)

theorem ofSymbol_symbol {z : ℤ} (h : Spec.Known z) : Specie.ofSymbol (Spec.symbol z) = .ok ⟨Spec.symbol z, z⟩ :=
  (ofSymbol_ok_iff _ _).2 ⟨rfl, known_mem h⟩

theorem symbol_inj {z z' : ℤ} (h : Spec.Known z) (h' : Spec.Known z') (e : Spec.symbol z = Spec.symbol z') : z = z' := by
  have h1 := ofSymbol_symbol h
  have h2 := ofSymbol_symbol h'
  rw [e, h2] at h1
  injection h1 with h1
  injection h1 with _ h1
  exact h1.symm

theorem symbol_zero : Spec.symbol 0 = "G" := by decide +kernel

theorem symbol_eq_G {z : ℤ} (h : Spec.Known z) : Spec.symbol z = "G" ↔ z = 0 := by
  constructor
  · intro e
    exact symbol_inj h (by left; omega) (e.trans symbol_zero.symm)
  · rintro rfl; exact symbol_zero

theorem ptDb_text : ∀ kv ∈ ptDb, kv.1.toList ≠ [] ∧ ∀ c ∈ kv.1.toList, isWs c = false := by decide +kernel

theorem symbol_text {z : ℤ} (h : Spec.Known z) :
    (Spec.symbol z).toList ≠ [] ∧ ∀ c ∈ (Spec.symbol z).toList, isWs c = false := ptDb_text _ (known_mem h)

/-! ### counting -/

theorem counter_snoc (l : List String) (s : String) :
    counter (l ++ [s]) = if (counter l).any (fun kv => kv.1 == s)
      then (counter l).map (fun kv => if kv.1 == s then (kv.1, kv.2 + 1) else kv) else counter l ++ [(s, 1)] := by
  unfold counter; rw [List.foldl_append]; rfl

theorem counter_spec (l : List String) :
    ((counter l).map (·.1)).Nodup ∧ ∀ s n, (s, n) ∈ counter l ↔ s ∈ l ∧ n = l.count s := by
  induction l using List.reverseRecOn with
  | nil => simp [counter]
  | append_singleton l s ih =>
    obtain ⟨h1, h2⟩ := ih
    rw [counter_snoc]
    have hmem : (counter l).any (fun kv => kv.1 == s) = true ↔ s ∈ l := by
      rw [List.any_eq_true]
      constructor
      · rintro ⟨⟨k, v⟩, hm, he⟩
        have : k = s := by simpa using he
        subst this
        exact ((h2 _ _).1 hm).1
      · intro hs
        exact ⟨(s, l.count s), (h2 _ _).2 ⟨hs, rfl⟩, by simp⟩
    split
    · rename_i ha
      have hs := hmem.1 ha
      constructor
      · rw [List.map_map]
        have : ((fun kv : String × ℕ => kv.1) ∘ fun kv : String × ℕ => if kv.1 == s then (kv.1, kv.2 + 1) else kv) = fun kv => kv.1 := by
          funext kv; simp only [Function.comp]; split <;> rfl
        rw [this]; exact h1
      · intro t n
        rw [List.mem_map]
        constructor
        · rintro ⟨⟨k, v⟩, hm, he⟩
          have hkv := (h2 _ _).1 hm
          by_cases hk : k = s
          · subst hk
            simp at he
            obtain ⟨rfl, rfl⟩ := he
            exact ⟨by simp, by rw [List.count_append]; simp [hkv.2]⟩
          · have : (k == s) = false := by simpa using hk
            simp [this] at he
            obtain ⟨rfl, rfl⟩ := he
            refine ⟨by simp [hkv.1], ?_⟩
            rw [List.count_append, hkv.2, List.count_singleton]
            have : (s == k) = false := by simpa using fun e => hk e.symm
            simp [this]
        · rintro ⟨ht, rfl⟩
          rw [List.count_append, List.count_singleton]
          by_cases hk : t = s
          · subst hk
            exact ⟨(t, l.count t), (h2 _ _).2 ⟨hs, rfl⟩, by simp⟩
          · have htl : t ∈ l := by
              rcases List.mem_append.1 ht with h | h
              · exact h
              · exact absurd (List.mem_singleton.1 h) hk
            have e1 : (t == s) = false := by simpa using hk
            have e2 : (s == t) = false := by simpa using fun e => hk e.symm
            exact ⟨(t, l.count t), (h2 _ _).2 ⟨htl, rfl⟩, by simp [e1, e2]⟩
    · rename_i ha
      have hs : s ∉ l := fun h => ha (hmem.2 h)
      constructor
      · rw [List.map_append, List.nodup_append]
        refine ⟨h1, by simp, ?_⟩
        intro a hm' b hb
        simp at hb
        subst hb
        rintro rfl
        obtain ⟨⟨k, v⟩, hm, rfl⟩ := List.mem_map.1 hm'
        exact hs ((h2 _ _).1 hm).1
      · intro t n
        rw [List.mem_append, h2, List.mem_append, List.mem_singleton, List.mem_singleton, Prod.mk.injEq, List.count_append,
          List.count_singleton]
        constructor
        · rintro (⟨h, rfl⟩ | ⟨rfl, rfl⟩)
          · have : (s == t) = false := by simpa using fun e : s = t => hs (e ▸ h)
            exact ⟨Or.inl h, by simp [this]⟩
          · exact ⟨Or.inr rfl, by simp [List.count_eq_zero_of_not_mem hs]⟩
        · rintro ⟨h | rfl, rfl⟩
          · have : (s == t) = false := by simpa using fun e : s = t => hs (e ▸ h)
            exact Or.inl ⟨h, by simp [this]⟩
          · exact Or.inr ⟨rfl, by simp [List.count_eq_zero_of_not_mem hs]⟩

theorem count_map_inj {l : List ℤ} (h : ∀ z ∈ l, Spec.Known z) {z : ℤ} (hz : Spec.Known z) :
    (l.map Spec.symbol).count (Spec.symbol z) = l.count z := by
  induction l with
  | nil => rfl
  | cons a l ih =>
    rw [List.map_cons, List.count_cons, List.count_cons, ih (fun z hz => h z (by simp [hz]))]
    congr 1
    by_cases e : a = z
    · simp [e]
    · have : Spec.symbol a ≠ Spec.symbol z := fun e' => e (symbol_inj (h a (by simp)) hz e')
      simp [e, this]

theorem atomNames_ok {numbers : List ℤ} (h : ∀ z ∈ numbers, Spec.Known z) :
    atomNames numbers = .ok (numbers.map Spec.symbol) := mapM_ok _ _ _ fun z hz => toName_symbol (h z hz)

theorem orderedAtoms_spec {numbers : List ℤ} (h : ∀ z ∈ numbers, Spec.Known z) :
    ∃ zs, Spec.Elements numbers zs ∧
      orderedAtoms (numbers.map Spec.symbol) = .ok (zs.map fun z => (Spec.symbol z, numbers.count z)) := by
  obtain ⟨hn, hm⟩ := counter_spec (numbers.map Spec.symbol)
  set items := counter (numbers.map Spec.symbol) with hitems
  let zOf : String → ℤ := fun s => match Specie.ofSymbol s with | .ok sp => sp.Z | .error _ => 0
  have hz : ∀ z, Spec.Known z → zOf (Spec.symbol z) = z := fun z hz => by simp [zOf, ofSymbol_symbol hz]
  have hitem : ∀ kv ∈ items, ∃ z ∈ numbers, kv = (Spec.symbol z, numbers.count z) := by
    rintro ⟨s, n⟩ hkv
    obtain ⟨h1, h2⟩ := (hm s n).1 hkv
    obtain ⟨z, hz, rfl⟩ := List.mem_map.1 h1
    exact ⟨z, hz, by rw [h2, count_map_inj h (h z hz)]⟩
  have hmap : (items.mapM fun kv => do let sp ← Specie.ofSymbol kv.1; return (sp.Z, kv) : Py (List (ℤ × String × ℕ))) =
      .ok (items.map fun kv => (zOf kv.1, kv)) := by
    apply mapM_ok
    intro kv hkv
    obtain ⟨z, hz', rfl⟩ := hitem kv hkv
    simp only [ofSymbol_symbol (h z hz'), hz z (h z hz')]
    rfl
  let S := (items.map fun kv => (zOf kv.1, kv)).insertionSort fun a b => a.1 ≤ b.1
  have hperm : S.Perm (items.map fun kv => (zOf kv.1, kv)) := List.perm_insertionSort _ _
  have hsorted : S.Pairwise fun a b => a.1 ≤ b.1 := by
    have : Std.Total (fun a b : ℤ × String × ℕ => a.1 ≤ b.1) := ⟨fun a b => le_total a.1 b.1⟩
    have : IsTrans (ℤ × String × ℕ) (fun a b => a.1 ≤ b.1) := ⟨fun _ _ _ h1 h2 => le_trans h1 h2⟩
    exact List.pairwise_insertionSort _ _
  have hS : ∀ t ∈ S, t.1 ∈ numbers ∧ t.2 = (Spec.symbol t.1, numbers.count t.1) := by
    intro t ht
    obtain ⟨kv, hkv, rfl⟩ := List.mem_map.1 (hperm.mem_iff.1 ht)
    obtain ⟨z, hz', rfl⟩ := hitem kv hkv
    simp only [hz z (h z hz')]
    exact ⟨hz', trivial⟩
  have hnod : (S.map (·.1)).Nodup := by
    rw [(hperm.map _).nodup_iff, List.map_map]
    have hn2 := List.Nodup.of_map _ hn
    rw [List.nodup_map_iff_inj_on hn2]
    intro a ha b hb e
    obtain ⟨z, hz1, rfl⟩ := hitem a ha
    obtain ⟨z', hz2, rfl⟩ := hitem b hb
    simp only [Function.comp, hz z (h z hz1), hz z' (h z' hz2)] at e
    rw [e]
  refine ⟨(S.map (·.1)).filter (· ≠ 0), ⟨?_, ?_⟩, ?_⟩
  · apply List.Pairwise.filter
    have h1 : (S.map (·.1)).Pairwise (· ≤ ·) := List.pairwise_map.2 hsorted
    exact (h1.and hnod).imp fun h => lt_of_le_of_ne h.1 h.2
  · intro z
    rw [List.mem_filter]
    constructor
    · rintro ⟨h1, h2⟩
      obtain ⟨t, ht, rfl⟩ := List.mem_map.1 h1
      exact ⟨(hS t ht).1, by simpa using h2⟩
    · rintro ⟨h1, h2⟩
      refine ⟨List.mem_map.2 ⟨(z, Spec.symbol z, numbers.count z), ?_, rfl⟩, by simpa using h2⟩
      rw [hperm.mem_iff, List.mem_map]
      refine ⟨(Spec.symbol z, numbers.count z), ?_, by simp only [hz z (h z h1)]⟩
      rw [hm, count_map_inj h (h z h1)]
      exact ⟨List.mem_map.2 ⟨z, h1, rfl⟩, rfl⟩
  · unfold orderedAtoms
    rw [← hitems, hmap]
    have e1 : S.map (·.2) = (S.map (·.1)).map fun z => (Spec.symbol z, numbers.count z) := by
      rw [List.map_map]
      exact List.map_congr_left fun t ht => (hS t ht).2
    change Except.ok ((S.map (·.2)).filter fun kv => kv.1 ≠ "G") = _
    rw [e1, List.filter_map]
    congr 1
    congr 1
    apply List.filter_congr
    intro z hz'
    obtain ⟨t, ht, rfl⟩ := List.mem_map.1 hz'
    have := symbol_eq_G (h _ (hS t ht).1)
    simp [this]

theorem Elements.unique {numbers zs zs' : List ℤ} (h : Spec.Elements numbers zs) (h' : Spec.Elements numbers zs') : zs = zs' := by
  have : Std.Antisymm (fun a b : ℤ => a < b) := ⟨fun a b h1 h2 => absurd h1 (by omega)⟩
  refine List.Perm.eq_of_pairwise' h.1 h'.1 ?_
  rw [List.perm_ext_iff_of_nodup (h.1.imp fun h => ne_of_lt h) (h'.1.imp fun h => ne_of_lt h)]
  intro z
  rw [h.2, h'.2]

/-! ### sorting -/

theorem filter_orderedInsert {α} (k : α → ℤ) (z : ℤ) (a : α) (l : List α) :
    (l.orderedInsert (fun a b => k a ≤ k b) a).filter (fun x => k x = z) = (a :: l).filter (fun x => k x = z) := by
  induction l with
  | nil => rfl
  | cons b l ih =>
    rw [List.orderedInsert_cons]
    split
    · rfl
    · rename_i hab
      rw [List.filter_cons, ih]
      by_cases ha : k a = z
      · have hb : k b ≠ z := by omega
        simp [ha, hb]
      · simp [ha, List.filter_cons]

theorem filter_insertionSort {α} (k : α → ℤ) (z : ℤ) (l : List α) :
    (l.insertionSort (fun a b => k a ≤ k b)).filter (fun x => k x = z) = l.filter (fun x => k x = z) := by
  induction l with
  | nil => rfl
  | cons a l ih =>
    rw [List.insertionSort_cons, filter_orderedInsert, List.filter_cons, ih, List.filter_cons]

theorem insertionSort_pairwise {α} (k : α → ℤ) (l : List α) :
    (l.insertionSort (fun a b => k a ≤ k b)).Pairwise fun a b => k a ≤ k b := by
  have : Std.Total (fun a b : α => k a ≤ k b) := ⟨fun a b => le_total (k a) (k b)⟩
  have : IsTrans α (fun a b => k a ≤ k b) := ⟨fun _ _ _ h1 h2 => le_trans h1 h2⟩
  exact List.pairwise_insertionSort _ _

/-- a list sorted by key is the concatenation of its blocks -/
theorem sorted_blocks {α} (k : α → ℤ) (zs : List ℤ) (l : List α) (hz : zs.Pairwise (· < ·))
    (hl : l.Pairwise fun a b => k a ≤ k b) (hm : ∀ a ∈ l, k a ∈ zs) :
    l = zs.flatMap fun z => l.filter fun a => k a = z := by
  induction zs generalizing l with
  | nil =>
    cases l with
    | nil => rfl
    | cons a l => exact absurd (hm a (by simp)) (by simp)
  | cons z zs ih =>
    rw [List.pairwise_cons] at hz
    have hge : ∀ a ∈ l, z ≤ k a := fun a ha => by
      rcases List.mem_cons.1 (hm a ha) with h | h
      · omega
      · exact le_of_lt (hz.1 _ h)
    have hsplit : l = l.filter (fun a => k a = z) ++ l.filter (fun a => k a ≠ z) := by
      clear hm ih
      induction l with
      | nil => rfl
      | cons a l ihl =>
        rw [List.pairwise_cons] at hl
        have ih' := ihl hl.2 (fun b hb => hge b (by simp [hb]))
        by_cases ha : k a = z
        · simp only [List.filter_cons, ha, decide_true, if_true, List.cons_append]
          simp only [ne_eq, not_true, decide_false]
          rw [if_neg (by simp)]
          exact congrArg (a :: ·) ih'
        · have hb : ∀ b ∈ l, k b ≠ z := fun b hb => by
            have := hl.1 b hb
            have := hge a (by simp)
            omega
          have e1 : (a :: l).filter (fun a => k a = z) = [] := by
            rw [List.filter_eq_nil_iff]
            intro b hbm
            rcases List.mem_cons.1 hbm with rfl | hbm
            · simpa using ha
            · simpa using hb b hbm
          have e2 : (a :: l).filter (fun a => k a ≠ z) = a :: l := by
            rw [List.filter_eq_self]
            intro b hbm
            rcases List.mem_cons.1 hbm with rfl | hbm
            · simpa using ha
            · simpa using hb b hbm
          rw [e1, e2, List.nil_append]
    have ih' := ih (l.filter fun a => k a ≠ z) hz.2 (hl.filter _) (fun a ha => by
      rw [List.mem_filter] at ha
      rcases List.mem_cons.1 (hm a ha.1) with h | h
      · exact absurd h (by simpa using ha.2)
      · exact h)
    rw [List.flatMap_cons]
    conv_lhs => rw [hsplit, ih']
    congr 1
    apply List.flatMap_congr
    intro z' hz'
    rw [List.filter_filter]
    apply List.filter_congr
    intro a _
    have := hz.1 z' hz'
    by_cases h : k a = z'
    · simp [h]; omega
    · simp [h]

theorem sortedReal_insertionSort {α} (sites : List (α × ℤ)) :
    Spec.SortedReal sites ((sites.insertionSort fun a b => a.2 ≤ b.2).filter fun s => s.2 ≠ 0) := by
  refine ⟨(insertionSort_pairwise (fun s : α × ℤ => s.2) sites).filter _, ?_, ?_⟩
  · intro s hs
    rw [List.mem_filter] at hs
    simpa using hs.2
  · intro z hz
    rw [List.filter_filter, ← filter_insertionSort (fun s : α × ℤ => s.2) z sites]
    apply List.filter_congr
    intro s _
    by_cases h : s.2 = z
    · simp [h, hz]
    · simp [h]

theorem SortedReal.blocks {α} {sites ss : List (α × ℤ)} {zs : List ℤ} (h : Spec.SortedReal sites ss)
    (hz : Spec.Elements (sites.map (·.2)) zs) : ss = zs.flatMap fun z => sites.filter fun s => s.2 = z := by
  have h1 := sorted_blocks (fun s : α × ℤ => s.2) zs ss hz.1 h.sorted (fun s hs => by
    rw [hz.2]
    have hn := h.real s hs
    refine ⟨?_, hn⟩
    have : s ∈ sites.filter (fun t => t.2 = s.2) := by
      rw [← h.stable _ hn, List.mem_filter]; exact ⟨hs, by simp⟩
    exact List.mem_map.2 ⟨s, (List.mem_filter.1 this).1, rfl⟩)
  refine h1.trans ?_
  apply List.flatMap_congr
  intro z hzm
  rw [h.stable z ((hz.2 z).1 hzm).2]

theorem zip_names (numbers : List ℤ) (positions : List (V3 ℚ)) (f : ℤ → String) :
    numbers.zip (positions.zip (numbers.map f)) = (positions.zip numbers).map fun s => (s.2, s.1, f s.2) := by
  induction numbers generalizing positions with
  | nil => simp
  | cons n ns ih =>
    cases positions with
    | nil => simp
    | cons p ps => simp [ih]

/-! ### number lines -/

theorem words_fmt (x : ℚ) (rest : List Char) : words (fmt106 x ++ ' ' :: rest) = fixed6 x :: words rest := by
  unfold fmt106 padLeft
  rw [List.append_assoc, words_blanks, words_word_space _ _ (fixed6_noWs x) (fixed6_ne x)]

theorem words_fmt' (x : ℚ) : words (fmt106 x) = [fixed6 x] := by
  unfold fmt106 padLeft
  rw [words_blanks, words_word _ (fixed6_noWs x) (fixed6_ne x)]

theorem words_numberLine (p : V3 ℚ) : words (numberLine p) = [fixed6 p.1, fixed6 p.2.1, fixed6 p.2.2] := by
  simp only [numberLine, pyJoin, List.append_assoc, List.singleton_append]
  rw [words_fmt, words_fmt, words_fmt']

theorem words_coordLine (p : V3 ℚ) (w : List Char) (h1 : w ≠ []) (h2 : ∀ c ∈ w, isWs c = false) :
    words (numberLine p ++ [' '] ++ w) = [fixed6 p.1, fixed6 p.2.1, fixed6 p.2.2, w] := by
  simp only [numberLine, pyJoin, List.append_assoc, List.cons_append, List.nil_append]
  rw [words_fmt, words_fmt, words_fmt, words_word w h2 h1]

theorem row3_fixed (p : V3 ℚ) : row3 [fixed6 p.1, fixed6 p.2.1, fixed6 p.2.2] = .ok (V3.map (around 6) p) := by
  unfold row3
  simp only [List.mapM_cons, List.mapM_nil, parseFloat_fixed6]
  rfl

theorem numberLine_noNL (p : V3 ℚ) : '\n' ∉ numberLine p := by
  intro h
  unfold numberLine at h
  rcases mem_pyJoin h with h | ⟨w, hw, h⟩
  · simp at h
  · have : ∀ x : ℚ, '\n' ∉ fmt106 x := by
      intro x hx
      unfold fmt106 padLeft at hx
      rcases List.mem_append.1 hx with hx | hx
      · rw [List.mem_replicate] at hx; simp at hx
      · have := fixed6_noWs x _ hx
        simp [isWs] at this
    simp only [List.mem_cons, List.not_mem_nil, or_false] at hw
    rcases hw with rfl | rfl | rfl <;> exact this _ h

theorem numberLine_notBlank (p : V3 ℚ) : ∃ c ∈ numberLine p, isWs c = false := by
  obtain ⟨c, hc⟩ := List.exists_mem_of_ne_nil _ (fixed6_ne p.1)
  refine ⟨c, ?_, fixed6_noWs p.1 c hc⟩
  unfold numberLine
  exact mem_pyJoin_of (w := fmt106 p.1) (by simp) (by simp [fmt106, padLeft, hc])

theorem expandNumbers_spec (f : ℤ → ℕ) (pre post : List ℤ) :
    expandNumbers (pre ++ post) pre.length (post.map fun z => (f z : ℤ)) = .ok (post.flatMap fun z => List.replicate (f z) z) := by
  induction post generalizing pre with
  | nil => rfl
  | cons z post ih =>
    have := ih (pre ++ [z])
    rw [List.append_assoc, List.singleton_append, List.length_append, List.length_singleton] at this
    rw [List.map_cons, expandNumbers, List.getElem?_append_right (le_refl _), Nat.sub_self, List.getElem?_cons_zero, this]
    simp [bind, Except.bind, pure, Except.pure]

end Verif
