import Verif.Model.NumpyStr
import Verif.Lemmas.TextIo
import Verif.Props.GridSym
import Verif.Spec.GridEnds

/-! # C133: `is_stru_equal` with the texts numpy prints -/

namespace Verif

/-! ## words of the text -/

theorem words_append_ws (x y : List Char) {c : Char} (hc : isWs c = true) : words (x ++ c :: y) = words x ++ words y := by
  have : ∀ x acc, wordsAux (x ++ c :: y) acc = wordsAux x acc ++ wordsAux y [] := by
    intro x
    induction x with
    | nil =>
      intro acc
      simp only [List.nil_append, wordsAux, hc, if_true]
      split <;> simp
    | cons b x ih =>
      intro acc
      rw [List.cons_append, wordsAux, wordsAux]
      split
      · split <;> simp [ih]
      · exact ih _
  exact this x []

theorem words_ws (t : List Char) (ht : ∀ c ∈ t, isWs c = true) : words t = [] := by
  induction t with
  | nil => rfl
  | cons c t ih =>
    have h := words_append_ws [] t (ht c (by simp))
    rw [List.nil_append] at h
    rw [h, ih fun c hc => ht c (List.mem_cons_of_mem _ hc)]
    rfl

theorem words_ws_end (x t : List Char) (ht : ∀ c ∈ t, isWs c = true) : words (x ++ t) = words x := by
  cases t with
  | nil => simp
  | cons c t => rw [words_append_ws _ _ (ht c (by simp)), words_ws t fun c hc => ht c (List.mem_cons_of_mem _ hc), List.append_nil]

theorem pyRstrip_split (s : List Char) : ∃ t, s = pyRstrip s ++ t ∧ ∀ c ∈ t, isWs c = true := by
  refine ⟨(s.reverse.takeWhile isWs).reverse, ?_, fun c hc => ?_⟩
  · unfold pyRstrip
    rw [← List.reverse_append, List.takeWhile_append_dropWhile, List.reverse_reverse]
  · rw [List.mem_reverse] at hc
    exact List.mem_takeWhile_imp hc

/-- a word as printed: blanks, then the token -/
def Padded (w tok : List Char) : Prop := tok ≠ [] ∧ (∀ c ∈ tok, isWs c = false) ∧ ∃ n, w = List.replicate n ' ' ++ tok

theorem words_padded {w tok : List Char} (h : Padded w tok) : words w = [tok] := by
  obtain ⟨h1, h2, n, rfl⟩ := h
  rw [words_blanks, words_word tok h2 h1]

/-- whatever the widths and line breaks: the words of the text are the tokens -/
theorem words_npLines {ws toks : List (List Char)} (h : List.Forall₂ Padded ws toks) (text line : List Char) (hne : ws ≠ []) :
    words (npLines ws text (line ++ [' '])) = words (text ++ line) ++ toks := by
  induction h generalizing text line with
  | nil => exact absurd rfl hne
  | @cons w tok ws toks hw hrest ih =>
    have key : ∃ text' line', npExtend text (line ++ [' ']) w = (text', line') ∧
        words (text' ++ line') = words (text ++ line) ++ [tok] := by
      unfold npExtend
      split
      · refine ⟨_, _, rfl, ?_⟩
        obtain ⟨t, ht, hws⟩ := pyRstrip_split (line ++ [' '])
        rw [List.append_assoc, List.singleton_append, words_append_ws _ _ (show isWs '\n' = true from rfl)]
        have e1 : words (text ++ pyRstrip (line ++ [' '])) = words (text ++ line) := by
          rw [← words_ws_end _ t hws, List.append_assoc, ← ht, ← List.append_assoc]
          exact words_ws_end _ _ (by simp [show isWs ' ' = true from rfl])
        have e2 : words (' ' :: w) = [tok] := by
          have := words_append_ws [] w (show isWs ' ' = true from rfl)
          rw [List.nil_append] at this
          rw [this, words_padded hw]
          rfl
        rw [e1, e2]
      · refine ⟨_, _, rfl, ?_⟩
        have e : text ++ (line ++ [' '] ++ w) = (text ++ line) ++ ' ' :: w := by simp
        rw [e, words_append_ws _ _ (show isWs ' ' = true from rfl), words_padded hw]
    obtain ⟨text', line', e1, e2⟩ := key
    unfold npLines
    rw [e1]
    simp only
    split
    · next h0 =>
      subst h0
      cases hrest
      exact e2
    · next h0 =>
      rw [ih _ _ h0, e2, List.append_assoc, List.singleton_append]

/-- the text begins with the indent -/
theorem npLines_head (ws : List (List Char)) (text line : List Char) (h0 : ∀ w ∈ ws, ∃ c ∈ w, isWs c = false)
    (h : text.head? = some ' ' ∨ (text = [] ∧ line.head? = some ' ' ∧ (line = [' '] ∨ ∃ c ∈ line, isWs c = false))) :
    (npLines ws text line).head? = some ' ' := by
  induction ws generalizing text line with
  | nil =>
    unfold npLines
    rcases h with h | ⟨rfl, h, _⟩
    · rw [List.head?_append, h]; rfl
    · rwa [List.nil_append]
  | cons w ws ih =>
    have key : ∃ text' line', npExtend text line w = (text', line') ∧
        (text'.head? = some ' ' ∨ (text' = [] ∧ line'.head? = some ' ' ∧ ∃ c ∈ line', isWs c = false)) := by
      unfold npExtend
      split
      · next hw =>
        refine ⟨_, _, rfl, .inl ?_⟩
        rcases h with h | ⟨rfl, h, h'⟩
        · rw [List.append_assoc, List.head?_append, h]; rfl
        · rcases h' with h' | ⟨c, hc, hcw⟩
          · rw [h'] at hw; simp at hw
          · obtain ⟨t, ht, hws⟩ := pyRstrip_split line
            have hc' : c ∈ pyRstrip line := by
              rw [ht] at hc
              rcases List.mem_append.1 hc with hc | hc
              · exact hc
              · rw [hws c hc] at hcw; cases hcw
            cases hr : pyRstrip line with
            | nil => rw [hr] at hc'; cases hc'
            | cons x xs =>
              rw [ht, hr] at h
              simpa using h
      · refine ⟨_, _, rfl, ?_⟩
        rcases h with h | ⟨rfl, h, _⟩
        · exact .inl h
        · refine .inr ⟨rfl, by rw [List.head?_append, h]; rfl, ?_⟩
          obtain ⟨c, hc, hcw⟩ := h0 w (by simp)
          exact ⟨c, List.mem_append_right _ hc, hcw⟩
    obtain ⟨text', line', e1, e2⟩ := key
    unfold npLines
    rw [e1]
    simp only
    split
    · rcases e2 with h | ⟨rfl, h, _⟩
      · rw [List.head?_append, h]; rfl
      · rwa [List.nil_append]
    · apply ih _ _ fun w hw => h0 w (List.mem_cons_of_mem _ hw)
      rcases e2 with h | ⟨h, h', c, hc, hcw⟩
      · exact .inl h
      · exact .inr ⟨h, by rw [List.head?_append, h']; rfl, .inr ⟨c, List.mem_append_left _ hc, hcw⟩⟩

/-- an entry without padding -/
def npToken : Option ℤ → List Char
  | some x => intStr x
  | none => "...".toList

theorem npWord_padded (width : ℕ) (o : Option ℤ) : Padded (npWord width o) (npToken o) := by
  cases o with
  | none => exact ⟨by decide, by decide, 0, rfl⟩
  | some x => exact ⟨intStr_ne x, intStr_noWs x, _, rfl⟩

theorem npToken_inj {a b : Option ℤ} (h : npToken a = npToken b) : a = b := by
  have dots : ∀ x : ℤ, intStr x ≠ "...".toList := by
    intro x hx
    have h1 : '.' ∈ intStr x := by rw [hx]; decide
    unfold intStr at h1
    have h2 : ∀ n : ℕ, '.' ∉ natStr n := fun n hn => by
      have := natStr_dig n _ hn
      revert this; decide
    split at h1
    · rcases List.mem_cons.1 h1 with h1 | h1
      · revert h1; decide
      · exact h2 _ h1
    · exact h2 _ h1
  cases a with
  | none =>
    cases b with
    | none => rfl
    | some y => exact absurd h.symm (dots y)
  | some x =>
    cases b with
    | none => exact absurd h (dots x)
    | some y => rw [intStr_inj h]

theorem words_npInner (s : List (Option ℤ)) : words (npInner s) = s.map npToken := by
  unfold npInner
  split
  · next h => rw [h]; rfl
  · next h =>
    have hp : List.Forall₂ Padded (s.map (npWord (npWidth (s.filterMap id)))) (s.map npToken) := by
      clear h
      generalize npWidth (s.filterMap id) = width
      induction s with
      | nil => exact .nil
      | cons o s ih => exact .cons (npWord_padded _ o) ih
    have h1 := words_npLines hp [] [] (by simpa using h)
    have h2 := npLines_head (s.map (npWord (npWidth (s.filterMap id)))) [] [' '] (by
      intro w hw
      obtain ⟨o, _, rfl⟩ := List.mem_map.1 hw
      obtain ⟨a, b, n, e⟩ := npWord_padded (npWidth (s.filterMap id)) o
      obtain ⟨c, hc⟩ := List.exists_mem_of_ne_nil _ a
      exact ⟨c, by rw [e]; exact List.mem_append_right _ hc, b c hc⟩) (.inr ⟨rfl, rfl, .inl rfl⟩)
    rw [List.nil_append] at h1
    cases ht : npLines (s.map (npWord (npWidth (s.filterMap id)))) [] [' '] with
    | nil => rw [ht] at h2; cases h2
    | cons x t =>
      rw [ht] at h1 h2
      injection h2 with h2
      subst h2
      have e := words_append_ws [] t (show isWs ' ' = true from rfl)
      rw [List.nil_append] at e
      rw [e] at h1
      simpa [words, wordsAux] using h1

/-! ## C133 -/

/-- **C133, the text.** Two integer arrays have the same `str` exactly if the same entries are printed: up to 1000 entries all, beyond
that the first three and the last three. -/
theorem C133_text (a b : List ℤ) : npArrayStr a = npArrayStr b ↔
    (a.length ≤ 1000 ∧ b.length ≤ 1000 ∧ a = b) ∨
    (1000 < a.length ∧ 1000 < b.length ∧ a.take 3 = b.take 3 ∧ a.drop (a.length - 3) = b.drop (b.length - 3)) := by
  have h1 : npArrayStr a = npArrayStr b ↔ npShown a = npShown b := by
    constructor
    · intro h
      unfold npArrayStr at h
      have hi : npInner (npShown a) = npInner (npShown b) := by simpa using h
      have hw := congrArg words hi
      rw [words_npInner, words_npInner] at hw
      exact List.map_injective_iff.2 (fun _ _ => npToken_inj) hw
    · intro h; unfold npArrayStr; rw [h]
  have hsome : Function.Injective (some : ℤ → Option ℤ) := Option.some_injective _
  have nodots : ∀ l : List ℤ, none ∉ l.map some := by intro l; simp
  rw [h1]
  unfold npShown
  by_cases ha : a.length ≤ 1000 <;> by_cases hb : b.length ≤ 1000
  · rw [if_pos ha, if_pos hb]
    constructor
    · intro h; exact .inl ⟨ha, hb, List.map_injective_iff.2 hsome h⟩
    · rintro (⟨_, _, h⟩ | ⟨h, _⟩)
      · rw [h]
      · omega
  · rw [if_pos ha, if_neg hb]
    refine iff_of_false (fun h => nodots a (by rw [h]; simp)) (by omega)
  · rw [if_neg ha, if_pos hb]
    refine iff_of_false (fun h => nodots b (by rw [← h]; simp)) (by omega)
  · rw [if_neg ha, if_neg hb]
    constructor
    · intro h
      have hl : ((a.take 3).map some).length = ((b.take 3).map (some : ℤ → Option ℤ)).length := by
        simp only [List.length_map, List.length_take]; omega
      obtain ⟨e1, e2⟩ := List.append_inj h hl
      injection e2 with _ e2
      exact .inr ⟨by omega, by omega, List.map_injective_iff.2 hsome e1, List.map_injective_iff.2 hsome e2⟩
    · rintro (⟨h, _⟩ | ⟨_, _, e1, e2⟩)
      · omega
      · rw [e1, e2]

/-- the assumption of C63 about `str` holds of this text -/
theorem C133_numpy : NumpyStr npArrayStr where
  full a b ha hb h := by
    rcases (C133_text a b).1 h with h | h
    · exact h.2.2
    · omega
  summary a b ha hb h1 h2 := (C133_text a b).2 (.inr ⟨ha, hb, h1, h2⟩)

theorem npEnds_iff {α} (x y : List α) (h : x.length = y.length) : (x.take 3 = y.take 3 ∧ x.drop (x.length - 3) = y.drop (y.length - 3)) ↔
    ∀ i : ℕ, (i < 3 ∨ y.length ≤ i + 3) → x[i]? = y[i]? := by
  constructor
  · rintro ⟨h1, h2⟩ i hi
    rcases hi with hi | hi
    · have := congrArg (fun l => l[i]?) h1
      simpa [List.getElem?_take, hi] using this
    · by_cases h3 : 3 ≤ y.length
      · have := congrArg (fun l => l[i - (y.length - 3)]?) h2
        simp only [List.getElem?_drop, h] at this
        rwa [Nat.add_sub_cancel' (by omega)] at this
      · have e : y.length - 3 = 0 := by omega
        rw [h, e, List.drop_zero, List.drop_zero] at h2
        rw [h2]
  · intro hall
    constructor
    · apply List.ext_getElem?
      intro i
      rw [List.getElem?_take, List.getElem?_take]
      split
      · exact hall i (.inl (by assumption))
      · rfl
    · apply List.ext_getElem?
      intro i
      rw [List.getElem?_drop, List.getElem?_drop, h]
      exact hall _ (.inr (by omega))

/-- **C133, up to 1000 sites.** C63 for the text numpy prints: `is_stru_equal` is True iff some operation carries `B` onto `A`. -/
theorem C133_small (m m' : M3 ℚ) {d w l : ℕ} (hd : 0 < d) (hw : 0 < w) (hl : 0 < l)
    (hd' : d ≤ 990) (hw' : w ≤ 990) (hl' : l ≤ 990) (hsz : d * w * l ≤ 1000) (A B : Cube Specie) (hA : Spec.Box d w l A)
    (hB : Spec.Box d w l B) (hAr : ∀ x ∈ A.flatten.flatten, ReachableSpecie x) (hBr : ∀ x ∈ B.flatten.flatten, ReachableSpecie x)
    (ops : List Spec.Op)
    (maps : ∀ g ∈ ops, ∀ x ∈ gridPos d w l, ∃ y ∈ gridPos d w l, SameAt 10 (g.image x) y)
    (inj : ∀ g ∈ ops, ∀ x ∈ gridPos d w l, ∀ y ∈ gridPos d w l, SameAt 10 (g.image x) (g.image y) → x = y) :
    ∃ sA sB r, CStru.new m A = .ok sA ∧ CStru.new m' B = .ok sB ∧ isStruEqual npArrayStr sA sB ops = .ok r ∧
      (r = true ↔ ∃ op ∈ ops, Spec.Carries (SameAt 10) d w l op B A) :=
  C63_equal_partial npArrayStr C133_numpy m m' hd hw hl hd' hw' hl' hsz A B hA hB hAr hBr ops maps inj

/-- **C133, beyond 1000 sites.** `is_stru_equal` is True iff some operation carries `B` onto a grid that agrees with `A` in the first three and the last three
sites; the other sites are not looked at. -/
theorem C133_large (m m' : M3 ℚ) {d w l : ℕ} (hd : 0 < d) (hw : 0 < w) (hl : 0 < l)
    (hd' : d ≤ 990) (hw' : w ≤ 990) (hl' : l ≤ 990) (hsz : 1000 < d * w * l) (A B : Cube Specie) (hA : Spec.Box d w l A)
    (hB : Spec.Box d w l B) (hAr : ∀ x ∈ A.flatten.flatten, ReachableSpecie x) (hBr : ∀ x ∈ B.flatten.flatten, ReachableSpecie x)
    (ops : List Spec.Op)
    (maps : ∀ g ∈ ops, ∀ x ∈ gridPos d w l, ∃ y ∈ gridPos d w l, SameAt 10 (g.image x) y)
    (inj : ∀ g ∈ ops, ∀ x ∈ gridPos d w l, ∀ y ∈ gridPos d w l, SameAt 10 (g.image x) (g.image y) → x = y) :
    ∃ sA sB r, CStru.new m A = .ok sA ∧ CStru.new m' B = .ok sB ∧ isStruEqual npArrayStr sA sB ops = .ok r ∧
      (r = true ↔ ∃ op ∈ ops, Spec.CarriesEnds (SameAt 10) d w l op B A) := by
  refine ⟨_, _, _, cstru_new m hd hw A hA, cstru_new m' hd hw B hB,
    isStruEqual_core npArrayStr m m' hd hw hl hd' hw' hl' A B hA hB ops, ?_⟩
  obtain ⟨k1, k2⟩ := gridPos_keys (n := 10) (by omega) hd' hw' hl'
  rw [List.any_eq_true]
  refine exists_congr fun g => and_congr_right fun hg => ?_
  have hrow : SameRow (SameAt 10) (gridPos d w l) g _ := keyRow_spec k1 k2 (maps g hg) (inj g hg)
  rw [decide_eq_true_eq, gather_map]
  generalize lexsort3 (((gridPos d w l).map (applyOp g)).map (V3.map (keyN 10))) = row at hrow ⊢
  have hperm : IsPerm B.flatten.flatten.length row := by
    have := hrow.1
    rwa [gridPos_length, ← box_length hB] at this
  have hlX : (gather B.flatten.flatten row).length = d * w * l := by rw [(gather_perm hperm).length_eq, box_length hB]
  have hlA := box_length hA
  have hZ : ∀ x y : Specie, ReachableSpecie x → ReachableSpecie y → x.Z = y.Z → x = y := fun x y hx hy h => by
    rw [← (reachable_known hx).2, ← (reachable_known hy).2, h]
  have hXr : ∀ x ∈ gather B.flatten.flatten row, ReachableSpecie x := fun x hx => hBr x ((gather_perm hperm).subset hx)
  rw [C133_text, or_iff_right (by simp only [List.length_map]; omega)]
  simp only [List.length_map, hlX, hlA, hsz, true_and]
  have e := npEnds_iff ((gather B.flatten.flatten row).map (·.Z)) (A.flatten.flatten.map (·.Z)) (by rw [List.length_map, List.length_map, hlX, hlA])
  simp only [List.length_map, hlX, hlA] at e
  rw [e]
  have hget : ∀ i : ℕ, ((gather B.flatten.flatten row).map (·.Z))[i]? = (A.flatten.flatten.map (·.Z))[i]? ↔
      (gather B.flatten.flatten row)[i]? = A.flatten.flatten[i]? := by
    intro i
    rw [List.getElem?_map, List.getElem?_map]
    constructor
    · intro h
      cases hx : (gather B.flatten.flatten row)[i]? with
      | none =>
        cases hy : A.flatten.flatten[i]? with
        | none => rfl
        | some y => rw [hx, hy] at h; cases h
      | some x =>
        cases hy : A.flatten.flatten[i]? with
        | none => rw [hx, hy] at h; cases h
        | some y =>
          rw [hx, hy] at h
          injection h with h
          rw [hZ x y (hXr x (List.mem_of_getElem? hx)) (hAr y (List.mem_of_getElem? hy)) h]
    · intro h; rw [h]
  simp only [hget]
  have hlt : ∀ i ∈ row, i < B.flatten.flatten.length := hperm.lt
  constructor
  · intro hall c b a c' b' a' hc hb ha hc' hb' ha' hends hs
    have h1 := hall ((c' * w + b') * l + a') hends
    have h2 := (hrow.2 _ _ (gridPos_get d w l c' b' a' hc' hb' ha') _ _ (gridPos_get d w l c b a hc hb ha)).2 hs
    rw [gather_getElem? hlt, h2, Option.bind_some, box_getElem? hB c b a hb ha, box_getElem? hA c' b' a' hb' ha'] at h1
    exact h1
  · intro hall i hi
    by_cases hiN : i < d * w * l
    · have hx : i < (gridPos d w l).length := by rw [gridPos_length]; exact hiN
      have hr : i < row.length := by rw [hperm.length, box_length hB]; exact hiN
      have hj : row[i] < (gridPos d w l).length := by
        have := hlt _ (List.getElem_mem hr)
        rwa [box_length hB, ← gridPos_length] at this
      have hs := (hrow.2 i _ (List.getElem?_eq_getElem hx) row[i] _ (List.getElem?_eq_getElem hj)).1 (List.getElem?_eq_getElem hr)
      rw [gather_getElem? hlt, List.getElem?_eq_getElem hr, Option.bind_some]
      obtain ⟨c', b', a', hc', hb', ha', hi', ex⟩ := gridPos_index (List.getElem?_eq_getElem hx)
      obtain ⟨c, b, a, hc, hb, ha, hj', ey⟩ := gridPos_index (List.getElem?_eq_getElem hj)
      rw [ex, ey] at hs
      rw [hj', box_getElem? hB c b a hb ha]
      conv_rhs => rw [hi', box_getElem? hA c' b' a' hb' ha']
      exact hall c b a c' b' a' hc hb ha hc' hb' ha' (by unfold Spec.AtEnds; rw [← hi']; exact hi) hs
    · rw [List.getElem?_eq_none (by omega), List.getElem?_eq_none (by omega)]

def exOne : Spec.Op := (((1, 0, 0), (0, 1, 0), (0, 0, 1)), (0, 0, 0))

/-- case for `C133_large`: 11 × 10 × 10 with the identity; the hypotheses on the operations hold -/
example : (∀ g ∈ [exOne], ∀ x ∈ gridPos 11 10 10, ∃ y ∈ gridPos 11 10 10, SameAt 10 (g.image x) y) ∧
    (∀ g ∈ [exOne], ∀ x ∈ gridPos 11 10 10, ∀ y ∈ gridPos 11 10 10,
      SameAt 10 (g.image x) (g.image y) → x = y) := by
  have hid : ∀ x : V3 ℚ, exOne.image x = x := fun x => by
    unfold Spec.Op.image exOne
    ext <;> simp
  constructor
  · intro g hg x hx
    obtain rfl := List.mem_singleton.1 hg
    exact ⟨x, hx, by rw [hid]; exact rfl⟩
  · intro g hg x hx y hy h
    obtain rfl := List.mem_singleton.1 hg
    rw [hid, hid] at h
    exact List.inj_on_of_nodup_map (gridPos_keys (n := 10) (d := 11) (w := 10) (l := 10) (by omega) (by omega) (by omega) (by omega)).2 hx hy h

/-- cases: padding, negative numbers, the ellipsis, and a line break -/
example : npArrayStr [5, -12, 79] = "[  5 -12  79]".toList := by decide +kernel
example : npArrayStr [] = "[]".toList := by decide +kernel
set_option maxRecDepth 100000 in
example : npArrayStr (List.replicate 1001 6) = "[6 6 6 ... 6 6 6]".toList := by decide +kernel
example : npArrayStr (List.replicate 26 79) =
    "[79 79 79 79 79 79 79 79 79 79 79 79 79 79 79 79 79 79 79 79 79 79 79 79\n 79 79]".toList := by decide +kernel

end Verif
