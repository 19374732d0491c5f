import Verif.Lemmas.Lazy
import Verif.Props.Levels

/-! # C25: the order in which a consumer asks the per-level generators for structures does not matter -/

namespace Verif

/-- the consumer only asks levels it has received: at every position `i` of the schedule where level `k` is asked, the
outer generator has been asked at least `k + 1` times before (and level `k` exists) -/
def Handles (total : ℕ) (calls : List Call) : Prop :=
  ∀ (i k : ℕ), calls[i]? = some (.next k) → k < total ∧ k < (calls.take i).count .outer

/-- what the consumer must see: the answer to every call is determined by the fixed lists `lss` and by how often the same
generator has been asked before -/
def FixedSequences (lss : List (List GCell)) (calls : List Call) (os : List Seen) : Prop :=
  os.length = calls.length ∧
  (∀ i : ℕ, calls[i]? = some .outer →
    os[i]? = some (if (calls.take i).count .outer < lss.length then .level else .stop)) ∧
  ∀ (i k : ℕ) (l : List GCell), calls[i]? = some (.next k) → lss[k]? = some l →
    os[i]? = some (match l[(calls.take i).count (.next k)]? with | some c => .item c | none => .stop)

theorem outs_length {hash perms ok atom} {s : Chain} {Es} (h : Good hash perms ok atom s Es) :
    (outs s).length = Es.length ∧ s.depth = Es.length := by
  induction h with
  | base => simp [outs, Chain.depth]
  | level _ _ _ _ _ _ _ ih => simp [outs, Chain.depth, ih.1, ih.2]

section
variable {hash : List ℤ → ℕ} {perms : List (List ℕ)} {ok : ℕ → ℤ → Bool} {atom : ℤ}

/-- the eager list feeding level `m` -/
def feed (init : List GCell) (lss : List (List GCell)) : ℕ → List GCell
  | 0 => init
  | m + 1 => lss.getD m []

theorem levels_spec (step : List GCell → Py (List GCell)) : ∀ (k : ℕ) (gen : List GCell) (lss), levels step k gen = .ok lss →
    lss.length = k ∧ ∀ (i : ℕ) (l : List GCell), lss[i]? = some l → step (feed gen lss i) = .ok l := by
  intro k
  induction k with
  | zero =>
    intro gen lss h
    obtain rfl := Except.ok.inj h
    simp
  | succ k ih =>
    intro gen lss h
    simp only [levels] at h
    obtain ⟨gen', h1, h⟩ := bind_ok h
    obtain ⟨rest, h2, h⟩ := bind_ok h
    obtain rfl := Except.ok.inj h
    obtain ⟨i1, i2⟩ := ih _ _ h2
    refine ⟨by simp [i1], ?_⟩
    intro i l hl
    cases i with
    | zero =>
      obtain rfl : gen' = l := by simpa using hl
      exact h1
    | succ i =>
      have := i2 i l (by simpa using hl)
      cases i with
      | zero => simpa [feed] using this
      | succ i => simpa [feed] using this

/-- state of the machine after some calls: `m` levels exist, level `k` has been asked `cnt k` times -/
structure RunInv (init : List GCell) (lss : List (List GCell)) (hash : List ℤ → ℕ) (perms : List (List ℕ))
    (ok : ℕ → ℤ → Bool) (atom : ℤ) (s : Chain) (m : ℕ) (cnt : ℕ → ℕ) : Prop where
  le : m ≤ lss.length
  good : Good hash perms ok atom s (lss.take m).reverse
  top : genDen hash perms ok atom s = .ok (feed init lss m)
  pos : ∀ (k : ℕ) (l : List GCell), k < m → lss[k]? = some l → (outs s)[m - 1 - k]? = some (min (cnt k) l.length)
  fresh : ∀ k, m ≤ k → cnt k = 0

theorem getElem?_min {α} (l : List α) (n : ℕ) : l[min n l.length]? = l[n]? := by
  rcases le_total n l.length with h | h
  · rw [min_eq_left h]
  · rw [min_eq_right h, List.getElem?_eq_none_iff.2 le_rfl, List.getElem?_eq_none_iff.2 h]

theorem take_reverse_get {α} (l : List α) (m k : ℕ) (hk : k < m) (hm : m ≤ l.length) :
    (l.take m).reverse[m - 1 - k]? = l[k]? := by
  rw [List.getElem?_reverse (by simp; omega)]
  rw [List.length_take, min_eq_left hm, List.getElem?_take]
  have : m - 1 - (m - 1 - k) = k := by omega
  rw [this, if_pos hk]

theorem run_ok {init : List GCell} {lss : List (List GCell)}
    (hl : ∀ (i : ℕ) (l : List GCell), lss[i]? = some l →
      (do gen2NodupLoop hash perms [] (← addOneLoop hash ok atom (feed init lss i) [])) = .ok l) :
    ∀ (calls : List Call) (s : Chain) (m : ℕ) (cnt : ℕ → ℕ), RunInv init lss hash perms ok atom s m cnt →
    (∀ (i k : ℕ), calls[i]? = some (.next k) → k < lss.length ∧ k < m + (calls.take i).count .outer) →
    ∃ F os, (∀ f ≥ F, lazyRun hash perms ok atom f lss.length s calls = some os) ∧ os.length = calls.length ∧
      (∀ i : ℕ, calls[i]? = some .outer →
        os[i]? = some (if m + (calls.take i).count .outer < lss.length then .level else .stop)) ∧
      ∀ (i k : ℕ) (l : List GCell), calls[i]? = some (.next k) → lss[k]? = some l →
        os[i]? = some (match l[cnt k + (calls.take i).count (.next k)]? with | some c => .item c | none => .stop) := by
  intro calls
  induction calls with
  | nil => intro s m cnt _ _; exact ⟨0, [], fun f _ => rfl, rfl, by simp, by simp⟩
  | cons c calls ih =>
    intro s m cnt hi hw
    have hlen := outs_length hi.good
    have hdep : s.depth = m := by rw [hlen.2]; simp [hi.le]
    -- the step
    obtain ⟨F1, o, s', m', cnt', hstep, hinv, ho, hm', hc'⟩ : ∃ F1 o s' m' cnt',
        (∀ f ≥ F1, lazyStep hash perms ok atom f lss.length s c = some (o, s')) ∧
        RunInv init lss hash perms ok atom s' m' cnt' ∧
        (match c with
          | .outer => o = (if m < lss.length then Seen.level else .stop)
          | .next k => ∀ l, lss[k]? = some l → o = (match l[cnt k]? with | some x => .item x | none => .stop)) ∧
        (m' = if c = .outer ∧ m < lss.length then m + 1 else m) ∧
        (∀ k, cnt' k = cnt k + if c = .next k then 1 else 0) := by
      cases c with
      | outer =>
        by_cases hlt : m < lss.length
        · obtain ⟨E, hE⟩ : ∃ E, lss[m]? = some E := ⟨lss[m], List.getElem?_eq_getElem hlt⟩
          obtain ⟨d, d1, d2⟩ := bind_ok (hl m E hE)
          refine ⟨0, .level, .level Level.fresh s, m + 1, cnt, ?_, ⟨hlt, ?_, ?_, ?_, ?_⟩, by simp [hlt], by simp [hlt], by simp⟩
          · intro f _; simp [lazyStep, hdep, hlt]
          · have : (lss.take (m + 1)).reverse = E :: (lss.take m).reverse := by
              rw [List.take_add_one, hE]; simp
            rw [this]
            refine .level hi.good hi.top (d := d) (rest := E) ?_ ?_ rfl (by simp [Level.fresh]) (by simp [Level.fresh])
            · exact (addDen_intro (st := Level.fresh.add) rfl (r := ([], [])) rfl d1).trans (by simp)
            · exact nodDen_intro (st := Level.fresh.nod) rfl rfl d2
          · have h1 := addDen_intro (st := Level.fresh.add) rfl (r := ([], [])) (inp := feed init lss m) rfl d1
            have h2 : nodDen hash perms Level.fresh.nod ([] ++ d) = .ok E := nodDen_intro rfl rfl d2
            rw [genDen_level hi.top h1 h2]
            simp [Level.fresh, feed, hE]
          · intro k l hk hlk
            rcases Nat.lt_or_ge k m with hkm | hkm
            · have : m + 1 - 1 - k = (m - 1 - k) + 1 := by omega
              rw [this]
              simpa [outs] using hi.pos k l hkm hlk
            · have : k = m := by omega
              subst this
              simp [outs, Level.fresh, hi.fresh k le_rfl]
          · intro k hk; exact hi.fresh k (by omega)
        · refine ⟨0, .stop, s, m, cnt, ?_, hi, by simp [hlt], by simp [hlt], by simp⟩
          intro f _; simp [lazyStep, hdep, hlt]
      | next k =>
        obtain ⟨hk1, hk2⟩ := hw 0 k rfl
        have hk2 : k < m := by simpa using hk2
        obtain ⟨E, hE⟩ : ∃ E, lss[k]? = some E := ⟨lss[k], List.getElem?_eq_getElem hk1⟩
        obtain ⟨F, s', w1, w2, w3, w4⟩ := pullOut_ok (m - 1 - k) s _ E _ hi.good
          (by rw [take_reverse_get _ _ _ hk2 hi.le, hE]) (hi.pos k E hk2 hE)
        refine ⟨F, (match E[cnt k]? with | some x => .item x | none => .stop), s', m,
          (fun j => cnt j + if Call.next k = .next j then 1 else 0), ?_, ⟨hi.le, w2, w3.trans hi.top, ?_, ?_⟩, ?_, by simp, fun _ => rfl⟩
        · intro f hf
          have := w1 f hf
          rw [getElem?_min] at this
          simp only [lazyStep, hdep, if_pos hk2, this]
          rcases E[cnt k]? with _ | x <;> rfl
        · intro j l hj hlj
          rw [w4, List.getElem?_set]
          by_cases hjk : j = k
          · subst hjk
            obtain rfl : E = l := by rw [hE] at hlj; exact Option.some.inj hlj
            rw [if_pos rfl, if_pos (by rw [hlen.1]; simp [hi.le]; omega)]
            simp
            omega
          · rw [if_neg (by omega), hi.pos j l hj hlj]
            simp [show k ≠ j from fun h => hjk h.symm]
        · intro j hj
          have : k ≠ j := by omega
          simp [hi.fresh j hj, this]
        · intro l hl'
          obtain rfl : E = l := by rw [hE] at hl'; exact Option.some.inj hl'
          rfl
    have hcount : ∀ i : ℕ, m' + (calls.take i).count .outer < lss.length ↔ m + ((c :: calls).take (i + 1)).count .outer < lss.length := by
      intro i
      rw [hm', List.take_succ_cons, List.count_cons]
      by_cases hc : c = .outer
      · by_cases hlt : m < lss.length
        · simp [hc, hlt]; omega
        · simp [hc, hlt]; omega
      · simp [hc]
    obtain ⟨F2, os, r1, r2, r3, r4⟩ := ih s' m' cnt' hinv (by
      intro i k hk
      obtain ⟨q1, q2⟩ := hw (i + 1) k (by simpa using hk)
      refine ⟨q1, ?_⟩
      rw [List.take_succ_cons, List.count_cons] at q2
      rw [hm']
      by_cases hc : c = .outer
      · by_cases hlt : m < lss.length
        · simp [hc, hlt] at q2 ⊢; omega
        · simp [hc, hlt]; omega
      · simp [hc] at q2 ⊢; omega)
    refine ⟨max F1 F2, o :: os, ?_, by simp [r2], ?_, ?_⟩
    · intro f hf
      simp [lazyRun, hstep f (by omega), r1 f (by omega)]
    · intro i hi'
      cases i with
      | zero =>
        obtain rfl : c = .outer := by simpa using hi'
        simpa using ho
      | succ i =>
        have := r3 i (by simpa using hi')
        simp only [List.getElem?_cons_succ, this]
        congr 1
        simp only [hcount i]
    · intro i k l hi' hlk
      cases i with
      | zero =>
        obtain rfl : c = .next k := by simpa using hi'
        simpa using ho l hlk
      | succ i =>
        have := r4 i k l (by simpa using hi') hlk
        simp only [List.getElem?_cons_succ, this]
        have : cnt' k + (calls.take i).count (.next k) = cnt k + ((c :: calls).take (i + 1)).count (.next k) := by
          rw [hc', List.take_succ_cons, List.count_cons]
          simp only [beq_iff_eq]
          omega
        rw [this]

/-- C25, for any admissibility test: whatever the schedule, the machine answers every call (with enough fuel, i.e. every
`next()` returns), and the answers are the fixed eager sequences. -/
theorem C25_lazy_schedule (init : GCell) (total : ℕ) (lss : List (List GCell))
    (h : levels (fun gen => do gen2NodupLoop hash perms [] (← addOneLoop hash ok atom gen [])) total [init] = .ok lss)
    (calls : List Call) (hw : Handles total calls) :
    ∃ F os, (∀ f ≥ F, lazyRun hash perms ok atom f total (.base [init]) calls = some os) ∧ FixedSequences lss calls os := by
  obtain ⟨h1, h2⟩ := levels_spec _ _ _ _ h
  subst h1
  obtain ⟨F, os, r1, r2, r3, r4⟩ := run_ok h2 calls (.base [init]) 0 (fun _ => 0)
    ⟨Nat.zero_le _, .base _, rfl, fun k _ hk => absurd hk (by omega), fun _ _ => rfl⟩ (by simpa [Handles] using hw)
  exact ⟨F, os, r1, r2, by simpa using r3, by simpa using r4⟩

end

/-- C25 for `all_speckle_gen_unitary` -/
theorem C25_schedule_unitary (hash : List ℤ → ℕ) (g : OGen) (n : ℕ) (sp : Specie) (lss : List (List GCell))
    (h : g.allSpeckleUnitary hash n sp = .ok lss) (calls : List Call) (hw : Handles lss.length calls) :
    ∃ F os, (∀ f ≥ F, g.lazyUnitary hash n sp f calls = some os) ∧ FixedSequences lss calls os := by
  have := (levels_spec _ _ _ _ h).1
  rw [this] at hw
  exact C25_lazy_schedule _ _ _ h calls hw

/-- C25 for `all_speckle_gen` -/
theorem C25_schedule_wyckoff (hash : List ℤ → ℕ) (g : OGen) (n : ℕ) (wy : String) (sp : Specie) (lss : List (List GCell))
    (h : g.allSpeckle hash n wy sp = .ok lss) (calls : List Call) (hw : Handles lss.length calls) :
    ∃ F os, (∀ f ≥ F, g.lazyWyckoff hash n wy sp f calls = some os) ∧ FixedSequences lss calls os := by
  have := (levels_spec _ _ _ _ h).1
  rw [this] at hw
  exact C25_lazy_schedule _ _ _ h calls hw

/-- C25 for `all_speckle_gen_of_ele` -/
theorem C25_schedule_of_ele (hash : List ℤ → ℕ) (g : OGen) (n : ℕ) (ele sp : Specie) (lss : List (List GCell))
    (h : g.allSpeckleOfEle hash n ele sp = .ok lss) (calls : List Call) (hw : Handles lss.length calls) :
    ∃ F os, (∀ f ≥ F, g.lazyOfEle hash n ele sp f calls = some os) ∧ FixedSequences lss calls os := by
  have := (levels_spec _ _ _ _ h).1
  rw [this] at hw
  exact C25_lazy_schedule _ _ _ h calls hw

/-! ## examples -/

/-- what was seen, in decidable form -/
def Seen.show : Seen → String × List ℤ
  | .level => ("level", [])
  | .item c => ("item", c.numbers)
  | .stop => ("stop", [])
  | .raised _ => ("raised", [])

/-- two levels are opened, the second one is read first, then the calls alternate -/
def exCalls : List Call := [.outer, .outer, .next 1, .next 0, .next 1, .next 0, .next 1, .outer, .next 2, .next 0]

example : Handles 4 exCalls := by
  intro i k h
  have hi : i < exCalls.length := (List.getElem?_eq_some_iff.1 h).1
  simp only [exCalls, List.length_cons, List.length_nil] at hi
  interval_cases i <;> simp [exCalls] at h <;> subst h <;> decide

example : (exGen.lazyOfEle exDigits 4 exCu exAu 40 exCalls).map (List.map Seen.show) =
    some [("level", []), ("level", []), ("item", [79, 79, 29, 29]), ("item", [79, 29, 29, 29]), ("item", [79, 29, 79, 29]),
      ("stop", []), ("stop", []), ("level", []), ("item", [79, 79, 79, 29]), ("stop", [])] := by decide +kernel

end Verif
