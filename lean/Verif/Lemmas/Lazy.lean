import Verif.Model.Lazy

/-! # Denotation of the lazy machine: what each frame would still yield under eager evaluation -/

namespace Verif

section
variable (hash : List ℤ → ℕ) (perms : List (List ℕ)) (ok : ℕ → ℤ → Bool) (atom : ℤ)

/-- what is left of the current cell -/
def curDen : Option (GCell × List (List ℤ)) → List ℕ → Py (List GCell × List ℕ)
  | none, db => .ok ([], db)
  | some (c, cs), db => addOneInner hash c cs db

/-- what an `add_one` frame still yields, given what its source still yields -/
def addDen (st : AddSt) (inp : List GCell) : Py (List GCell) :=
  if st.done then .ok []
  else do
    let r ← curDen hash st.cur st.resumeDb
    let rest ← addOneLoop hash ok atom inp r.2
    return r.1 ++ rest

/-- what a `gen_2nodup_gen` frame still yields, given what its source still yields -/
def nodDen (st : NodSt) (inp : List GCell) : Py (List GCell) :=
  if st.done then .ok []
  else do
    let iso ← st.resume hash perms
    gen2NodupLoop hash perms iso inp

/-- what the inner branch still yields -/
def genDen : Chain → Py (List GCell)
  | .base items => .ok items
  | .level l below => do
    let inp ← genDen below
    let d ← addDen hash ok atom l.add inp
    let rest ← nodDen hash perms l.nod d
    return l.buf.drop l.genPos ++ rest

/-- the positions of the outer branches, newest level first -/
def outs : Chain → List ℕ
  | .base _ => []
  | .level l b => l.outPos :: outs b

/-- every level will have produced exactly its eager list (newest level first) -/
inductive Good : Chain → List (List GCell) → Prop
  | base (items) : Good (.base items) []
  | level {l below E Es inp d rest} (hb : Good below Es) (h1 : genDen hash perms ok atom below = .ok inp)
      (h2 : addDen hash ok atom l.add inp = .ok d) (h3 : nodDen hash perms l.nod d = .ok rest) (h4 : l.buf ++ rest = E)
      (h5 : l.outPos ≤ l.buf.length) (h6 : l.genPos ≤ l.buf.length) : Good (.level l below) (E :: Es)

/-- the outcome of a `next()` that should deliver the head of `items` -/
def Head (items : List GCell) (r : Py (Option GCell)) (rest : List GCell) : Prop :=
  match items with
  | [] => r = .ok none ∧ rest = []
  | c :: cs => r = .ok (some c) ∧ rest = cs

/-- the property of `pullGen` proved by induction on the depth -/
def GenOK (Es : List (List GCell)) : Prop :=
  ∀ s items, Good hash perms ok atom s Es → genDen hash perms ok atom s = .ok items →
    ∃ F r s' items', (∀ f ≥ F, pullGen hash perms ok atom f s = some (r, s')) ∧ Head items r items' ∧
      genDen hash perms ok atom s' = .ok items' ∧ Good hash perms ok atom s' Es ∧ outs s' = outs s

theorem bind_ok {α β} {x : Py α} {f : α → Py β} {b : β} (h : (x >>= f) = .ok b) : ∃ a, x = .ok a ∧ f a = .ok b := by
  cases x with
  | error e => simp [bind, Except.bind] at h
  | ok a => exact ⟨a, rfl, h⟩

variable {hash perms ok atom}

theorem addDen_ok {st : AddSt} {inp d : List GCell} (hd : st.done = false) (h : addDen hash ok atom st inp = .ok d) :
    ∃ r rest, curDen hash st.cur st.resumeDb = .ok r ∧ addOneLoop hash ok atom inp r.2 = .ok rest ∧ d = r.1 ++ rest := by
  unfold addDen at h
  rw [hd, if_neg (by simp)] at h
  obtain ⟨r, h1, h⟩ := bind_ok h
  obtain ⟨rest, h2, h⟩ := bind_ok h
  exact ⟨r, rest, h1, h2, (Except.ok.inj h).symm⟩

theorem addDen_intro {st : AddSt} {inp : List GCell} (hd : st.done = false) {r rest}
    (h1 : curDen hash st.cur st.resumeDb = .ok r) (h2 : addOneLoop hash ok atom inp r.2 = .ok rest) :
    addDen hash ok atom st inp = .ok (r.1 ++ rest) := by
  unfold addDen
  rw [hd, if_neg (by simp), h1]
  simp only [bind, Except.bind, h2]; rfl

/-- the conclusion about `pullAdd` -/
def AddConcl (hash : List ℤ → ℕ) (perms : List (List ℕ)) (ok : ℕ → ℤ → Bool) (atom : ℤ) (Es : List (List GCell))
    (st : AddSt) (below : Chain) (d : List GCell) : Prop :=
  ∃ F r st' below' inp' d', (∀ f ≥ F, pullAdd hash perms ok atom f st below = some (r, st', below')) ∧ Head d r d' ∧
    genDen hash perms ok atom below' = .ok inp' ∧ addDen hash ok atom st' inp' = .ok d' ∧
    Good hash perms ok atom below' Es ∧ outs below' = outs below

/-- number of candidates not yet looked at -/
def AddSt.left (st : AddSt) : ℕ := match st.cur with | none => 0 | some (_, cs) => cs.length

theorem addConcl_done {Es} {inp d : List GCell} {st : AddSt} {below : Chain} (hd : st.done = true)
    (hb : Good hash perms ok atom below Es) (h1 : genDen hash perms ok atom below = .ok inp)
    (h2 : addDen hash ok atom st inp = .ok d) : AddConcl hash perms ok atom Es st below d := by
  refine ⟨1, .ok none, st, below, inp, [], ?_, ?_, h1, ?_, hb, rfl⟩
  · intro f hf
    obtain ⟨f, rfl⟩ : ∃ g, f = g + 1 := ⟨f - 1, by omega⟩
    simp [pullAdd, hd]
  · have : d = [] := by unfold addDen at h2; rw [if_pos hd] at h2; exact (Except.ok.inj h2).symm
    subst this; exact ⟨rfl, rfl⟩
  · unfold addDen; rw [if_pos hd]

/-- looking at the remaining candidates of the current cell -/
theorem addConcl_cands {Es} {inp : List GCell}
    (h0 : ∀ (st : AddSt) (below : Chain) (d : List GCell), st.left = 0 → Good hash perms ok atom below Es →
      genDen hash perms ok atom below = .ok inp → addDen hash ok atom st inp = .ok d → AddConcl hash perms ok atom Es st below d) :
    ∀ (k : ℕ) (st : AddSt) (below : Chain) (d : List GCell), st.left = k → Good hash perms ok atom below Es →
      genDen hash perms ok atom below = .ok inp → addDen hash ok atom st inp = .ok d → AddConcl hash perms ok atom Es st below d := by
  intro k
  induction k with
  | zero => exact h0
  | succ k ih =>
    intro st below d hk hb h1 h2
    by_cases hd : st.done = true
    · exact addConcl_done hd hb h1 h2
    · have hd : st.done = false := by simpa using hd
      obtain ⟨r, rest, e1, e2, rfl⟩ := addDen_ok hd h2
      rcases hc : st.cur with _ | ⟨c, cs⟩
      · simp [AddSt.left, hc] at hk
      · cases cs with
        | nil => simp [AddSt.left, hc] at hk
        | cons nn cs =>
          have hk' : cs.length = k := by simpa [AddSt.left, hc] using hk
          rw [hc] at e1
          simp only [curDen, addOneInner] at e1
          by_cases hm : hash nn ∈ st.resumeDb
          · rw [if_pos hm] at e1
            obtain ⟨F, r', st', below', inp', d', q1, q2, q3, q4, q5, q6⟩ :=
              ih ⟨some (c, cs), none, st.resumeDb, false⟩ below _ hk' hb h1 (addDen_intro rfl (r := r) e1 e2)
            refine ⟨F + 1, r', st', below', inp', d', ?_, q2, q3, q4, q5, q6⟩
            intro f hf
            obtain ⟨f, rfl⟩ : ∃ g, f = g + 1 := ⟨f - 1, by omega⟩
            simp only [pullAdd, hd, hc, if_pos hm]
            simpa using q1 f (by omega)
          · rw [if_neg hm] at e1
            obtain ⟨cell, f1, e1⟩ := bind_ok e1
            obtain ⟨r2, f2, e1⟩ := bind_ok e1
            have er : r = (cell :: r2.1, r2.2) := (Except.ok.inj e1).symm
            subst er
            refine ⟨1, .ok (some cell), ⟨some (c, cs), some (hash nn), st.resumeDb, false⟩, below, inp, r2.1 ++ rest, ?_,
              ⟨rfl, rfl⟩, h1, addDen_intro rfl f2 e2, hb, rfl⟩
            intro f hf
            obtain ⟨f, rfl⟩ : ∃ g, f = g + 1 := ⟨f - 1, by omega⟩
            simp [pullAdd, hd, hc, if_neg hm, f1]

theorem curDen_left_zero {st : AddSt} (h : st.left = 0) (db : List ℕ) : curDen hash st.cur db = .ok ([], db) := by
  rcases hc : st.cur with _ | ⟨c, cs⟩
  · rfl
  · have : cs = [] := by simpa [AddSt.left, hc] using h
    subst this; rfl

theorem pullAdd_fetch {st : AddSt} (hd : st.done = false) (h : st.left = 0) (f : ℕ) (below : Chain) :
    pullAdd hash perms ok atom (f + 1) st below = match pullGen hash perms ok atom f below with
        | none => none
        | some (.error e, below') => some (.error e, ⟨none, none, st.resumeDb, true⟩, below')
        | some (.ok none, below') => some (.ok none, ⟨none, none, st.resumeDb, true⟩, below')
        | some (.ok (some c), below') =>
          pullAdd hash perms ok atom f ⟨some (c, addOneCands ok atom c.numbers), none, st.resumeDb, false⟩ below' := by
  rcases hc : st.cur with _ | ⟨c, cs⟩
  · simp [pullAdd, hd, hc]; rfl
  · have : cs = [] := by simpa [AddSt.left, hc] using h
    subst this
    simp [pullAdd, hd, hc]; rfl

/-- `next()` on an `add_one` frame -/
theorem pullAdd_ok {Es} (hG : GenOK hash perms ok atom Es) : ∀ (inp : List GCell) (k : ℕ) (st : AddSt) (below : Chain)
    (d : List GCell), st.left = k → Good hash perms ok atom below Es → genDen hash perms ok atom below = .ok inp →
    addDen hash ok atom st inp = .ok d → AddConcl hash perms ok atom Es st below d := by
  intro inp
  induction inp with
  | nil =>
    refine addConcl_cands ?_
    intro st below d hk hb h1 h2
    by_cases hd : st.done = true
    · exact addConcl_done hd hb h1 h2
    have hd : st.done = false := by simpa using hd
    obtain ⟨r, rest, e1, e2, rfl⟩ := addDen_ok hd h2
    rw [curDen_left_zero hk] at e1
    obtain rfl := Except.ok.inj e1
    obtain rfl := Except.ok.inj e2
    obtain ⟨F, r, s', items', p1, p2, p3, p4, p5⟩ := hG below [] hb h1
    obtain ⟨rfl, rfl⟩ := p2
    refine ⟨F + 1, .ok none, ⟨none, none, st.resumeDb, true⟩, s', [], [], ?_, ⟨rfl, rfl⟩, p3, rfl, p4, p5⟩
    intro f hf
    obtain ⟨f, rfl⟩ : ∃ g, f = g + 1 := ⟨f - 1, by omega⟩
    rw [pullAdd_fetch hd hk, p1 f (by omega)]
  | cons c inp ih =>
    refine addConcl_cands ?_
    intro st below d hk hb h1 h2
    by_cases hd : st.done = true
    · exact addConcl_done hd hb h1 h2
    have hd : st.done = false := by simpa using hd
    obtain ⟨r, rest, e1, e2, rfl⟩ := addDen_ok hd h2
    rw [curDen_left_zero hk] at e1
    obtain rfl := Except.ok.inj e1
    simp only [addOneLoop] at e2
    obtain ⟨r1, f1, e2⟩ := bind_ok e2
    obtain ⟨rest1, f2, e2⟩ := bind_ok e2
    obtain rfl := Except.ok.inj e2
    obtain ⟨F, r, s', items', p1, p2, p3, p4, p5⟩ := hG below (c :: inp) hb h1
    obtain ⟨rfl, rfl⟩ := p2
    obtain ⟨F', r', st', below', inp', d', q1, q2, q3, q4, q5, q6⟩ :=
      ih _ ⟨some (c, addOneCands ok atom c.numbers), none, st.resumeDb, false⟩ s' (r1.1 ++ rest1) rfl p4 p3
        (addDen_intro rfl f1 f2)
    refine ⟨max F F' + 1, r', st', below', inp', d', ?_, q2, q3, q4, q5, q6.trans p5⟩
    intro f hf
    obtain ⟨f, rfl⟩ : ∃ g, f = g + 1 := ⟨f - 1, by omega⟩
    rw [pullAdd_fetch hd hk, p1 f (by omega)]
    exact q1 f (by omega)

theorem nodDen_ok {st : NodSt} {inp d : List GCell} (hd : st.done = false) (h : nodDen hash perms st inp = .ok d) :
    ∃ iso, st.resume hash perms = .ok iso ∧ gen2NodupLoop hash perms iso inp = .ok d := by
  unfold nodDen at h
  rw [hd, if_neg (by simp)] at h
  exact bind_ok h

theorem nodDen_intro {st : NodSt} {inp d : List GCell} (hd : st.done = false) {iso} (h1 : st.resume hash perms = .ok iso)
    (h2 : gen2NodupLoop hash perms iso inp = .ok d) : nodDen hash perms st inp = .ok d := by
  unfold nodDen
  rw [hd, if_neg (by simp), h1]
  exact h2

/-- `next()` on a `gen_2nodup_gen` frame -/
theorem pullNod_ok {Es} (hG : GenOK hash perms ok atom Es) : ∀ (d : List GCell) (a : AddSt) (st : NodSt) (below : Chain)
    (inp rest : List GCell), Good hash perms ok atom below Es → genDen hash perms ok atom below = .ok inp →
    addDen hash ok atom a inp = .ok d → nodDen hash perms st d = .ok rest →
    ∃ F r a' st' below' inp' d' rest', (∀ f ≥ F, pullNod hash perms ok atom f a st below = some (r, a', st', below')) ∧
      Head rest r rest' ∧ genDen hash perms ok atom below' = .ok inp' ∧ addDen hash ok atom a' inp' = .ok d' ∧
      nodDen hash perms st' d' = .ok rest' ∧ Good hash perms ok atom below' Es ∧ outs below' = outs below := by
  intro d
  induction d with
  | nil =>
    intro a st below inp rest hb h1 h2 h3
    by_cases hd : st.done = true
    · refine ⟨1, .ok none, a, st, below, inp, [], rest, ?_, ?_, h1, h2, h3, hb, rfl⟩
      · intro f hf
        obtain ⟨f, rfl⟩ : ∃ g, f = g + 1 := ⟨f - 1, by omega⟩
        simp [pullNod, hd]
      · have : rest = [] := by unfold nodDen at h3; rw [if_pos hd] at h3; exact (Except.ok.inj h3).symm
        subst this; exact ⟨rfl, rfl⟩
    have hd : st.done = false := by simpa using hd
    obtain ⟨iso, e1, e2⟩ := nodDen_ok hd h3
    obtain rfl := Except.ok.inj e2
    obtain ⟨F, r, a', below', inp', d', q1, q2, q3, q4, q5, q6⟩ := pullAdd_ok hG inp _ a below [] rfl hb h1 h2
    obtain ⟨rfl, rfl⟩ := q2
    refine ⟨F + 1, .ok none, a', ⟨iso, none, true⟩, below', inp', [], [], ?_, ⟨rfl, rfl⟩, q3, q4, rfl, q5, q6⟩
    intro f hf
    obtain ⟨f, rfl⟩ : ∃ g, f = g + 1 := ⟨f - 1, by omega⟩
    simp [pullNod, hd, e1, q1 f (by omega)]
  | cons c d ih =>
    intro a st below inp rest hb h1 h2 h3
    by_cases hd : st.done = true
    · refine ⟨1, .ok none, a, st, below, inp, c :: d, rest, ?_, ?_, h1, h2, h3, hb, rfl⟩
      · intro f hf
        obtain ⟨f, rfl⟩ : ∃ g, f = g + 1 := ⟨f - 1, by omega⟩
        simp [pullNod, hd]
      · have : rest = [] := by unfold nodDen at h3; rw [if_pos hd] at h3; exact (Except.ok.inj h3).symm
        subst this; exact ⟨rfl, rfl⟩
    have hd : st.done = false := by simpa using hd
    obtain ⟨iso, e1, e2⟩ := nodDen_ok hd h3
    obtain ⟨F, r, a', below', inp', d', q1, q2, q3, q4, q5, q6⟩ := pullAdd_ok hG inp _ a below (c :: d) rfl hb h1 h2
    obtain ⟨rfl, rfl⟩ := q2
    simp only [gen2NodupLoop] at e2
    by_cases hm : c.id hash ∈ iso
    · rw [if_pos hm] at e2
      obtain ⟨F', r, a2, st2, below2, inp2, d2, rest2, w1, w2, w3, w4, w5, w6, w7⟩ :=
        ih a' ⟨iso, none, false⟩ below' inp' rest q5 q3 q4 (nodDen_intro rfl rfl e2)
      refine ⟨max F F' + 1, r, a2, st2, below2, inp2, d2, rest2, ?_, w2, w3, w4, w5, w6, w7.trans q6⟩
      intro f hf
      obtain ⟨f, rfl⟩ : ∃ g, f = g + 1 := ⟨f - 1, by omega⟩
      have := w1 f (by omega)
      simp [pullNod, hd, e1, q1 f (by omega), hm, this]
    · rw [if_neg hm] at e2
      obtain ⟨iso', f1, e2⟩ := bind_ok e2
      obtain ⟨rest1, f2, e2⟩ := bind_ok e2
      obtain rfl := Except.ok.inj e2
      refine ⟨F + 1, .ok (some c), a', ⟨iso, some c, false⟩, below', inp', d', rest1, ?_, ⟨rfl, rfl⟩, q3, q4,
        nodDen_intro rfl f1 f2, q5, q6⟩
      intro f hf
      obtain ⟨f, rfl⟩ : ∃ g, f = g + 1 := ⟨f - 1, by omega⟩
      simp [pullNod, hd, e1, q1 f (by omega), hm]

theorem genDen_level {l : Level} {below : Chain} {inp d rest : List GCell} (h1 : genDen hash perms ok atom below = .ok inp)
    (h2 : addDen hash ok atom l.add inp = .ok d) (h3 : nodDen hash perms l.nod d = .ok rest) :
    genDen hash perms ok atom (.level l below) = .ok (l.buf.drop l.genPos ++ rest) := by
  simp only [genDen, h1, bind, Except.bind, h2, h3]; rfl

theorem genOK (Es : List (List GCell)) : GenOK hash perms ok atom Es := by
  induction Es with
  | nil =>
    intro s items hg hi
    cases hg with
    | base its =>
      obtain rfl := Except.ok.inj hi
      cases its with
      | nil => exact ⟨1, .ok none, .base [], [], fun f hf => by
          obtain ⟨f, rfl⟩ : ∃ g, f = g + 1 := ⟨f - 1, by omega⟩
          simp [pullGen], ⟨rfl, rfl⟩, rfl, .base _, rfl⟩
      | cons c cs => exact ⟨1, .ok (some c), .base cs, cs, fun f hf => by
          obtain ⟨f, rfl⟩ : ∃ g, f = g + 1 := ⟨f - 1, by omega⟩
          simp [pullGen], ⟨rfl, rfl⟩, rfl, .base _, rfl⟩
  | cons E Es ih =>
    intro s items hg hi
    cases hg with
    | @level l below _ _ inp d rest hb h1 h2 h3 h4 h5 h6 =>
      rw [genDen_level h1 h2 h3] at hi
      obtain rfl := Except.ok.inj hi
      rcases hx : l.buf[l.genPos]? with _ | c
      · have hlen : l.buf.length ≤ l.genPos := List.getElem?_eq_none_iff.1 hx
        have heq : l.genPos = l.buf.length := le_antisymm h6 hlen
        obtain ⟨F, r, a', st', below', inp', d', rest', w1, w2, w3, w4, w5, w6, w7⟩ :=
          pullNod_ok ih d l.add l.nod below inp rest hb h1 h2 h3
        rw [List.drop_eq_nil_of_le hlen, List.nil_append]
        cases rest with
        | nil =>
          obtain ⟨rfl, rfl⟩ := w2
          refine ⟨F + 1, .ok none, .level { l with add := a', nod := st' } below', [], ?_, ⟨rfl, rfl⟩, ?_, ?_, ?_⟩
          · intro f hf
            obtain ⟨f, rfl⟩ : ∃ g, f = g + 1 := ⟨f - 1, by omega⟩
            simp [pullGen, hx, w1 f (by omega)]
          · rw [genDen_level (l := { l with add := a', nod := st' }) w3 w4 w5]
            simp [List.drop_eq_nil_of_le hlen]
          · exact .level w6 w3 w4 w5 h4 h5 h6
          · simp [outs, w7]
        | cons c rest =>
          obtain ⟨rfl, rfl⟩ := w2
          refine ⟨F + 1, .ok (some c), .level { l with add := a', nod := st', buf := l.buf ++ [c], genPos := l.genPos + 1 } below',
            rest', ?_, ⟨rfl, rfl⟩, ?_, ?_, ?_⟩
          · intro f hf
            obtain ⟨f, rfl⟩ : ∃ g, f = g + 1 := ⟨f - 1, by omega⟩
            simp [pullGen, hx, w1 f (by omega)]
          · rw [genDen_level (l := { l with add := a', nod := st', buf := l.buf ++ [c], genPos := l.genPos + 1 }) w3 w4 w5]
            simp [heq]
          · refine .level w6 w3 w4 w5 (by simpa using h4) ?_ ?_ <;> simp <;> omega
          · simp [outs, w7]
      · have hlt : l.genPos < l.buf.length := (List.getElem?_eq_some_iff.1 hx).1
        refine ⟨1, .ok (some c), .level { l with genPos := l.genPos + 1 } below, l.buf.drop (l.genPos + 1) ++ rest, ?_, ?_, ?_, ?_, rfl⟩
        · intro f hf
          obtain ⟨f, rfl⟩ : ∃ g, f = g + 1 := ⟨f - 1, by omega⟩
          simp [pullGen, hx]
        · have : l.buf.drop l.genPos = c :: l.buf.drop (l.genPos + 1) := by
            rw [List.drop_eq_getElem_cons hlt, (List.getElem?_eq_some_iff.1 hx).2]
          rw [this]; exact ⟨rfl, rfl⟩
        · exact genDen_level (l := { l with genPos := l.genPos + 1 }) h1 h2 h3
        · exact .level hb h1 h2 h3 h4 h5 hlt

/-- `next()` on the outer branch of the `d`-th newest level delivers the next item of that level's eager list -/
theorem pullOut_ok : ∀ (d : ℕ) (s : Chain) (Es : List (List GCell)) (E : List GCell) (p : ℕ), Good hash perms ok atom s Es →
    Es[d]? = some E → (outs s)[d]? = some p →
    ∃ F s', (∀ f ≥ F, pullOut hash perms ok atom f d s = some (.ok E[p]?, s')) ∧ Good hash perms ok atom s' Es ∧
      genDen hash perms ok atom s' = genDen hash perms ok atom s ∧
      outs s' = (outs s).set d (min (p + 1) E.length) := by
  intro d
  induction d with
  | zero =>
    intro s Es E p hg hE hp
    cases hg with
    | base => simp at hE
    | @level l below E' Es inp d rest hb h1 h2 h3 h4 h5 h6 =>
      obtain rfl : E' = E := by simpa using hE
      obtain rfl : l.outPos = p := by simpa [outs] using hp
      subst h4
      rcases hx : l.buf[l.outPos]? with _ | c
      · have hlen : l.buf.length ≤ l.outPos := List.getElem?_eq_none_iff.1 hx
        have heq : l.outPos = l.buf.length := le_antisymm h5 hlen
        obtain ⟨F, r, a', st', below', inp', d', rest', w1, w2, w3, w4, w5, w6, w7⟩ :=
          pullNod_ok (genOK Es) d l.add l.nod below inp rest hb h1 h2 h3
        cases rest with
        | nil =>
          obtain ⟨rfl, rfl⟩ := w2
          refine ⟨F, .level { l with add := a', nod := st' } below', ?_, ?_, ?_, ?_⟩
          · intro f hf
            simp [pullOut, hx, w1 f hf]
          · exact .level w6 w3 w4 w5 rfl h5 h6
          · rw [genDen_level h1 h2 h3, genDen_level (l := { l with add := a', nod := st' }) w3 w4 w5]
          · simp [outs, w7, heq]
        | cons c rest =>
          obtain ⟨rfl, rfl⟩ := w2
          refine ⟨F, .level { l with add := a', nod := st', buf := l.buf ++ [c], outPos := l.outPos + 1 } below', ?_, ?_, ?_, ?_⟩
          · intro f hf
            simp [pullOut, w1 f hf, heq]
          · refine .level w6 w3 w4 w5 (by simp) ?_ ?_ <;> simp <;> omega
          · rw [genDen_level h1 h2 h3,
              genDen_level (l := { l with add := a', nod := st', buf := l.buf ++ [c], outPos := l.outPos + 1 }) w3 w4 w5]
            simp [List.drop_append_of_le_length h6]
          · simp [outs, w7, heq]
      · have hlt : l.outPos < l.buf.length := (List.getElem?_eq_some_iff.1 hx).1
        refine ⟨0, .level { l with outPos := l.outPos + 1 } below, ?_, ?_, ?_, ?_⟩
        · intro f hf
          simp [pullOut, hx, List.getElem?_append_left hlt]
        · exact .level hb h1 h2 h3 rfl hlt h6
        · rw [genDen_level h1 h2 h3, genDen_level (l := { l with outPos := l.outPos + 1 }) h1 h2 h3]
        · simp [outs]
          omega
  | succ d ih =>
    intro s Es E p hg hE hp
    cases hg with
    | base => simp at hE
    | @level l below E' Es inp d rest hb h1 h2 h3 h4 h5 h6 =>
      obtain ⟨F, s', w1, w2, w3, w4⟩ := ih below Es E p hb (by simpa using hE) (by simpa [outs] using hp)
      refine ⟨F, .level l s', ?_, ?_, ?_, ?_⟩
      · intro f hf
        simp [pullOut, w1 f hf]
      · exact .level w2 (w3.trans h1) h2 h3 h4 h5 h6
      · rw [genDen_level h1 h2 h3, genDen_level (w3.trans h1) h2 h3]
      · simp [outs, w4]

end

end Verif
