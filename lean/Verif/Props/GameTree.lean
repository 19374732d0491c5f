import Verif.Props.Mcts
import Verif.Spec.GameTree

/-! # C120: the search tree is a part of the game tree -/

namespace Verif

variable {σ A : Type} [DecidableEq A]

/-- a history that follows one game: all playouts start from the present state of the game, and stepping forward in the tree goes
with playing the move -/
inductive Follows (g : MGame σ A) : σ → List (MEvent σ A) → σ → Prop
  | nil (s) : Follows g s [] s
  | playout {s s' : σ} {evs : List (MEvent σ A)} (d : ℕ) : Follows g s evs s' → Follows g s (.playout s d :: evs) s'
  | move {s s' : σ} {evs : List (MEvent σ A)} (a : A) : Follows g (g.doMove s a) evs s' → Follows g s (.move a :: evs) s'

/-- the children of node `k` are what the policy offers at `s`, with the priors it gives first -/
def MTree.Offers (g : MGame σ A) (t : MTree A) (s : σ) (k : ℕ) : Prop :=
  ∀ b, (dictGet (t.node k).children b).map (fun j => (t.node j).p) = firstPrior (g.policy s) b

/-- every expanded node shows the game -/
def MTree.Mirror (g : MGame σ A) (t : MTree A) (s : σ) : Prop :=
  ∀ p k, t.at t.root p = some k → (t.node k).children ≠ [] → t.Offers g (p.foldl g.doMove s) k

theorem firstPrior_none {aps : List (A × ℚ)} {b : A} : firstPrior aps b = none ↔ b ∉ aps.map (·.1) := by
  unfold firstPrior
  rw [Option.map_eq_none_iff, List.find?_eq_none]
  constructor
  · rintro h hb
    obtain ⟨ap, h1, h2⟩ := List.mem_map.1 hb
    exact h ap h1 (by simp [h2])
  · rintro h ap h1 h2
    exact h (List.mem_map.2 ⟨ap, h1, by simpa using h2⟩)

theorem expand_new {t : MTree A} (hw : t.WF) {i : ℕ} (hi : i < t.size) (aps : List (A × ℚ)) {k : ℕ} (hk : t.size ≤ k) :
    ((t.expand i aps).node k).children = [] := by
  have main : ∀ (aps : List (A × ℚ)) {t : MTree A}, t.WF → i < t.size → (t.node k).children = [] → k ≠ i →
      ((t.expand i aps).node k).children = [] := by
    intro aps
    induction aps with
    | nil => intro t _ _ h _; exact h
    | cons ap aps ih =>
      intro t hw hi h hki
      obtain ⟨h1, h2, h3⟩ := MTree.expandOne_spec hw hi ap
      have hs := h2.size
      refine ih (t := t.expandOne i ap) h1 (by omega) ?_ hki
      by_cases hn : dictHas (t.node i).children ap.1 = true
      · have : t.expandOne i ap = t := by simp [MTree.expandOne, hn]
        rw [this]; exact h
      · rw [Bool.not_eq_true] at hn
        obtain ⟨_, _, e3, _, e5⟩ := MTree.expandOne_eq hw hi ap hn
        by_cases hks : k = t.size
        · rw [← hks] at e3; rw [e3]; rfl
        · rw [e5 k hki hks]; exact h
  exact main aps hw hi (hw.out k hk) (by omega)

theorem expand_offers {g : MGame σ A} {t : MTree A} (hw : t.WF) {i : ℕ} (hi : i < t.size) (he : (t.node i).children = []) (s : σ) :
    (t.expand i (g.policy s)).Offers g s i := by
  intro b
  obtain ⟨_, h2, h3⟩ := expand_get hw hi (g.policy s) b
  have hn : dictGet (t.node i).children b = none := by rw [he]; rfl
  cases hp : firstPrior (g.policy s) b with
  | none => rw [h3 hn hp]; rfl
  | some P =>
    obtain ⟨j, _, e1, e2⟩ := h2 hn P hp
    rw [e1, Option.map_some, e2]

/-- what an expansion during a playout does to a tree that shows the game -/
theorem expand_mirror {g : MGame σ A} {s0 : σ} {t : MTree A} (hw : t.WF) {i : ℕ} {q : List A} (hq : t.at t.root q = some i)
    (hm : t.Mirror g s0) (he : (t.node i).children = []) :
    (t.expand i (g.policy (q.foldl g.doMove s0))).Mirror g s0 ∧
    ∀ p k, (t.expand i (g.policy (q.foldl g.doMove s0))).at t.root p = some k →
      ((t.expand i (g.policy (q.foldl g.doMove s0))).node k).children ≠ [] → (t.at t.root p = some k ∧ (t.node k).children ≠ []) ∨ p = q := by
  have hi : i < t.size := hw.at_lt hw.rootLt hq
  obtain ⟨h1, h2, h3⟩ := MTree.expand_spec hw hi (g.policy (q.foldl g.doMove s0))
  have hof := expand_offers (g := g) hw hi he (q.foldl g.doMove s0)
  have hnew := fun k hk => expand_new hw hi (g.policy (q.foldl g.doMove s0)) (k := k) hk
  generalize t.expand i (g.policy (q.foldl g.doMove s0)) = t' at *
  have key : ∀ p k, t'.at t.root p = some k → (t'.node k).children ≠ [] →
      (t.at t.root p = some k ∧ k < t.size ∧ k ≠ i) ∨ (p = q ∧ k = i) := by
    intro p k hk hne
    have hks : k < t.size := by
      by_contra h
      exact hne (hnew k (by omega))
    have hold := h2.at_old hw h1 p hw.rootLt hk hks
    by_cases hki : k = i
    · subst hki
      exact .inr ⟨hw.at_inj _ _ hold hq, rfl⟩
    · exact .inl ⟨hold, hks, hki⟩
  refine ⟨fun p k hk hne => ?_, fun p k hk hne => ?_⟩
  · rw [h2.root] at hk
    rcases key p k hk hne with ⟨ho, hks, hki⟩ | ⟨rfl, rfl⟩
    · have hn := h3 k hks hki
      intro b
      rw [hn] at hne ⊢
      rw [← hm p k ho hne b]
      cases hd : dictGet (t.node k).children b with
      | none => rfl
      | some j =>
        rw [Option.map_some, Option.map_some, (h2.old j (hw.kid _ _ _ (dictGet_mem hd)).2).2.2.2.2]
    · exact hof
  · rcases key p k hk hne with ⟨ho, hks, hki⟩ | ⟨rfl, rfl⟩
    · exact .inl ⟨ho, by rw [← h3 k hks hki]; exact hne⟩
    · exact .inr rfl

omit [DecidableEq A] in
theorem select_ok {g : MGame σ A} {t : MTree A} {i j : ℕ} {a : A} (h : t.select g i = .ok (a, j)) : (a, j) ∈ (t.node i).children := by
  unfold MTree.select at h
  cases hp : g.py2 with
  | false => simp [hp] at h
  | true =>
    simp only [hp, if_true] at h
    cases hm : pyMax (fun an : A × ℕ => (t.node an.2).val) (g.iter (t.node i).children) with
    | none => rw [hm] at h; cases h
    | some an =>
      rw [hm] at h
      injection h with h
      subst h
      exact (pyMax_iter hm).1

/-- a descent keeps the tree a mirror, and expands only positions it leaves by a move -/
theorem descend_mirror (g : MGame σ A) (s0 : σ) : ∀ (d : ℕ) {t : MTree A} {i : ℕ} {q : List A} {t' : MTree A} {k : ℕ} {s' : σ} {as : List A},
    t.WF → t.at t.root q = some i → t.Mirror g s0 → t.descend g d i (q.foldl g.doMove s0) = .ok (t', k, s', as) →
    t'.Mirror g s0 ∧ ∀ p m, t'.at t.root p = some m → (t'.node m).children ≠ [] →
      (t.at t.root p = some m ∧ (t.node m).children ≠ []) ∨ ∃ c, p ++ [c] <+: q ++ as := by
  intro d
  induction d with
  | zero =>
    intro t i q t' k s' as hw hq hm e
    simp only [MTree.descend, Except.ok.injEq, Prod.mk.injEq] at e
    obtain ⟨rfl, rfl, rfl, rfl⟩ := e
    exact ⟨hm, fun p m h1 h2 => .inl ⟨h1, h2⟩⟩
  | succ d ih =>
    intro t i q t' k s' as hw hq hm e
    have hi : i < t.size := hw.at_lt hw.rootLt hq
    rw [MTree.descend] at e
    simp only at e
    by_cases hb : ((t.node i).children.isEmpty && (g.policy (q.foldl g.doMove s0)).isEmpty) = true
    · rw [if_pos hb] at e
      simp only [Except.ok.injEq, Prod.mk.injEq] at e
      obtain ⟨rfl, rfl, rfl, rfl⟩ := e
      exact ⟨hm, fun p m h1 h2 => .inl ⟨h1, h2⟩⟩
    · rw [if_neg hb] at e
      have h1 : ∃ t1, (if (t.node i).children.isEmpty = true then t.expand i (g.policy (q.foldl g.doMove s0)) else t) = t1 ∧ t1.WF ∧
          t1.root = t.root ∧ t1.at t.root q = some i ∧ t1.Mirror g s0 ∧
          ∀ p m, t1.at t.root p = some m → (t1.node m).children ≠ [] → (t.at t.root p = some m ∧ (t.node m).children ≠ []) ∨ p = q := by
        by_cases hl : (t.node i).children.isEmpty = true
        · rw [if_pos hl]
          obtain ⟨x1, x2, x3⟩ := MTree.expand_spec hw hi (g.policy (q.foldl g.doMove s0))
          obtain ⟨y1, y2⟩ := expand_mirror hw hq hm (List.isEmpty_iff.1 hl)
          exact ⟨_, rfl, x1, x2.root, x2.at_mono hw q hw.rootLt hq, y1, y2⟩
        · rw [if_neg hl]
          exact ⟨_, rfl, hw, rfl, hq, hm, fun p m h1 h2 => .inl ⟨h1, h2⟩⟩
      obtain ⟨t1, e1, hw1, hr1, hq1, hm1, hB1⟩ := h1
      rw [e1] at e
      cases hsel : t1.select g i with
      | error er => rw [hsel] at e; cases e
      | ok aj =>
        obtain ⟨a, j⟩ := aj
        rw [hsel] at e
        simp only at e
        have hmem := select_ok hsel
        have hq2 : t1.at t1.root (q ++ [a]) = some j := by
          rw [hr1]
          exact MTree.at_snoc.2 ⟨i, hq1, dictGet_of_mem (hw1.keys i) hmem⟩
        cases hrec : t1.descend g d j (g.doMove (q.foldl g.doMove s0) a) with
        | error er => rw [hrec] at e; cases e
        | ok r =>
          obtain ⟨t2, k2, s2, as2⟩ := r
          rw [hrec] at e
          simp only [Except.ok.injEq, Prod.mk.injEq] at e
          obtain ⟨rfl, rfl, rfl, rfl⟩ := e
          obtain ⟨z1, z2⟩ := ih (q := q ++ [a]) hw1 hq2 hm1 (by rw [List.foldl_append]; exact hrec)
          refine ⟨z1, fun p m h1 h2 => ?_⟩
          rw [hr1] at z2
          rcases z2 p m h1 h2 with ⟨h3, h4⟩ | ⟨c, hc⟩
          · rcases hB1 p m h3 h4 with h5 | rfl
            · exact .inl h5
            · exact .inr ⟨a, by simp [List.prefix_append_right_inj]⟩
          · exact .inr ⟨c, by simpa using hc⟩

/-- the tree shows the game, and only positions left by a playout are expanded -/
structure TreeInv (g : MGame σ A) (t : MTree A) (log : List (List A × ℚ)) (s : σ) : Prop where
  mirror : t.Mirror g s
  left : ∀ p k, t.at t.root p = some k → (t.node k).children ≠ [] → ∃ e ∈ log, ∃ c, p ++ [c] <+: e.1

theorem treeInv_fresh (g : MGame σ A) (s : σ) : TreeInv g MTree.fresh [] s := by
  constructor <;> intro p k _ h <;> exact absurd rfl h

theorem TreeInv.playout {g : MGame σ A} {t t' : MTree A} {log : List (List A × ℚ)} {s : σ} {depth : ℕ} {as : List A} {v : ℚ} (hi : MInv g t log)
    (h : TreeInv g t log s) (e : t.playout g s depth = .ok (t', as)) : TreeInv g t' ((as, v) :: log) s := by
  unfold MTree.playout at e
  cases hd : t.descend g depth t.root s with
  | error er => rw [hd] at e; cases e
  | ok r =>
    obtain ⟨t1, i, s', as'⟩ := r
    rw [hd] at e
    simp only [Except.ok.injEq, Prod.mk.injEq] at e
    obtain ⟨rfl, rfl⟩ := e
    obtain ⟨r1, r2, r3, r4, _⟩ := MTree.descend_spec g depth hi.wf hi.wf.rootLt hd
    have hr : t1.root = t.root := r2.root
    have hlt : i < t1.size := r1.at_lt (by have := r2.size; have := hi.wf.rootLt; omega) r3
    have hb := MTree.updateRec_spec g.sqrt r1 (leafValue g s') g.cpuct _ _ hlt (by rw [hr]; exact r3)
    obtain ⟨z1, z2⟩ := descend_mirror g s depth (q := []) hi.wf rfl h.mirror hd
    generalize t1.updateRec g.sqrt t1.size i (leafValue g s') g.cpuct = t' at *
    have hch : ∀ k, (t'.node k).children = (t1.node k).children := fun k => (hb.frame k).2.1
    have hp : ∀ k, (t'.node k).p = (t1.node k).p := fun k => (hb.frame k).2.2
    have hat : ∀ p, t'.at t'.root p = t1.at t1.root p := fun p => by rw [hb.root]; exact MTree.at_congr hch p _
    constructor
    · intro p k hk hne b
      rw [hat] at hk
      rw [hch] at hne ⊢
      rw [← z1 p k hk hne b]
      congr 1
      funext j
      exact hp j
    · intro p k hk hne
      rw [hat, hr] at hk
      rw [hch] at hne
      rcases z2 p k hk hne with ⟨h1, h2⟩ | ⟨c, hc⟩
      · obtain ⟨e, he, c, hc⟩ := h.left p k h1 h2
        exact ⟨e, List.mem_cons_of_mem _ he, c, hc⟩
      · exact ⟨_, List.mem_cons_self, c, by simpa using hc⟩

theorem TreeInv.move {g : MGame σ A} {t : MTree A} {log : List (List A × ℚ)} {s : σ} (h : TreeInv g t log s) (a : A) :
    TreeInv g (t.updateWithMove a) (Spec.strip a log) (g.doMove s a) := by
  cases hj : dictGet (t.node t.root).children a with
  | some j =>
    obtain ⟨h1, h2, h3, h4⟩ := updateWithMove_some hj
    have hat := updateWithMove_at_some hj
    generalize t.updateWithMove a = t' at *
    have hsame : ∀ k, (t'.node k).children = (t.node k).children ∧ (t'.node k).p = (t.node k).p := by
      intro k
      by_cases hk : k = j
      · subst hk; rw [h4]; exact ⟨rfl, rfl⟩
      · rw [h3 k hk]; exact ⟨rfl, rfl⟩
    constructor
    · intro p k hk hne b
      rw [hat] at hk
      rw [(hsame k).1] at hne ⊢
      have := h.mirror (a :: p) k hk hne b
      rw [List.foldl_cons] at this
      rw [← this]
      congr 1
      funext m
      exact (hsame m).2
    · intro p k hk hne
      rw [hat] at hk
      rw [(hsame k).1] at hne
      obtain ⟨⟨l, v⟩, he, c, hc⟩ := h.left (a :: p) k hk hne
      cases l with
      | nil => simp at hc
      | cons b bs =>
        rw [List.cons_append, List.cons_prefix_cons] at hc
        obtain ⟨rfl, hc⟩ := hc
        exact ⟨(bs, v), Spec.mem_strip.2 he, c, hc⟩
  | none =>
    obtain ⟨h1, h2, h3, h4⟩ := updateWithMove_none hj
    have hat : ∀ {p k}, (t.updateWithMove a).at (t.updateWithMove a).root p = some k → p = [] ∧ k = t.size := updateWithMove_at_none hj
    constructor
    · intro p k hk hne
      obtain ⟨rfl, rfl⟩ := hat hk
      rw [h4] at hne
      exact absurd rfl hne
    · intro p k hk hne
      obtain ⟨rfl, rfl⟩ := hat hk
      rw [h4] at hne
      exact absurd rfl hne

theorem treeInv_run {g : MGame σ A} {s s' : σ} {evs : List (MEvent σ A)} (hf : Follows g s evs s') : ∀ {t t' : MTree A} {log log' : List (List A × ℚ)},
    MInv g t log → TreeInv g t log s → mrun g t log evs = .ok (t', log') → TreeInv g t' log' s' := by
  induction hf with
  | nil s =>
    intro t t' log log' _ h e
    simp only [mrun, Except.ok.injEq, Prod.mk.injEq] at e
    obtain ⟨rfl, rfl⟩ := e
    exact h
  | playout d hf ih =>
    intro t t' log log' hi h e
    rw [mrun] at e
    split at e
    · cases e
    · rename_i t1 as hp
      exact ih (hi.playout hp) (h.playout hi hp) e
  | move a hf ih =>
    intro t t' log log' hi h e
    rw [mrun] at e
    exact ih (hi.move a) (h.move a) e

/-- **C120.** A search that follows a game (playouts start at the present state; each step forward is the move played): below every expanded
position, the children are exactly the actions the policy offers at the state of that position, with the prior the policy lists first. -/
theorem C120_offers {g : MGame σ A} {s s' : σ} {evs : List (MEvent σ A)} (hf : Follows g s evs s') {t : MTree A} {log : List (List A × ℚ)}
    (h : mrun g MTree.fresh [] evs = .ok (t, log)) {p : List A} {k : ℕ} (hk : t.at t.root p = some k) (hne : (t.node k).children ≠ []) (b : A) :
    (dictGet (t.node k).children b).map (fun j => (t.node j).p) = ((g.policy (p.foldl g.doMove s')).find? fun ap => ap.1 = b).map (·.2) :=
  (treeInv_run hf (minv_fresh g) (treeInv_fresh g s) h).mirror p k hk hne b

/-- **C120.** The positions in the tree are exactly: the present one, and those reached by an offered move from a position that some recorded
playout left by a move. -/
theorem C120_positions {g : MGame σ A} {s s' : σ} {evs : List (MEvent σ A)} (hf : Follows g s evs s') {t : MTree A} {log : List (List A × ℚ)}
    (h : mrun g MTree.fresh [] evs = .ok (t, log)) (p : List A) :
    (∃ k, t.at t.root p = some k) ↔ Spec.KnownLine g.policy g.doMove s' (log.map (·.1)) p := by
  have hi := minv_run evs (minv_fresh g) h
  have ht := treeInv_run hf (minv_fresh g) (treeInv_fresh g s) h
  unfold Spec.KnownLine
  constructor
  · rintro ⟨k, hk⟩
    rcases List.eq_nil_or_concat p with rfl | ⟨q, b, rfl⟩
    · exact .inl rfl
    · rw [List.concat_eq_append] at hk ⊢
      obtain ⟨m, h1, h2⟩ := MTree.at_snoc.1 hk
      have hne : (t.node m).children ≠ [] := by
        intro e; rw [e] at h2; cases h2
      obtain ⟨e, he, c, hc⟩ := ht.left q m h1 hne
      refine .inr ⟨q, b, rfl, ⟨_, List.mem_map.2 ⟨e, he, rfl⟩, c, hc⟩, ?_⟩
      have := ht.mirror q m h1 hne b
      rw [h2] at this
      by_contra hb
      rw [firstPrior_none.2 hb] at this
      cases this
  · rintro (rfl | ⟨q, b, rfl, ⟨l, hl, c, hc⟩, hb⟩)
    · exact ⟨_, rfl⟩
    · obtain ⟨e, he, rfl⟩ := List.mem_map.1 hl
      obtain ⟨k, hk⟩ := hi.logged e he
      obtain ⟨j, hj⟩ := MTree.at_prefix hk hc
      obtain ⟨m, h1, h2⟩ := MTree.at_snoc.1 hj
      have hne : (t.node m).children ≠ [] := by
        intro e; rw [e] at h2; cases h2
      have := ht.mirror q m h1 hne b
      cases hd : dictGet (t.node m).children b with
      | none =>
        rw [hd] at this
        exact absurd hb (firstPrior_none.1 this.symm)
      | some j' => exact ⟨j', MTree.at_snoc.2 ⟨m, h1, hd⟩⟩

theorem legal_of_tree {g : MGame σ A} {t : MTree A} : ∀ (p : List A) {s : σ} {i k : ℕ},
    (∀ q m, t.at i q = some m → (t.node m).children ≠ [] → t.Offers g (q.foldl g.doMove s) m) → t.at i p = some k →
    Spec.Legal g.policy g.doMove s p := by
  intro p
  induction p with
  | nil => intros; trivial
  | cons a p ih =>
    intro s i k hm hk
    rw [MTree.at] at hk
    cases hd : dictGet (t.node i).children a with
    | none => rw [hd] at hk; cases hk
    | some j =>
      rw [hd] at hk
      have hne : (t.node i).children ≠ [] := by
        intro e; rw [e] at hd; cases hd
      refine ⟨?_, ih (fun q m h1 h2 => ?_) hk⟩
      · have := hm [] i rfl hne a
        rw [hd] at this
        by_contra hb
        rw [List.foldl_nil, firstPrior_none.2 hb] at this
        cases this
      · exact hm (a :: q) m (by rw [MTree.at, hd]; exact h1) h2

/-- **C120.** Every line in the tree, and so every recorded playout, is a legal line of play from the present state. -/
theorem C120_legal {g : MGame σ A} {s s' : σ} {evs : List (MEvent σ A)} (hf : Follows g s evs s') {t : MTree A} {log : List (List A × ℚ)}
    (h : mrun g MTree.fresh [] evs = .ok (t, log)) :
    (∀ p k, t.at t.root p = some k → Spec.Legal g.policy g.doMove s' p) ∧ ∀ e ∈ log, Spec.Legal g.policy g.doMove s' e.1 := by
  have hi := minv_run evs (minv_fresh g) h
  have ht := treeInv_run hf (minv_fresh g) (treeInv_fresh g s) h
  have h1 : ∀ p k, t.at t.root p = some k → Spec.Legal g.policy g.doMove s' p := fun p k hk => legal_of_tree p ht.mirror hk
  refine ⟨h1, fun e he => ?_⟩
  obtain ⟨k, hk⟩ := hi.logged e he
  exact h1 _ _ hk

theorem descend_total {g : MGame σ A} (hpy : g.py2 = true) : ∀ (d : ℕ) {t : MTree A} {i : ℕ} (s : σ), t.WF → i < t.size →
    ∃ r, t.descend g d i s = .ok r ∧ (d ≠ 0 → g.policy s ≠ [] → r.2.2.2 ≠ []) := by
  intro d
  induction d with
  | zero => intro t i s _ _; exact ⟨_, rfl, fun h => absurd rfl h⟩
  | succ d ih =>
    intro t i s hw hi
    rw [MTree.descend]
    simp only
    by_cases hb : ((t.node i).children.isEmpty && (g.policy s).isEmpty) = true
    · rw [if_pos hb]
      refine ⟨_, rfl, fun _ h => ?_⟩
      rw [Bool.and_eq_true, List.isEmpty_iff, List.isEmpty_iff] at hb
      exact absurd hb.2 h
    · rw [if_neg hb]
      have h1 : ∃ t1, (if (t.node i).children.isEmpty = true then t.expand i (g.policy s) else t) = t1 ∧ t1.WF ∧ (t1.node i).children ≠ [] := by
        by_cases hl : (t.node i).children.isEmpty = true
        · rw [if_pos hl]
          have hp : g.policy s ≠ [] := by
            intro hp
            rw [hl, hp] at hb
            exact hb rfl
          exact ⟨_, rfl, (MTree.expand_spec hw hi _).1, MTree.expand_nonempty hw hi hp⟩
        · rw [if_neg hl]
          exact ⟨_, rfl, hw, fun h => hl (by rw [h]; rfl)⟩
      obtain ⟨t1, e1, hw1, hne⟩ := h1
      rw [e1]
      have hsel : ∃ aj, t1.select g i = .ok aj := by
        unfold MTree.select
        rw [hpy, if_pos rfl]
        cases hm : pyMax (fun an : A × ℕ => (t1.node an.2).val) (g.iter (t1.node i).children) with
        | none => exact absurd ((pyMax_iter_none _ _).1 hm) hne
        | some an => exact ⟨an, rfl⟩
      obtain ⟨⟨a, j⟩, hsel⟩ := hsel
      rw [hsel]
      simp only
      obtain ⟨⟨t2, k2, s2, as2⟩, hr, _⟩ := ih (g.doMove s a) hw1 (hw1.kid _ _ _ (select_ok hsel)).2
      rw [hr]
      exact ⟨_, rfl, fun _ _ => by simp⟩

theorem playouts_total {g : MGame σ A} (hpy : g.py2 = true) (s : σ) (depth : ℕ) : ∀ (n : ℕ) {t : MTree A} {log : List (List A × ℚ)}, MInv g t log →
    ∃ t' ass, t.playouts g s depth n = .ok (t', ass) ∧ (depth ≠ 0 → g.policy s ≠ [] → ∀ as ∈ ass, as ≠ []) := by
  intro n
  induction n with
  | zero => intro t log _; exact ⟨_, _, rfl, by simp⟩
  | succ n ih =>
    intro t log hi
    obtain ⟨⟨t1, i, s1, as⟩, hr, hne⟩ := descend_total hpy depth s hi.wf hi.wf.rootLt
    have hp : t.playout g s depth = .ok (t1.updateRec g.sqrt t1.size i (leafValue g s1) g.cpuct, as) := by
      unfold MTree.playout; rw [hr]
    obtain ⟨t2, ass, h2, h3⟩ := ih (hi.playout hp)
    refine ⟨t2, as :: ass, by rw [MTree.playouts, hp]; simp only; rw [h2], fun hd hs x hx => ?_⟩
    rcases List.mem_cons.1 hx with rfl | hx
    · exact hne hd hs
    · exact h3 hd hs x hx

omit [DecidableEq A] in
theorem follows_append {g : MGame σ A} {s s' s'' : σ} {evs evs' : List (MEvent σ A)} (h : Follows g s evs s') (h' : Follows g s' evs' s'') :
    Follows g s (evs ++ evs') s'' := by
  induction h with
  | nil => exact h'
  | playout d _ ih => exact .playout d (ih h')
  | move a _ ih => exact .move a (ih h')

theorem mrun_append {g : MGame σ A} (evs evs' : List (MEvent σ A)) : ∀ {t t' : MTree A} {log log' : List (List A × ℚ)},
    mrun g t log evs = .ok (t', log') → mrun g t log (evs ++ evs') = mrun g t' log' evs' := by
  induction evs with
  | nil =>
    intro t t' log log' e
    simp only [mrun, Except.ok.injEq, Prod.mk.injEq] at e
    obtain ⟨rfl, rfl⟩ := e
    rfl
  | cons ev evs ih =>
    intro t t' log log' e
    cases ev with
    | playout s d =>
      rw [List.cons_append, mrun]
      rw [mrun] at e
      split at e
      · cases e
      · exact ih e
    | move a =>
      rw [List.cons_append, mrun]
      rw [mrun] at e
      exact ih e

omit [DecidableEq A] in
theorem follows_playouts (g : MGame σ A) (s : σ) (d n : ℕ) : Follows g s (List.replicate n (.playout s d)) s := by
  induction n with
  | zero => exact .nil s
  | succ n ih => exact .playout d ih

/-- **C120.** Where moves exist, `get_move` in a search that follows the game returns one of them, whatever was searched before. -/
theorem C120_get_move {g : MGame σ A} (hpy : g.py2 = true) {s s' : σ} {evs : List (MEvent σ A)} (hf : Follows g s evs s') {t : MTree A}
    {log : List (List A × ℚ)} (h : mrun g MTree.fresh [] evs = .ok (t, log)) {depth nPlayout : ℕ} (hs : g.policy s' ≠ []) (hd : depth ≠ 0)
    (hn : nPlayout ≠ 0) : ∃ t' a, t.getMove g s' depth nPlayout = .ok (t', a) ∧ a ∈ (g.policy s').map (·.1) := by
  have hi := minv_run evs (minv_fresh g) h
  obtain ⟨t1, ass, h1, h2⟩ := playouts_total hpy s' depth nPlayout hi
  obtain ⟨hr, hl⟩ := playouts_run nPlayout log h1
  have hrun := (mrun_append evs (List.replicate nPlayout (.playout s' depth)) h).trans hr
  have hf1 := follows_append hf (follows_playouts g s' depth nPlayout)
  have hi1 := minv_run _ hi hr
  have ht := treeInv_run hf1 (minv_fresh g) (treeInv_fresh g s) hrun
  have hne : (t1.node t1.root).children ≠ [] := by
    cases ass with
    | nil => exact absurd hl.symm hn
    | cons as ass =>
      have has := h2 hd hs as (by simp)
      cases as with
      | nil => exact absurd rfl has
      | cons a as =>
        obtain ⟨k, hk⟩ := hi1.logged (a :: as, leafValue g ((a :: as).foldl g.doMove s')) (by simp)
        rw [MTree.at] at hk
        intro e
        rw [e] at hk
        cases hk
  have hg : t.getMove g s' depth nPlayout = match pyMax (fun an : A × ℕ => ((t1.node an.2).n : ℚ)) (g.iter (t1.node t1.root).children) with
      | none => .error .valueError
      | some an => .ok (t1, an.1) := by
    unfold MTree.getMove; rw [h1]; simp only; rw [hpy, if_pos rfl]; rfl
  rw [hg]
  cases hm : pyMax (fun an : A × ℕ => ((t1.node an.2).n : ℚ)) (g.iter (t1.node t1.root).children) with
  | none => exact absurd ((pyMax_iter_none _ _).1 hm) hne
  | some an =>
    refine ⟨t1, an.1, rfl, ?_⟩
    have := ht.mirror [] _ rfl hne an.1
    rw [dictGet_of_mem (hi1.wf.keys _) (pyMax_iter hm).1] at this
    by_contra hb
    rw [List.foldl_nil, firstPrior_none.2 hb] at this
    cases this

/-- **C120.** Where no move exists, `get_move` raises `ValueError` (`max` of nothing). -/
theorem C120_no_move {g : MGame σ A} (hpy : g.py2 = true) {s s' : σ} {evs : List (MEvent σ A)} (hf : Follows g s evs s') {t : MTree A}
    {log : List (List A × ℚ)} (h : mrun g MTree.fresh [] evs = .ok (t, log)) (depth nPlayout : ℕ) (hs : g.policy s' = []) :
    t.getMove g s' depth nPlayout = .error .valueError := by
  have hi := minv_run evs (minv_fresh g) h
  obtain ⟨t1, ass, h1, _⟩ := playouts_total hpy s' depth nPlayout hi
  obtain ⟨hr, hl⟩ := playouts_run nPlayout log h1
  have hrun := (mrun_append evs (List.replicate nPlayout (.playout s' depth)) h).trans hr
  have hf1 := follows_append hf (follows_playouts g s' depth nPlayout)
  have hi1 := minv_run _ hi hr
  have ht := treeInv_run hf1 (minv_fresh g) (treeInv_fresh g s) hrun
  have hnil : (t1.node t1.root).children = [] := by
    by_contra hne
    cases hc : (t1.node t1.root).children with
    | nil => exact hne hc
    | cons x l =>
      have := ht.mirror [] _ rfl hne x.1
      rw [dictGet_of_mem (v := x.2) (hi1.wf.keys _) (by rw [hc]; simp), List.foldl_nil, hs] at this
      cases this
  unfold MTree.getMove
  rw [h1]
  simp only
  rw [hpy, if_pos rfl, (pyMax_iter_none (g := g) _ _).2 hnil]

/-- a playout of the given depth makes at most that many expansions -/
theorem descend_size {g : MGame σ A} {B : ℕ} (hB : ∀ s, (g.policy s).length ≤ B) : ∀ (d : ℕ) {t : MTree A} {i : ℕ} {s : σ} {t' : MTree A} {k : ℕ}
    {s' : σ} {as : List A}, t.descend g d i s = .ok (t', k, s', as) → t'.size ≤ t.size + d * B := by
  have hexp : ∀ (aps : List (A × ℚ)) (t : MTree A) (i : ℕ), (t.expand i aps).size ≤ t.size + aps.length := by
    intro aps
    induction aps with
    | nil => intro t i; exact le_refl _
    | cons ap aps ih =>
      intro t i
      have h1 : (t.expandOne i ap).size ≤ t.size + 1 := by
        unfold MTree.expandOne
        split
        · omega
        · exact le_refl _
      have h2 : (t.expand i (ap :: aps)).size ≤ (t.expandOne i ap).size + aps.length := ih (t.expandOne i ap) i
      rw [List.length_cons]
      omega
  intro d
  induction d with
  | zero =>
    intro t i s t' k s' as e
    simp only [MTree.descend, Except.ok.injEq, Prod.mk.injEq] at e
    obtain ⟨rfl, -⟩ := e
    omega
  | succ d ih =>
    intro t i s t' k s' as e
    rw [MTree.descend] at e
    simp only at e
    rw [Nat.succ_mul]
    split at e
    · simp only [Except.ok.injEq, Prod.mk.injEq] at e
      obtain ⟨rfl, -⟩ := e
      omega
    · have h1 : (if (t.node i).children.isEmpty = true then t.expand i (g.policy s) else t).size ≤ t.size + B := by
        split
        · have := hexp (g.policy s) t i
          have := hB s
          omega
        · omega
      generalize (if (t.node i).children.isEmpty = true then t.expand i (g.policy s) else t) = t1 at *
      split at e
      · cases e
      · split at e
        · cases e
        · rename_i hrec
          simp only [Except.ok.injEq, Prod.mk.injEq] at e
          obtain ⟨rfl, -⟩ := e
          have := ih hrec
          omega

omit [DecidableEq A] in
theorem updateRec_size (sqrt : ℕ → ℚ) (v c : ℚ) : ∀ (fuel : ℕ) (t : MTree A) (i : ℕ), (t.updateRec sqrt fuel i v c).size = t.size := by
  intro fuel
  induction fuel with
  | zero => intro t i; rfl
  | succ fuel ih =>
    intro t i
    rw [MTree.updateRec]
    split
    · rfl
    · exact ih t _

/-- **C120.** The tree stays small: each playout makes at most depth × branching new nodes, each step forward at most one. -/
theorem C120_size {g : MGame σ A} {B : ℕ} (hB : ∀ s, (g.policy s).length ≤ B) (evs : List (MEvent σ A)) : ∀ {t t' : MTree A}
    {log log' : List (List A × ℚ)}, mrun g t log evs = .ok (t', log') →
    t'.size ≤ t.size + (evs.map fun ev => match ev with | .playout _ d => d * B | .move _ => 1).sum := by
  induction evs with
  | nil =>
    intro t t' log log' e
    simp only [mrun, Except.ok.injEq, Prod.mk.injEq] at e
    obtain ⟨rfl, -⟩ := e
    simp
  | cons ev evs ih =>
    intro t t' log log' e
    cases ev with
    | playout s d =>
      rw [mrun] at e
      split at e
      · cases e
      · rename_i t1 as hp
        have h1 := ih e
        have h2 : t1.size ≤ t.size + d * B := by
          unfold MTree.playout at hp
          split at hp
          · cases hp
          · rename_i hd
            simp only [Except.ok.injEq, Prod.mk.injEq] at hp
            obtain ⟨rfl, -⟩ := hp
            rw [updateRec_size]
            exact descend_size hB d hd
        simp only [List.map_cons, List.sum_cons]
        omega
    | move a =>
      rw [mrun] at e
      have h1 := ih e
      have h2 : (t.updateWithMove a).size ≤ t.size + 1 := by
        unfold MTree.updateWithMove
        split
        · exact Nat.le_succ _
        · exact le_refl _
      simp only [List.map_cons, List.sum_cons]
      omega

/-! ## a game -/

/-- the search of `exSearch` follows its game: after the move 1 from state 0 the state is 1 -/
theorem exFollows : Follows exGame 0 exEvents 1 :=
  .playout 4 (.playout 4 (.playout 2 (.playout 4 (.move 1 (.playout 3 (.nil _))))))

/-- and its tree has a position two moves deep, but none that is not offered -/
example : (mrun exGame MTree.fresh [] exEvents).toOption.map (fun r => ((r.1.at r.1.root [2]).isSome, (r.1.at r.1.root [1, 2]).isSome,
    (r.1.at r.1.root [3]).isSome)) = some (true, true, false) := by decide +kernel

example : exGame.py2 = true ∧ exGame.policy 1 ≠ [] ∧ ∀ s, (exGame.policy s).length ≤ 3 :=
  ⟨rfl, by decide +kernel, fun s => by unfold exGame; simp only; split <;> simp⟩

/-- a game whose actions depend on the state -/
def switchGame : MGame Bool ℕ := { exGame with
  policy := fun s => if s then [(2, 1)] else [(1, 1)], value := fun _ => 0, rollout := fun _ => [], doMove := fun s _ => !s,
  player := fun _ => 1, winner := fun _ => 0 }

/-- **C120.** Following the game is needed: if the state moves on but the tree does not (no `update_with_move`), `get_move` returns a move
which is not offered. -/
theorem C120_out_of_step : ∃ t t' a log, mrun switchGame MTree.fresh [] [.playout false 2] = .ok (t, log) ∧
    t.getMove switchGame true 2 1 = .ok (t', a) ∧ a ∉ (switchGame.policy true).map (·.1) := by
  have h1 : (mrun switchGame MTree.fresh [] [.playout false 2]).toOption.map (fun r => ((r.1.getMove switchGame true 2 1).toOption.map (·.2))) =
      some (some 1) := by decide +kernel
  cases h : mrun switchGame MTree.fresh [] [.playout false 2] with
  | error e => rw [h] at h1; cases h1
  | ok r =>
    rw [h] at h1
    cases h' : r.1.getMove switchGame true 2 1 with
    | error e => simp [Except.toOption, h'] at h1
    | ok r' =>
      simp [Except.toOption, h'] at h1
      exact ⟨r.1, r'.1, r'.2, r.2, rfl, h', by rw [h1]; decide⟩

end Verif
