import Verif.Lemmas.Mcts

/-! # C55–C58, C71, C72: Monte Carlo tree search -/

namespace Verif

variable {σ A : Type} [DecidableEq A]

/-- what a user of the search does: a playout from a state (`get_move` is a number of these), or a step forward in the tree -/
inductive MEvent (σ A : Type)
  | playout (s : σ) (depth : ℕ)
  | move (a : A)

/-- A history, and beside the tree the log of playouts still relevant: a playout adds its moves with the value of the state these lead to;
a step forward along `a` keeps the playouts that began with `a`. -/
def mrun (g : MGame σ A) : MTree A → List (List A × ℚ) → List (MEvent σ A) → Py (MTree A × List (List A × ℚ))
  | t, log, [] => .ok (t, log)
  | t, log, .playout s depth :: evs =>
    match t.playout g s depth with
    | .error e => .error e
    | .ok (t', as) => mrun g t' ((as, leafValue g (as.foldl g.doMove s)) :: log) evs
  | t, log, .move a :: evs => mrun g (t.updateWithMove a) (Spec.strip a log) evs

structure MInv (g : MGame σ A) (t : MTree A) (log : List (List A × ℚ)) : Prop where
  wf : t.WF
  logged : ∀ e ∈ log, ∃ k, t.at t.root e.1 = some k
  stats : ∀ p k, t.at t.root p = some k → (t.node k).n = Spec.visits log p ∧ (t.node k).q = Spec.mean log p
  score : ∀ p k, t.at t.root p = some k → p ≠ [] → (t.node k).u = Spec.bonus g.cpuct g.sqrt (t.node k).p log p

theorem minv_fresh (g : MGame σ A) : MInv g MTree.fresh [] := by
  have hat : ∀ (p : List A) (k : ℕ), (MTree.fresh : MTree A).at 0 p = some k → p = [] ∧ k = 0 := by
    intro p k h
    cases p with
    | nil => simp [MTree.at] at h; exact ⟨rfl, h.symm⟩
    | cons a p => simp [MTree.at, MTree.fresh, TNode.new, dictGet] at h
  refine ⟨MTree.wf_fresh, by simp, ?_, ?_⟩
  · intro p k h
    obtain ⟨rfl, rfl⟩ := hat p k h
    simp [MTree.fresh, TNode.new, Spec.visits, Spec.through, Spec.mean]
  · intro p k h hp
    exact absurd (hat p k h).1 hp

theorem MInv.ext {g : MGame σ A} {t t' : MTree A} {log : List (List A × ℚ)} (h : MInv g t log) (hx : t.Ext t') (hw' : t'.WF) : MInv g t' log := by
  have hr := h.wf.rootLt
  have hnew : ∀ p k, t'.at t.root p = some k → ¬ k < t.size → ∀ e ∈ log, ¬ p <+: e.1 := by
    intro p k hk hks e he hp
    obtain ⟨m, hm⟩ := h.logged e he
    obtain ⟨j, hj⟩ := MTree.at_prefix hm hp
    have := hx.at_mono h.wf p hr hj
    rw [hk] at this
    injection this with this
    subst this
    exact hks (h.wf.at_lt hr hj)
  refine ⟨hw', ?_, ?_, ?_⟩
  · intro e he
    obtain ⟨k, hk⟩ := h.logged e he
    rw [hx.root]
    exact ⟨k, hx.at_mono h.wf _ hr hk⟩
  · intro p k hk
    rw [hx.root] at hk
    by_cases hks : k < t.size
    · obtain ⟨_, h2, h3, _, _⟩ := hx.old k hks
      rw [h2, h3]
      exact h.stats p k (hx.at_old h.wf hw' p hr hk hks)
    · have hlt := hw'.at_lt (by have := hx.size; omega) hk
      obtain ⟨h1, h2, _⟩ := hx.new k (by omega) hlt
      have h0 := Spec.visits_zero (hnew p k hk hks)
      rw [h1, h2, h0, Spec.mean_zero h0]
      exact ⟨rfl, rfl⟩
  · intro p k hk hp
    rw [hx.root] at hk
    by_cases hks : k < t.size
    · obtain ⟨_, _, _, h4, h5⟩ := hx.old k hks
      rw [h4, h5]
      exact h.score p k (hx.at_old h.wf hw' p hr hk hks) hp
    · have hlt := hw'.at_lt (by have := hx.size; omega) hk
      obtain ⟨_, _, h3⟩ := hx.new k (by omega) hlt
      rw [h3, Spec.bonus_zero _ _ _ (hnew p k hk hks)]

theorem MInv.backed {g : MGame σ A} {t t' : MTree A} {log : List (List A × ℚ)} (h : MInv g t log) {as : List A} {v : ℚ} {i : ℕ}
    (hi : t.at t.root as = some i) (hb : t.Backed g.sqrt t' as v g.cpuct) : MInv g t' ((as, v) :: log) := by
  have hch : ∀ k, (t'.node k).children = (t.node k).children := fun k => (hb.frame k).2.1
  have hpar : ∀ k, (t'.node k).parent = (t.node k).parent := fun k => (hb.frame k).1
  have hp : ∀ k, (t'.node k).p = (t.node k).p := fun k => (hb.frame k).2.2
  have hat : ∀ p, t'.at t'.root p = t.at t.root p := fun p => by rw [hb.root]; exact MTree.at_congr hch p _
  have hw' : t'.WF := by
    refine ⟨by rw [hb.root, hb.size]; exact h.wf.rootLt, by rw [hb.root, hpar]; exact h.wf.rootParent, fun k => by rw [hch]; exact h.wf.keys k,
      fun k hk => by rw [hch]; exact h.wf.out k (by rw [← hb.size]; exact hk), ?_, ?_, ?_⟩
    · intro k a j hm; rw [hch] at hm; rw [hb.size]; exact h.wf.kid k a j hm
    · intro k a j hm hj; rw [hch] at hm; rw [hpar]; exact h.wf.par k a j hm (by rw [← hb.root]; exact hj)
    · intro k a j k' a' hm hm'; rw [hch] at hm hm'; exact h.wf.uniq k a j k' a' hm hm'
  -- a node is on the way exactly if its moves are a prefix
  have hoff : ∀ p k, t.at t.root p = some k → ¬ p <+: as → t'.node k = t.node k := by
    intro p k hk hnp
    apply hb.off
    intro q hq hqk
    rw [h.wf.at_inj _ _ hk hqk] at hnp
    exact hnp hq
  have hn : ∀ p k, t.at t.root p = some k → (t'.node k).n = Spec.visits ((as, v) :: log) p := by
    intro p k hk
    rw [Spec.visits_cons]
    by_cases hpa : p <+: as
    · rw [(hb.on p k hpa hk).1, (h.stats p k hk).1, if_pos hpa]
    · rw [hoff p k hk hpa, (h.stats p k hk).1, if_neg hpa]; rfl
  refine ⟨hw', ?_, ?_, ?_⟩
  · intro e he
    rw [hat]
    rcases List.mem_cons.1 he with rfl | he
    · exact ⟨i, hi⟩
    · exact h.logged e he
  · intro p k hk
    rw [hat] at hk
    refine ⟨hn p k hk, ?_⟩
    obtain ⟨s1, s2⟩ := h.stats p k hk
    by_cases hpa : p <+: as
    · rw [(hb.on p k hpa hk).2.1, Spec.mean_cons_on _ _ _ hpa, s1, s2]
    · rw [hoff p k hk hpa, Spec.mean_cons_off _ _ _ hpa, s2]
  · intro p k hk hpne
    rw [hat] at hk
    rw [Spec.bonus_cons, hp]
    by_cases hpa : p <+: as
    · rw [if_pos hpa]
      obtain ⟨q, a, rfl⟩ := List.eq_nil_or_concat' p |>.resolve_left hpne
      obtain ⟨j, hj, _⟩ := MTree.at_snoc.1 hk
      obtain ⟨_, _, h3⟩ := hb.on _ k hpa hk
      rw [h3 q a j rfl hj, List.dropLast_concat, ← hn q j hj, ← hn _ k hk, (hb.on _ k hpa hk).1]
    · rw [if_neg hpa, hoff p k hk hpa]
      exact h.score p k hk hpne

/-- what one playout does to the tree and the log -/
theorem playout_spec {g : MGame σ A} {t t' : MTree A} {log : List (List A × ℚ)} {s : σ} {depth : ℕ} {as : List A} (h : MInv g t log)
    (e : t.playout g s depth = .ok (t', as)) :
    ∃ t1 i, t.Ext t1 ∧ t1.WF ∧ t1.at t.root as = some i ∧ t1.Backed g.sqrt t' as (leafValue g (as.foldl g.doMove s)) g.cpuct ∧
      t1.Greedy t.root as ∧ as.length ≤ depth ∧
      (as.length < depth → g.policy (as.foldl g.doMove s) = [] ∧ (t1.node i).children = []) ∧
      (∀ m, m < t.size → (∀ p, t.at t.root p ≠ some m) → t1.node m = t.node m) := by
  unfold MTree.playout at e
  cases hd : t.descend g depth t.root s with
  | error er => rw [hd] at e; cases e
  | ok r =>
    obtain ⟨t1, i, s', as'⟩ := r
    rw [hd] at e
    simp only [Except.ok.injEq, Prod.mk.injEq] at e
    obtain ⟨rfl, rfl⟩ := e
    obtain ⟨r1, r2, r3, r4, r5, r6, r7, r8⟩ := MTree.descend_spec g depth h.wf h.wf.rootLt hd
    rw [← r4]
    have hr : t1.root = t.root := r2.root
    have hlt : i < t1.size := r1.at_lt (by have := r2.size; have := h.wf.rootLt; omega) r3
    exact ⟨t1, i, r2, r1, r3, MTree.updateRec_spec g.sqrt r1 _ _ _ _ hlt (by rw [hr]; exact r3), r8, r5, r6, r7⟩

theorem MInv.playout {g : MGame σ A} {t t' : MTree A} {log : List (List A × ℚ)} {s : σ} {depth : ℕ} {as : List A} (h : MInv g t log)
    (e : t.playout g s depth = .ok (t', as)) : MInv g t' ((as, leafValue g (as.foldl g.doMove s)) :: log) := by
  obtain ⟨t1, i, h1, h2, h3, h4, _⟩ := playout_spec h e
  exact (h.ext h1 h2).backed (by rw [h1.root]; exact h3) h4

/-- stepping forward along an expanded move: the nodes keep everything but the parent pointer of the new root -/
theorem updateWithMove_some {t : MTree A} {a : A} {j : ℕ} (hj : dictGet (t.node t.root).children a = some j) :
    (t.updateWithMove a).root = j ∧ (t.updateWithMove a).size = t.size ∧ (∀ k, k ≠ j → (t.updateWithMove a).node k = t.node k) ∧
    (t.updateWithMove a).node j = { t.node j with parent := none } := by
  unfold MTree.updateWithMove
  rw [hj]
  refine ⟨rfl, rfl, fun k hk => ?_, ?_⟩
  · simp [Function.update_of_ne hk]
  · simp

theorem updateWithMove_none {t : MTree A} {a : A} (hj : dictGet (t.node t.root).children a = none) :
    (t.updateWithMove a).root = t.size ∧ (t.updateWithMove a).size = t.size + 1 ∧ (∀ k, k ≠ t.size → (t.updateWithMove a).node k = t.node k) ∧
    (t.updateWithMove a).node t.size = TNode.new none 1 := by
  unfold MTree.updateWithMove
  rw [hj]
  refine ⟨rfl, rfl, fun k hk => ?_, ?_⟩
  · simp [Function.update_of_ne hk]
  · simp

theorem updateWithMove_at_some {t : MTree A} {a : A} {j : ℕ} (hj : dictGet (t.node t.root).children a = some j) (p : List A) :
    (t.updateWithMove a).at (t.updateWithMove a).root p = t.at t.root (a :: p) := by
  obtain ⟨h1, h2, h3, h4⟩ := updateWithMove_some hj
  have hch : ∀ k, ((t.updateWithMove a).node k).children = (t.node k).children := by
    intro k
    by_cases hk : k = j
    · subst hk; rw [h4]
    · rw [h3 k hk]
  rw [h1, MTree.at_congr hch, MTree.at, hj]

theorem updateWithMove_at_none {t : MTree A} {a : A} (hj : dictGet (t.node t.root).children a = none) {p : List A} {k : ℕ} :
    (t.updateWithMove a).at (t.updateWithMove a).root p = some k → p = [] ∧ k = t.size := by
  obtain ⟨h1, h2, h3, h4⟩ := updateWithMove_none hj
  intro e
  rw [h1] at e
  cases p with
  | nil => simp [MTree.at] at e; exact ⟨rfl, e.symm⟩
  | cons b p => rw [MTree.at, h4] at e; simp [TNode.new, dictGet] at e

theorem MInv.move {g : MGame σ A} {t : MTree A} {log : List (List A × ℚ)} (h : MInv g t log) (a : A) :
    MInv g (t.updateWithMove a) (Spec.strip a log) := by
  cases hj : dictGet (t.node t.root).children a with
  | some j =>
    obtain ⟨h1, h2, h3, h4⟩ := updateWithMove_some hj
    have hat := updateWithMove_at_some hj
    have hkid := h.wf.kid _ _ _ (dictGet_mem hj)
    generalize t.updateWithMove a = t' at *
    have hsame : ∀ k, (t'.node k).children = (t.node k).children ∧ (t'.node k).n = (t.node k).n ∧ (t'.node k).q = (t.node k).q ∧
        (t'.node k).u = (t.node k).u ∧ (t'.node k).p = (t.node k).p ∧ (k ≠ j → (t'.node k).parent = (t.node k).parent) := by
      intro k
      by_cases hk : k = j
      · subst hk; rw [h4]; exact ⟨rfl, rfl, rfl, rfl, rfl, fun h => absurd rfl h⟩
      · rw [h3 k hk]; exact ⟨rfl, rfl, rfl, rfl, rfl, fun _ => rfl⟩
    refine ⟨⟨by omega, by rw [h1, h4], fun k => by rw [(hsame k).1]; exact h.wf.keys k,
      fun k hk => by rw [(hsame k).1]; exact h.wf.out k (by omega), ?_, ?_, ?_⟩, ?_, ?_, ?_⟩
    · intro k b m hm; rw [(hsame k).1] at hm; rw [h2]; exact h.wf.kid k b m hm
    · intro k b m hm hmr
      rw [(hsame k).1] at hm
      rw [(hsame m).2.2.2.2.2 (by omega)]
      exact h.wf.par k b m hm (by omega)
    · intro k b m k' b' hm hm'
      rw [(hsame k).1] at hm
      rw [(hsame k').1] at hm'
      exact h.wf.uniq k b m k' b' hm hm'
    · rintro ⟨bs, v⟩ he
      rw [Spec.mem_strip] at he
      rw [hat]
      exact h.logged _ he
    · intro p k hk
      rw [hat] at hk
      obtain ⟨s1, s2⟩ := h.stats _ _ hk
      rw [(hsame k).2.1, (hsame k).2.2.1, Spec.visits_strip, Spec.mean_strip]
      exact ⟨s1, s2⟩
    · intro p k hk hp
      rw [hat] at hk
      rw [(hsame k).2.2.2.1, (hsame k).2.2.2.2.1, Spec.bonus_strip _ _ _ _ _ hp]
      exact h.score _ _ hk (by simp)
  | none =>
    obtain ⟨h1, h2, h3, h4⟩ := updateWithMove_none hj
    have hat : ∀ {p k}, (t.updateWithMove a).at (t.updateWithMove a).root p = some k → p = [] ∧ k = t.size := updateWithMove_at_none hj
    have hstrip : Spec.strip a log = [] := by
      rw [List.eq_nil_iff_forall_not_mem]
      rintro ⟨bs, v⟩ he
      rw [Spec.mem_strip] at he
      obtain ⟨k, hk⟩ := h.logged _ he
      rw [MTree.at, hj] at hk
      cases hk
    rw [hstrip]
    generalize t.updateWithMove a = t' at *
    have hr := h.wf.rootLt
    have hout := h.wf.out t.size (le_refl _)
    have hch : ∀ k, (t'.node k).children = (t.node k).children := by
      intro k
      by_cases hk : k = t.size
      · subst hk; rw [h4, hout]; rfl
      · rw [h3 k hk]
    refine ⟨⟨by omega, by rw [h1, h4]; rfl, fun k => by rw [hch]; exact h.wf.keys k,
      fun k hk => by rw [hch]; exact h.wf.out k (by omega), ?_, ?_, ?_⟩, by simp, ?_, ?_⟩
    · intro k b m hm; rw [hch] at hm; have := h.wf.kid k b m hm; omega
    · intro k b m hm hmr; rw [hch] at hm; have := h.wf.kid k b m hm; omega
    · intro k b m k' b' hm hm'
      rw [hch] at hm hm'
      exact h.wf.uniq k b m k' b' hm hm'
    · intro p k hk
      obtain ⟨rfl, rfl⟩ := hat hk
      rw [h4]
      simp [TNode.new, Spec.visits, Spec.through, Spec.mean]
    · intro p k hk hp
      exact absurd (hat hk).1 hp

theorem minv_run {g : MGame σ A} (evs : List (MEvent σ A)) : ∀ {t t' : MTree A} {log log' : List (List A × ℚ)}, MInv g t log →
    mrun g t log evs = .ok (t', log') → MInv g t' log' := by
  induction evs with
  | nil =>
    intro t t' log log' h e
    simp only [mrun, Except.ok.injEq, Prod.mk.injEq] at e
    obtain ⟨rfl, rfl⟩ := e
    exact h
  | cons ev evs ih =>
    intro t t' log log' h e
    cases ev with
    | playout s depth =>
      rw [mrun] at e
      cases hp : t.playout g s depth with
      | error er => rw [hp] at e; cases e
      | ok r =>
        obtain ⟨t1, as⟩ := r
        rw [hp] at e
        exact ih (h.playout hp) e
    | move a => exact ih (h.move a) e

/-- **C55.** After any history of playouts and steps forward, from a new search: the node reached by the moves `p` from the root counts
the playouts that passed through it (among those still relevant), and its `Q` is the mean of their leaf values. -/
theorem C55_mean {g : MGame σ A} {evs : List (MEvent σ A)} {t : MTree A} {log : List (List A × ℚ)} (h : mrun g MTree.fresh [] evs = .ok (t, log))
    {p : List A} {k : ℕ} (hk : t.at t.root p = some k) :
    (t.node k).n = (log.filter fun e => p.isPrefixOf e.1).length ∧
    (t.node k).q * (t.node k).n = ((log.filter fun e => p.isPrefixOf e.1).map (·.2)).sum ∧
    ((t.node k).n = 0 → (t.node k).q = 0) := by
  obtain ⟨h1, h2⟩ := (minv_run evs (minv_fresh g) h).stats p k hk
  refine ⟨h1, ?_, fun h0 => ?_⟩
  · rw [h2, h1]
    unfold Spec.mean
    by_cases h0 : Spec.visits log p = 0
    · have : Spec.through log p = [] := List.length_eq_zero_iff.1 h0
      unfold Spec.through at this
      rw [h0, this]; simp
    · have : (Spec.visits log p : ℚ) ≠ 0 := by exact_mod_cast h0
      rw [div_mul_cancel₀ _ this]; rfl
  · rw [h2, Spec.mean_zero (by rw [← h1]; exact h0)]

theorem mrun_playouts {g : MGame σ A} (l : List (σ × ℕ)) : ∀ {t t' : MTree A} {log log' : List (List A × ℚ)},
    mrun g t log (l.map fun x => .playout x.1 x.2) = .ok (t', log') → log'.length = log.length + l.length := by
  induction l with
  | nil =>
    intro t t' log log' e
    simp only [List.map_nil, mrun, Except.ok.injEq, Prod.mk.injEq] at e
    obtain ⟨_, rfl⟩ := e
    rfl
  | cons x l ih =>
    intro t t' log log' e
    rw [List.map_cons, mrun] at e
    cases hp : t.playout g x.1 x.2 with
    | error er => rw [hp] at e; cases e
    | ok r =>
      rw [hp] at e
      have := ih e
      simp only [List.length_cons] at this ⊢
      omega

theorem sum_kids_le {log : List (List A × ℚ)} {p : List A} (keys : List A) (hn : keys.Nodup) :
    (keys.map fun b => Spec.visits log (p ++ [b])).sum + (log.filter fun e => e.1 = p).length ≤ Spec.visits log p := by
  induction log with
  | nil => simp [Spec.visits, Spec.through]
  | cons e log ih =>
    obtain ⟨as, v⟩ := e
    have hone : (keys.map fun b => if p ++ [b] <+: as then 1 else 0).sum + (if as = p then 1 else 0) ≤ (if p <+: as then 1 else 0) := by
      by_cases hp : p <+: as
      · rw [if_pos hp]
        obtain ⟨r, rfl⟩ := hp
        simp only [List.prefix_append_right_inj]
        cases r with
        | nil => simp
        | cons c r =>
          have h0 : ¬ (p ++ c :: r = p) := by simp
          rw [if_neg h0]
          simp only [List.cons_prefix_cons, List.nil_prefix, and_true]
          have : (keys.map fun b => if b = c then 1 else 0).sum = keys.count c := by
            rw [List.count_eq_countP, List.countP_eq_length_filter]
            clear hn ih h0
            induction keys with
            | nil => rfl
            | cons b keys ih =>
              rw [List.map_cons, List.sum_cons, ih, List.filter_cons]
              by_cases hb : b = c <;> simp [hb]; omega
          rw [this]
          exact List.nodup_iff_count_le_one.1 hn c
      · rw [if_neg hp]
        have h1 : ¬ as = p := fun h => hp (h ▸ List.prefix_refl _)
        rw [if_neg h1]
        have : (keys.map fun b => if p ++ [b] <+: as then 1 else 0) = keys.map fun _ => 0 := by
          apply List.map_congr_left
          intro b _
          rw [if_neg]
          exact fun h => hp ((List.prefix_append p [b]).trans h)
        rw [this]
        simp
    rw [Spec.visits_cons]
    simp only [Spec.visits_cons]
    rw [List.sum_map_add]
    have hf : (((as, v) :: log).filter fun e => e.1 = p).length = (log.filter fun e => e.1 = p).length + if as = p then 1 else 0 := by
      rw [List.filter_cons]
      by_cases h : as = p <;> simp [h]
    rw [hf]
    omega

theorem sum_kids_eq {log : List (List A × ℚ)} {p : List A} (keys : List A) (hn : keys.Nodup) (hall : ∀ e ∈ log, ∀ b, p ++ [b] <+: e.1 → b ∈ keys) :
    Spec.visits log p = (keys.map fun b => Spec.visits log (p ++ [b])).sum + (log.filter fun e => e.1 = p).length := by
  apply le_antisymm _ (sum_kids_le keys hn)
  induction log with
  | nil => simp [Spec.visits, Spec.through]
  | cons e log ih =>
    obtain ⟨as, v⟩ := e
    have ih := ih fun e he => hall e (List.mem_cons_of_mem _ he)
    have hone : (if p <+: as then 1 else 0) ≤ (keys.map fun b => if p ++ [b] <+: as then 1 else 0).sum + (if as = p then 1 else 0) := by
      by_cases hp : p <+: as
      · rw [if_pos hp]
        obtain ⟨r, rfl⟩ := hp
        cases r with
        | nil => simp
        | cons c r =>
          have hc : c ∈ keys := hall (p ++ c :: r, v) (by simp) c (by simp)
          have : 1 ≤ (keys.map fun b => if p ++ [b] <+: p ++ c :: r then 1 else 0).sum := by
            obtain ⟨l1, l2, rfl⟩ := List.append_of_mem hc
            simp
            omega
          omega
      · rw [if_neg hp]; omega
    rw [Spec.visits_cons]
    simp only [Spec.visits_cons]
    rw [List.sum_map_add]
    have hf : (((as, v) :: log).filter fun e => e.1 = p).length = (log.filter fun e => e.1 = p).length + if as = p then 1 else 0 := by
      rw [List.filter_cons]
      by_cases h : as = p <;> simp [h]
    rw [hf]
    omega

/-- **C56.** Counts are consistent at every node below the root, after any history: the count of a node is the sum of its children's counts plus
the number of playouts that ended at it. -/
theorem C56_children {g : MGame σ A} {evs : List (MEvent σ A)} {t : MTree A} {log : List (List A × ℚ)} (h : mrun g MTree.fresh [] evs = .ok (t, log))
    {p : List A} {k : ℕ} (hk : t.at t.root p = some k) :
    (t.node k).n = ((t.node k).children.map fun bj => (t.node bj.2).n).sum + (log.filter fun e => e.1 = p).length := by
  have hi := minv_run evs (minv_fresh g) h
  have hkey := hi.wf.keys k
  rw [(hi.stats p k hk).1, sum_kids_eq ((t.node k).children.map fun kv : A × ℕ => kv.1) hkey]
  · rw [List.map_map]
    congr 2
    apply List.map_congr_left
    rintro ⟨b, j⟩ hb
    simp only [Function.comp]
    exact ((hi.stats (p ++ [b]) j (MTree.at_snoc.2 ⟨k, hk, dictGet_of_mem hkey hb⟩)).1).symm
  · intro e he b hb
    obtain ⟨m, hm⟩ := hi.logged e he
    obtain ⟨j, hj⟩ := MTree.at_prefix hm hb
    obtain ⟨k', hk', hg⟩ := MTree.at_snoc.1 hj
    rw [hk] at hk'
    injection hk' with hk'
    subst hk'
    exact List.mem_map.2 ⟨_, dictGet_mem hg, rfl⟩

/-- **C56.** The root's count is the number of playouts, if there were only playouts. -/
theorem C56_root {g : MGame σ A} {l : List (σ × ℕ)} {t : MTree A} {log : List (List A × ℚ)}
    (h : mrun g MTree.fresh [] (l.map fun x => .playout x.1 x.2) = .ok (t, log)) : (t.node t.root).n = l.length := by
  have hi := minv_run _ (minv_fresh g) h
  rw [(hi.stats [] t.root rfl).1]
  have := mrun_playouts l h
  simp only [List.length_nil, Nat.zero_add] at this
  rw [← this]
  unfold Spec.visits Spec.through
  rw [List.filter_eq_self.2]
  intro e _
  simp

omit [DecidableEq A] in
/-- **C56 (the start).** A new tree is one unvisited root without children, whose prior and value are 1. -/
theorem C56_fresh : (MTree.fresh : MTree A).size = 1 ∧ (MTree.fresh : MTree A).root = 0 ∧
    (MTree.fresh : MTree A).node 0 = ⟨none, [], 0, 0, 1, 1⟩ ∧ ((MTree.fresh : MTree A).node 0).val = 1 :=
  ⟨rfl, rfl, rfl, zero_add 1⟩

/-- **C56.** A playout plays at most `depth` moves; fewer only if the game is over there (the policy lists no action and the node has no
children). -/
theorem C56_depth {g : MGame σ A} {evs : List (MEvent σ A)} {t t' : MTree A} {log : List (List A × ℚ)} (h : mrun g MTree.fresh [] evs = .ok (t, log))
    {s : σ} {depth : ℕ} {as : List A} (e : t.playout g s depth = .ok (t', as)) :
    as.length ≤ depth ∧ (as.length < depth → g.policy (as.foldl g.doMove s) = [] ∧
      ∃ k, t'.at t'.root as = some k ∧ (t'.node k).children = []) := by
  have hi := minv_run _ (minv_fresh g) h
  obtain ⟨t1, i, h1, h2, h3, h4, h5, h6, h7, h8⟩ := playout_spec hi e
  refine ⟨h6, fun hl => ⟨(h7 hl).1, i, ?_, ?_⟩⟩
  · rw [h4.root, h1.root, MTree.at_congr fun k => (h4.frame k).2.1]; exact h3
  · rw [(h4.frame i).2.1]; exact (h7 hl).2

/-! ## C57: expansion and the chosen move -/

/-- the prior of the first entry for the action -/
def firstPrior (aps : List (A × ℚ)) (a : A) : Option ℚ := (aps.find? fun ap => ap.1 = a).map (·.2)

theorem expand_get {t : MTree A} (hw : t.WF) {i : ℕ} (hi : i < t.size) (aps : List (A × ℚ)) (b : A) :
    (∀ j, dictGet (t.node i).children b = some j → dictGet ((t.expand i aps).node i).children b = some j ∧ (j ≠ i → (t.expand i aps).node j = t.node j)) ∧
    (dictGet (t.node i).children b = none → ∀ P, firstPrior aps b = some P →
      ∃ j, t.size ≤ j ∧ dictGet ((t.expand i aps).node i).children b = some j ∧ (t.expand i aps).node j = ⟨some i, [], 0, 0, P, P⟩) ∧
    (dictGet (t.node i).children b = none → firstPrior aps b = none → dictGet ((t.expand i aps).node i).children b = none) := by
  induction aps generalizing t with
  | nil => exact ⟨fun j hj => ⟨hj, fun _ => rfl⟩, fun _ P hP => by simp [firstPrior] at hP, fun h _ => h⟩
  | cons ap aps ih =>
    have hstep : t.expand i (ap :: aps) = (t.expandOne i ap).expand i aps := rfl
    rw [hstep]
    obtain ⟨h1, h2, h3⟩ := MTree.expandOne_spec hw hi ap
    have hs := h2.size
    obtain ⟨i1, i2, i3⟩ := ih h1 (by omega)
    have hfp : firstPrior (ap :: aps) b = if ap.1 = b then some ap.2 else firstPrior aps b := by
      unfold firstPrior
      rw [List.find?_cons]
      by_cases h : ap.1 = b <;> simp [h]
    by_cases hn : dictHas (t.node i).children ap.1 = true
    · have heq : t.expandOne i ap = t := by simp [MTree.expandOne, hn]
      rw [heq] at i1 i2 i3 ⊢
      refine ⟨i1, fun hb P hP => ?_, fun hb hP => ?_⟩
      · rw [hfp, if_neg] at hP
        · exact i2 hb P hP
        · rintro rfl
          obtain ⟨v, hv⟩ := (dictHas_iff_get _ _).1 hn
          rw [hb] at hv; cases hv
      · rw [hfp] at hP
        by_cases hab : ap.1 = b
        · rw [if_pos hab] at hP; cases hP
        · rw [if_neg hab] at hP; exact i3 hb hP
    · rw [Bool.not_eq_true] at hn
      obtain ⟨e1, e2, e3, e4, e5⟩ := MTree.expandOne_eq hw hi ap hn
      have hget : ∀ b, dictGet ((t.expandOne i ap).node i).children b = if b = ap.1 then some t.size else dictGet (t.node i).children b := by
        intro b
        rw [e4]
        have := dictGet_dictSet (t.node i).children ap.1 b t.size
        unfold dictSet at this
        rw [hn] at this
        simpa using this
      have hapn : dictGet (t.node i).children ap.1 = none := by
        rw [dictGet_none_iff, ← dictHas_iff]; simp [hn]
      refine ⟨fun j hj => ?_, fun hb P hP => ?_, fun hb hP => ?_⟩
      · have hbne : b ≠ ap.1 := by rintro rfl; rw [hapn] at hj; cases hj
        obtain ⟨a1, a2⟩ := i1 j (by rw [hget, if_neg hbne]; exact hj)
        refine ⟨a1, fun hji => ?_⟩
        rw [a2 hji, h3 j (hw.kid _ _ _ (dictGet_mem hj)).2 hji]
      · rw [hfp] at hP
        by_cases hab : ap.1 = b
        · rw [if_pos hab] at hP
          injection hP with hP
          obtain ⟨a1, a2⟩ := i1 t.size (by rw [hget, if_pos hab.symm])
          refine ⟨t.size, le_refl _, a1, ?_⟩
          rw [a2 (by omega), e3, hP]; rfl
        · rw [if_neg hab] at hP
          obtain ⟨j, hj1, hj2, hj3⟩ := i2 (by rw [hget, if_neg fun h => hab h.symm]; exact hb) P hP
          exact ⟨j, by omega, hj2, hj3⟩
      · rw [hfp] at hP
        by_cases hab : ap.1 = b
        · rw [if_pos hab] at hP; cases hP
        · rw [if_neg hab] at hP
          exact i3 (by rw [hget, if_neg fun h => hab h.symm]; exact hb) hP

/-- **C57.** `expand(action_priors)` on any node of a tree with any history: an action that was a child stays the same child, with nothing
in it changed; an action that was not gets one new node with the prior first listed for it and no visits; there are no other children,
and no action occurs twice. Every other node stays the same. -/
theorem C57_expand {g : MGame σ A} {evs : List (MEvent σ A)} {t : MTree A} {log : List (List A × ℚ)} (h : mrun g MTree.fresh [] evs = .ok (t, log))
    {i : ℕ} (hi : i < t.size) (aps : List (A × ℚ)) :
    (∀ b j, dictGet (t.node i).children b = some j → dictGet ((t.expand i aps).node i).children b = some j ∧ (t.expand i aps).node j = t.node j) ∧
    (∀ b P, dictGet (t.node i).children b = none → firstPrior aps b = some P →
      ∃ j, t.size ≤ j ∧ dictGet ((t.expand i aps).node i).children b = some j ∧ (t.expand i aps).node j = ⟨some i, [], 0, 0, P, P⟩) ∧
    (∀ b, dictGet (t.node i).children b = none → firstPrior aps b = none → dictGet ((t.expand i aps).node i).children b = none) ∧
    (((t.expand i aps).node i).children.map (·.1)).Nodup ∧
    (∀ k, k < t.size → k ≠ i → (t.expand i aps).node k = t.node k) := by
  have hw := (minv_run evs (minv_fresh g) h).wf
  obtain ⟨h1, h2, h3⟩ := MTree.expand_spec hw hi aps
  refine ⟨fun b j hj => ?_, fun b P hb hP => (expand_get hw hi aps b).2.1 hb P hP, fun b hb hP => (expand_get hw hi aps b).2.2 hb hP, h1.keys i, h3⟩
  obtain ⟨a1, a2⟩ := (expand_get hw hi aps b).1 j hj
  exact ⟨a1, a2 (by have := hw.kid _ _ _ (dictGet_mem hj); omega)⟩

theorem playouts_run {g : MGame σ A} {s : σ} {depth : ℕ} (n : ℕ) : ∀ {t t' : MTree A} {ass : List (List A)} (log : List (List A × ℚ)),
    t.playouts g s depth n = .ok (t', ass) →
    mrun g t log (List.replicate n (.playout s depth)) = .ok (t', (ass.map fun as => (as, leafValue g (as.foldl g.doMove s))).reverse ++ log) ∧
      ass.length = n := by
  induction n with
  | zero =>
    intro t t' ass log e
    simp only [MTree.playouts, Except.ok.injEq, Prod.mk.injEq] at e
    obtain ⟨rfl, rfl⟩ := e
    exact ⟨rfl, rfl⟩
  | succ n ih =>
    intro t t' ass log e
    rw [MTree.playouts] at e
    cases hp : t.playout g s depth with
    | error er => rw [hp] at e; cases e
    | ok r =>
      obtain ⟨t1, as⟩ := r
      rw [hp] at e
      simp only at e
      cases hps : t1.playouts g s depth n with
      | error er => rw [hps] at e; cases e
      | ok r =>
        obtain ⟨t2, ass2⟩ := r
        rw [hps] at e
        simp only [Except.ok.injEq, Prod.mk.injEq] at e
        obtain ⟨rfl, rfl⟩ := e
        obtain ⟨i1, i2⟩ := ih ((as, leafValue g (as.foldl g.doMove s)) :: log) hps
        refine ⟨?_, by simp [i2]⟩
        rw [List.replicate_succ, mrun, hp]
        simp only
        rw [i1]
        simp

/-- **C57.** When `get_move(state)` returns `a` after any history, `n_playout` further playouts were made, and no action began more of the
relevant playouts (old and new) than `a`. `a` is a child of the root. -/
theorem C57_get_move {g : MGame σ A} {evs : List (MEvent σ A)} {t t' : MTree A} {log : List (List A × ℚ)} (h : mrun g MTree.fresh [] evs = .ok (t, log))
    {s : σ} {depth nPlayout : ℕ} {a : A} (e : t.getMove g s depth nPlayout = .ok (t', a)) :
    ∃ log', mrun g t log (List.replicate nPlayout (.playout s depth)) = .ok (t', log') ∧ log'.length = log.length + nPlayout ∧
      a ∈ (t'.node t'.root).children.map (·.1) ∧
      ∀ b, (log'.filter fun e => e.1.head? = some b).length ≤ (log'.filter fun e => e.1.head? = some a).length := by
  have hi := minv_run evs (minv_fresh g) h
  unfold MTree.getMove at e
  cases hp : t.playouts g s depth nPlayout with
  | error er => rw [hp] at e; cases e
  | ok r =>
    obtain ⟨t1, ass⟩ := r
    rw [hp] at e
    simp only at e
    obtain ⟨hr, hl⟩ := playouts_run nPlayout log hp
    have hi1 := minv_run _ hi hr
    cases hpy : g.py2 with
    | false => rw [hpy] at e; simp at e
    | true =>
      rw [hpy] at e
      simp only [if_true] at e
      cases hm : pyMax (fun an : A × ℕ => ((t1.node an.2).n : ℚ)) (g.iter (t1.node t1.root).children) with
      | none => rw [hm] at e; cases e
      | some an =>
        obtain ⟨a', j⟩ := an
        rw [hm] at e
        simp only [Except.ok.injEq, Prod.mk.injEq] at e
        obtain ⟨rfl, rfl⟩ := e
        obtain ⟨hmem, hmax⟩ := pyMax_iter hm
        generalize ((ass.map fun as => (as, leafValue g (as.foldl g.doMove s))).reverse ++ log) = log' at *
        have hv : ∀ b, (log'.filter fun e => e.1.head? = some b).length = Spec.visits log' [b] := by
          intro b
          unfold Spec.visits Spec.through
          congr 1
          apply List.filter_congr
          rintro ⟨as, v⟩ _
          cases as with
          | nil => rfl
          | cons c cs =>
            by_cases hbc : b = c
            · simp [List.isPrefixOf, hbc]
            · simp [List.isPrefixOf, hbc, show ¬ c = b from fun h => hbc h.symm]
        have hkid : ∀ b m, (b, m) ∈ (t1.node t1.root).children → (t1.node m).n = Spec.visits log' [b] := by
          intro b m hb
          exact (hi1.stats [b] m (by rw [MTree.at, dictGet_of_mem (hi1.wf.keys _) hb]; rfl)).1
        refine ⟨log', hr, ?_, List.mem_map.2 ⟨_, hmem, rfl⟩, fun b => ?_⟩
        · have := mrun_playouts (List.replicate nPlayout (s, depth)) (g := g) (t := t) (t' := t1) (log := log) (log' := log') (by simpa using hr)
          simpa using this
        · rw [hv, hv, ← hkid a' j hmem]
          by_cases hb : b ∈ (t1.node t1.root).children.map (·.1)
          · obtain ⟨⟨b', m⟩, hbm, rfl⟩ := List.mem_map.1 hb
            rw [← hkid _ m hbm]
            have := hmax _ hbm
            simp only at this
            exact_mod_cast this
          · have : Spec.visits log' [b] = 0 := by
              apply Spec.visits_zero
              intro e he hpre
              obtain ⟨m, hm⟩ := hi1.logged e he
              obtain ⟨j', hj'⟩ := MTree.at_prefix hm hpre
              rw [MTree.at] at hj'
              cases hd : dictGet (t1.node t1.root).children b with
              | none => rw [hd] at hj'; cases hj'
              | some m' => exact hb (List.mem_map.2 ⟨_, dictGet_mem hd, rfl⟩)
            rw [this]; omega

/-- **C57 (on Python 3).** `dict` has no `iteritems`: `get_move` raises `AttributeError`, for every tree, game, state, depth and number of
playouts. -/
theorem C57_python3 {g : MGame σ A} (hpy : g.py2 = false) (t : MTree A) (s : σ) (depth nPlayout : ℕ) :
    t.getMove g s depth nPlayout = .error .attributeError := by
  have hdesc : ∀ d (t : MTree A) i s e, t.descend g d i s = .error e → e = .attributeError := by
    intro d
    cases d with
    | zero => intro t i s e h; simp [MTree.descend] at h
    | succ d =>
      intro t i s e h
      rw [MTree.descend] at h
      simp only at h
      split at h
      · cases h
      · have : ∀ t' : MTree A, t'.select g i = .error .attributeError := by intro t'; simp [MTree.select, hpy]
        rw [this] at h
        injection h with h
        exact h.symm
  have hplay : ∀ n (t : MTree A) e, t.playouts g s depth n = .error e → e = .attributeError := by
    intro n
    induction n with
    | zero => intro t e h; simp [MTree.playouts] at h
    | succ n ih =>
      intro t e h
      rw [MTree.playouts] at h
      cases hp : t.playout g s depth with
      | error er =>
        rw [hp] at h
        injection h with h
        subst h
        unfold MTree.playout at hp
        cases hd : t.descend g depth t.root s with
        | error er' =>
          rw [hd] at hp
          injection hp with hp
          subst hp
          exact hdesc _ _ _ _ _ hd
        | ok r => rw [hd] at hp; cases hp
      | ok r =>
        rw [hp] at h
        simp only at h
        cases hps : r.1.playouts g s depth n with
        | error er => rw [hps] at h; injection h with h; subst h; exact ih _ _ hps
        | ok r' => rw [hps] at h; cases h
  unfold MTree.getMove
  cases hp : t.playouts g s depth nPlayout with
  | error e => rw [hplay _ _ _ hp]
  | ok r => simp [hpy]

/-! ## C58: reuse of the tree -/

/-- **C58.** `update_with_move(a)` after any history. If `a` was expanded: the moves `p` from the new root lead to the node that `a` and `p` led
to, with all of its numbers kept. If not: the tree is a single fresh node. -/
theorem C58_reuse {g : MGame σ A} {evs : List (MEvent σ A)} {t : MTree A} {log : List (List A × ℚ)} (h : mrun g MTree.fresh [] evs = .ok (t, log)) (a : A) :
    (a ∈ (t.node t.root).children.map (·.1) → ∀ p, (t.updateWithMove a).at (t.updateWithMove a).root p = t.at t.root (a :: p) ∧
      ∀ k, t.at t.root (a :: p) = some k → ((t.updateWithMove a).node k).n = (t.node k).n ∧ ((t.updateWithMove a).node k).q = (t.node k).q ∧
        ((t.updateWithMove a).node k).u = (t.node k).u ∧ ((t.updateWithMove a).node k).p = (t.node k).p ∧
        ((t.updateWithMove a).node k).children = (t.node k).children) ∧
    (a ∉ (t.node t.root).children.map (·.1) → (t.updateWithMove a).node (t.updateWithMove a).root = ⟨none, [], 0, 0, 1, 1⟩) ∧
    ((t.updateWithMove a).node (t.updateWithMove a).root).parent = none := by
  refine ⟨fun ha p => ?_, fun ha => ?_, (MInv.move (minv_run evs (minv_fresh g) h) a).wf.rootParent⟩
  · obtain ⟨j, hj⟩ := (dictHas_iff_get _ _).1 ((dictHas_iff _ _).2 ha)
    refine ⟨updateWithMove_at_some hj p, fun k _ => ?_⟩
    obtain ⟨h1, h2, h3, h4⟩ := updateWithMove_some hj
    by_cases hk : k = j
    · subst hk; rw [h4]; exact ⟨rfl, rfl, rfl, rfl, rfl⟩
    · rw [h3 k hk]; exact ⟨rfl, rfl, rfl, rfl, rfl⟩
  · have hj := (dictGet_none_iff _ _).2 ha
    obtain ⟨h1, h2, h3, h4⟩ := updateWithMove_none hj
    rw [h1, h4]; rfl

theorem frame_run {g : MGame σ A} (evs : List (MEvent σ A)) : ∀ {t t' : MTree A} {log log' : List (List A × ℚ)}, MInv g t log →
    mrun g t log evs = .ok (t', log') → ∀ m, m < t.size → (∀ p, t.at t.root p ≠ some m) →
    t'.node m = t.node m ∧ ∀ p, t'.at t'.root p ≠ some m := by
  induction evs with
  | nil =>
    intro t t' log log' h e m hm hnr
    simp only [mrun, Except.ok.injEq, Prod.mk.injEq] at e
    obtain ⟨rfl, rfl⟩ := e
    exact ⟨rfl, hnr⟩
  | cons ev evs ih =>
    intro t t' log log' h e m hm hnr
    cases ev with
    | playout s depth =>
      rw [mrun] at e
      cases hp : t.playout g s depth with
      | error er => rw [hp] at e; cases e
      | ok r =>
        obtain ⟨t1, as⟩ := r
        rw [hp] at e
        simp only at e
        obtain ⟨t0, i, h1, h2, h3, h4, _, _, _, h8⟩ := playout_spec h hp
        have hs := h1.size
        have hnr0 : ∀ p, t0.at t.root p ≠ some m := fun p hp => hnr p (h1.at_old h.wf h2 p h.wf.rootLt hp hm)
        have hnr1 : ∀ p, t1.at t1.root p ≠ some m := by
          intro p
          rw [h4.root, h1.root, MTree.at_congr fun k => (h4.frame k).2.1]
          exact hnr0 p
        obtain ⟨i1, i2⟩ := ih (h.playout hp) e m (by rw [h4.size]; omega) hnr1
        refine ⟨?_, i2⟩
        rw [i1, h4.off m fun p _ => by rw [h1.root]; exact hnr0 p, h8 m hm hnr]
    | move a =>
      rw [mrun] at e
      have hkey : (t.updateWithMove a).node m = t.node m ∧ (∀ p, (t.updateWithMove a).at (t.updateWithMove a).root p ≠ some m) ∧ m < (t.updateWithMove a).size := by
        cases hj : dictGet (t.node t.root).children a with
        | some j =>
          obtain ⟨h1, h2, h3, h4⟩ := updateWithMove_some hj
          refine ⟨h3 m ?_, fun p => by rw [updateWithMove_at_some hj]; exact hnr _, by omega⟩
          rintro rfl
          exact hnr [a] (by rw [MTree.at, hj]; rfl)
        | none =>
          obtain ⟨h1, h2, h3, h4⟩ := updateWithMove_none hj
          refine ⟨h3 m (by omega), fun p hp => ?_, by omega⟩
          have := (updateWithMove_at_none hj hp).2
          omega
      obtain ⟨i1, i2⟩ := ih (h.move a) e m hkey.2.2 hkey.2.1
      exact ⟨by rw [i1, hkey.1], i2⟩

/-- **C58.** No later playout or step touches a node that is not below the root: after a step forward, the old root, the siblings of the new root and
everything below those keep all their numbers, children and parents for ever. -/
theorem C58_frame {g : MGame σ A} {evs evs' : List (MEvent σ A)} {t t' : MTree A} {log log' : List (List A × ℚ)}
    (h : mrun g MTree.fresh [] evs = .ok (t, log)) (h' : mrun g t log evs' = .ok (t', log')) {m : ℕ} (hm : m < t.size)
    (hnr : ∀ p, t.at t.root p ≠ some m) : t'.node m = t.node m :=
  (frame_run evs' (minv_run evs (minv_fresh g) h) h' m hm hnr).1

/-- **C58.** After a step forward, the old root and everything not below `a` is no longer below the root (so `C58_frame` applies to it). -/
theorem C58_above {t : MTree A} (a : A)
    {m : ℕ} (hm : m < t.size) (hnr : ∀ p, t.at t.root (a :: p) ≠ some m) :
    m < (t.updateWithMove a).size ∧ ∀ p, (t.updateWithMove a).at (t.updateWithMove a).root p ≠ some m := by
  cases hj : dictGet (t.node t.root).children a with
  | some j =>
    obtain ⟨h1, h2, h3, h4⟩ := updateWithMove_some hj
    exact ⟨by omega, fun p => by rw [updateWithMove_at_some hj]; exact hnr _⟩
  | none =>
    obtain ⟨h1, h2, h3, h4⟩ := updateWithMove_none hj
    refine ⟨by omega, fun p hp => ?_⟩
    have := (updateWithMove_at_none hj hp).2
    omega

/-! ## C71: the score that guides the descent -/

/-- **C71.** The moves of a playout are greedy for the score "mean value plus exploration bonus" of the playouts so far: at every position on the way,
among the children there, none has a larger score than the one taken. Here `P` is the prior stored in the node. -/
theorem C71_greedy {g : MGame σ A} {evs : List (MEvent σ A)} {t t' : MTree A} {log : List (List A × ℚ)} (h : mrun g MTree.fresh [] evs = .ok (t, log))
    {s : σ} {depth : ℕ} {as : List A} (e : t.playout g s depth = .ok (t', as)) {p : List A} {a : A} (hp : p ++ [a] <+: as) :
    ∃ k j, t'.at t'.root p = some k ∧ t'.at t'.root (p ++ [a]) = some j ∧ ∀ b j', (b, j') ∈ (t'.node k).children →
      Spec.mean log (p ++ [b]) + Spec.bonus g.cpuct g.sqrt (t'.node j').p log (p ++ [b]) ≤
        Spec.mean log (p ++ [a]) + Spec.bonus g.cpuct g.sqrt (t'.node j).p log (p ++ [a]) := by
  have hi := minv_run evs (minv_fresh g) h
  obtain ⟨t1, i, h1, h2, h3, h4, h5, _⟩ := playout_spec hi e
  have hi1 := hi.ext h1 h2
  obtain ⟨j, hj⟩ := MTree.at_prefix h3 hp
  obtain ⟨k, hk, hg⟩ := MTree.at_snoc.1 hj
  have hat : ∀ p, t'.at t'.root p = t1.at t.root p := by
    intro p; rw [h4.root, h1.root, MTree.at_congr fun k => (h4.frame k).2.1]
  refine ⟨k, j, by rw [hat]; exact hk, by rw [hat]; exact hj, fun b j' hb => ?_⟩
  rw [(h4.frame k).2.1] at hb
  have hmax := h5 p a hp k j hk hj b j' hb
  have hj' : t1.at t1.root (p ++ [b]) = some j' := by
    rw [h1.root]; exact MTree.at_snoc.2 ⟨k, hk, dictGet_of_mem (h2.keys k) hb⟩
  have hj1 : t1.at t1.root (p ++ [a]) = some j := by rw [h1.root]; exact hj
  unfold TNode.val at hmax
  rw [(hi1.stats _ _ hj').2, (hi1.stats _ _ hj1).2, hi1.score _ _ hj' (by simp), hi1.score _ _ hj1 (by simp)] at hmax
  rw [(h4.frame j').2.2, (h4.frame j).2.2]
  exact hmax

/-! ## C72: leaf values -/

/-- a rollout of at most `k` moves from `s` ends in `s'`: every move is the first of the most probable ones, and only a position without moves ends it early -/
inductive RolloutPlay (g : MGame σ A) : ℕ → σ → σ → Prop
  | limit (s) : RolloutPlay g 0 s s
  | stuck (k s) : g.rollout s = [] → RolloutPlay g (k + 1) s s
  | move (k s s') (before after : List (A × ℚ)) (a : A) (p : ℚ) : g.rollout s = before ++ (a, p) :: after → (∀ y ∈ before, y.2 < p) →
      (∀ y ∈ after, y.2 ≤ p) → RolloutPlay g k (g.doMove s a) s' → RolloutPlay g (k + 1) s s'

theorem rolloutPlay_iff (g : MGame σ A) : ∀ (k : ℕ) (s s' : σ), RolloutPlay g k s s' ↔ rolloutState g k s = s'
  | 0, s, s' => ⟨fun h => by cases h; rfl, fun h => by rw [← h]; exact .limit s⟩
  | k + 1, s, s' => by
    rw [rolloutState]
    cases hm : pyMax (fun ap : A × ℚ => ap.2) (g.rollout s) with
    | none =>
      have h0 := (pyMax_none _ _).1 hm
      simp only
      constructor
      · intro h
        cases h with
        | stuck => rfl
        | move _ _ _ b a x p h1 => rw [h0] at h1; simp at h1
      · rintro rfl; exact .stuck k s h0
    | some ap =>
      simp only
      obtain ⟨b, a, h1, h2, h3⟩ := pyMax_first.1 hm
      constructor
      · intro h
        cases h with
        | stuck _ _ h0 => rw [h0] at h1; simp at h1
        | move _ _ _ b' a' x p h1' h2' h3' h4 =>
          have := pyMax_first.2 ⟨b', a', h1', h2', h3'⟩
          obtain rfl := Option.some.inj (hm.symm.trans this)
          exact (rolloutPlay_iff g k _ _).1 h4
      · intro h
        exact .move k s s' b a ap.1 ap.2 h1 h2 h3 ((rolloutPlay_iff g k _ _).2 h)

/-- **C72.** For a mixing weight in [0, 1] the leaf value is the mixture of the value function and the result of the greedy rollout, which is
`1`, `0` or `-1`. -/
theorem C72_mixture {g : MGame σ A} (h0 : 0 ≤ g.lmbda) (h1 : g.lmbda ≤ 1) (s : σ) :
    ∃ (z : ℚ) (s' : σ), RolloutPlay g g.rolloutLimit s s' ∧ (z = 0 ∨ z = 1 ∨ z = -1) ∧ (z = 0 ↔ g.winner s' = 0) ∧
      (g.winner s' ≠ 0 → (z = 1 ↔ g.winner s' = g.player s)) ∧
      leafValue g s = (1 - g.lmbda) * g.value s + g.lmbda * z := by
  refine ⟨evaluateRollout g s, rolloutState g g.rolloutLimit s, (rolloutPlay_iff g _ _ _).2 rfl, ?_, ?_, ?_, ?_⟩
  · unfold evaluateRollout
    simp only
    split
    · exact .inl rfl
    · split
      · exact .inr (.inl rfl)
      · exact .inr (.inr rfl)
  · unfold evaluateRollout
    simp only
    split
    · simp_all
    · split <;> simp_all
  · intro hw
    unfold evaluateRollout
    simp only
    rw [if_neg hw]
    split
    · simp_all
    · rename_i h
      simp only [h, iff_false]
      norm_num
  · unfold leafValue
    simp only
    rcases eq_or_lt_of_le h0 with h0 | h0
    · rw [← h0]; simp
    · rw [if_pos h0]
      rcases eq_or_lt_of_le h1 with h1 | h1
      · rw [h1]; simp
      · rw [if_pos h1]

/-- **C72.** If the value function stays in [-1, 1] and the weight in [0, 1], every node's `Q` stays in [-1, 1], after any history. -/
theorem C72_bounded {g : MGame σ A} (h0 : 0 ≤ g.lmbda) (h1 : g.lmbda ≤ 1) (hv : ∀ s, -1 ≤ g.value s ∧ g.value s ≤ 1)
    {evs : List (MEvent σ A)} {t : MTree A} {log : List (List A × ℚ)} (h : mrun g MTree.fresh [] evs = .ok (t, log))
    {p : List A} {k : ℕ} (hk : t.at t.root p = some k) : -1 ≤ (t.node k).q ∧ (t.node k).q ≤ 1 := by
  have hleaf : ∀ s, -1 ≤ leafValue g s ∧ leafValue g s ≤ 1 := by
    intro s
    obtain ⟨z, _, _, hz, _, _, e⟩ := C72_mixture h0 h1 s
    rw [e]
    have := hv s
    have hz' : -1 ≤ z ∧ z ≤ 1 := by rcases hz with rfl | rfl | rfl <;> norm_num
    constructor <;> nlinarith [mul_le_mul_of_nonneg_left hz'.1 h0, mul_le_mul_of_nonneg_left hz'.2 h0,
      mul_le_mul_of_nonneg_left this.1 (sub_nonneg.2 h1), mul_le_mul_of_nonneg_left this.2 (sub_nonneg.2 h1)]
  have hlog : ∀ (evs : List (MEvent σ A)) {t t' : MTree A} {log log' : List (List A × ℚ)}, (∀ e ∈ log, -1 ≤ e.2 ∧ e.2 ≤ 1) →
      mrun g t log evs = .ok (t', log') → ∀ e ∈ log', -1 ≤ e.2 ∧ e.2 ≤ 1 := by
    intro evs
    induction evs with
    | nil =>
      intro t t' log log' hl e
      simp only [mrun, Except.ok.injEq, Prod.mk.injEq] at e
      obtain ⟨_, rfl⟩ := e
      exact hl
    | cons ev evs ih =>
      intro t t' log log' hl e
      cases ev with
      | playout s depth =>
        rw [mrun] at e
        cases hp : t.playout g s depth with
        | error er => rw [hp] at e; cases e
        | ok r =>
          rw [hp] at e
          refine ih ?_ e
          intro e he
          rcases List.mem_cons.1 he with rfl | he
          · exact hleaf _
          · exact hl e he
      | move a =>
        refine ih ?_ e
        rintro ⟨bs, v⟩ he
        exact hl (a :: bs, v) (Spec.mem_strip.1 he)
  have hi := minv_run evs (minv_fresh g) h
  have hb := hlog evs (by simp) h
  rw [(hi.stats p k hk).2]
  unfold Spec.mean
  by_cases hz : Spec.visits log p = 0
  · rw [hz]; norm_num
  · have hpos : (0 : ℚ) < Spec.visits log p := by exact_mod_cast Nat.pos_of_ne_zero hz
    have hsum : ∀ l : List (List A × ℚ), (∀ e ∈ l, -1 ≤ e.2 ∧ e.2 ≤ 1) → -(l.length : ℚ) ≤ (l.map (·.2)).sum ∧ (l.map (·.2)).sum ≤ l.length := by
      intro l
      induction l with
      | nil => simp
      | cons e l ih =>
        intro hl
        obtain ⟨i1, i2⟩ := ih fun e he => hl e (List.mem_cons_of_mem _ he)
        obtain ⟨j1, j2⟩ := hl e (by simp)
        simp only [List.map_cons, List.sum_cons, List.length_cons]
        push_cast
        constructor <;> linarith
    obtain ⟨s1, s2⟩ := hsum (Spec.through log p) fun e he => hb e (List.mem_of_mem_filter he)
    change -((Spec.visits log p : ℕ) : ℚ) ≤ _ at s1
    change _ ≤ ((Spec.visits log p : ℕ) : ℚ) at s2
    constructor
    · rw [le_div_iff₀ hpos]; linarith
    · rw [div_le_iff₀ hpos]; linarith

/-! ## a concrete search -/

/-- a game on the numbers: from `s < 3` the moves are 1 and 2; the player wins unless the game ends at 3 -/
def exGame : MGame ℕ ℕ where
  policy s := if s < 3 then [(1, 1/2), (2, 1/4), (1, 3/4)] else []
  value s := (s : ℚ) / 10
  rollout s := if s < 3 then [(1, 1)] else []
  doMove s a := s + a
  player _ := 2
  winner s := if s = 3 then 1 else 2
  lmbda := 1/2
  cpuct := 1
  rolloutLimit := 10
  sqrt _ := 1
  py2 := true
  iter l := l.reverse
  iter_perm := List.reverse_perm

/-- four playouts, a step forward along the move chosen first, one more playout -/
def exEvents : List (MEvent ℕ ℕ) := [.playout 0 4, .playout 0 4, .playout 0 2, .playout 0 4, .move 1, .playout 1 3]

/-- a search with this history exists: its playouts so far, the root's count and mean, the root and the number of nodes -/
theorem exSearch : ((mrun exGame MTree.fresh [] exEvents).toOption.map fun r => (r.2, (r.1.node r.1.root).n, (r.1.node r.1.root).q, r.1.root, r.1.size)) =
    some ([([1, 2], 7 / 10), ([1, 2], 7 / 10), ([2], -7 / 20), ([1, 1], -7 / 20)], 4, 7 / 40, 1, 9) := by decide +kernel

/-- the first move chosen -/
example : ((MTree.fresh.getMove exGame 0 4 5).toOption.map (·.2)) = some 1 := by decide +kernel

example : (0 : ℚ) ≤ exGame.lmbda ∧ exGame.lmbda ≤ 1 := by decide +kernel

end Verif
