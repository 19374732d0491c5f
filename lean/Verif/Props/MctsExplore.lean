import Verif.Props.Mcts
import Mathlib.Data.Rat.Floor
import Mathlib.Algebra.Order.Archimedean.Basic

/-! # C92: which actions the tree search tries -/

namespace Verif

variable {σ A : Type} [DecidableEq A]

/-! ## a playout never raises (on Python 2) -/

theorem descend_ok {g : MGame σ A} (hpy : g.py2 = true) : ∀ (d : ℕ) {t : MTree A} {i : ℕ} (s : σ), t.WF → i < t.size →
    ∃ t' k s' as, t.descend g d i s = .ok (t', k, s', as) ∧
      (t'.node i).children = (if d = 0 ∨ (t.node i).children ≠ [] then (t.node i).children else ((t.expand i (g.policy s)).node i).children) ∧
      (∀ j, j < t.size → (∀ p, t.at i p ≠ some j) → t'.node j = t.node j) ∧
      (d ≠ 0 → as = [] → (t.node i).children = [] ∧ g.policy s = []) := by
  intro d
  induction d with
  | zero => intro t i s _ _; exact ⟨t, i, s, [], rfl, by simp, fun _ _ _ => rfl, fun h => absurd rfl h⟩
  | succ d ih =>
    intro t i s hw hi
    rw [MTree.descend]
    simp only
    by_cases hb : ((t.node i).children.isEmpty && (g.policy s).isEmpty) = true
    · rw [if_pos hb]
      rw [Bool.and_eq_true, List.isEmpty_iff, List.isEmpty_iff] at hb
      refine ⟨_, _, _, _, rfl, ?_, fun _ _ _ => rfl, fun _ _ => hb⟩
      rw [hb.2, hb.1]
      simp [MTree.expand, hb.1]
    · rw [if_neg hb]
      have h1 : ∃ t1, (if (t.node i).children.isEmpty = true then t.expand i (g.policy s) else t) = t1 ∧ t1.WF ∧ t.Ext t1 ∧
          (∀ k, k < t.size → k ≠ i → t1.node k = t.node k) ∧ (t1.node i).children ≠ [] ∧
          (t1.node i).children = (if d + 1 = 0 ∨ (t.node i).children ≠ [] then (t.node i).children else ((t.expand i (g.policy s)).node i).children) := by
        by_cases hl : (t.node i).children.isEmpty = true
        · rw [if_pos hl]
          rw [List.isEmpty_iff] at hl
          obtain ⟨a1, a2, a3⟩ := MTree.expand_spec hw hi (g.policy s)
          exact ⟨_, rfl, a1, a2, a3, MTree.expand_nonempty hw hi (fun h => hb (by simp [hl, h])), by simp [hl]⟩
        · rw [if_neg hl]
          rw [List.isEmpty_iff] at hl
          exact ⟨_, rfl, hw, MTree.Ext.refl t, fun _ _ _ => rfl, hl, by simp [hl]⟩
      obtain ⟨t1, e1, hw1, hx1, hf1, hne, hch⟩ := h1
      rw [e1]
      have hsel : ∃ a j, t1.select g i = .ok (a, j) ∧ (a, j) ∈ (t1.node i).children := by
        unfold MTree.select
        rw [hpy]
        simp only [if_true]
        cases hm : pyMax (fun an : A × ℕ => (t1.node an.2).val) (g.iter (t1.node i).children) with
        | none => exact absurd ((pyMax_iter_none _ _).1 hm) hne
        | some an => exact ⟨an.1, an.2, rfl, (pyMax_iter hm).1⟩
      obtain ⟨a, j, hs, hmem⟩ := hsel
      have hkid := hw1.kid _ _ _ hmem
      have hs1 := hx1.size
      obtain ⟨t', k, s', as, e, _, hfr, _⟩ := ih (t := t1) (i := j) (g.doMove s a) hw1 hkid.2
      rw [hs]
      simp only
      rw [e]
      refine ⟨t', k, s', a :: as, rfl, ?_, ?_, fun _ h => by simp at h⟩
      · rw [hfr i (by omega), hch]
        intro p hp
        have := (hw1.at_ge _ hp).1
        omega
      · intro m hm hnr
        have hmi : m ≠ i := fun h => hnr [] (by rw [h]; rfl)
        rw [hfr m (by omega), hf1 m hm hmi]
        intro p hp
        have hp1 : t1.at i (a :: p) = some m := by rw [MTree.at, dictGet_of_mem (hw1.keys i) hmem]; exact hp
        exact hnr _ (hx1.at_old hw hw1 _ hi hp1 hm)

/-- a playout succeeds; the root keeps its children, or gets those of the policy if it had none -/
theorem playout_ok {g : MGame σ A} (hpy : g.py2 = true) {t : MTree A} {log : List (List A × ℚ)} (h : MInv g t log) (s : σ) (depth : ℕ) :
    ∃ t' as, t.playout g s depth = .ok (t', as) ∧ t'.root = t.root ∧
      (t'.node t.root).children = (if depth = 0 ∨ (t.node t.root).children ≠ [] then (t.node t.root).children
        else ((t.expand t.root (g.policy s)).node t.root).children) ∧
      (depth ≠ 0 → as = [] → (t.node t.root).children = [] ∧ g.policy s = []) := by
  obtain ⟨t1, k, s', as, e, e1, _, e3⟩ := descend_ok hpy depth (i := t.root) s h.wf h.wf.rootLt
  have hp : t.playout g s depth = .ok (t1.updateRec g.sqrt t1.size k (leafValue g s') g.cpuct, as) := by
    unfold MTree.playout; rw [e]
  obtain ⟨r1, r2, r3, r4, _⟩ := MTree.descend_spec g depth h.wf h.wf.rootLt e
  have hb := MTree.updateRec_spec g.sqrt r1 (leafValue g s') g.cpuct as t1.size (r1.at_lt (by have := r2.size; have := h.wf.rootLt; omega) r3)
    (by rw [r2.root]; exact r3)
  exact ⟨_, _, hp, by rw [hb.root, r2.root], by rw [(hb.frame _).2.1, e1], e3⟩

theorem playouts_ok {g : MGame σ A} (hpy : g.py2 = true) (s : σ) (depth : ℕ) : ∀ (n : ℕ) {t : MTree A} {log : List (List A × ℚ)}, MInv g t log →
    ∃ t' ass, t.playouts g s depth n = .ok (t', ass) := by
  intro n
  induction n with
  | zero => intro t log _; exact ⟨t, [], rfl⟩
  | succ n ih =>
    intro t log h
    obtain ⟨t1, as, e, _⟩ := playout_ok hpy h s depth
    obtain ⟨t2, ass, e2⟩ := ih (h.playout e)
    exact ⟨t2, as :: ass, by rw [MTree.playouts, e]; simp only; rw [e2]⟩

/-! ## one playout, seen from the children of the root -/

/-- the statistics of a node -/
def TNode.stat (x : TNode A) : ℕ × ℚ × ℚ × ℚ := (x.n, x.q, x.u, x.p)

/-- one playout from a root with children: a child of largest score is taken and updated, the others keep their statistics -/
theorem playout_step {g : MGame σ A} {t t' : MTree A} {log : List (List A × ℚ)} (h : MInv g t log) (hne : (t.node t.root).children ≠ [])
    {s : σ} {depth : ℕ} (hd : depth ≠ 0) {as : List A} (hpy : g.py2 = true) (e : t.playout g s depth = .ok (t', as)) :
    t'.root = t.root ∧ (t'.node t'.root).children = (t.node t.root).children ∧ (t'.node t'.root).n = (t.node t.root).n + 1 ∧
    ∃ a ja rest, as = a :: rest ∧ (a, ja) ∈ (t.node t.root).children ∧
      (∀ b jb, (b, jb) ∈ (t.node t.root).children → (t.node jb).val ≤ (t.node ja).val ∧ (b ≠ a → (t'.node jb).stat = (t.node jb).stat)) ∧
      (t'.node ja).n = (t.node ja).n + 1 ∧ (t'.node ja).p = (t.node ja).p ∧
      (t'.node ja).q = (t.node ja).q + (leafValue g (as.foldl g.doMove s) - (t.node ja).q) / ((t.node ja).n + 1 : ℕ) ∧
      (t'.node ja).u = g.cpuct * (t.node ja).p * g.sqrt ((t.node t.root).n + 1) / (1 + ((t.node ja).n + 1 : ℕ)) := by
  obtain ⟨t2, as2, e2, hr, hch, hnil⟩ := playout_ok hpy h s depth
  rw [e] at e2
  injection e2 with e2
  obtain ⟨rfl, rfl⟩ := Prod.mk.inj e2
  rw [if_pos (.inr hne)] at hch
  obtain ⟨t1, i, x1, x2, x3, x4, x5, x6, _⟩ := playout_spec h e
  have hlt := h.wf.rootLt
  have hold := x1.old t.root hlt
  have hch1 : (t1.node t.root).children = (t.node t.root).children := by rw [← (x4.frame t.root).2.1]; exact hch
  have hroot := x4.on [] t.root (List.nil_prefix) (by rw [x1.root]; rfl)
  refine ⟨hr, by rw [hr]; exact hch, by rw [hr, hroot.1, hold.2.1], ?_⟩
  cases as with
  | nil => exact absurd (hnil hd rfl).1 hne
  | cons a rest =>
    obtain ⟨ja, hja⟩ := MTree.at_prefix x3 (show [a] <+: a :: rest from ⟨rest, rfl⟩)
    have hga : dictGet (t.node t.root).children a = some ja := by
      rw [MTree.at, hch1] at hja
      cases hg : dictGet (t.node t.root).children a with
      | none => rw [hg] at hja; cases hja
      | some m => rw [hg] at hja; exact hja
    have hma : (a, ja) ∈ (t.node t.root).children := dictGet_mem hga
    have hka := (h.wf.kid _ _ _ hma).2
    have hoa := x1.old ja hka
    have hat1 : ∀ b jb, (b, jb) ∈ (t.node t.root).children → t1.at t1.root [b] = some jb := by
      intro b jb hb
      rw [x1.root, MTree.at, hch1, dictGet_of_mem (h.wf.keys _) hb]; rfl
    have hon := x4.on [a] ja ⟨rest, rfl⟩ (hat1 a ja hma)
    refine ⟨a, ja, rest, rfl, hma, fun b jb hb => ⟨?_, fun hba => ?_⟩, by rw [hon.1, hoa.2.1], by rw [(x4.frame ja).2.2, hoa.2.2.2.2],
      by rw [hon.2.1, hoa.2.2.1, hoa.2.1], ?_⟩
    · have := x5 [] a ⟨rest, rfl⟩ t.root ja rfl hja b jb (by rw [hch1]; exact hb)
      have hob := x1.old jb (h.wf.kid _ _ _ hb).2
      simp only [TNode.val] at this ⊢
      rwa [hob.2.2.1, hob.2.2.2.1, hoa.2.2.1, hoa.2.2.2.1] at this
    · have hob := x1.old jb (h.wf.kid _ _ _ hb).2
      have hoff := x4.off jb (by
        intro p hp hpk
        have := x2.at_inj p [b] hpk (hat1 b jb hb)
        subst this
        rw [List.cons_prefix_cons] at hp
        exact hba hp.1)
      rw [hoff]
      simp only [TNode.stat, hob.2.1, hob.2.2.1, hob.2.2.2.1, hob.2.2.2.2]
    · have := hon.2.2 [] a t.root rfl (by rw [x1.root]; rfl)
      rw [this, hoa.2.2.2.2, hoa.2.1, hroot.1, hold.2.1]

/-- **C92.** The score of a position changes only when a playout passes through it: after any history, a playout with the moves `as` leaves visit count, mean,
bonus and prior of every position that `as` does not pass through as they were. -/
theorem C92_frozen {g : MGame σ A} {evs : List (MEvent σ A)} {t t' : MTree A} {log : List (List A × ℚ)} (h : mrun g MTree.fresh [] evs = .ok (t, log))
    {s : σ} {depth : ℕ} {as : List A} (e : t.playout g s depth = .ok (t', as)) {p : List A} {k : ℕ} (hk : t.at t.root p = some k) (hp : ¬ p <+: as) :
    t'.at t'.root p = some k ∧ (t'.node k).n = (t.node k).n ∧ (t'.node k).q = (t.node k).q ∧ (t'.node k).u = (t.node k).u ∧
      (t'.node k).p = (t.node k).p ∧ (t'.node k).val = (t.node k).val := by
  have hi := minv_run evs (minv_fresh g) h
  obtain ⟨t1, i, x1, x2, x3, x4, _⟩ := playout_spec hi e
  have hlt := hi.wf.at_lt hi.wf.rootLt hk
  have hk1 : t1.at t1.root p = some k := by rw [x1.root]; exact x1.at_mono hi.wf p hi.wf.rootLt hk
  have hob := x1.old k hlt
  have hoff := x4.off k (fun q hq hqk => hp (by rw [x2.at_inj p q hk1 hqk]; exact hq))
  refine ⟨?_, ?_⟩
  · rw [x4.root, MTree.at_congr fun k => (x4.frame k).2.1]; exact hk1
  · rw [hoff]
    exact ⟨hob.2.1, hob.2.2.1, hob.2.2.2.1, hob.2.2.2.2, by simp [TNode.val, hob.2.2.1, hob.2.2.2.1]⟩

/-! ## starvation -/

theorem starve {g : MGame σ A} (hpy : g.py2 = true) (hc : 0 ≤ g.cpuct) (hs : ∀ k, 0 ≤ g.sqrt k) {s : σ} {depth : ℕ} {a b : A} {S : ℚ}
    (hv : ∀ rest, S < leafValue g ((a :: rest).foldl g.doMove s)) : ∀ (n : ℕ) {t t' : MTree A} {log : List (List A × ℚ)} {ass : List (List A)} {ja jb : ℕ},
    MInv g t log → (a, ja) ∈ (t.node t.root).children → (b, jb) ∈ (t.node t.root).children → 0 ≤ (t.node ja).p →
    ((t.node ja).n = 0 ∨ S < (t.node ja).q) → S < (t.node ja).val → (t.node jb).val = S →
    t.playouts g s depth n = .ok (t', ass) → ∀ as ∈ ass, as.head? ≠ some b := by
  intro n
  induction n with
  | zero =>
    intro t t' log ass ja jb _ _ _ _ _ _ _ e
    simp only [MTree.playouts, Except.ok.injEq, Prod.mk.injEq] at e
    rw [← e.2]; simp
  | succ n ih =>
    intro t t' log ass ja jb h ha hb hp hq hva hvb e
    rw [MTree.playouts] at e
    obtain ⟨t1, as, e1, hr1, hch1, _⟩ := playout_ok hpy h s depth
    have hne : (t.node t.root).children ≠ [] := fun h0 => by rw [h0] at ha; cases ha
    rw [if_pos (.inr hne)] at hch1
    rw [e1] at e
    simp only at e
    cases e2 : t1.playouts g s depth n with
    | error er => rw [e2] at e; cases e
    | ok r =>
      obtain ⟨t2, ass2⟩ := r
      rw [e2] at e
      simp only [Except.ok.injEq, Prod.mk.injEq] at e
      obtain ⟨rfl, rfl⟩ := e
      by_cases hd : depth = 0
      · -- only the root is visited
        subst hd
        have has : as = [] := by
          obtain ⟨_, _, _, _, _, _, _, x6, _⟩ := playout_spec h e1
          exact List.length_eq_zero_iff.1 (by omega)
        obtain ⟨t3, i, x1, x2, x3, x4, _⟩ := playout_spec h e1
        have hkeep : ∀ c jc, (c, jc) ∈ (t.node t.root).children → (t1.node jc).stat = (t.node jc).stat := by
          intro c jc hcm
          have hkid := h.wf.kid _ _ _ hcm
          have hob := x1.old jc hkid.2
          have hoff := x4.off jc (by
            intro p hp hpk
            rw [has, List.prefix_nil] at hp
            subst hp
            simp only [MTree.at, Option.some.injEq] at hpk
            rw [x1.root] at hpk
            omega)
          rw [hoff]
          simp only [TNode.stat, hob.2.1, hob.2.2.1, hob.2.2.2.1, hob.2.2.2.2]
        have hka := hkeep a ja ha
        have hkb := hkeep b jb hb
        simp only [TNode.stat, Prod.mk.injEq] at hka hkb
        intro as' has'
        rcases List.mem_cons.1 has' with rfl | has'
        · rw [has]; simp
        · refine ih (h.playout e1) (ja := ja) (jb := jb) (by rw [hr1, hch1]; exact ha) (by rw [hr1, hch1]; exact hb) (by rw [hka.2.2.2]; exact hp)
            (by rw [hka.1, hka.2.1]; exact hq) ?_ ?_ e2 as' has'
          · simp only [TNode.val] at hva ⊢; rw [hka.2.1, hka.2.2.1]; exact hva
          · simp only [TNode.val] at hvb ⊢; rw [hkb.2.1, hkb.2.2.1]; exact hvb
      · obtain ⟨_, _, _, a', ja', rest, rfl, hma', hall, hn', hp', hq', hu'⟩ := playout_step h hne hd hpy e1
        have hba : b ≠ a' := by
          rintro rfl
          have := (hall a ja ha).1
          have hj : ja' = jb := by
            have e1 := dictGet_of_mem (h.wf.keys _) hma'
            rw [dictGet_of_mem (h.wf.keys _) hb] at e1
            exact (Option.some.inj e1).symm
          rw [hj, hvb] at this
          exact absurd hva (not_lt.2 this)
        have hkb := (hall b jb hb).2 hba
        simp only [TNode.stat, Prod.mk.injEq] at hkb
        have hvb' : (t1.node jb).val = S := by simp only [TNode.val] at hvb ⊢; rw [hkb.2.1, hkb.2.2.1]; exact hvb
        -- the state of `a` after the playout
        have hA : 0 ≤ (t1.node ja).p ∧ ((t1.node ja).n = 0 ∨ S < (t1.node ja).q) ∧ S < (t1.node ja).val := by
          by_cases haa : a = a'
          · subst haa
            have hj : ja' = ja := by
              have e1 := dictGet_of_mem (h.wf.keys _) hma'
              rw [dictGet_of_mem (h.wf.keys _) ha] at e1
              exact (Option.some.inj e1).symm
            subst hj
            have hv' := hv rest
            have hqq : S < (t1.node ja').q := by
              rw [hq']
              have hpos : (0 : ℚ) < ((t.node ja').n + 1 : ℕ) := by positivity
              rcases hq with h0 | h0
              · rw [h0]; simp only [Nat.zero_add, Nat.cast_one, div_one]; linarith
              · rcases le_total (t.node ja').q (leafValue g (List.foldl g.doMove s (a :: rest))) with hle | hle
                · have : 0 ≤ (leafValue g (List.foldl g.doMove s (a :: rest)) - (t.node ja').q) / ((t.node ja').n + 1 : ℕ) :=
                    div_nonneg (by linarith) hpos.le
                  linarith
                · have : leafValue g (List.foldl g.doMove s (a :: rest)) - (t.node ja').q ≤
                      (leafValue g (List.foldl g.doMove s (a :: rest)) - (t.node ja').q) / ((t.node ja').n + 1 : ℕ) := by
                    rw [le_div_iff₀ hpos]
                    have h1 : (1 : ℚ) ≤ ((t.node ja').n + 1 : ℕ) := by push_cast; linarith [Nat.cast_nonneg (α := ℚ) (t.node ja').n]
                    nlinarith
                  linarith
            have huu : 0 ≤ (t1.node ja').u := by
              rw [hu']
              exact div_nonneg (mul_nonneg (mul_nonneg hc hp) (hs _)) (by positivity)
            exact ⟨by rw [hp']; exact hp, .inr hqq, by simp only [TNode.val]; linarith⟩
          · have hka := (hall a ja ha).2 haa
            simp only [TNode.stat, Prod.mk.injEq] at hka
            refine ⟨by rw [hka.2.2.2]; exact hp, by rw [hka.1, hka.2.1]; exact hq, ?_⟩
            simp only [TNode.val] at hva ⊢; rw [hka.2.1, hka.2.2.1]; exact hva
        intro as' has'
        rcases List.mem_cons.1 has' with rfl | has'
        · simp only [List.head?_cons, ne_eq, Option.some.injEq]; exact fun h => hba h.symm
        · exact ih (h.playout e1) (ja := ja) (jb := jb) (by rw [hr1, hch1]; exact ha) (by rw [hr1, hch1]; exact hb) hA.1 hA.2.1 hA.2.2 hvb' e2 as' has'

/-- **C92 (starvation).** After any history: if the actions `a` and `b` are expanded at the root, `a` has the larger score, has been valued above the score of `b` so far, and
every leaf after `a` is worth more than the score of `b`, then no playout tries `b`, however many are made: the score of `b` is not raised while it waits. -/
theorem C92_starved {g : MGame σ A} {evs : List (MEvent σ A)} {t : MTree A} {log : List (List A × ℚ)} (h : mrun g MTree.fresh [] evs = .ok (t, log))
    (hpy : g.py2 = true) (hc : 0 ≤ g.cpuct) (hs : ∀ k, 0 ≤ g.sqrt k) {s : σ} {a b : A} {ja jb : ℕ}
    (ha : t.at t.root [a] = some ja) (hb : t.at t.root [b] = some jb) (hp : 0 ≤ (t.node ja).p) (hab : (t.node jb).val < (t.node ja).val)
    (hq : (t.node ja).n = 0 ∨ (t.node jb).val < (t.node ja).q) (hv : ∀ rest, (t.node jb).val < leafValue g ((a :: rest).foldl g.doMove s))
    (n depth : ℕ) : ∃ t' ass, t.playouts g s depth n = .ok (t', ass) ∧ ass.length = n ∧ ∀ as ∈ ass, as.head? ≠ some b := by
  have hi := minv_run evs (minv_fresh g) h
  have hmem : ∀ {c : A} {j : ℕ}, t.at t.root [c] = some j → (c, j) ∈ (t.node t.root).children := by
    intro c j hj
    rw [MTree.at] at hj
    cases hg : dictGet (t.node t.root).children c with
    | none => rw [hg] at hj; cases hj
    | some m => rw [hg] at hj; simp only [MTree.at, Option.some.injEq] at hj; rw [← hj]; exact dictGet_mem hg
  obtain ⟨t', ass, e⟩ := playouts_ok hpy s depth n hi
  exact ⟨t', ass, e, (playouts_run n log e).2, starve hpy hc hs hv n hi (hmem ha) (hmem hb) hp hq hab rfl e⟩

/-- on a root without children, a playout begins by expanding it -/
theorem playouts_expanded {g : MGame σ A} {s : σ} {depth : ℕ} (hd : depth ≠ 0) (hpol : g.policy s ≠ []) (n : ℕ) :
    (MTree.fresh : MTree A).playouts g s depth (n + 1) = ((MTree.fresh : MTree A).expand 0 (g.policy s)).playouts g s depth (n + 1) := by
  have hne := MTree.expand_nonempty (t := (MTree.fresh : MTree A)) MTree.wf_fresh (i := 0) (show 0 < 1 by omega) hpol
  obtain ⟨_, h2, _⟩ := MTree.expand_spec (t := (MTree.fresh : MTree A)) MTree.wf_fresh (i := 0) (show 0 < 1 by omega) (g.policy s)
  obtain ⟨d, rfl⟩ := Nat.exists_eq_succ_of_ne_zero hd
  have hdes : (MTree.fresh : MTree A).descend g (d + 1) 0 s = ((MTree.fresh : MTree A).expand 0 (g.policy s)).descend g (d + 1) 0 s := by
    rw [MTree.descend, MTree.descend]
    have e1 : ((MTree.fresh : MTree A).node 0).children.isEmpty = true := rfl
    have e2 : (((MTree.fresh : MTree A).expand 0 (g.policy s)).node 0).children.isEmpty = false := by
      rw [Bool.eq_false_iff]; intro h; rw [List.isEmpty_iff] at h; exact hne h
    have e3 : (g.policy s).isEmpty = false := by
      rw [Bool.eq_false_iff]; intro h; rw [List.isEmpty_iff] at h; exact hpol h
    simp only [e1, e2, e3, Bool.true_and, Bool.false_and, Bool.false_eq_true, if_false, if_true]
  rw [MTree.playouts, MTree.playouts]
  have hp : (MTree.fresh : MTree A).playout g s (d + 1) = ((MTree.fresh : MTree A).expand 0 (g.policy s)).playout g s (d + 1) := by
    unfold MTree.playout
    rw [h2.root]
    change (match (MTree.fresh : MTree A).descend g (d + 1) 0 s with | .error e => _ | .ok (t', i, s', as) => _) =
      (match ((MTree.fresh : MTree A).expand 0 (g.policy s)).descend g (d + 1) 0 s with | .error e => _ | .ok (t', i, s', as) => _)
    rw [hdes]
  rw [hp]

theorem heads_ne {g : MGame σ A} {s : σ} {depth : ℕ} (hd : depth ≠ 0) (hpy : g.py2 = true) : ∀ (n : ℕ) {t t' : MTree A} {log : List (List A × ℚ)} {ass : List (List A)},
    MInv g t log → (t.node t.root).children ≠ [] → t.playouts g s depth n = .ok (t', ass) →
    ∀ as ∈ ass, ∃ a, as.head? = some a ∧ a ∈ (t.node t.root).children.map (·.1) := by
  intro n
  induction n with
  | zero =>
    intro t t' log ass _ _ e
    simp only [MTree.playouts, Except.ok.injEq, Prod.mk.injEq] at e
    rw [← e.2]; simp
  | succ n ih =>
    intro t t' log ass h hne e
    rw [MTree.playouts] at e
    obtain ⟨t1, as, e1, _⟩ := playout_ok hpy h s depth
    rw [e1] at e
    simp only at e
    cases e2 : t1.playouts g s depth n with
    | error er => rw [e2] at e; cases e
    | ok r =>
      obtain ⟨t2, ass2⟩ := r
      rw [e2] at e
      simp only [Except.ok.injEq, Prod.mk.injEq] at e
      obtain ⟨rfl, rfl⟩ := e
      obtain ⟨hr, hch, _, a', ja', rest, rfl, hma', _⟩ := playout_step h hne hd hpy e1
      intro as' has'
      rcases List.mem_cons.1 has' with rfl | has'
      · exact ⟨a', rfl, List.mem_map.2 ⟨_, hma', rfl⟩⟩
      · have := ih (h.playout e1) (by rw [hch]; exact hne) e2 as' has'
        rwa [hch] at this

/-- **C92 (starvation in a new search).** If the policy lists `a` with a larger prior than `b`, and every leaf after `a` is worth more than the prior of `b`, then
`get_move` never tries `b` and never returns it, whatever the number and depth of the playouts and however good `b` is. -/
theorem C92_starved_new {g : MGame σ A} (hpy : g.py2 = true) (hc : 0 ≤ g.cpuct) (hs : ∀ k, 0 ≤ g.sqrt k) {s : σ} {a b : A} {Pa Pb : ℚ}
    (ha : firstPrior (g.policy s) a = some Pa) (hb : firstPrior (g.policy s) b = some Pb) (h0 : 0 ≤ Pa) (hab : Pb < Pa)
    (hv : ∀ rest, Pb < leafValue g ((a :: rest).foldl g.doMove s)) (n depth : ℕ) (hn : n ≠ 0) (hd : depth ≠ 0) :
    (∃ t' ass, MTree.fresh.playouts g s depth n = .ok (t', ass) ∧ ass.length = n ∧ ∀ as ∈ ass, as.head? ≠ some b) ∧
    ∃ t' x, MTree.fresh.getMove g s depth n = .ok (t', x) ∧ x ≠ b := by
  have hpol : g.policy s ≠ [] := fun h => by rw [h] at ha; cases ha
  obtain ⟨n, rfl⟩ := Nat.exists_eq_succ_of_ne_zero hn
  have hex := playouts_expanded (g := g) hd hpol n
  have hw : (MTree.fresh : MTree A).WF := MTree.wf_fresh
  obtain ⟨w1, w2, _⟩ := MTree.expand_spec hw (i := 0) (show 0 < 1 by omega) (g.policy s)
  have hi : MInv g ((MTree.fresh : MTree A).expand 0 (g.policy s)) [] := (minv_fresh g).ext w2 w1
  have hroot : ((MTree.fresh : MTree A).expand 0 (g.policy s)).root = 0 := w2.root
  obtain ⟨ja, _, ja2, ja3⟩ := (expand_get hw (i := 0) (show 0 < 1 by omega) (g.policy s) a).2.1 rfl Pa ha
  obtain ⟨jb, _, jb2, jb3⟩ := (expand_get hw (i := 0) (show 0 < 1 by omega) (g.policy s) b).2.1 rfl Pb hb
  obtain ⟨t', ass, e⟩ := playouts_ok hpy s depth (n + 1) hi
  have hma := dictGet_mem ja2
  have hno : ∀ as ∈ ass, as.head? ≠ some b :=
    starve hpy hc hs hv (n + 1) hi (by rw [hroot]; exact hma) (by rw [hroot]; exact dictGet_mem jb2) (by rw [ja3]; exact h0)
      (.inl (by rw [ja3])) (by rw [ja3]; simp only [TNode.val]; linarith) (by rw [jb3]; simp [TNode.val]) e
  have hrun := playouts_run (n + 1) [] e
  refine ⟨⟨t', ass, by rw [hex]; exact e, hrun.2, hno⟩, ?_⟩
  have hheads := heads_ne hd hpy (n + 1) hi (fun h => by rw [hroot] at h; rw [h] at hma; cases hma) e
  have hrun' := playouts_run (n + 1) ([] : List (List A × ℚ)) (hex.trans e)
  have hmi : MInv g t' _ := minv_run _ hi hrun.1
  -- the first playout went somewhere, so the root has children
  obtain ⟨as0, has0⟩ : ∃ as, as ∈ ass := List.exists_mem_of_ne_nil _ (fun h => by have := hrun.2; rw [h] at this; simp at this)
  obtain ⟨y, hy, _⟩ := hheads as0 has0
  have hlog0 : (as0, leafValue g (as0.foldl g.doMove s)) ∈ (ass.map fun as => (as, leafValue g (as.foldl g.doMove s))).reverse ++ ([] : List (List A × ℚ)) := by
    simp only [List.append_nil, List.mem_reverse, List.mem_map]
    exact ⟨as0, has0, rfl⟩
  have hget : ∃ x, MTree.fresh.getMove g s depth (n + 1) = .ok (t', x) := by
    unfold MTree.getMove
    rw [hex, e]
    simp only [hpy, if_true]
    cases hm : pyMax (fun an : A × ℕ => ((t'.node an.2).n : ℚ)) (g.iter (t'.node t'.root).children) with
    | some an => exact ⟨an.1, rfl⟩
    | none =>
      exfalso
      rw [pyMax_iter_none] at hm
      obtain ⟨k, hk⟩ := hmi.logged _ hlog0
      simp only at hk
      cases as0 with
      | nil => simp at hy
      | cons c cs =>
        rw [MTree.at, hm] at hk
        simp [dictGet] at hk
  obtain ⟨x, hx⟩ := hget
  refine ⟨t', x, hx, fun hxb => ?_⟩
  subst hxb
  obtain ⟨log', l1, l2, _, l4⟩ := C57_get_move (evs := []) (g := g) (t := MTree.fresh) (log := []) rfl hx
  rw [hrun'.1] at l1
  injection l1 with l1
  obtain ⟨-, rfl⟩ := Prod.mk.inj l1
  have h1 := l4 y
  have h2 : 0 < (List.filter (fun e : List A × ℚ => e.1.head? = some y) ((ass.map fun as => (as, leafValue g (as.foldl g.doMove s))).reverse ++ [])).length :=
    List.length_pos_of_mem (List.mem_filter.2 ⟨hlog0, by simpa using hy⟩)
  have h3 : (List.filter (fun e : List A × ℚ => e.1.head? = some x) ((ass.map fun as => (as, leafValue g (as.foldl g.doMove s))).reverse ++ [])).length = 0 := by
    rw [List.length_eq_zero_iff, List.filter_eq_nil_iff]
    intro z hz
    simp only [List.append_nil, List.mem_reverse, List.mem_map] at hz
    obtain ⟨as, has, rfl⟩ := hz
    simpa using hno as has
  omega

/-! ## fairness -/

theorem playouts_add {g : MGame σ A} {s : σ} {depth : ℕ} (m n : ℕ) : ∀ {t t2 : MTree A} {l : List (List A)}, t.playouts g s depth (m + n) = .ok (t2, l) →
    ∃ t1 l1 l2, t.playouts g s depth m = .ok (t1, l1) ∧ t1.playouts g s depth n = .ok (t2, l2) ∧ l = l1 ++ l2 := by
  induction m with
  | zero => intro t t2 l e; rw [Nat.zero_add] at e; exact ⟨t, [], l, rfl, e, rfl⟩
  | succ m ih =>
    intro t t2 l e
    rw [Nat.succ_add, MTree.playouts] at e
    cases e1 : t.playout g s depth with
    | error er => rw [e1] at e; cases e
    | ok r =>
      obtain ⟨t1, as⟩ := r
      rw [e1] at e
      simp only at e
      cases e2 : t1.playouts g s depth (m + n) with
      | error er => rw [e2] at e; cases e
      | ok r =>
        obtain ⟨t3, ass⟩ := r
        rw [e2] at e
        simp only [Except.ok.injEq, Prod.mk.injEq] at e
        obtain ⟨rfl, rfl⟩ := e
        obtain ⟨t4, l1, l2, a1, a2, rfl⟩ := ih e2
        exact ⟨t4, as :: l1, l2, by rw [MTree.playouts, e1]; simp only; rw [a1], a2, rfl⟩

/-- while `b` waits, no other child can be taken too often -/
theorem fair_count {g : MGame σ A} (hpy : g.py2 = true) (hs0 : ∀ k, 0 ≤ g.sqrt k) {s : σ} {depth : ℕ} (hd : depth ≠ 0) {b : A} {jb : ℕ} {S M C R : ℚ} {Nmax : ℕ}
    (hSM : M < S) (hv : ∀ as, leafValue g (List.foldl g.doMove s as) ≤ M) (hC : 0 ≤ C) (hR : ∀ k ≤ Nmax, g.sqrt k ≤ R) :
    ∀ (n : ℕ) {t t' : MTree A} {log : List (List A × ℚ)} {ass : List (List A)} (cnt : A → ℕ),
    MInv g t log → (b, jb) ∈ (t.node t.root).children → (t.node jb).val = S → (∀ a j, (a, j) ∈ (t.node t.root).children → g.cpuct * (t.node j).p ≤ C) →
    (∀ a j, (a, j) ∈ (t.node t.root).children → ((t.node j).n ≠ 0 → (t.node j).q ≤ M) ∧ cnt a ≤ (t.node j).n ∧
      (cnt a ≠ 0 → (t.node j).u * (1 + (t.node j).n) ≤ C * R) ∧ cnt a * (S - M) ≤ C * R + (S - M)) →
    (t.node t.root).n + n ≤ Nmax → t.playouts g s depth n = .ok (t', ass) → (∀ as ∈ ass, as.head? ≠ some b) →
    ∀ a j, (a, j) ∈ (t.node t.root).children → ((cnt a + (ass.filter fun as => as.head? = some a).length : ℕ) : ℚ) * (S - M) ≤ C * R + (S - M) := by
  intro n
  induction n with
  | zero =>
    intro t t' log ass cnt _ _ _ _ hI _ e _ a j haj
    simp only [MTree.playouts, Except.ok.injEq, Prod.mk.injEq] at e
    rw [← e.2]
    simpa using (hI a j haj).2.2.2
  | succ n ih =>
    intro t t' log ass cnt h hb hvb hcp hI hN e hno
    have hne : (t.node t.root).children ≠ [] := fun h0 => by rw [h0] at hb; cases hb
    rw [MTree.playouts] at e
    obtain ⟨t1, as, e1, _⟩ := playout_ok hpy h s depth
    rw [e1] at e
    simp only at e
    cases e2 : t1.playouts g s depth n with
    | error er => rw [e2] at e; cases e
    | ok r =>
      obtain ⟨t2, ass2⟩ := r
      rw [e2] at e
      simp only [Except.ok.injEq, Prod.mk.injEq] at e
      obtain ⟨rfl, rfl⟩ := e
      obtain ⟨hr, hch, hNr, a', ja', rest, rfl, hma', hall, hn', hp', hq', hu'⟩ := playout_step h hne hd hpy e1
      have hsame : ∀ j, (a', j) ∈ (t.node t.root).children → j = ja' := by
        intro j hj
        have e1 := dictGet_of_mem (h.wf.keys _) hma'
        rw [dictGet_of_mem (h.wf.keys _) hj] at e1
        exact Option.some.inj e1
      have hba : b ≠ a' := by
        have := hno (a' :: rest) (by simp)
        simp only [List.head?_cons, ne_eq, Option.some.injEq] at this
        exact fun h => this h.symm
      have hkb := (hall b jb hb).2 hba
      simp only [TNode.stat, Prod.mk.injEq] at hkb
      have hvb' : (t1.node jb).val = S := by simp only [TNode.val] at hvb ⊢; rw [hkb.2.1, hkb.2.2.1]; exact hvb
      have hδ : 0 < S - M := by linarith
      have hR0 : 0 ≤ R := le_trans (hs0 0) (hR 0 (Nat.zero_le _))
      obtain ⟨i1, i2, i3, i4⟩ := hI a' ja' hma'
      have hstep : ((cnt a' + 1 : ℕ) : ℚ) * (S - M) ≤ C * R + (S - M) := by
        by_cases h0 : cnt a' = 0
        · rw [h0]; push_cast; nlinarith [mul_nonneg hC hR0]
        · have hn0 : (t.node ja').n ≠ 0 := by omega
          have hq := i1 hn0
          have hu := i3 h0
          have hsel := (hall b jb hb).1
          rw [hvb] at hsel
          simp only [TNode.val] at hsel
          have hu2 : S - M ≤ (t.node ja').u := by linarith
          have hc2 : ((cnt a' + 1 : ℕ) : ℚ) ≤ 1 + (t.node ja').n := by
            have : (cnt a' : ℚ) ≤ (t.node ja').n := by exact_mod_cast i2
            push_cast
            linarith
          have : ((cnt a' + 1 : ℕ) : ℚ) * (S - M) ≤ (1 + (t.node ja').n) * (t.node ja').u :=
            mul_le_mul hc2 hu2 hδ.le (by positivity)
          nlinarith
      have hcnt : ∀ a, cnt a + (List.filter (fun as => decide (as.head? = some a)) ((a' :: rest) :: ass2)).length =
          (if a = a' then cnt a + 1 else cnt a) + (List.filter (fun as => decide (as.head? = some a)) ass2).length := by
        intro a
        rw [List.filter_cons]
        by_cases haa : a = a'
        · subst haa; simp; omega
        · have : ¬ a' = a := fun h => haa h.symm
          simp [haa, this]
      intro a j haj
      rw [hcnt a]
      refine ih (fun a => if a = a' then cnt a + 1 else cnt a) (h.playout e1) (by rw [hch]; exact hb) hvb' ?_ ?_ (by rw [hNr]; omega) e2
        (fun as has => hno as (List.mem_cons_of_mem _ has)) a j (by rw [hch]; exact haj)
      · intro c jc hcj
        rw [hch] at hcj
        by_cases hca : c = a'
        · subst hca; rw [hsame jc hcj, hp']; exact hcp _ _ hma'
        · have := (hall c jc hcj).2 hca
          simp only [TNode.stat, Prod.mk.injEq] at this
          rw [this.2.2.2]; exact hcp _ _ hcj
      · intro c jc hcj
        rw [hch] at hcj
        by_cases hca : c = a'
        · subst hca
          rw [hsame jc hcj]
          simp only [if_true]
          refine ⟨fun _ => ?_, by rw [hn']; omega, fun _ => ?_, hstep⟩
          · rw [hq']
            have hv' := hv (c :: rest)
            have hpos : (0 : ℚ) < ((t.node ja').n + 1 : ℕ) := by positivity
            by_cases h0 : (t.node ja').n = 0
            · rw [h0]; simp only [Nat.zero_add, Nat.cast_one, div_one]; linarith
            · have hq := i1 h0
              rcases le_total (leafValue g (List.foldl g.doMove s (c :: rest))) (t.node ja').q with hle | hle
              · have : (leafValue g (List.foldl g.doMove s (c :: rest)) - (t.node ja').q) / ((t.node ja').n + 1 : ℕ) ≤ 0 :=
                  div_nonpos_of_nonpos_of_nonneg (by linarith) hpos.le
                linarith
              · have : (leafValue g (List.foldl g.doMove s (c :: rest)) - (t.node ja').q) / ((t.node ja').n + 1 : ℕ) ≤
                    leafValue g (List.foldl g.doMove s (c :: rest)) - (t.node ja').q := by
                  rw [div_le_iff₀ hpos]
                  have h1 : (1 : ℚ) ≤ ((t.node ja').n + 1 : ℕ) := by push_cast; linarith [Nat.cast_nonneg (α := ℚ) (t.node ja').n]
                  nlinarith
                linarith
          · rw [hu', hn']
            have hpos : (1 : ℚ) + ((t.node ja').n + 1 : ℕ) ≠ 0 := by positivity
            rw [div_mul_cancel₀ _ hpos]
            calc g.cpuct * (t.node ja').p * g.sqrt ((t.node t.root).n + 1) ≤ C * g.sqrt ((t.node t.root).n + 1) :=
                  mul_le_mul_of_nonneg_right (hcp _ _ hma') (hs0 _)
              _ ≤ C * R := mul_le_mul_of_nonneg_left (hR _ (by omega)) hC
        · have := (hall c jc hcj).2 hca
          simp only [TNode.stat, Prod.mk.injEq] at this
          rw [this.1, this.2.1, this.2.2.1, if_neg hca]
          exact hI c jc hcj

theorem heads_sum (keys : List A) (hk : keys.Nodup) : ∀ (ass : List (List A)), (∀ as ∈ ass, ∃ a, as.head? = some a ∧ a ∈ keys) →
    ass.length = (keys.map fun a => (ass.filter fun as => as.head? = some a).length).sum := by
  intro ass
  induction ass with
  | nil => intro _; simp
  | cons as ass ih =>
    intro h
    obtain ⟨a, ha, hak⟩ := h as (by simp)
    have hone : (keys.map fun c => if as.head? = some c then 1 else 0).sum = 1 := by
      rw [ha]
      clear ih h ha
      induction keys with
      | nil => cases hak
      | cons c keys ih =>
        rw [List.nodup_cons] at hk
        rcases List.mem_cons.1 hak with rfl | hm
        · have hz : (keys.map fun c => if some a = some c then 1 else 0).sum = 0 := by
            rw [List.sum_eq_zero]
            intro x hx
            obtain ⟨c, hc, rfl⟩ := List.mem_map.1 hx
            rw [if_neg]
            intro h
            exact hk.1 (by rw [Option.some.inj h]; exact hc)
          simp only [List.map_cons, List.sum_cons, if_true, hz]
        · have hne : ¬ some a = some c := fun h => hk.1 (by rw [← Option.some.inj h]; exact hm)
          rw [List.map_cons, List.sum_cons, if_neg hne, ih hk.2 hm]
    rw [List.length_cons, ih fun as has => h as (List.mem_cons_of_mem _ has)]
    have : (keys.map fun c => (List.filter (fun as' => decide (as'.head? = some c)) (as :: ass)).length) =
        keys.map fun c => (List.filter (fun as' => decide (as'.head? = some c)) ass).length + if as.head? = some c then 1 else 0 := by
      apply List.map_congr_left
      intro c _
      rw [List.filter_cons]
      by_cases hc : as.head? = some c <;> simp [hc]
    rw [this, List.sum_map_add, hone]

/-- **C92 (fairness).** After any history: an action expanded at the root whose score is larger than every leaf value (those met so far below the root and all that
can come) is tried again within a bounded number of playouts, whatever the depth. Assumed of `np.sqrt`: not negative, and `sqrt k` squared at most `2 k`. -/
theorem C92_fair {g : MGame σ A} {evs : List (MEvent σ A)} {t : MTree A} {log : List (List A × ℚ)} (h : mrun g MTree.fresh [] evs = .ok (t, log))
    (hpy : g.py2 = true) (hs0 : ∀ k, 0 ≤ g.sqrt k) (hs2 : ∀ k, g.sqrt k ^ 2 ≤ 2 * k) {s : σ} {b : A} {jb : ℕ} {M : ℚ}
    (hb : t.at t.root [b] = some jb) (hM : M < (t.node jb).val) (hv : ∀ as, leafValue g (List.foldl g.doMove s as) ≤ M)
    (hq : ∀ a j, t.at t.root [a] = some j → (t.node j).n ≠ 0 → (t.node j).q ≤ M) :
    ∃ K, ∀ n ≥ K, ∀ depth ≠ 0, ∃ t' ass, t.playouts g s depth n = .ok (t', ass) ∧ ∃ as ∈ ass, as.head? = some b := by
  have hi := minv_run evs (minv_fresh g) h
  have hmem : ∀ {c : A} {j : ℕ}, t.at t.root [c] = some j ↔ (c, j) ∈ (t.node t.root).children := by
    intro c j
    constructor
    · intro hj
      rw [MTree.at] at hj
      cases hg : dictGet (t.node t.root).children c with
      | none => rw [hg] at hj; cases hj
      | some m => rw [hg] at hj; simp only [MTree.at, Option.some.injEq] at hj; rw [← hj]; exact dictGet_mem hg
    · intro hc
      rw [MTree.at, dictGet_of_mem (hi.wf.keys _) hc]; rfl
  have hbm := hmem.1 hb
  -- a bound for the weights of the children
  obtain ⟨C, hC0, hC⟩ : ∃ C : ℚ, 0 ≤ C ∧ ∀ a j, (a, j) ∈ (t.node t.root).children → g.cpuct * (t.node j).p ≤ C := by
    generalize (t.node t.root).children = l
    induction l with
    | nil => exact ⟨0, le_refl _, by simp⟩
    | cons x l ih =>
      obtain ⟨C, h0, h1⟩ := ih
      refine ⟨max C (g.cpuct * (t.node x.2).p), le_max_of_le_left h0, ?_⟩
      intro a j haj
      rcases List.mem_cons.1 haj with e | haj
      · rw [← e]; exact le_max_right _ _
      · exact le_max_of_le_left (h1 a j haj)
  set S := (t.node jb).val with hS
  have hδ : 0 < S - M := by linarith
  set m := (t.node t.root).children.length with hm
  set N0 := (t.node t.root).n with hN0
  obtain ⟨x, hx⟩ := exists_nat_gt ((N0 : ℚ) + m + 1 + 2 * m * C / (S - M))
  have hmC : 0 ≤ 2 * (m : ℚ) * C / (S - M) := by positivity
  have hx1 : (N0 : ℚ) + m + 1 < x := by linarith
  have hx2 : 2 * (m : ℚ) * C / (S - M) ≤ x := by
    have : (0 : ℚ) ≤ (N0 : ℚ) + m + 1 := by positivity
    linarith
  have hx3 : 2 * (m : ℚ) * C ≤ x * (S - M) := by rwa [div_le_iff₀ hδ] at hx2
  have hxN : N0 + m + 1 < x := by exact_mod_cast hx1
  have hxx : N0 + m + 1 ≤ x * x := by nlinarith
  refine ⟨2 * (x * x) - N0, fun n hn depth hd => ?_⟩
  obtain ⟨t', ass, e⟩ := playouts_ok hpy s depth n hi
  refine ⟨t', ass, e, ?_⟩
  by_contra hcon
  push Not at hcon
  obtain ⟨r, rfl⟩ := Nat.exists_eq_add_of_le hn
  obtain ⟨t1, l1, l2, e1, e2, rfl⟩ := playouts_add _ r e
  have hno : ∀ as ∈ l1, as.head? ≠ some b := fun as has => hcon as (List.mem_append_left _ has)
  have hsq : ∀ k ≤ 2 * (x * x), g.sqrt k ≤ 2 * x := by
    intro k hk
    have h1 := hs2 k
    have h2 : (k : ℚ) ≤ 2 * (x * x) := by exact_mod_cast hk
    have h3 : g.sqrt k ^ 2 ≤ (2 * (x : ℚ)) ^ 2 := by nlinarith
    exact le_of_sq_le_sq h3 (by positivity)
  have hcount := fair_count hpy hs0 hd (b := b) (jb := jb) (S := S) (M := M) (C := C) (R := 2 * x) (Nmax := 2 * (x * x)) hM hv hC0 hsq _ (fun _ => 0)
    hi hbm rfl hC (fun a j haj => ⟨fun h0 => hq a j (hmem.2 haj) h0, Nat.zero_le _, fun h => absurd rfl h, by
      push_cast
      rw [zero_mul]
      have : 0 ≤ C * (2 * (x : ℚ)) := by positivity
      linarith⟩) (by omega) e1 hno
  have hlen := (playouts_run _ log e1).2
  have hheads := heads_ne hd hpy _ hi (fun h0 => by rw [h0] at hbm; cases hbm) e1
  have hsum := heads_sum ((t.node t.root).children.map fun kv : A × ℕ => kv.1) (hi.wf.keys _) l1 hheads
  have hle : ((((t.node t.root).children.map (·.1)).map fun a => (l1.filter fun as => as.head? = some a).length).sum : ℚ) * (S - M) ≤
      m * (C * (2 * x) + (S - M)) := by
    rw [hm]
    generalize hch : (t.node t.root).children = l at hcount
    clear hch hsum hheads
    induction l with
    | nil => simp
    | cons y l ih =>
      have h1 := hcount y.1 y.2 (by simp)
      have h2 := ih fun a j haj => hcount a j (List.mem_cons_of_mem _ haj)
      simp only [List.map_cons, List.sum_cons, List.length_cons]
      push_cast at h1 h2 ⊢
      rw [zero_add] at h1
      nlinarith
  rw [hlen] at hsum
  have hK : ((2 * (x * x) - N0 : ℕ) : ℚ) = 2 * ((x : ℚ) * x) - N0 := by
    rw [Nat.cast_sub (by omega)]; push_cast; ring
  have hle2 : (2 * ((x : ℚ) * x) - N0) * (S - M) ≤ m * (C * (2 * x) + (S - M)) := by
    rw [← hK, hsum]
    exact_mod_cast hle
  have h1 : 2 * (m : ℚ) * C * x ≤ x * (S - M) * x := mul_le_mul_of_nonneg_right hx3 (by positivity)
  have h2 : ((N0 : ℚ) + m + 1) * (S - M) ≤ (x * x) * (S - M) := mul_le_mul_of_nonneg_right (by exact_mod_cast hxx) hδ.le
  nlinarith

/-! ## concrete games -/

/-- two moves for ever: after the move 1 everything is worth 1/2, after the move 2 everything is worth 1. The prior of 2 is given. -/
def exTwo (P : ℚ) : MGame (Option ℕ) ℕ where
  policy _ := [(1, 1/2), (2, P)]
  value s := match s with
    | none => 0
    | some a => if a = 1 then 1/2 else 1
  rollout _ := []
  doMove s a := some (s.getD a)
  player _ := 0
  winner _ := 0
  lmbda := 0
  cpuct := 5
  rolloutLimit := 0
  sqrt k := Nat.sqrt k
  py2 := true
  iter l := l
  iter_perm := List.Perm.refl

theorem exTwo_after (P : ℚ) (a : ℕ) (rest : List ℕ) (s : Option ℕ) (hs : s.getD a = a) : (a :: rest).foldl (exTwo P).doMove s = some a := by
  have h : ∀ (l : List ℕ), l.foldl (exTwo P).doMove (some a) = some a := by
    intro l
    induction l with
    | nil => rfl
    | cons b l ih => rw [List.foldl_cons]; exact ih
  rw [List.foldl_cons]
  change List.foldl (exTwo P).doMove (some (s.getD a)) rest = some a
  rw [hs]
  exact h rest

/-- **C92, what the search does not do.** The most visited move need not approach the best one: here the move 2 leads to the largest value 1 in every continuation,
the move 1 to 1/2, and both have a positive prior; yet `get_move` does not return 2 (it never tries it) for any number and depth of playouts. -/
theorem C92_false_best : ∃ (g : MGame (Option ℕ) ℕ) (s : Option ℕ), g.py2 = true ∧ 0 < g.cpuct ∧ (∀ k, g.sqrt k = Nat.sqrt k) ∧
    g.policy s = [(1, 1/2), (2, 1/4)] ∧
    (∀ rest, leafValue g ((2 :: rest).foldl g.doMove s) = 1) ∧ (∀ rest, leafValue g ((1 :: rest).foldl g.doMove s) = 1/2) ∧
    ∀ n depth, n ≠ 0 → depth ≠ 0 → ∃ t', MTree.fresh.getMove g s depth n = .ok (t', 1) := by
  have h1 : ∀ rest, leafValue (exTwo (1/4)) ((1 :: rest).foldl (exTwo (1/4)).doMove none) = 1/2 := by
    intro rest; rw [exTwo_after _ 1 rest none rfl]; decide +kernel
  refine ⟨exTwo (1/4), none, rfl, by decide +kernel, fun _ => rfl, rfl, ?_, h1, ?_⟩
  · intro rest
    rw [exTwo_after _ 2 rest none rfl]
    decide +kernel
  · intro n depth hn hd
    obtain ⟨_, t', x, hx, hne⟩ := C92_starved_new (g := exTwo (1/4)) (s := none) (a := 1) (b := 2) (Pa := 1/2) (Pb := 1/4) rfl (by decide +kernel)
      (fun k => Nat.cast_nonneg _) (by decide +kernel) (by decide +kernel) (by norm_num) (by norm_num)
      (fun rest => by rw [h1]; norm_num) n depth hn hd
    refine ⟨t', ?_⟩
    obtain ⟨log', l1, _, l3, _⟩ := C57_get_move (evs := []) (g := exTwo (1/4)) (t := MTree.fresh) (log := []) rfl hx
    -- the children of the root are the moves of the policy
    have hxx : x = 1 ∨ x = 2 := by
      unfold MTree.getMove at hx
      obtain ⟨m, rfl⟩ := Nat.exists_eq_succ_of_ne_zero hn
      rw [playouts_expanded hd (by simp [exTwo])] at hx
      have hw : (MTree.fresh : MTree ℕ).WF := MTree.wf_fresh
      obtain ⟨w1, w2, _⟩ := MTree.expand_spec hw (i := 0) (show 0 < 1 by omega) ((exTwo (1/4)).policy none)
      have hi : MInv (exTwo (1/4)) ((MTree.fresh : MTree ℕ).expand 0 ((exTwo (1/4)).policy none)) [] := (minv_fresh _).ext w2 w1
      have keep : ∀ (n : ℕ) {t t2 : MTree ℕ} {log : List (List ℕ × ℚ)} {ass : List (List ℕ)}, MInv (exTwo (1/4)) t log → (t.node t.root).children ≠ [] →
          t.playouts (exTwo (1/4)) none depth n = .ok (t2, ass) → (t2.node t2.root).children = (t.node t.root).children := by
        intro n
        induction n with
        | zero =>
          intro t t2 log ass _ _ e
          simp only [MTree.playouts, Except.ok.injEq, Prod.mk.injEq] at e
          rw [e.1]
        | succ n ih =>
          intro t t2 log ass h hne e
          rw [MTree.playouts] at e
          obtain ⟨t1, as, e1, _⟩ := playout_ok (g := exTwo (1/4)) rfl h none depth
          rw [e1] at e
          simp only at e
          cases e2 : t1.playouts (exTwo (1/4)) none depth n with
          | error er => rw [e2] at e; cases e
          | ok r =>
            rw [e2] at e
            simp only [Except.ok.injEq, Prod.mk.injEq] at e
            obtain ⟨hr, hch, _⟩ := playout_step h hne hd rfl e1
            rw [← e.1, ih (h.playout e1) (by rw [hch]; exact hne) e2, hch]
      have hc0 : (((MTree.fresh : MTree ℕ).expand 0 ((exTwo (1/4)).policy none)).node ((MTree.fresh : MTree ℕ).expand 0 ((exTwo (1/4)).policy none)).root).children
          = [(1, 1), (2, 2)] := by decide +kernel
      cases hp : ((MTree.fresh : MTree ℕ).expand 0 ((exTwo (1/4)).policy none)).playouts (exTwo (1/4)) none depth (m + 1) with
      | error er => rw [hp] at hx; cases hx
      | ok r =>
        rw [hp] at hx
        have hk := keep _ hi (by rw [hc0]; simp) hp
        rw [hc0] at hk
        have ht : t' = r.1 := by
          simp only at hx
          split at hx
          · split at hx
            · cases hx
            · simp only [Except.ok.injEq, Prod.mk.injEq] at hx; exact hx.1.symm
          · cases hx
        rw [ht, hk] at l3
        simpa using l3
    rcases hxx with rfl | rfl
    · exact hx
    · exact absurd rfl hne

/-- the hypotheses of `C92_starved` after one playout (through the move 1): nodes, scores of the moves 1 and 2, mean of the move 1 -/
example : ((mrun (exTwo (1/4)) MTree.fresh [] [.playout none 3]).toOption.map fun r => (r.1.at r.1.root [1], r.1.at r.1.root [2],
    decide ((r.1.node 2).val < (r.1.node 1).val), decide ((r.1.node 2).val < (r.1.node 1).q), (r.1.node 1).p)) =
    some (some 1, some 2, true, true, 1/2) := by decide +kernel

/-- the same game with all values 1/5: the move 2 has the larger score and is tried in the end -/
def exFair : MGame (Option ℕ) ℕ := { exTwo (1/4) with value := fun _ => 1/5 }

/-- the hypotheses of `C92_fair` with `M = 1/5` after one playout -/
example : ((mrun exFair MTree.fresh [] [.playout none 3]).toOption.map fun r => (r.1.at r.1.root [1], r.1.at r.1.root [2],
    (r.1.node 2).val, (r.1.node 1).q, (r.1.node r.1.root).children.length)) = some (some 1, some 2, 1/4, 1/5, 2) ∧
    (∀ as, leafValue exFair (List.foldl exFair.doMove none as) ≤ 1/5) ∧ (∀ k, exFair.sqrt k ^ 2 ≤ 2 * k) := by
  refine ⟨by decide +kernel, fun as => ?_, fun k => ?_⟩
  · simp only [leafValue, exFair, exTwo]
    norm_num
  · change ((Nat.sqrt k : ℕ) : ℚ) ^ 2 ≤ 2 * k
    have : ((Nat.sqrt k * Nat.sqrt k : ℕ) : ℚ) ≤ (k : ℕ) := by exact_mod_cast Nat.sqrt_le k
    push_cast at this
    have hk : (0 : ℚ) ≤ k := Nat.cast_nonneg k
    nlinarith

end Verif
