import Verif.Spec.Firsts
import Verif.Props.Filters
import Verif.Props.Levels
import Verif.Props.Scaffold
import Verif.Lemmas.DedupNum

/-! # C125: removing duplicates keeps the first of every class, and the laws that follow -/

namespace Verif

open Spec (Op GeomEquiv firsts)

section laws
variable {α : Type*} {R : α → α → Prop}

theorem firsts_nil (pre : List α) : firsts R pre [] = [] := rfl

open Classical in
theorem firsts_cons (pre : List α) (a : α) (l : List α) :
    firsts R pre (a :: l) = if ∃ q ∈ pre, R q a then firsts R (pre ++ [a]) l else a :: firsts R (pre ++ [a]) l := rfl

theorem firsts_append (pre a b : List α) : firsts R pre (a ++ b) = firsts R pre a ++ firsts R (pre ++ a) b := by
  classical
  induction a generalizing pre with
  | nil => simp [firsts_nil]
  | cons x a ih =>
    rw [List.cons_append, firsts_cons, firsts_cons, ih]
    split <;> simp

theorem firsts_sublist (pre l : List α) : (firsts R pre l).Sublist l := by
  classical
  induction l generalizing pre with
  | nil => exact List.Sublist.refl _
  | cons x l ih =>
    rw [firsts_cons]
    split
    · exact (ih _).cons x
    · exact (ih _).cons_cons x

/-- what is kept depends on the classes of the earlier entries only -/
theorem firsts_congr {R' : α → α → Prop} (pre pre' l : List α) (h : ∀ a ∈ l, (∃ q ∈ pre, R q a) ↔ ∃ q ∈ pre', R' q a)
    (h' : ∀ a ∈ l, ∀ b ∈ l, R a b ↔ R' a b) : firsts R pre l = firsts R' pre' l := by
  classical
  induction l generalizing pre pre' with
  | nil => rfl
  | cons x l ih =>
    have hs : firsts R (pre ++ [x]) l = firsts R' (pre' ++ [x]) l := by
      refine ih _ _ (fun a ha => ?_) fun a ha b hb => h' a (List.mem_cons_of_mem _ ha) b (List.mem_cons_of_mem _ hb)
      have e := h a (List.mem_cons_of_mem _ ha)
      have e' := h' x (by simp) a (List.mem_cons_of_mem _ ha)
      simp only [List.mem_append, List.mem_singleton, or_and_right, exists_or, exists_eq_left, e, e']
    rw [firsts_cons, firsts_cons, hs]
    simp only [h x (by simp)]

/-- entries not related to an outside list are kept as they would be without it -/
theorem firsts_outside (pre out l : List α) (trans : ∀ q ∈ out, ∀ a ∈ pre ++ l, ∀ b ∈ l, R q a → R a b → R q b) [DecidablePred fun b => ∃ q ∈ out, R q b]
    (hpre : ∀ q ∈ out, ∀ p ∈ pre, ∀ b ∈ l, R q p → R p b → R q b) :
    firsts R (out ++ pre) l = (firsts R pre l).filter fun b => !decide (∃ q ∈ out, R q b) := by
  classical
  induction l generalizing pre with
  | nil => rfl
  | cons x l ih =>
    have hs := ih (pre ++ [x]) (fun q hq a ha b hb => trans q hq a (by simp at ha ⊢; tauto) b (List.mem_cons_of_mem _ hb))
      (fun q hq p hp b hb => trans q hq p (by simp at hp ⊢; tauto) b (List.mem_cons_of_mem _ hb))
    rw [firsts_cons, firsts_cons, List.append_assoc, hs]
    by_cases h1 : ∃ q ∈ pre, R q x
    · rw [if_pos h1, if_pos]
      obtain ⟨q, hq, hr⟩ := h1
      exact ⟨q, by simp [hq], hr⟩
    · rw [if_neg h1]
      by_cases h2 : ∃ q ∈ out, R q x
      · rw [if_pos, List.filter_cons_of_neg (by simpa using h2)]
        obtain ⟨q, hq, hr⟩ := h2
        exact ⟨q, by simp [hq], hr⟩
      · rw [if_neg, List.filter_cons_of_pos (by simpa using h2)]
        rintro ⟨q, hq, hr⟩
        rcases List.mem_append.1 hq with hq | hq
        · exact h2 ⟨q, hq, hr⟩
        · exact h1 ⟨q, hq, hr⟩

/-- every entry has one of its class among those kept or among `pre` -/
theorem firsts_cover (refl : ∀ a, a ∈ l → R a a) (trans : ∀ a ∈ pre ++ l, ∀ b ∈ pre ++ l, ∀ c ∈ pre ++ l, R a b → R b c → R a c) :
    ∀ a ∈ l, ∃ q ∈ pre ++ firsts R pre l, R q a := by
  classical
  induction l generalizing pre with
  | nil => simp
  | cons x l ih =>
    intro a ha
    have hx : ∃ q ∈ pre ++ firsts R pre (x :: l), R q x := by
      by_cases h : ∃ q ∈ pre, R q x
      · obtain ⟨q, hq, hr⟩ := h
        exact ⟨q, by simp [hq], hr⟩
      · exact ⟨x, by rw [firsts_cons, if_neg h]; simp, refl x (by simp)⟩
    have hs : ∀ q ∈ firsts R (pre ++ [x]) l, q ∈ firsts R pre (x :: l) := by
      intro q hq
      rw [firsts_cons]
      split
      · exact hq
      · exact List.mem_cons_of_mem _ hq
    rcases List.mem_cons.1 ha with rfl | ha'
    · exact hx
    obtain ⟨q, hq, hr⟩ := ih (pre := pre ++ [x]) (fun a ha => refl a (List.mem_cons_of_mem _ ha)) (by simpa using trans) a ha'
    simp only [List.mem_append, List.mem_singleton] at hq
    rcases hq with (hq | rfl) | hq
    · exact ⟨q, by simp [hq], hr⟩
    · obtain ⟨y, hy, hyx⟩ := hx
      refine ⟨y, hy, trans y ?_ q (by simp) a (by simp [ha']) hyx hr⟩
      rcases List.mem_append.1 hy with h | h
      · simp [h]
      · exact List.mem_append_right _ ((firsts_sublist _ _).subset h)
    · exact ⟨q, List.mem_append_right _ (hs q hq), hr⟩

/-- a property of the classes may be asked for before or after -/
theorem firsts_filter (p : α → Bool) (pre l : List α) (hp : ∀ a ∈ pre ++ l, ∀ b ∈ l, R a b → p a = p b) :
    firsts R (pre.filter p) (l.filter p) = (firsts R pre l).filter p := by
  classical
  induction l generalizing pre with
  | nil => rfl
  | cons x l ih =>
    have hs := ih (pre ++ [x]) (fun a ha b hb => hp a (by simp at ha ⊢; tauto) b (List.mem_cons_of_mem _ hb))
    rw [List.filter_append] at hs
    by_cases h : p x
    · rw [List.filter_cons_of_pos h, firsts_cons, firsts_cons, apply_ite (List.filter p), List.filter_cons_of_pos h, ← hs,
        List.filter_cons_of_pos h, List.filter_nil]
      refine if_congr ?_ rfl rfl
      refine exists_congr fun q => ?_
      rw [List.mem_filter]
      constructor
      · rintro ⟨⟨a, _⟩, b⟩
        exact ⟨a, b⟩
      · rintro ⟨a, b⟩
        exact ⟨⟨a, by rw [hp q (by simp [a]) x (by simp) b]; exact h⟩, b⟩
    · rw [List.filter_cons_of_neg h, firsts_cons, apply_ite (List.filter p), List.filter_cons_of_neg h, ← hs, List.filter_cons_of_neg h,
        List.filter_nil, List.append_nil, ite_self]

/-- replacing entries by related ones -/
theorem firsts_rel {β : Type*} {R' : β → β → Prop} {S : α → β → Prop} {pre l : List α} {pre' l' : List β} (hpre : List.Forall₂ S pre pre')
    (h : List.Forall₂ S l l') (hS : ∀ a b a' b', a ∈ pre ++ l → b ∈ l → a' ∈ pre' ++ l' → b' ∈ l' → S a a' → S b b' → (R a b ↔ R' a' b')) :
    List.Forall₂ S (firsts R pre l) (firsts R' pre' l') := by
  classical
  induction h generalizing pre pre' with
  | nil => exact .nil
  | @cons x x' l l' hx hl ih =>
    have hs := ih (pre := pre ++ [x]) (pre' := pre' ++ [x']) (List.rel_append hpre (.cons hx .nil))
      (fun a b a' b' h1 h2 h3 h4 => hS a b a' b' (by simp at h1 ⊢; tauto) (List.mem_cons_of_mem _ h2) (by simp at h3 ⊢; tauto)
        (List.mem_cons_of_mem _ h4))
    rw [firsts_cons, firsts_cons]
    have e : (∃ q ∈ pre, R q x) ↔ ∃ q ∈ pre', R' q x' := by
      constructor
      · rintro ⟨q, hq, hr⟩
        obtain ⟨q', hq', hs⟩ := forall₂_mem_left hpre hq
        exact ⟨q', hq', (hS q x q' x' (by simp [hq]) (by simp) (by simp [hq']) (by simp) hs hx).1 hr⟩
      · rintro ⟨q', hq', hr⟩
        obtain ⟨q, hq, hs⟩ := forall₂_mem_right hpre hq'
        exact ⟨q, hq, (hS q x q' x' (by simp [hq]) (by simp) (by simp [hq']) (by simp) hs hx).2 hr⟩
    by_cases hh : ∃ q ∈ pre, R q x
    · rw [if_pos hh, if_pos (e.1 hh)]
      exact hs
    · rw [if_neg hh, if_neg (fun h => hh (e.2 h))]
      exact .cons hx hs

end laws

/-- the loop with a set of keys, when having a key in the set means being related to an earlier entry -/
theorem dedupL_firsts {α K : Type*} [DecidableEq K] {key : α → K} {iso : α → List K} {R : α → α → Prop} {pre l : List α} {seen : List K}
    (hk : ∀ a ∈ pre ++ l, ∀ b ∈ l, (key b ∈ iso a ↔ R a b)) (hseen : ∀ b ∈ l, key b ∈ seen ↔ ∃ q ∈ pre, R q b)
    (trans : ∀ a ∈ pre ++ l, ∀ b ∈ pre ++ l, ∀ c ∈ l, R a b → R b c → R a c) : dedupL key iso seen l = firsts R pre l := by
  classical
  induction l generalizing pre seen with
  | nil => rfl
  | cons x l ih =>
    have hk' : ∀ a ∈ (pre ++ [x]) ++ l, ∀ b ∈ l, (key b ∈ iso a ↔ R a b) := fun a ha b hb => hk a (by simpa using ha) b (List.mem_cons_of_mem _ hb)
    have ht' : ∀ a ∈ (pre ++ [x]) ++ l, ∀ b ∈ (pre ++ [x]) ++ l, ∀ c ∈ l, R a b → R b c → R a c := fun a ha b hb c hc =>
      trans a (by simpa using ha) b (by simpa using hb) c (List.mem_cons_of_mem _ hc)
    rw [dedupL_cons, firsts_cons]
    by_cases h : ∃ q ∈ pre, R q x
    · rw [if_pos h, if_pos ((hseen x (by simp)).2 h)]
      refine ih hk' (fun b hb => ?_) ht'
      rw [hseen b (List.mem_cons_of_mem _ hb)]
      constructor
      · rintro ⟨q, hq, hr⟩
        exact ⟨q, by simp [hq], hr⟩
      · rintro ⟨q, hq, hr⟩
        rcases List.mem_append.1 hq with hq | hq
        · exact ⟨q, hq, hr⟩
        · rw [List.mem_singleton] at hq
          subst hq
          obtain ⟨y, hy, hyq⟩ := h
          exact ⟨y, hy, trans y (by simp [hy]) q (by simp) b (List.mem_cons_of_mem _ hb) hyq hr⟩
    · rw [if_neg h, if_neg fun h' => h ((hseen x (by simp)).1 h')]
      congr 1
      refine ih hk' (fun b hb => ?_) ht'
      rw [List.mem_append, hseen b (List.mem_cons_of_mem _ hb), hk x (by simp) b (List.mem_cons_of_mem _ hb)]
      simp only [List.mem_append, List.mem_singleton, or_and_right, exists_or, exists_eq_left]
      exact or_comm

/-- the same structure up to a symmetry operation -/
def SameStru (c : GCell) (ops : List Op) (a b : GCell) : Prop := GeomEquiv siteKey c.positions ops a.numbers b.numbers

/-- the hash tells the images of these structures apart -/
def HashOk (hash : List ℤ → ℕ) (c : GCell) (ops : List Op) (dup : List GCell) : Prop :=
  Set.InjOn hash {m | m.length = c.positions.length ∧ ∃ d ∈ dup, GeomEquiv siteKey c.positions ops d.numbers m}

theorem HashOk.mono {hash : List ℤ → ℕ} {c : GCell} {ops : List Op} {dup dup' : List GCell} (h : HashOk hash c ops dup)
    (hs : ∀ d ∈ dup', d ∈ dup) : HashOk hash c ops dup' := by
  refine Set.InjOn.mono ?_ h
  rintro m ⟨h1, d, hd, e⟩
  exact ⟨h1, d, hs d hd, e⟩

theorem same_equiv {c : GCell} {ops : List Op} {wy : List String} {g : OGen} (h : GenSetup c ops wy g) :
    (∀ a : GCell, a.numbers.length = c.positions.length → SameStru c ops a a) ∧
    (∀ a b : GCell, a.numbers.length = c.positions.length → b.numbers.length = c.positions.length → SameStru c ops a b → SameStru c ops b a) ∧
    (∀ a b d : GCell, a.numbers.length = c.positions.length → b.numbers.length = c.positions.length → d.numbers.length = c.positions.length →
      SameStru c ops a b → SameStru c ops b d → SameStru c ops a d) := by
  obtain ⟨_, _, hF, hG⟩ := h.rows
  have rel : ∀ a b : GCell, a.numbers.length = c.positions.length → b.numbers.length = c.positions.length →
      (Rel g.perms a.numbers b.numbers ↔ SameStru c ops a b) := fun a b ha hb => rel_iff_geom h.distinct h.contract hF _ _ ha hb
  refine ⟨fun a ha => (rel a a ha ha).1 (Rel.refl hG ha), fun a b ha hb e => (rel b a hb ha).1 (((rel a b ha hb).2 e).symm hG ha),
    fun a b d ha hb hd e e' => (rel a d ha hd).1 (((rel a b ha hb).2 e).trans hG ha ((rel b d hb hd).2 e'))⟩

theorem C125_first {hash : List ℤ → ℕ} {c : GCell} {ops : List Op} {wy : List String} {g : OGen} (h : GenSetup c ops wy g) (dup : List GCell)
    (hn : ∀ d ∈ dup, d.numbers.length = c.positions.length) (hinj : HashOk hash c ops dup) :
    g.gen2Nodup hash dup = .ok (firsts (SameStru c ops) [] dup) := by
  obtain ⟨_, _, hF, hG⟩ := h.rows
  have hlt : ∀ c ∈ dup, ∀ p ∈ g.perms, ∀ i ∈ p, i < c.numbers.length := fun c hc p hp => by rw [hn c hc]; exact (hG.perm p hp).lt
  have rel : ∀ a m, a.length = c.positions.length → m.length = c.positions.length →
      (Rel g.perms a m ↔ GeomEquiv siteKey c.positions ops a m) := fun a b ha hb => rel_iff_geom h.distinct h.contract hF _ _ ha hb
  rw [OGen.gen2Nodup, gen2NodupLoop_eq hash g.perms [] dup hlt]
  congr 1
  refine dedupL_firsts (fun a ha b hb => ?_) (by simp) fun a ha b hb d hd => ?_
  · rw [List.nil_append] at ha
    rw [SameStru, ← rel _ _ (hn a ha) (hn b hb), isoKeys, List.mem_map]
    refine exists_congr fun p => and_congr_right fun hp => ⟨fun e => ?_, fun e => by rw [e]; rfl⟩
    have hr : Rel g.perms a.numbers (gather a.numbers p) := ⟨p, hp, rfl⟩
    have hl := hr.length_eq hG.perm (hn a ha)
    exact hinj ⟨hl, a, ha, (rel _ _ (hn a ha) hl).1 hr⟩ ⟨hn b hb, b, hb, (rel _ _ (hn b hb) (hn b hb)).1 (Rel.refl hG (hn b hb))⟩ e
  · exact (same_equiv h).2.2 a b d (hn a ha) (hn b hb) (hn d hd)

/-- neither the hash nor the order and number of the operations matters, only which structures they identify -/
theorem C125_choices {hash hash' : List ℤ → ℕ} {c : GCell} {ops ops' : List Op} {wy wy' : List String} {g g' : OGen} (h : GenSetup c ops wy g)
    (h' : GenSetup c ops' wy' g') (dup : List GCell) (hn : ∀ d ∈ dup, d.numbers.length = c.positions.length) (hinj : HashOk hash c ops dup)
    (hinj' : HashOk hash' c ops' dup) (hsame : ∀ a ∈ dup, ∀ b ∈ dup, SameStru c ops a b ↔ SameStru c ops' a b) :
    g.gen2Nodup hash dup = g'.gen2Nodup hash' dup := by
  rw [C125_first h dup hn hinj, C125_first h' dup hn hinj']
  congr 1
  exact firsts_congr _ _ _ (by simp) hsame

/-- filtering a second time changes nothing -/
theorem C125_idempotent {hash : List ℤ → ℕ} {c : GCell} {ops : List Op} {wy : List String} {g : OGen} (h : GenSetup c ops wy g) (dup : List GCell)
    (hn : ∀ d ∈ dup, d.numbers.length = c.positions.length) (hinj : HashOk hash c ops dup) :
    (g.gen2Nodup hash dup >>= g.gen2Nodup hash) = g.gen2Nodup hash dup := by
  have hsub := (firsts_sublist (R := SameStru c ops) [] dup).subset
  rw [C125_first h dup hn hinj, okBind, C125_first h _ (fun d hd => hn d (hsub hd)) (hinj.mono hsub)]
  congr 1
  have : ∀ pre l : List GCell, (∀ a ∈ pre, ∀ b ∈ l, ¬ SameStru c ops a b) → l.Pairwise (fun a b => ¬ SameStru c ops a b) →
      firsts (SameStru c ops) pre l = l := by
    intro pre l
    induction l generalizing pre with
    | nil => intros; rfl
    | cons x l ih =>
      intro h1 h2
      rw [firsts_cons, if_neg (by rintro ⟨q, hq, hr⟩; exact h1 q hq x (by simp) hr), ih]
      · intro a ha b hb
        rcases List.mem_append.1 ha with ha | ha
        · exact h1 a ha b (List.mem_cons_of_mem _ hb)
        · rw [List.mem_singleton] at ha
          exact ha ▸ (List.pairwise_cons.1 h2).1 b hb
      · exact (List.pairwise_cons.1 h2).2
  refine this [] _ (by simp) ?_
  obtain ⟨_, _, hF, hG⟩ := h.rows
  obtain ⟨out, e, _, hp⟩ := C19_no_equivalent_pair_group hash g _ hG dup hn
  rw [C125_first h dup hn hinj] at e
  injection e with e
  subst e
  refine hp.imp_of_mem fun {a b} ha hb hab e => hab.1 ?_
  have la := hn a (hsub ha)
  have lb := hn b (hsub hb)
  rw [image_iff_rel fun p hp => by rw [la]; exact (hG.perm p hp).lt]
  exact (rel_iff_geom h.distinct h.contract hF _ _ la lb).2 e

open Classical in
/-- two inputs one after the other: of the second are kept those without an equivalent one in the first; the first may be filtered before -/
theorem C125_append {hash : List ℤ → ℕ} {c : GCell} {ops : List Op} {wy : List String} {g : OGen} (h : GenSetup c ops wy g) (a b : List GCell)
    (hn : ∀ d ∈ a ++ b, d.numbers.length = c.positions.length) (hinj : HashOk hash c ops (a ++ b)) :
    ∃ ra rb, g.gen2Nodup hash a = .ok ra ∧ g.gen2Nodup hash b = .ok rb ∧
      g.gen2Nodup hash (a ++ b) = .ok (ra ++ rb.filter fun y => ¬ ∃ x ∈ a, SameStru c ops x y) ∧
      g.gen2Nodup hash (ra ++ b) = g.gen2Nodup hash (a ++ b) := by
  have hsub := (firsts_sublist (R := SameStru c ops) [] a).subset
  have hna : ∀ d ∈ a, d.numbers.length = c.positions.length := fun d hd => hn d (List.mem_append_left _ hd)
  have hnb : ∀ d ∈ b, d.numbers.length = c.positions.length := fun d hd => hn d (List.mem_append_right _ hd)
  have ea := C125_first h a hna (hinj.mono fun d hd => List.mem_append_left _ hd)
  have eb := C125_first h b hnb (hinj.mono fun d hd => List.mem_append_right _ hd)
  have hsub' : ∀ d ∈ firsts (SameStru c ops) [] a ++ b, d ∈ a ++ b := fun d hd => by
    rcases List.mem_append.1 hd with hd | hd
    · exact List.mem_append_left _ (hsub hd)
    · exact List.mem_append_right _ hd
  obtain ⟨hr, -, ht⟩ := same_equiv h
  refine ⟨_, _, ea, eb, ?_, ?_⟩
  · rw [C125_first h _ hn hinj, firsts_append, List.nil_append]
    congr 2
    have := firsts_outside (R := SameStru c ops) [] a b (fun q hq x hx y hy => ht q x y (hna q hq) (hnb x hx) (hnb y hy)) (by simp)
    rw [List.append_nil] at this
    rw [this]
    refine List.filter_congr fun x _ => ?_
    by_cases hx : ∃ q ∈ a, SameStru c ops q x <;> simp [hx]
  · have hi := C125_idempotent h a hna (hinj.mono fun d hd => List.mem_append_left _ hd)
    rw [ea, okBind, C125_first h _ (fun d hd => hna d (hsub hd)) (hinj.mono fun d hd => List.mem_append_left _ (hsub hd))] at hi
    injection hi with hi
    rw [C125_first h _ hn hinj, C125_first h _ (fun d hd => hn d (hsub' d hd)) (hinj.mono hsub'), firsts_append, firsts_append, hi]
    congr 2
    refine firsts_congr _ _ _ (fun y hy => ?_) fun _ _ _ _ => Iff.rfl
    rw [List.nil_append, List.nil_append]
    constructor
    · rintro ⟨q, hq, e⟩
      exact ⟨q, hsub hq, e⟩
    · rintro ⟨q, hq, e⟩
      obtain ⟨x, hx, ex⟩ := firsts_cover (R := SameStru c ops) (pre := []) (l := a) (fun x hx => hr x (hna x hx))
        (fun x hx y hy z hz => ht x y z (hna x hx) (hna y hy) (hna z hz)) q hq
      rw [List.nil_append] at hx
      exact ⟨x, hx, ht x q y (hna x (hsub hx)) (hna q hq) (hnb y hy) ex e⟩

/-- a test with the same result for equivalent structures may be made before or after -/
theorem C125_filter {hash : List ℤ → ℕ} {c : GCell} {ops : List Op} {wy : List String} {g : OGen} (h : GenSetup c ops wy g) (dup : List GCell)
    (hn : ∀ d ∈ dup, d.numbers.length = c.positions.length) (hinj : HashOk hash c ops dup) (p : GCell → Bool)
    (hp : ∀ a ∈ dup, ∀ b ∈ dup, SameStru c ops a b → p a = p b) :
    g.gen2Nodup hash (dup.filter p) = (g.gen2Nodup hash dup).map (List.filter p) := by
  rw [C125_first h dup hn hinj, C125_first h _ (fun d hd => hn d (List.mem_filter.1 hd).1) (hinj.mono fun d hd => (List.mem_filter.1 hd).1)]
  exact congrArg Except.ok (firsts_filter p [] dup (by simpa using hp))

/-- the tests of the applications are of this kind -/
theorem C125_restrictions {e : Ext} {mpr : Bool} {tr : Option (Specie × ℚ)} {cell : GCell} (hg : GoodCell e mpr tr cell) {wy : List String} {g : OGen}
    (h : GenSetup cell (e.symmetry cell) wy g) (dup : List GCell)
    (hd : ∀ d ∈ dup, Built d ∧ d.lattice = cell.lattice ∧ d.positions = cell.positions) (hinj : HashOk e.hash cell (e.symmetry cell) dup) :
    g.gen2Nodup e.hash (passers e mpr tr dup) = (g.gen2Nodup e.hash dup).map (passers e mpr tr) := by
  classical
  have hl : ∀ d ∈ dup, d.numbers.length = cell.positions.length := fun d hd' => by rw [(hd d hd').1.length, (hd d hd').2.2]
  have := C125_filter h dup hl hinj (fun c => @decide (Passes e mpr tr c) (Classical.propDecidable _)) (fun a ha b hb hab => by
    congr 1
    apply propext
    rw [C91_filter hg (hd a ha).1 (hd a ha).2.1 (hd a ha).2.2, C91_filter hg (hd b hb).1 (hd b hb).2.1 (hd b hb).2.2]
    exact C91_class hg.distinct hg.symmetric mpr _ (hl a ha) (hl b hb) hab)
  unfold passers
  exact this

/-- replacing the input structures by equivalent ones replaces the output structures by equivalent ones -/
theorem C125_images {hash : List ℤ → ℕ} {c : GCell} {ops : List Op} {wy : List String} {g : OGen} (h : GenSetup c ops wy g) (dup dup' : List GCell)
    (hn : ∀ d ∈ dup ++ dup', d.numbers.length = c.positions.length) (hinj : HashOk hash c ops (dup ++ dup'))
    (hs : List.Forall₂ (SameStru c ops) dup dup') :
    ∃ out out', g.gen2Nodup hash dup = .ok out ∧ g.gen2Nodup hash dup' = .ok out' ∧ List.Forall₂ (SameStru c ops) out out' := by
  have hn1 : ∀ d ∈ dup, d.numbers.length = c.positions.length := fun d hd => hn d (List.mem_append_left _ hd)
  have hn2 : ∀ d ∈ dup', d.numbers.length = c.positions.length := fun d hd => hn d (List.mem_append_right _ hd)
  obtain ⟨_, hy, ht⟩ := same_equiv h
  refine ⟨_, _, C125_first h dup hn1 (hinj.mono fun d hd => List.mem_append_left _ hd),
    C125_first h dup' hn2 (hinj.mono fun d hd => List.mem_append_right _ hd), firsts_rel .nil hs ?_⟩
  intro a b a' b' ha hb ha' hb' e e'
  have la := hn1 a ha
  have lb := hn1 b hb
  have la' := hn2 a' ha'
  have lb' := hn2 b' hb'
  exact ⟨fun r => ht a' b b' la' lb lb' (ht a' a b la' la lb (hy a a' la la' e) r) e',
    fun r => ht a a' b la la' lb e (ht a' b' b la' lb' lb r (hy b b' lb lb' e'))⟩

/-- another order of the input: as many are kept -/
theorem C125_reorder {hash : List ℤ → ℕ} {c : GCell} {ops : List Op} {wy : List String} {g : OGen} (h : GenSetup c ops wy g) (dup dup' : List GCell)
    (hn : ∀ d ∈ dup, d.numbers.length = c.positions.length) (hinj : HashOk hash c ops dup) (hperm : dup.Perm dup') :
    ∃ out out', g.gen2Nodup hash dup = .ok out ∧ g.gen2Nodup hash dup' = .ok out' ∧ out.length = out'.length ∧
      (∀ a ∈ out, ∃ b ∈ out', SameStru c ops b a) ∧ ∀ b ∈ out', ∃ a ∈ out, SameStru c ops a b := by
  have hn' : ∀ d ∈ dup', d.numbers.length = c.positions.length := fun d hd => hn d (hperm.symm.subset hd)
  have hi : ∀ l : List GCell, (∀ d ∈ l, d ∈ dup) → Set.InjOn hash {m | m.length = c.positions.length ∧
      ∃ d ∈ {m | m ∈ l.map (·.numbers)}, GeomEquiv siteKey c.positions ops d m} := by
    intro l hl
    refine Set.InjOn.mono ?_ hinj
    rintro m ⟨h1, d, hd, e⟩
    obtain ⟨x, hx, rfl⟩ := List.mem_map.1 hd
    exact ⟨h1, x, hl x hx, e⟩
  obtain ⟨out, e1, s1, t1⟩ := nodup_geom (hash := hash) h dup hn {m | m ∈ dup.map (·.numbers)} (fun _ => Iff.rfl) (hi dup fun _ h => h)
  obtain ⟨out', e2, s2, t2⟩ := nodup_geom (hash := hash) h dup' hn' {m | m ∈ dup'.map (·.numbers)} (fun _ => Iff.rfl)
    (hi dup' fun d hd => hperm.symm.subset hd)
  have hD : {m | m ∈ dup'.map (·.numbers)} = {m | m ∈ dup.map (·.numbers)} := by
    ext m
    exact (hperm.map _).symm.mem_iff
  rw [hD] at t2
  obtain ⟨_, hy, ht⟩ := same_equiv h
  refine ⟨out, out', e1, e2, ?_, fun a ha => ?_, fun b hb => ?_⟩
  · have := transversal_length (R := GeomEquiv siteKey c.positions ops) (D := {m | m ∈ dup.map (·.numbers)}) ?_ ?_ t1 t2
    · simpa using this
    · intro a ha b hb
      obtain ⟨x, hx, rfl⟩ := List.mem_map.1 ha
      obtain ⟨y, hy', rfl⟩ := List.mem_map.1 hb
      exact hy x y (hn x hx) (hn y hy')
    · intro a ha b hb d hd
      obtain ⟨x, hx, rfl⟩ := List.mem_map.1 ha
      obtain ⟨y, hy', rfl⟩ := List.mem_map.1 hb
      obtain ⟨z, hz, rfl⟩ := List.mem_map.1 hd
      exact ht x y z (hn x hx) (hn y hy') (hn z hz)
  · obtain ⟨r, hr, e⟩ := t2.2.1 a.numbers (List.mem_map_of_mem (s1.subset ha))
    obtain ⟨b, hb, rfl⟩ := List.mem_map.1 hr
    exact ⟨b, hb, e⟩
  · obtain ⟨r, hr, e⟩ := t1.2.1 b.numbers (List.mem_map_of_mem (hperm.symm.subset (s2.subset hb)))
    obtain ⟨a, ha, rfl⟩ := List.mem_map.1 hr
    exact ⟨a, ha, e⟩

/-! ## The chain -/

def exPairs : List GCell := [{ exChain with numbers := [79, 29, 29, 79] }, { exChain with numbers := [79, 79, 29, 29] },
  { exChain with numbers := [79, 29, 79, 29] }, { exChain with numbers := [29, 79, 29, 79] }]

/-- the first and the third are kept -/
example : (exGen.gen2Nodup exDigits exPairs).map (List.map (·.numbers)) = .ok [[79, 29, 29, 79], [79, 29, 79, 29]] := by decide +kernel

/-- in another order other ones are, as many -/
example : (exGen.gen2Nodup exDigits exPairs.reverse).map (List.map (·.numbers)) = .ok [[29, 79, 29, 79], [79, 79, 29, 29]] := by decide +kernel

example : exGen.gen2Nodup exHash exPairs = .ok (firsts (SameStru exChain exOps) [] exPairs) :=
  C125_first exGen_setup exPairs (by decide +kernel) (exHash_inj _)

example : (exGen.gen2Nodup exHash exPairs >>= exGen.gen2Nodup exHash) = exGen.gen2Nodup exHash exPairs :=
  C125_idempotent exGen_setup exPairs (by decide +kernel) (exHash_inj _)

end Verif
