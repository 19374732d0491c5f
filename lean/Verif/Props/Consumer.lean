import Verif.Model.Consumer
import Verif.Props.Firsts

/-! # C126: consumers that change the structures they receive -/

namespace Verif

open Spec (Op GeomEquiv)

/-! ## the loop -/

/-- pure form of the loop -/
def useL (hash : List ℤ → ℕ) (P : List (List ℕ)) (use : Use) : List (GCell × List ℤ) → List ℕ → List GCell → List (GCell × List ℤ)
  | _, _, [] => []
  | past, seen, c :: cs =>
    if c.id hash ∈ seen then useL hash P use past seen cs
    else (c, use past c) :: useL hash P use (past ++ [(c, use past c)]) (isoNum hash P (use past c) ++ seen) cs

theorem useL_congr_seen {hash : List ℤ → ℕ} {P : List (List ℕ)} {use : Use} (past : List (GCell × List ℤ)) (s s' : List ℕ) (h : ∀ k, k ∈ s ↔ k ∈ s')
    (l : List GCell) : useL hash P use past s l = useL hash P use past s' l := by
  induction l generalizing past s s' with
  | nil => rfl
  | cons a l ih =>
    unfold useL
    by_cases hk : a.id hash ∈ s
    · rw [if_pos hk, if_pos ((h _).1 hk)]; exact ih _ _ _ h
    · rw [if_neg hk, if_neg (fun h' => hk ((h _).2 h')), ih _ (isoNum hash P (use past a) ++ s) (isoNum hash P (use past a) ++ s') fun k => by simp [h k]]

theorem nodupUse_eq {hash : List ℤ → ℕ} {P : List (List ℕ)} {use : Use} (past : List (GCell × List ℤ)) (seen : List ℕ) (l : List GCell)
    (hP : ∀ past, ∀ c ∈ l, ∀ p ∈ P, ∀ i ∈ p, i < (use past c).length) :
    nodupUse hash P use past seen l = .ok (useL hash P use past seen l) := by
  induction l generalizing past seen with
  | nil => rfl
  | cons c l ih =>
    unfold nodupUse useL
    split
    · exact ih _ _ fun q d hd => hP q d (List.mem_cons_of_mem _ hd)
    · obtain ⟨s, h1, h2⟩ := updateIsoset_ok hash (use past c) P seen (hP past c (by simp))
      simp only [h1, bind, Except.bind]
      rw [ih _ s fun q d hd => hP q d (List.mem_cons_of_mem _ hd)]
      simp only [pure, Except.pure]
      rw [useL_congr_seen _ s (isoNum hash P (use past c) ++ seen) h2]

theorem useL_sublist {hash : List ℤ → ℕ} {P : List (List ℕ)} {use : Use} (past : List (GCell × List ℤ)) (seen : List ℕ) (l : List GCell) :
    ((useL hash P use past seen l).map Prod.fst).Sublist l := by
  induction l generalizing past seen with
  | nil => exact List.Sublist.refl _
  | cons a l ih =>
    unfold useL
    split
    · exact (ih _ _).cons a
    · exact (ih _ _).cons_cons a

theorem useL_not_seen {hash : List ℤ → ℕ} {P : List (List ℕ)} {use : Use} {past : List (GCell × List ℤ)} {seen : List ℕ} {l : List GCell}
    {x : GCell × List ℤ} (h : x ∈ useL hash P use past seen l) : x.1.id hash ∉ seen := by
  induction l generalizing past seen with
  | nil => simp [useL] at h
  | cons b l ih =>
    unfold useL at h
    split at h
    · exact ih h
    · rename_i hb
      rcases List.mem_cons.1 h with rfl | h
      · exact hb
      · exact fun hs => ih h (List.mem_append_right _ hs)

theorem useL_pairwise {hash : List ℤ → ℕ} {P : List (List ℕ)} {use : Use} (past : List (GCell × List ℤ)) (seen : List ℕ) (l : List GCell) :
    (useL hash P use past seen l).Pairwise fun x y => y.1.id hash ∉ isoNum hash P x.2 := by
  induction l generalizing past seen with
  | nil => exact List.Pairwise.nil
  | cons b l ih =>
    unfold useL
    split
    · exact ih _ _
    · exact List.Pairwise.cons (fun a ha hk => useL_not_seen ha (List.mem_append_left _ hk)) (ih _ _)

/-- the numbers left behind are those the consumer decides on, from what it has received before -/
theorem useL_left {hash : List ℤ → ℕ} {P : List (List ℕ)} {use : Use} (past : List (GCell × List ℤ)) (seen : List ℕ) (l : List GCell)
    (a : List (GCell × List ℤ)) (x : GCell × List ℤ) (b : List (GCell × List ℤ)) (h : useL hash P use past seen l = a ++ x :: b) :
    x.2 = use (past ++ a) x.1 := by
  induction l generalizing past seen a with
  | nil => simp [useL] at h
  | cons c l ih =>
    unfold useL at h
    split at h
    · exact ih _ _ _ h
    · cases a with
      | nil =>
        rw [List.nil_append, List.cons.injEq] at h
        rw [← h.1, List.append_nil]
      | cons y a =>
        rw [List.cons_append, List.cons.injEq] at h
        rw [ih _ _ _ h.2, ← h.1, List.append_assoc, List.singleton_append]

theorem useL_mem_left {hash : List ℤ → ℕ} {P : List (List ℕ)} {use : Use} {past : List (GCell × List ℤ)} {seen : List ℕ} {l : List GCell}
    {x : GCell × List ℤ} (h : x ∈ useL hash P use past seen l) : ∃ q, x.2 = use q x.1 := by
  obtain ⟨a, b, e⟩ := List.append_of_mem h
  exact ⟨_, useL_left _ _ _ _ _ _ e⟩

/-- what happens to an input structure depends on the keys recorded before it -/
theorem useL_split {hash : List ℤ → ℕ} {P : List (List ℕ)} {use : Use} (past : List (GCell × List ℤ)) (seen : List ℕ) (pre : List GCell) (a : GCell)
    (post : List GCell) : ∃ before after, useL hash P use past seen (pre ++ a :: post) = before ++ after ∧
      (before.map Prod.fst).Sublist pre ∧
      if a.id hash ∈ seen ∨ ∃ x ∈ before, a.id hash ∈ isoNum hash P x.2 then (after.map Prod.fst).Sublist post
      else ∃ left rest, after = (a, left) :: rest ∧ (rest.map Prod.fst).Sublist post := by
  induction pre generalizing past seen with
  | nil =>
    refine ⟨[], useL hash P use past seen (a :: post), rfl, List.Sublist.refl _, ?_⟩
    unfold useL
    by_cases h : a.id hash ∈ seen
    · rw [if_pos (.inl h), if_pos h]
      exact useL_sublist _ _ _
    · rw [if_neg (by simp [h]), if_neg h]
      exact ⟨_, _, rfl, useL_sublist _ _ _⟩
  | cons c pre ih =>
    rw [List.cons_append]
    unfold useL
    by_cases h : c.id hash ∈ seen
    · rw [if_pos h]
      obtain ⟨before, after, e, h1, h2⟩ := ih past seen
      exact ⟨before, after, e, h1.cons c, h2⟩
    · rw [if_neg h]
      obtain ⟨before, after, e, h1, h2⟩ := ih (past ++ [(c, use past c)]) (isoNum hash P (use past c) ++ seen)
      refine ⟨(c, use past c) :: before, after, by rw [e]; rfl, h1.cons_cons c, ?_⟩
      have hc : (a.id hash ∈ isoNum hash P (use past c) ++ seen ∨ ∃ x ∈ before, a.id hash ∈ isoNum hash P x.2) ↔
          (a.id hash ∈ seen ∨ ∃ x ∈ (c, use past c) :: before, a.id hash ∈ isoNum hash P x.2) := by
        simp only [List.mem_append, List.mem_cons, exists_eq_or_imp]
        tauto
      rwa [if_congr hc rfl rfl] at h2

/-! ## the theorems -/

/-- the consumer keeps the number of sites -/
def Use.Keeps (use : Use) (n : ℕ) : Prop := ∀ past c, c.numbers.length = n → (use past c).length = n

/-- the consumer replaces structures by equivalent ones only -/
def Use.InClass (use : Use) (c : GCell) (ops : List Op) : Prop :=
  use.Keeps c.positions.length ∧
    ∀ past d, d.numbers.length = c.positions.length → GeomEquiv siteKey c.positions ops d.numbers (use past d)

theorem Use.look_inClass {c : GCell} {ops : List Op} {wy : List String} {g : OGen} (h : GenSetup c ops wy g) : Use.look.InClass c ops :=
  ⟨fun _ _ h => h, fun _ d hd => (same_equiv h).1 d hd⟩

/-- a consumer that only looks sees the structures of the other theorems, whatever the hash and the table -/
theorem C126_look (hash : List ℤ → ℕ) (g : OGen) (dup : List GCell) :
    (g.gen2NodupUse hash Use.look dup).map (List.map Prod.fst) = g.gen2Nodup hash dup := by
  unfold OGen.gen2NodupUse OGen.gen2Nodup
  generalize ([] : List (GCell × List ℤ)) = past
  generalize ([] : List ℕ) = seen
  induction dup generalizing past seen with
  | nil => rfl
  | cons c l ih =>
    unfold nodupUse gen2NodupLoop
    split
    · exact ih _ _
    · cases hu : updateIsoset hash seen c.numbers g.perms with
      | error e => simp only [Use.look, hu, bind, Except.bind, Except.map]
      | ok s =>
        have := ih (past ++ [(c, Use.look past c)]) s
        simp only [Use.look, hu, bind, Except.bind, pure, Except.pure] at this ⊢
        rw [← this]
        cases nodupUse hash g.perms Use.look (past ++ [(c, c.numbers)]) s l <;> rfl

/-- changes within the symmetry class do not matter: the consumer receives the same structures, for every hash -/
theorem C126_in_class {hash : List ℤ → ℕ} {c : GCell} {ops : List Op} {wy : List String} {g : OGen} (h : GenSetup c ops wy g) (use : Use)
    (hu : use.InClass c ops) (dup : List GCell) (hn : ∀ d ∈ dup, d.numbers.length = c.positions.length) :
    ∃ out, g.gen2NodupUse hash use dup = .ok out ∧ g.gen2Nodup hash dup = .ok (out.map Prod.fst) := by
  obtain ⟨_, _, hF, hG⟩ := h.rows
  refine ⟨_, nodupUse_eq [] [] dup fun q d hd p hp => by rw [hu.1 q d (hn d hd)]; exact (hG.perm p hp).lt, ?_⟩
  rw [OGen.gen2Nodup, gen2NodupLoop_eq hash g.perms [] dup fun d hd p hp => by rw [hn d hd]; exact (hG.perm p hp).lt]
  congr 1
  generalize ([] : List (GCell × List ℤ)) = past
  generalize ([] : List ℕ) = seen
  induction dup generalizing past seen with
  | nil => rfl
  | cons d l ih =>
    have hd := hn d (by simp)
    have ih := fun past seen => ih (fun x hx => hn x (List.mem_cons_of_mem _ hx)) past seen
    unfold useL dedupL
    split
    · exact ih past seen
    · rw [List.map_cons, ← ih]
      congr 1
      refine dedupL_congr_seen _ _ _ _ (fun k => ?_) l
      have hr : Rel g.perms d.numbers (use past d) := (rel_iff_geom h.distinct h.contract hF _ _ hd (hu.1 past d hd)).2 (hu.2 past d hd)
      have hr' := hr.symm hG hd
      rw [List.mem_append, List.mem_append]
      refine or_congr_left ?_
      unfold isoKeys isoNum
      simp only [List.mem_map]
      constructor
      · rintro ⟨p, hp, rfl⟩
        obtain ⟨q, hq, e⟩ := hr'.trans hG (hu.1 past d hd) ⟨p, hp, rfl⟩
        exact ⟨q, hq, by rw [e]⟩
      · rintro ⟨p, hp, rfl⟩
        obtain ⟨q, hq, e⟩ := hr.trans hG hd ⟨p, hp, rfl⟩
        exact ⟨q, hq, by rw [e]⟩

/-- for every consumer that keeps the number of sites, and every hash: the run succeeds, the structures come from the input in its order,
the consumer decides from what it received before, and no structure is equivalent to what the consumer made of an earlier one -/
theorem C126_run {hash : List ℤ → ℕ} {c : GCell} {ops : List Op} {wy : List String} {g : OGen} (h : GenSetup c ops wy g) (use : Use)
    (hu : use.Keeps c.positions.length) (dup : List GCell) (hn : ∀ d ∈ dup, d.numbers.length = c.positions.length) :
    ∃ out, g.gen2NodupUse hash use dup = .ok out ∧ (out.map Prod.fst).Sublist dup ∧
      (∀ a x b, out = a ++ x :: b → x.2 = use a x.1) ∧
      out.Pairwise fun x y => ¬ GeomEquiv siteKey c.positions ops x.2 y.1.numbers := by
  obtain ⟨_, _, hF, hG⟩ := h.rows
  refine ⟨_, nodupUse_eq [] [] dup fun q d hd p hp => by rw [hu q d (hn d hd)]; exact (hG.perm p hp).lt, useL_sublist _ _ _,
    fun a x b e => by have := useL_left _ _ _ _ _ _ e; rwa [List.nil_append] at this, ?_⟩
  refine (useL_pairwise [] [] dup).imp_of_mem fun {x y} hx hy hxy e => hxy ?_
  have lx := hn x.1 ((useL_sublist _ _ _).subset (List.mem_map_of_mem hx))
  have ly := hn y.1 ((useL_sublist _ _ _).subset (List.mem_map_of_mem hy))
  obtain ⟨q, hq⟩ := useL_mem_left hx
  have lx2 : x.2.length = c.positions.length := by rw [hq]; exact hu q _ lx
  obtain ⟨p, hp, e⟩ := (rel_iff_geom h.distinct h.contract hF _ _ lx2 ly).2 e
  exact List.mem_map.2 ⟨p, hp, by rw [e]; rfl⟩

/-- the hash tells apart the input structures and the images of everything the consumer may leave behind -/
def UseHashOk (hash : List ℤ → ℕ) (c : GCell) (ops : List Op) (use : Use) (dup : List GCell) : Prop :=
  Set.InjOn hash {m | m.length = c.positions.length ∧
    ((∃ d ∈ dup, d.numbers = m) ∨ ∃ past, ∃ d ∈ dup, GeomEquiv siteKey c.positions ops (use past d) m)}

/-- which structures are received: `a` in its turn is, unless what the consumer made of one of the structures received before is
equivalent to `a` -/
theorem C126_received {hash : List ℤ → ℕ} {c : GCell} {ops : List Op} {wy : List String} {g : OGen} (h : GenSetup c ops wy g) (use : Use)
    (hu : use.Keeps c.positions.length) (pre : List GCell) (a : GCell) (post : List GCell)
    (hn : ∀ d ∈ pre ++ a :: post, d.numbers.length = c.positions.length) (hinj : UseHashOk hash c ops use (pre ++ a :: post)) :
    ∃ before after, g.gen2NodupUse hash use (pre ++ a :: post) = .ok (before ++ after) ∧ (before.map Prod.fst).Sublist pre ∧
      ((∃ x ∈ before, GeomEquiv siteKey c.positions ops x.2 a.numbers) → (after.map Prod.fst).Sublist post) ∧
      ((∀ x ∈ before, ¬ GeomEquiv siteKey c.positions ops x.2 a.numbers) →
        ∃ rest, after = (a, use before a) :: rest ∧ (rest.map Prod.fst).Sublist post) := by
  obtain ⟨_, _, hF, hG⟩ := h.rows
  obtain ⟨before, after, e, h1, h2⟩ := useL_split (hash := hash) (P := g.perms) (use := use) [] [] pre a post
  have key : ∀ x ∈ before, (a.id hash ∈ isoNum hash g.perms x.2 ↔ GeomEquiv siteKey c.positions ops x.2 a.numbers) := by
    intro x hx
    have hxl : x ∈ useL hash g.perms use [] [] (pre ++ a :: post) := by rw [e]; exact List.mem_append_left _ hx
    have hxd := (useL_sublist _ _ _).subset (List.mem_map_of_mem hxl)
    obtain ⟨q, hq⟩ := useL_mem_left hxl
    have lx2 : x.2.length = c.positions.length := by rw [hq]; exact hu q _ (hn _ hxd)
    have la := hn a (by simp)
    rw [← rel_iff_geom h.distinct h.contract hF _ _ lx2 la, isoNum, List.mem_map]
    refine exists_congr fun p => and_congr_right fun hp => ⟨fun he => ?_, fun he => by rw [he]; rfl⟩
    have hr : Rel g.perms x.2 (gather x.2 p) := ⟨p, hp, rfl⟩
    have hl := hr.length_eq hG.perm lx2
    refine hinj ⟨hl, .inr ⟨q, x.1, hxd, ?_⟩⟩ ⟨la, .inl ⟨a, by simp, rfl⟩⟩ he
    rw [← hq]
    exact (rel_iff_geom h.distinct h.contract hF _ _ lx2 hl).1 hr
  refine ⟨before, after, ?_, h1, fun hx => ?_, fun hx => ?_⟩
  · rw [← e]
    exact nodupUse_eq [] [] _ fun q d hd p hp => by rw [hu q d (hn d hd)]; exact (hG.perm p hp).lt
  · obtain ⟨x, hx, hr⟩ := hx
    rwa [if_pos (.inr ⟨x, hx, (key x hx).2 hr⟩)] at h2
  · rw [if_neg] at h2
    · obtain ⟨left, rest, e1, e2⟩ := h2
      refine ⟨rest, ?_, e2⟩
      rw [e1] at e
      rw [e1, ← List.nil_append before, ← useL_left _ _ _ _ _ _ e]
    · rintro (hx' | ⟨x, hx', hr⟩)
      · simp at hx'
      · exact hx x hx' ((key x hx').1 hr)

/-- a consumer that writes a foreign element into every structure receives all duplicates -/
theorem C126_foreign {hash : List ℤ → ℕ} {c : GCell} {ops : List Op} {wy : List String} {g : OGen} (h : GenSetup c ops wy g) (use : Use)
    (hu : use.Keeps c.positions.length) (dup : List GCell) (hn : ∀ d ∈ dup, d.numbers.length = c.positions.length)
    (hinj : UseHashOk hash c ops use dup) (z : ℤ) (hz : ∀ d ∈ dup, z ∉ d.numbers) (huz : ∀ past, ∀ d ∈ dup, z ∈ use past d) :
    ∃ out, g.gen2NodupUse hash use dup = .ok out ∧ out.map Prod.fst = dup := by
  obtain ⟨_, _, hF, hG⟩ := h.rows
  refine ⟨_, nodupUse_eq [] [] dup fun q d hd p hp => by rw [hu q d (hn d hd)]; exact (hG.perm p hp).lt, ?_⟩
  have main : ∀ (l : List GCell) past seen, (∀ d ∈ l, d ∈ dup) → (∀ d ∈ l, d.id hash ∉ seen) → (useL hash g.perms use past seen l).map Prod.fst = l := by
    intro l
    induction l with
    | nil => intros; rfl
    | cons d l ih =>
      intro past seen hl hs
      unfold useL
      rw [if_neg (hs d (by simp)), List.map_cons, ih _ _ (fun x hx => hl x (List.mem_cons_of_mem _ hx))]
      intro x hx hk
      rcases List.mem_append.1 hk with hk | hk
      · obtain ⟨p, hp, he⟩ := List.mem_map.1 hk
        have hd := hl d (by simp)
        have hx := hl x (List.mem_cons_of_mem _ hx)
        have ll := hu past d (hn d hd)
        have hr : Rel g.perms (use past d) (gather (use past d) p) := ⟨p, hp, rfl⟩
        have hgl := hr.length_eq hG.perm ll
        have := hinj ⟨hgl, .inr ⟨past, d, hd, (rel_iff_geom h.distinct h.contract hF _ _ ll hgl).1 hr⟩⟩ ⟨hn x hx, .inl ⟨x, hx, rfl⟩⟩ he
        apply hz x hx
        rw [← this]
        have hpm := (gather_perm (xs := use past d) (p := p) (by rw [ll]; exact hG.perm p hp))
        exact hpm.mem_iff.2 (huz past d hd)
      · exact hs x (List.mem_cons_of_mem _ hx) hk
  exact main dup [] [] (fun _ h => h) (by simp)

/-- a structure left with fewer numbers than sites makes the next call fail: no run that ends normally contains one -/
theorem C126_short {hash : List ℤ → ℕ} {c : GCell} {ops : List Op} {wy : List String} {g : OGen} (h : GenSetup c ops wy g) (use : Use)
    (dup : List GCell) {out : List (GCell × List ℤ)} (hr : g.gen2NodupUse hash use dup = .ok out) : ∀ x ∈ out, c.positions.length ≤ x.2.length := by
  obtain ⟨_, _, hF, hG⟩ := h.rows
  unfold OGen.gen2NodupUse at hr
  generalize ([] : List (GCell × List ℤ)) = past at hr
  generalize ([] : List ℕ) = seen at hr
  induction dup generalizing past seen out with
  | nil => simp only [nodupUse, Except.ok.injEq] at hr; subst hr; simp
  | cons d l ih =>
    unfold nodupUse at hr
    split at hr
    · exact ih _ _ hr
    · cases hu : updateIsoset hash seen (use past d) g.perms with
      | error e => simp only [hu, bind, Except.bind] at hr; cases hr
      | ok s =>
        simp only [hu, bind, Except.bind, pure, Except.pure] at hr
        cases hrest : nodupUse hash g.perms use (past ++ [(d, use past d)]) s l with
        | error e => rw [hrest] at hr; cases hr
        | ok rest =>
          simp only [hrest, Except.ok.injEq] at hr
          subst hr
          intro x hx
          rcases List.mem_cons.1 hx with rfl | hx
          · by_contra hlt
            have := updateIsoset_valid hu _ hG.one (use past d).length (List.mem_range.2 (by simpa using hlt))
            exact absurd this (lt_irrefl _)
          · exact ih _ _ hrest x hx

/-! ## level by level -/

/-- the generators of candidates read lattice, positions and numbers only -/
theorem addOneLoop_left (hash : List ℤ → ℕ) (ok : ℕ → ℤ → Bool) (z : ℤ) (out : List (GCell × List ℤ)) (db : List ℕ) :
    addOneLoop hash ok z (leftCells out) db = addOneLoop hash ok z (out.map fun x => redecorate x.1 x.2) db := by
  have inner : ∀ (c : GCell) (m : List ℤ) (cands : List (List ℤ)) (db : List ℕ),
      addOneInner hash (c.setNumbers m) cands db = addOneInner hash (redecorate c m) cands db := by
    intro c m cands
    induction cands with
    | nil => intro db; rfl
    | cons nn cands ih =>
      intro db
      unfold addOneInner
      rw [ih, ih]
      rfl
  unfold leftCells
  induction out generalizing db with
  | nil => rfl
  | cons x out ih =>
    simp only [List.map_cons, addOneLoop, inner]
    rw [show (x.1.setNumbers x.2).numbers = (redecorate x.1 x.2).numbers from rfl]
    refine bind_congr fun r => ?_
    rw [ih]

/-- the decorations of one level are closed under the operations, when the empty decoration is -/
theorem substSet_rel {P : List (List ℕ)} {n : ℕ} (hG : PermGroup n P) {base : List ℤ} {ok : ℕ → ℤ → Bool} {z : ℤ} (hb : base.length = n)
    (hfix : ∀ p ∈ P, gather base p = base) (hinv : ∀ p ∈ P, ∀ i j : ℕ, p[i]? = some j → ∀ v, ok i v = true → ok j v = true)
    (hok : ∀ i v, ok i v = true → v ≠ z) (k : ℕ) : ∀ d ∈ SubstSet base ok z k, ∀ m, Rel P d m → m ∈ SubstSet base ok z k := by
  induction k with
  | zero =>
    rintro d hd m ⟨p, hp, rfl⟩
    rw [substSet_zero] at hd ⊢
    rw [show d = base from hd, hfix p hp]
    rfl
  | succ k ih =>
    rintro d hd m ⟨p, hp, rfl⟩
    obtain ⟨d', hd', i, v, hv, ho, rfl⟩ := substSet_pred hd
    have hd'n : d'.length = n := by
      obtain ⟨S, _, _, hs⟩ := hd'
      rw [hs.1, hb]
    have hpp := hG.perm p hp
    have hi : i < n := by rw [← hd'n]; exact (List.getElem?_eq_some_iff.1 hv).1
    obtain ⟨i', hi'l, hi'⟩ := List.getElem_of_mem (hpp.mem hi)
    have hpi : p[i']? = some i := by rw [List.getElem?_eq_getElem hi'l, hi']
    rw [gather_set hpp hd'n hpi]
    refine substSet_step hok (ih d' hd' _ ⟨p, hp, rfl⟩) (v := v) ?_ ?_
    · rw [gather_getElem? (by rw [hd'n]; exact hpp.lt), hpi]
      exact hv
    · obtain ⟨q, hq, hpq⟩ := hG.inv p hp
      have hqp := hG.perm q hq
      have hqi : q[i]? = some i' := by
        have hil : i < q.length := by rw [hqp.length]; exact hi
        have e := List.getElem?_eq_getElem hil
        have h1 : (gather p q)[i]? = some i := by rw [hpq]; simp [hi]
        rw [gather_getElem? (by rw [hpp.length]; exact hqp.lt), e, Option.bind_some] at h1
        rw [e]
        obtain ⟨hl, h2⟩ := List.getElem?_eq_some_iff.1 h1
        congr 1
        exact (List.Nodup.getElem_inj_iff hpp.nodup).1 (h2.trans hi'.symm)
      exact hinv q hq i i' hqi v ho

theorem transversal_rel {P : List (List ℕ)} {n : ℕ} (hG : PermGroup n P) {D : Set (List ℤ)} (hl : ∀ d ∈ D, d.length = n)
    (hD : ∀ d ∈ D, ∀ m, Rel P d m → m ∈ D) {out : List (GCell × List ℤ)} (hr : ∀ x ∈ out, Rel P x.1.numbers x.2)
    (ht : Spec.Transversal (Rel P) D (out.map fun x => x.1.numbers)) : Spec.Transversal (Rel P) D (out.map fun x => x.2) := by
  have hx1 : ∀ x ∈ out, x.1.numbers ∈ D := fun x hx => ht.1 _ (List.mem_map_of_mem hx)
  have hx2 : ∀ x ∈ out, x.2 ∈ D := fun x hx => hD _ (hx1 x hx) _ (hr x hx)
  refine ⟨fun m hm => ?_, fun d hd => ?_, ?_⟩
  · obtain ⟨x, hx, rfl⟩ := List.mem_map.1 hm
    exact hx2 x hx
  · obtain ⟨r, hr', e⟩ := ht.2.1 d hd
    obtain ⟨x, hx, rfl⟩ := List.mem_map.1 hr'
    exact ⟨x.2, List.mem_map_of_mem hx, ((hr x hx).symm hG (hl _ (hx1 x hx))).trans hG (hl _ (hx2 x hx)) e⟩
  · rw [List.pairwise_map]
    refine (List.pairwise_map.1 ht.2.2).imp_of_mem fun {x y} hx hy h => ⟨fun e => h.1 ?_, fun e => h.2 ?_⟩
    · exact (((hr x hx).trans hG (hl _ (hx1 x hx)) e).trans hG (hl _ (hx1 x hx)) ((hr y hy).symm hG (hl _ (hx1 y hy))))
    · exact (((hr y hy).trans hG (hl _ (hx1 y hy)) e).trans hG (hl _ (hx1 y hy)) ((hr x hx).symm hG (hl _ (hx1 x hx))))

/-- all levels, for a consumer that stays in the classes -/
theorem levelsUse_core {hash : List ℤ → ℕ} {c : GCell} {ops : List Op} {wy : List String} {g : OGen} (h : GenSetup c ops wy g) {ok : ℕ → ℤ → Bool}
    {z : ℤ} (hok : ∀ i v, ok i v = true → v ≠ z)
    (hinv : ∀ p ∈ g.perms, ∀ i j : ℕ, p[i]? = some j → ∀ v, ok i v = true → ok j v = true)
    (hfix : ∀ p ∈ g.perms, gather c.numbers p = c.numbers) (use : ℕ → Use) (hu : ∀ k, (use k).InClass c ops) (K : ℕ) :
    ∀ (k0 : ℕ) (gen0 : List (GCell × List ℤ)),
    (∀ x ∈ gen0, Built (redecorate x.1 x.2) ∧ x.1.lattice = c.lattice ∧ x.1.positions = c.positions ∧ x.2 ∈ SubstSet c.numbers ok z k0) →
    Spec.Transversal (Rel g.perms) (SubstSet c.numbers ok z k0) (gen0.map fun x => x.2) →
    (∀ j, k0 < j → j ≤ k0 + K → Set.InjOn hash {m | ∃ d ∈ SubstSet c.numbers ok z j, Rel g.perms d m}) →
    ∃ ls, levelsUse (fun u gen => do g.gen2NodupUse hash u (← addOneLoop hash ok z gen [])) use K k0 (leftCells gen0) = .ok ls ∧ ls.length = K ∧
      ∀ k l, ls[k]? = some l → (∀ x ∈ l, x.1.lattice = c.lattice ∧ x.1.positions = c.positions) ∧
        Spec.Transversal (Rel g.perms) (SubstSet c.numbers ok z (k0 + k + 1)) (l.map fun x => x.1.numbers) ∧
        Spec.Transversal (Rel g.perms) (SubstSet c.numbers ok z (k0 + k + 1)) (l.map fun x => x.2) := by
  obtain ⟨_, _, hF, hG⟩ := h.rows
  have hlen : ∀ k, ∀ d ∈ SubstSet c.numbers ok z k, d.length = c.positions.length := by
    rintro k d ⟨S, _, _, hs⟩; rw [hs.1, h.built.length]
  induction K with
  | zero => exact fun k0 gen0 _ _ _ => ⟨[], rfl, rfl, by simp⟩
  | succ K ih =>
    intro k0 gen0 hg ht hinj
    obtain ⟨cand, out, h1, h2, h3, h4⟩ := step_transversal (hash := hash) (g := g) (c := c) (n := c.positions.length) hok hG hinv
      (gen := gen0.map fun x => redecorate x.1 x.2) (k := k0) (hinj (k0 + 1) (by omega) (by omega))
      (by
        intro d hd
        obtain ⟨x, hx, rfl⟩ := List.mem_map.1 hd
        obtain ⟨a1, a2, a3, a4⟩ := hg x hx
        exact ⟨a1, a2, a3, hlen _ _ a4, a4⟩)
      h.built.length (by rw [List.map_map]; exact ht)
    have hcl : ∀ d ∈ cand, d.numbers.length = c.positions.length := by
      obtain ⟨cand', out', e1, _, e3, _, e5⟩ := step_sound (hash := hash) (g := g) (c := c) (n := c.positions.length) hok hG.perm
        (gen := gen0.map fun x => redecorate x.1 x.2) (k := k0)
        (by
          intro d hd
          obtain ⟨x, hx, rfl⟩ := List.mem_map.1 hd
          obtain ⟨a1, a2, a3, a4⟩ := hg x hx
          exact ⟨a1, a2, a3, hlen _ _ a4, a4⟩)
      rw [h1] at e1
      injection e1 with e1
      subst e1
      intro d hd
      rw [e3] at hd
      exact (e5 d ((dedupL_sublist _ _ _ _).subset hd)).2.2.2.1
    obtain ⟨o, f1, f2⟩ := C126_in_class (hash := hash) h (use k0) (hu k0) cand hcl
    rw [h2] at f2
    injection f2 with f2
    subst f2
    have hleft : ∀ x ∈ o, Rel g.perms x.1.numbers x.2 ∧ x.2.length = c.positions.length := by
      intro x hx
      obtain ⟨o', g1, -, g3, -⟩ := C126_run (hash := hash) h (use k0) (hu k0).1 cand hcl
      rw [f1] at g1
      injection g1 with g1
      subst g1
      obtain ⟨a, b, e⟩ := List.append_of_mem hx
      have l1 := (h3 x.1 (List.mem_map_of_mem hx)).2.2.2.1
      rw [g3 a x b e]
      exact ⟨(rel_iff_geom h.distinct h.contract hF _ _ l1 ((hu k0).1 a x.1 l1)).2 ((hu k0).2 a x.1 l1), (hu k0).1 a x.1 l1⟩
    rw [List.map_map] at h4
    have ht2 := transversal_rel hG (hlen (k0 + 1)) (substSet_rel hG h.built.length hfix hinv hok (k0 + 1)) (fun x hx => (hleft x hx).1) h4
    obtain ⟨ls, e1, e2, e3⟩ := ih (k0 + 1) o
      (by
        intro x hx
        obtain ⟨b1, b2, b3, -, b5⟩ := h3 x.1 (List.mem_map_of_mem hx)
        exact ⟨b1.redecorate (by rw [(hleft x hx).2, b3]), b2, b3, ht2.1 _ (List.mem_map_of_mem hx)⟩) ht2
      (fun j hj hj' => hinj j (by omega) (by omega))
    refine ⟨o :: ls, ?_, by simp [e2], ?_⟩
    · unfold levelsUse
      rw [addOneLoop_left]
      simp only [bind, Except.bind, h1, f1] at e1 ⊢
      rw [e1]; rfl
    · intro k l hl
      cases k with
      | zero =>
        simp only [List.getElem?_cons_zero, Option.some.injEq] at hl
        subst hl
        exact ⟨fun x hx => ⟨(h3 x.1 (List.mem_map_of_mem hx)).2.1, (h3 x.1 (List.mem_map_of_mem hx)).2.2.1⟩, h4, ht2⟩
      | succ k =>
        rw [List.getElem?_cons_succ] at hl
        have := e3 k l hl
        rwa [show k0 + 1 + k + 1 = k0 + (k + 1) + 1 by omega] at this

/-- operations do not move an atom onto a site of another element (what spglib takes a symmetry of the cell to be) -/
def KeepsElements (c : GCell) (ops : List Op) : Prop := ∀ op ∈ ops, ∀ (i j : ℕ) x y, c.positions[i]? = some x → c.positions[j]? = some y →
  sameKey (op.image y) x → c.numbers[i]? = c.numbers[j]?

theorem levelsUse_geom {hash : List ℤ → ℕ} {c : GCell} {ops : List Op} {wy : List String} {g : OGen} (h : GenSetup c ops wy g)
    (hel : KeepsElements c ops) {ok : ℕ → ℤ → Bool} {z : ℤ} (hok : ∀ i v, ok i v = true → v ≠ z)
    (hinv : ∀ op ∈ ops, ∀ (i j : ℕ) x y, c.positions[i]? = some x → c.positions[j]? = some y → sameKey (op.image y) x →
      ∀ v, ok i v = true → ok j v = true) (use : ℕ → Use) (hu : ∀ k, (use k).InClass c ops) (K : ℕ)
    (hinj : ∀ j, j ≠ 0 → j ≤ K → Set.InjOn hash {m | m.length = c.positions.length ∧
      ∃ d ∈ SubstSet c.numbers ok z j, GeomEquiv siteKey c.positions ops d m}) :
    ∃ ls, levelsUse (fun u gen => do g.gen2NodupUse hash u (← addOneLoop hash ok z gen [])) use K 0 [c] = .ok ls ∧ ls.length = K ∧
      ∀ k l, ls[k]? = some l → (∀ x ∈ l, x.1.lattice = c.lattice ∧ x.1.positions = c.positions) ∧
        Spec.Transversal (GeomEquiv siteKey c.positions ops) (SubstSet c.numbers ok z (k + 1)) (l.map fun x => x.1.numbers) ∧
        Spec.Transversal (GeomEquiv siteKey c.positions ops) (SubstSet c.numbers ok z (k + 1)) (l.map fun x => x.2) := by
  obtain ⟨_, _, hF, hG⟩ := h.rows
  have hlen : ∀ k, ∀ d ∈ SubstSet c.numbers ok z k, d.length = c.positions.length := by
    rintro k d ⟨S, _, _, hs⟩; rw [hs.1, h.built.length]
  have row : ∀ p ∈ g.perms, ∀ i j : ℕ, p[i]? = some j → ∃ op ∈ ops, ∃ x y, c.positions[i]? = some x ∧ c.positions[j]? = some y ∧
      sameKey (op.image y) x := by
    intro p hp i j hij
    obtain ⟨op, hop, hR⟩ := forall₂_mem_right hF hp
    have hi : i < c.positions.length := by
      rw [← hR.1.length]; exact (List.getElem?_eq_some_iff.1 hij).1
    have hj : j < c.positions.length := hR.1.lt j (List.mem_of_getElem? hij)
    have ei := List.getElem?_eq_getElem hi
    have ej := List.getElem?_eq_getElem hj
    exact ⟨op, hop, _, _, ei, ej, (hR.2 i _ ei j _ ej).1 hij⟩
  have hnum := h.built.length
  obtain ⟨ls, h1, h2, h3⟩ := levelsUse_core (hash := hash) h hok
    (by
      intro p hp i j hij
      obtain ⟨op, hop, x, y, hx, hy, hs⟩ := row p hp i j hij
      exact hinv op hop i j x y hx hy hs)
    (by
      intro p hp
      apply List.ext_getElem?
      intro i
      have hpp := hG.perm p hp
      rw [gather_getElem? (by rw [hnum]; exact hpp.lt)]
      cases hij : p[i]? with
      | none =>
        rw [List.getElem?_eq_none_iff, hpp.length] at hij
        rw [Option.bind_none, List.getElem?_eq_none (by omega)]
      | some j =>
        obtain ⟨op, hop, x, y, hx, hy, hs⟩ := row p hp i j hij
        rw [Option.bind_some, hel op hop i j x y hx hy hs])
    use hu K 0 [(c, c.numbers)]
    (by
      intro x hx
      rw [List.mem_singleton] at hx
      subst hx
      exact ⟨h.built.redecorate hnum, rfl, rfl, by rw [substSet_zero]; rfl⟩)
    (by
      rw [substSet_zero]
      refine ⟨by simp, ?_, by simp⟩
      rintro d rfl
      exact ⟨c.numbers, by simp, Rel.refl hG hnum⟩)
    (by
      intro j hj hj'
      refine (hinj j (by omega) (by omega)).mono ?_
      rintro m ⟨d, hd, hdm⟩
      have hml := hdm.length_eq hG.perm (hlen _ d hd)
      exact ⟨hml, d, hd, (rel_iff_geom h.distinct h.contract hF d m (hlen _ d hd) hml).1 hdm⟩)
  refine ⟨ls, h1, h2, fun k l hl => ?_⟩
  obtain ⟨a, b, d⟩ := h3 k l hl
  rw [Nat.zero_add] at b d
  have hc := fun x (hx : x ∈ SubstSet c.numbers ok z (k + 1)) y (hy : y ∈ SubstSet c.numbers ok z (k + 1)) =>
    rel_iff_geom h.distinct h.contract hF x y (hlen _ x hx) (hlen _ y hy)
  exact ⟨a, b.congr hc, d.congr hc⟩

/-- all levels of `all_speckle_gen_unitary`: a consumer that replaces structures by equivalent ones receives one structure of every class,
and leaves one of every class behind -/
theorem C126_levels_unitary {hash : List ℤ → ℕ} {c : GCell} {ops : List Op} {wy : List String} {g : OGen} (h : GenSetup c ops wy g)
    (hel : KeepsElements c ops) (use : ℕ → Use) (hu : ∀ k, (use k).InClass c ops) (n : ℕ) (sp : Specie) (D : ℕ → Set (List ℤ))
    (hD : ∀ k, D k = {m | ∃ S : Finset ℕ, S.card = k ∧ (∀ i ∈ S, ∃ v, c.numbers[i]? = some v ∧ v ≠ sp.Z) ∧ Spec.Subst c.numbers S sp.Z m})
    (hinj : ∀ j, j ≠ 0 → j ≤ n - c.getSpeckleNum sp → Set.InjOn hash {m | m.length = c.positions.length ∧
      ∃ d ∈ D j, GeomEquiv siteKey c.positions ops d m}) :
    ∃ ls, g.allSpeckleUnitaryUse hash use n sp = .ok ls ∧ ls.length = n - c.getSpeckleNum sp ∧
      ∀ k l, ls[k]? = some l → (∀ x ∈ l, x.1.lattice = c.lattice ∧ x.1.positions = c.positions) ∧
        Spec.Transversal (GeomEquiv siteKey c.positions ops) (D (k + 1)) (l.map fun x => x.1.numbers) ∧
        Spec.Transversal (GeomEquiv siteKey c.positions ops) (D (k + 1)) (l.map fun x => x.2) := by
  have hDk : ∀ k, D k = SubstSet c.numbers (fun _ v => sp.Z != v) sp.Z k := by
    intro k; rw [hD]; simp only [SubstSet, bne_iff_ne, ne_eq, ne_sym sp.Z]
  simp only [hDk] at hinj ⊢
  obtain ⟨hi, _, _, _⟩ := h.rows
  have := levelsUse_geom (hash := hash) h hel (ok := fun _ v => sp.Z != v) (z := sp.Z) (by simp [ne_sym sp.Z]) (by simp) use hu
    (n - c.getSpeckleNum sp) hinj
  unfold OGen.allSpeckleUnitaryUse OGen.addOneUnitary
  rw [hi]
  exact this

/-- the same for `all_speckle_gen` -/
theorem C126_levels_wyckoff {hash : List ℤ → ℕ} {c : GCell} {ops : List Op} {wy : List String} {g : OGen} (h : GenSetup c ops wy g)
    (hel : KeepsElements c ops) (hwy : ∀ op ∈ ops, ∀ (i j : ℕ) x y, c.positions[i]? = some x → c.positions[j]? = some y →
      sameKey (op.image y) x → wy[i]? = wy[j]?) (use : ℕ → Use) (hu : ∀ k, (use k).InClass c ops) (n : ℕ) (w : String) (sp : Specie)
    (D : ℕ → Set (List ℤ)) (hD : ∀ k, D k = {m | ∃ S : Finset ℕ, S.card = k ∧
      (∀ i ∈ S, ∃ v, c.numbers[i]? = some v ∧ wy[i]? = some w ∧ v ≠ sp.Z) ∧ Spec.Subst c.numbers S sp.Z m})
    (hinj : ∀ j, j ≠ 0 → j ≤ n - c.getSpeckleNum sp → Set.InjOn hash {m | m.length = c.positions.length ∧
      ∃ d ∈ D j, GeomEquiv siteKey c.positions ops d m}) :
    ∃ ls, g.allSpeckleUse hash use n w sp = .ok ls ∧ ls.length = n - c.getSpeckleNum sp ∧
      ∀ k l, ls[k]? = some l → (∀ x ∈ l, x.1.lattice = c.lattice ∧ x.1.positions = c.positions) ∧
        Spec.Transversal (GeomEquiv siteKey c.positions ops) (D (k + 1)) (l.map fun x => x.1.numbers) ∧
        Spec.Transversal (GeomEquiv siteKey c.positions ops) (D (k + 1)) (l.map fun x => x.2) := by
  have hDk : ∀ k, D k = SubstSet c.numbers (fun i v => wy[i]? == some w && sp.Z != v) sp.Z k := by
    intro k; rw [hD]; simp only [SubstSet, bne_iff_ne, ne_eq, ne_sym sp.Z, Bool.and_eq_true, beq_iff_eq]
  simp only [hDk] at hinj ⊢
  obtain ⟨hi, hw, _, _⟩ := h.rows
  have := levelsUse_geom (hash := hash) h hel (ok := fun i v => wy[i]? == some w && sp.Z != v) (z := sp.Z) (by simp [ne_sym sp.Z]) (by
    intro op hop i j x y hx hy hs v
    rw [hwy op hop i j x y hx hy hs]; exact id) use hu (n - c.getSpeckleNum sp) hinj
  unfold OGen.allSpeckleUse OGen.addOne
  rw [hi, hw]
  exact this

/-- the same for `all_speckle_gen_of_ele` -/
theorem C126_levels_of_ele {hash : List ℤ → ℕ} {c : GCell} {ops : List Op} {wy : List String} {g : OGen} (h : GenSetup c ops wy g)
    (hel : KeepsElements c ops) (use : ℕ → Use) (hu : ∀ k, (use k).InClass c ops) (n : ℕ) (ele sp : Specie) (D : ℕ → Set (List ℤ))
    (hD : ∀ k, D k = {m | ∃ S : Finset ℕ, S.card = k ∧ (∀ i ∈ S, ∃ v, c.numbers[i]? = some v ∧ v = ele.Z ∧ v ≠ sp.Z) ∧
      Spec.Subst c.numbers S sp.Z m})
    (hinj : ∀ j, j ≠ 0 → j ≤ n - c.getSpeckleNum sp → Set.InjOn hash {m | m.length = c.positions.length ∧
      ∃ d ∈ D j, GeomEquiv siteKey c.positions ops d m}) :
    ∃ ls, g.allSpeckleOfEleUse hash use n ele sp = .ok ls ∧ ls.length = n - c.getSpeckleNum sp ∧
      ∀ k l, ls[k]? = some l → (∀ x ∈ l, x.1.lattice = c.lattice ∧ x.1.positions = c.positions) ∧
        Spec.Transversal (GeomEquiv siteKey c.positions ops) (D (k + 1)) (l.map fun x => x.1.numbers) ∧
        Spec.Transversal (GeomEquiv siteKey c.positions ops) (D (k + 1)) (l.map fun x => x.2) := by
  have hDk : ∀ k, D k = SubstSet c.numbers (fun _ v => v == ele.Z && v != sp.Z) sp.Z k := by
    intro k; rw [hD]; simp only [SubstSet, bne_iff_ne, Bool.and_eq_true, beq_iff_eq]
  simp only [hDk] at hinj ⊢
  obtain ⟨hi, _, _, _⟩ := h.rows
  have := levelsUse_geom (hash := hash) h hel (ok := fun _ v => v == ele.Z && v != sp.Z) (z := sp.Z) (by simp) (by simp) use hu
    (n - c.getSpeckleNum sp) hinj
  unfold OGen.allSpeckleOfEleUse OGen.addOneOfEle
  rw [hi]
  exact this

/-! ## The chain -/

/-- reads a structure round the other way -/
def exTurn : Use := fun _ c => c.numbers.reverse
/-- hides the first atom by a vacancy -/
def exHide : Use := fun _ c => c.numbers.set 0 0
/-- turns every structure into the one with opposite pairs -/
def exOpposite : Use := fun _ _ => [79, 29, 79, 29]
/-- cuts the last atom off -/
def exCut : Use := fun _ c => c.numbers.take 3

/-- turning round is harmless -/
theorem exTurn_inClass : exTurn.InClass exChain exOps := by
  obtain ⟨_, _, hF, hG⟩ := exGen_setup.rows
  have hl : exTurn.Keeps exChain.positions.length := fun past d hd => by rw [exTurn, List.length_reverse, hd]
  refine ⟨hl, fun past d hd => (rel_iff_geom exGen_setup.distinct exGen_setup.contract hF _ _ hd (hl past d hd)).1 ?_⟩
  refine ⟨[3, 2, 1, 0], by decide, ?_⟩
  have h4 : d.numbers.length = 4 := hd
  match hm : d.numbers, h4 with
  | [a, b, e, f], _ => simp [exTurn, hm, gather]

example : ∃ out, exGen.gen2NodupUse exHash exTurn exPairs = .ok out ∧ exGen.gen2Nodup exHash exPairs = .ok (out.map Prod.fst) :=
  C126_in_class exGen_setup exTurn exTurn_inClass exPairs (by decide +kernel)

/-- hiding an atom makes all duplicates appear -/
example : (exGen.gen2NodupUse exDigits exHide exPairs).map (List.map fun x => x.1.numbers) = .ok (exPairs.map (·.numbers)) := by decide +kernel

example : ∃ out, exGen.gen2NodupUse exHash exHide exPairs = .ok out ∧ out.map Prod.fst = exPairs :=
  C126_foreign exGen_setup exHide (fun _ d hd => by rw [exHide, List.length_set, hd]) exPairs (by decide +kernel) (exHash_inj _) 0
    (by decide +kernel) (by
      intro past d hd
      have h4 : d.numbers.length = 4 := (by decide +kernel : ∀ d ∈ exPairs, d.numbers.length = 4) d hd
      match hm : d.numbers, h4 with
      | [a, b, e, f], _ => simp [exHide, hm])

/-- the class of opposite pairs is lost and the class of neighbours comes twice -/
example : (exGen.gen2NodupUse exDigits exOpposite exPairs).map (List.map fun x => x.1.numbers) = .ok [[79, 29, 29, 79], [79, 79, 29, 29]] := by
  decide +kernel

/-- too few numbers -/
example : exGen.gen2NodupUse exDigits exCut exPairs = .error .indexError := by rfl

/-- level by level, hiding the speckle of the first level starts the next level from other structures: a vacancy in place of the gold atom -/
example : (exGen.allSpeckleOfEleUse exDigits (fun _ => exHide) 2 exCu exAu).map (List.map (List.map fun x => x.1.numbers)) =
    .ok [[[79, 29, 29, 29], [29, 79, 29, 29], [29, 29, 79, 29], [29, 29, 29, 79]], [[0, 79, 29, 29], [0, 29, 79, 29],
      [0, 79, 79, 29], [0, 79, 29, 79]]] := by
  decide +kernel

/-- turning round is harmless there too -/
example : (exGen.allSpeckleOfEleUse exDigits (fun _ => exTurn) 2 exCu exAu).map (List.map (List.map fun x => x.1.numbers)) =
    .ok [[[79, 29, 29, 29]], [[79, 29, 29, 79], [29, 79, 29, 79]]] := by decide +kernel

theorem exChain_keepsElements : KeepsElements exChain exOps := by
  intro op _ i j x y hi hj _
  have h1 : i < 4 := (List.getElem?_eq_some_iff.1 hi).1
  have h2 : j < 4 := (List.getElem?_eq_some_iff.1 hj).1
  interval_cases i <;> interval_cases j <;> rfl

example : ∃ ls, exGen.allSpeckleOfEleUse exHash (fun _ => exTurn) 4 exCu exAu = .ok ls ∧ ls.length = 4 - exChain.getSpeckleNum exAu := by
  obtain ⟨ls, h1, h2, _⟩ := C126_levels_of_ele (hash := exHash) exGen_setup exChain_keepsElements (fun _ => exTurn) (fun _ => exTurn_inClass) 4 exCu exAu _
    (fun _ => rfl) (fun _ _ _ => exHash_inj _)
  exact ⟨ls, h1, h2⟩

end Verif
