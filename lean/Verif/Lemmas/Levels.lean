import Verif.Props.Dedup

/-! # Adding one speckle at a time -/

namespace Verif

theorem mem_addOneCands (ok : ℕ → ℤ → Bool) (z : ℤ) (ns m : List ℤ) :
    m ∈ addOneCands ok z ns ↔ ∃ i v, ns[i]? = some v ∧ ok i v = true ∧ m = ns.set i z := by
  unfold addOneCands
  rw [List.mem_map]
  constructor
  · rintro ⟨⟨v, i⟩, hp, rfl⟩
    rw [List.mem_filter, List.mem_zipIdx_iff_getElem?] at hp
    exact ⟨i, v, hp.1, hp.2, rfl⟩
  · rintro ⟨i, v, h1, h2, rfl⟩
    exact ⟨(v, i), List.mem_filter.2 ⟨by rw [List.mem_zipIdx_iff_getElem?]; exact h1, h2⟩, rfl⟩

/-- all candidate cells of a list of cells, in order -/
def candCells (ok : ℕ → ℤ → Bool) (z : ℤ) (gen : List GCell) : List GCell :=
  gen.flatMap fun c => (addOneCands ok z c.numbers).map (redecorate c)

/-- key list used by the `id_db` dictionaries -/
def selfKey (hash : List ℤ → ℕ) (c : GCell) : List ℕ := [c.id hash]

theorem addOneInner_eq (hash : List ℤ → ℕ) {c : GCell} (hc : Built c) (cands : List (List ℤ))
    (hl : ∀ m ∈ cands, m.length = c.positions.length) (db : List ℕ) :
    ∃ db', addOneInner hash c cands db =
      .ok (dedupL (GCell.id hash) (selfKey hash) db (cands.map (redecorate c)), db') ∧
      ∀ rest, dedupL (GCell.id hash) (selfKey hash) db (cands.map (redecorate c) ++ rest) =
        dedupL (GCell.id hash) (selfKey hash) db (cands.map (redecorate c)) ++
        dedupL (GCell.id hash) (selfKey hash) db' rest := by
  induction cands generalizing db with
  | nil => exact ⟨db, rfl, fun rest => rfl⟩
  | cons m cands ih =>
    unfold addOneInner
    have hid : (redecorate c m).id hash = hash m := rfl
    by_cases h : hash m ∈ db
    · obtain ⟨db', h1, h2⟩ := ih (fun m hm => hl m (List.mem_cons_of_mem _ hm)) db
      refine ⟨db', ?_, fun rest => ?_⟩
      · rw [if_pos h, List.map_cons, dedupL_cons, hid, if_pos h]; exact h1
      · rw [List.map_cons, List.cons_append, dedupL_cons, dedupL_cons, hid, if_pos h, if_pos h]; exact h2 rest
    · obtain ⟨db', h1, h2⟩ := ih (fun m hm => hl m (List.mem_cons_of_mem _ hm)) (hash m :: db)
      refine ⟨db', ?_, fun rest => ?_⟩
      · rw [if_neg h, List.map_cons, dedupL_cons, hid, if_neg h, hc.new (hl m (by simp)) c.lattice]
        simp only [bind, Except.bind]
        rw [h1]; rfl
      · rw [List.map_cons, List.cons_append, dedupL_cons, dedupL_cons, hid, if_neg h, if_neg h]
        have := h2 rest
        rw [List.cons_append]
        congr 1

theorem cands_length (ok : ℕ → ℤ → Bool) (z : ℤ) (ns : List ℤ) : ∀ m ∈ addOneCands ok z ns, m.length = ns.length := by
  intro m hm
  obtain ⟨i, v, _, _, rfl⟩ := (mem_addOneCands _ _ _ _).1 hm
  simp

theorem addOneLoop_eq (hash : List ℤ → ℕ) (ok : ℕ → ℤ → Bool) (z : ℤ) (gen : List GCell) (hg : ∀ c ∈ gen, Built c)
    (db : List ℕ) : addOneLoop hash ok z gen db =
      .ok (dedupL (GCell.id hash) (selfKey hash) db (candCells ok z gen)) := by
  induction gen generalizing db with
  | nil => rfl
  | cons c gen ih =>
    have hc := hg c (by simp)
    obtain ⟨db', h1, h2⟩ := addOneInner_eq hash hc (addOneCands ok z c.numbers)
      (fun m hm => by rw [cands_length _ _ _ m hm, hc.length]) db
    unfold addOneLoop
    rw [h1]
    simp only [bind, Except.bind]
    rw [ih (fun d hd => hg d (List.mem_cons_of_mem _ hd)) db']
    simp only [pure, Except.pure]
    congr 1
    have : candCells ok z (c :: gen) = (addOneCands ok z c.numbers).map (redecorate c) ++ candCells ok z gen := by
      simp [candCells]
    rw [this, h2]

theorem mem_candCells {ok : ℕ → ℤ → Bool} {z : ℤ} {gen : List GCell} {d : GCell} :
    d ∈ candCells ok z gen ↔ ∃ c ∈ gen, ∃ i v, c.numbers[i]? = some v ∧ ok i v = true ∧
      d = redecorate c (c.numbers.set i z) := by
  unfold candCells
  rw [List.mem_flatMap]
  refine exists_congr fun c => and_congr_right fun _ => ?_
  rw [List.mem_map]
  constructor
  · rintro ⟨m, hm, rfl⟩
    obtain ⟨i, v, h1, h2, rfl⟩ := (mem_addOneCands _ _ _ _).1 hm
    exact ⟨i, v, h1, h2, rfl⟩
  · rintro ⟨i, v, h1, h2, rfl⟩
    exact ⟨_, (mem_addOneCands _ _ _ _).2 ⟨i, v, h1, h2, rfl⟩, rfl⟩

theorem candCells_built {ok : ℕ → ℤ → Bool} {z : ℤ} {gen : List GCell} (hg : ∀ c ∈ gen, Built c) :
    ∀ d ∈ candCells ok z gen, Built d := by
  intro d hd
  obtain ⟨c, hc, i, v, _, _, rfl⟩ := mem_candCells.1 hd
  exact (hg c hc).redecorate (by rw [List.length_set, (hg c hc).length])

/-- without collisions the `id_db` filter keeps the set of decorations -/
theorem selfDedup_numbers (hash : List ℤ → ℕ) (l : List GCell)
    (hinj : Set.InjOn hash {m | m ∈ l.map (·.numbers)}) (m : List ℤ) :
    m ∈ (dedupL (GCell.id hash) (selfKey hash) [] l).map (·.numbers) ↔ m ∈ l.map (·.numbers) := by
  constructor
  · intro h
    obtain ⟨d, hd, rfl⟩ := List.mem_map.1 h
    exact List.mem_map_of_mem ((dedupL_sublist _ _ _ _).subset hd)
  · intro h
    obtain ⟨d, hd, rfl⟩ := List.mem_map.1 h
    obtain ⟨pre, post, hl⟩ := List.append_of_mem hd
    obtain ⟨r, h1, _, h3⟩ := dedupL_cover (GCell.id hash) (selfKey hash) (seen := []) (pre := pre) (post := post)
      (a := d) (by simp [selfKey]) (by simp)
    rw [← hl] at h1
    have hr := (dedupL_sublist _ _ _ _).subset h1
    simp only [selfKey, List.mem_singleton] at h3
    have : d.numbers = r.numbers := hinj (List.mem_map_of_mem hd) (List.mem_map_of_mem hr) h3
    rw [this]
    exact List.mem_map_of_mem h1

theorem selfDedup_nodup (hash : List ℤ → ℕ) (l : List GCell) :
    ((dedupL (GCell.id hash) (selfKey hash) [] l).map (·.numbers)).Nodup := by
  rw [List.Nodup, List.pairwise_map]
  refine (dedupL_pairwise (GCell.id hash) (selfKey hash) [] l).imp ?_
  intro a b h heq
  apply h
  simp [selfKey, GCell.id, heq]

/-! ### the substitution sets reached level by level -/

/-- decorations obtained from `base` by turning `k` admissible sites into `z` -/
def SubstSet (base : List ℤ) (ok : ℕ → ℤ → Bool) (z : ℤ) (k : ℕ) : Set (List ℤ) :=
  {m | ∃ S : Finset ℕ, S.card = k ∧ (∀ i ∈ S, ∃ v, base[i]? = some v ∧ ok i v = true) ∧ Spec.Subst base S z m}

theorem substSet_zero (base : List ℤ) (ok : ℕ → ℤ → Bool) (z : ℤ) : SubstSet base ok z 0 = {base} := by
  ext m
  constructor
  · rintro ⟨S, hS, _, hm⟩
    rw [Finset.card_eq_zero] at hS
    subst hS
    exact hm.unique ⟨rfl, fun i _ => by simp⟩
  · rintro rfl
    exact ⟨∅, rfl, by simp, rfl, fun i _ => by simp⟩

theorem substSet_step {base : List ℤ} {ok : ℕ → ℤ → Bool} {z : ℤ} (hok : ∀ i v, ok i v = true → v ≠ z) {k : ℕ}
    {m : List ℤ} (hm : m ∈ SubstSet base ok z k) {i : ℕ} {v : ℤ} (hv : m[i]? = some v) (ho : ok i v = true) :
    m.set i z ∈ SubstSet base ok z (k + 1) := by
  obtain ⟨S, hS, hadm, hsub⟩ := hm
  have hi : i < base.length := by rw [← hsub.1]; exact (List.getElem?_eq_some_iff.1 hv).1
  have hiS : i ∉ S := by
    intro h
    have := hsub.2 i hi
    rw [if_pos h, hv] at this
    exact hok i v ho (by simpa using this)
  have hb : base[i]? = some v := by
    have := hsub.2 i hi
    rw [if_neg hiS, hv] at this
    exact this.symm
  refine ⟨insert i S, by rw [Finset.card_insert_of_notMem hiS, hS], ?_, ?_, ?_⟩
  · intro j hj
    rcases Finset.mem_insert.1 hj with rfl | hj
    · exact ⟨v, hb, ho⟩
    · exact hadm j hj
  · rw [List.length_set, hsub.1]
  · intro j hj
    by_cases hij : j = i
    · subst hij
      rw [List.getElem?_set_self (by rw [hsub.1]; exact hi)]
      simp
    · rw [List.getElem?_set_ne (Ne.symm hij), hsub.2 j hj]
      simp [hij]

theorem substSet_pred {base : List ℤ} {ok : ℕ → ℤ → Bool} {z : ℤ} {k : ℕ}
    {m : List ℤ} (hm : m ∈ SubstSet base ok z (k + 1)) :
    ∃ m' ∈ SubstSet base ok z k, ∃ i v, m'[i]? = some v ∧ ok i v = true ∧ m = m'.set i z := by
  obtain ⟨S, hS, hadm, hsub⟩ := hm
  obtain ⟨i, hi⟩ : ∃ i, i ∈ S := by
    have : S.Nonempty := by rw [← Finset.card_pos]; omega
    exact this
  obtain ⟨v, hv, ho⟩ := hadm i hi
  have hlt : i < base.length := (List.getElem?_eq_some_iff.1 hv).1
  have hs : Spec.Subst base (S.erase i) z (m.set i v) := by
    refine ⟨by rw [List.length_set, hsub.1], fun j hj => ?_⟩
    by_cases hij : j = i
    · subst hij
      rw [List.getElem?_set_self (by rw [hsub.1]; exact hj)]
      simp [hv]
    · rw [List.getElem?_set_ne (Ne.symm hij), hsub.2 j hj]
      simp [hij]
  refine ⟨m.set i v, ⟨S.erase i, by rw [Finset.card_erase_of_mem hi]; omega,
    fun j hj => hadm j (Finset.mem_of_mem_erase hj), hs⟩, i, v, ?_, ho, ?_⟩
  · rw [List.getElem?_set_self (by rw [hsub.1]; exact hlt)]
  · rw [List.set_set]
    apply List.ext_getElem?
    intro j
    by_cases hij : j = i
    · subst hij
      rw [List.getElem?_set_self (by rw [hsub.1]; exact hlt), hsub.2 j hlt, if_pos hi]
    · rw [List.getElem?_set_ne (Ne.symm hij)]

/-- transporting a one-site change through a permutation -/
theorem gather_set {n : ℕ} {p : List ℕ} (hp : IsPerm n p) {r : List ℤ} (hr : r.length = n) {i j : ℕ}
    (hij : p[i]? = some j) (z : ℤ) : gather (r.set j z) p = (gather r p).set i z := by
  have hlt : ∀ k ∈ p, k < r.length := by rw [hr]; exact hp.lt
  have hlt' : ∀ k ∈ p, k < (r.set j z).length := by rw [List.length_set]; exact hlt
  have hi : i < p.length := (List.getElem?_eq_some_iff.1 hij).1
  have hj : j < r.length := hlt j (List.mem_of_getElem? hij)
  apply List.ext_getElem?
  intro k
  rw [gather_getElem? hlt']
  by_cases hk : k = i
  · subst hk
    rw [hij, Option.bind_some, List.getElem?_set_self hj,
      List.getElem?_set_self (by rw [gather_length hlt]; exact hi)]
  · rw [List.getElem?_set_ne (Ne.symm hk), gather_getElem? hlt]
    cases hpk : p[k]? with
    | none => rfl
    | some l =>
      simp only [Option.bind_some]
      have hne : j ≠ l := by
        rintro rfl
        have hkl : k < p.length := (List.getElem?_eq_some_iff.1 hpk).1
        exact hk ((List.getElem?_inj hkl hp.nodup).1 (hpk.trans hij.symm))
      rw [List.getElem?_set_ne hne]

/-- one level is sound for every hash and table -/
theorem step_sound {hash : List ℤ → ℕ} {g : OGen} {ok : ℕ → ℤ → Bool} {z : ℤ} {c : GCell}
    (hok : ∀ i v, ok i v = true → v ≠ z)
    {n : ℕ} (hP : ∀ p ∈ g.perms, IsPerm n p) {k : ℕ} {gen : List GCell}
    (hg : ∀ d ∈ gen, Built d ∧ d.lattice = c.lattice ∧ d.positions = c.positions ∧ d.numbers.length = n ∧
      d.numbers ∈ SubstSet c.numbers ok z k) :
    ∃ cand out, addOneLoop hash ok z gen [] = .ok cand ∧ g.gen2Nodup hash cand = .ok out ∧
      cand = dedupL (GCell.id hash) (selfKey hash) [] (candCells ok z gen) ∧
      out = dedupL (GCell.id hash) (isoKeys hash g.perms) [] cand ∧
      ∀ d ∈ candCells ok z gen, Built d ∧ d.lattice = c.lattice ∧ d.positions = c.positions ∧ d.numbers.length = n ∧
        d.numbers ∈ SubstSet c.numbers ok z (k + 1) := by
  have hcand : ∀ d ∈ candCells ok z gen, Built d ∧ d.lattice = c.lattice ∧ d.positions = c.positions ∧
      d.numbers.length = n ∧ d.numbers ∈ SubstSet c.numbers ok z (k + 1) := by
    intro d hd
    have hb := candCells_built (fun c hc => (hg c hc).1) d hd
    obtain ⟨e, he, i, v, hv, ho, rfl⟩ := mem_candCells.1 hd
    obtain ⟨h1, h2, h3, h4, h5⟩ := hg e he
    exact ⟨hb, h2, h3, by simp [redecorate, h4], substSet_step hok h5 hv ho⟩
  refine ⟨_, _, addOneLoop_eq hash ok z gen (fun d hd => (hg d hd).1) [], gen2NodupLoop_eq hash g.perms [] _ ?_, rfl, rfl,
    hcand⟩
  intro d hd p hp
  rw [(hcand d ((dedupL_sublist _ _ _ _).subset hd)).2.2.2.1]
  exact (hP p hp).lt

/-- one level keeps the property "system of representatives" -/
theorem step_transversal {hash : List ℤ → ℕ} {g : OGen} {ok : ℕ → ℤ → Bool} {z : ℤ} {c : GCell}
    (hok : ∀ i v, ok i v = true → v ≠ z) {n : ℕ} (hG : PermGroup n g.perms)
    (hinv : ∀ p ∈ g.perms, ∀ i j : ℕ, p[i]? = some j → ∀ v, ok i v = true → ok j v = true)
    {k : ℕ} {gen : List GCell}
    (hinj : Set.InjOn hash {m | ∃ d ∈ SubstSet c.numbers ok z (k + 1), Rel g.perms d m})
    (hg : ∀ d ∈ gen, Built d ∧ d.lattice = c.lattice ∧ d.positions = c.positions ∧ d.numbers.length = n ∧
      d.numbers ∈ SubstSet c.numbers ok z k)
    (hc : c.numbers.length = n)
    (ht : Spec.Transversal (Rel g.perms) (SubstSet c.numbers ok z k) (gen.map (·.numbers))) :
    ∃ cand out, addOneLoop hash ok z gen [] = .ok cand ∧ g.gen2Nodup hash cand = .ok out ∧
      (∀ d ∈ out, Built d ∧ d.lattice = c.lattice ∧ d.positions = c.positions ∧ d.numbers.length = n ∧
        d.numbers ∈ SubstSet c.numbers ok z (k + 1)) ∧
      Spec.Transversal (Rel g.perms) (SubstSet c.numbers ok z (k + 1)) (out.map (·.numbers)) := by
  obtain ⟨cand, out, h1, h2, h3, h4, hcand⟩ := step_sound (hash := hash) (g := g) hok hG.perm hg
  have hsub1 : cand.Sublist (candCells ok z gen) := by rw [h3]; exact dedupL_sublist _ _ _ _
  have hsub2 : out.Sublist cand := by rw [h4]; exact dedupL_sublist _ _ _ _
  have hlenD : ∀ k, ∀ d ∈ SubstSet c.numbers ok z k, d.length = n := by
    rintro k d ⟨S, _, _, hs⟩; rw [hs.1, hc]
  -- decorations among the candidates
  let C : Set (List ℤ) := {m | m ∈ (candCells ok z gen).map (·.numbers)}
  have hCD : ∀ m ∈ C, m ∈ SubstSet c.numbers ok z (k + 1) := by
    intro m hm
    obtain ⟨d, hd, rfl⟩ := List.mem_map.1 hm
    exact (hcand d hd).2.2.2.2
  have hinjC : Set.InjOn hash {m | m ∈ (candCells ok z gen).map (·.numbers)} := by
    refine hinj.mono ?_
    intro m hm
    exact ⟨m, hCD m hm, Rel.refl hG (hlenD _ m (hCD m hm))⟩
  have hCcand : ∀ m, m ∈ C ↔ m ∈ cand.map (·.numbers) := by
    intro m; rw [h3]; exact (selfDedup_numbers hash _ hinjC m).symm
  obtain ⟨out', e1, _, e3⟩ := nodup_core hash g n hG cand (fun d hd => (hcand d (hsub1.subset hd)).2.2.2.1) C hCcand
    (by
      refine hinj.mono ?_
      rintro m ⟨d, hd, hdm⟩
      exact ⟨d, hCD d hd, hdm⟩)
  rw [h2] at e1
  injection e1 with e1
  subst e1
  refine ⟨cand, out, h1, h2, fun d hd => hcand d (hsub1.subset (hsub2.subset hd)), ?_, ?_, e3.2.2⟩
  · intro m hm; exact hCD m (e3.1 m hm)
  · intro d hd
    -- every decoration of level k+1 is an image of a candidate
    obtain ⟨d', hd', i, v, hv, ho, rfl⟩ := substSet_pred hd
    obtain ⟨r, hr, p, hp, hrp⟩ := ht.2.1 d' hd'
    have hrlen : r.length = n := hlenD _ r (ht.1 r hr)
    have hpp := hG.perm p hp
    have hi : i < p.length := by
      rw [hpp.length, ← hlenD _ d' hd']; exact (List.getElem?_eq_some_iff.1 hv).1
    have hpi := List.getElem?_eq_getElem hi
    have hlt : ∀ k ∈ p, k < r.length := by rw [hrlen]; exact hpp.lt
    have hrj : r[p[i]]? = some v := by
      rw [← hrp, gather_getElem? hlt, hpi] at hv
      exact hv
    have hcandmem : r.set p[i] z ∈ C := by
      obtain ⟨e, he, rfl⟩ := List.mem_map.1 hr
      refine List.mem_map.2 ⟨redecorate e (e.numbers.set p[i] z), ?_, rfl⟩
      exact mem_candCells.2 ⟨e, he, p[i], v, hrj, hinv p hp i _ hpi v ho, rfl⟩
    have hrel : Rel g.perms (r.set p[i] z) (d'.set i z) :=
      ⟨p, hp, by rw [gather_set hpp hrlen hpi, hrp]⟩
    obtain ⟨s, hs, hsr⟩ := e3.2.1 _ hcandmem
    exact ⟨s, hs, hsr.trans hG (hlenD _ s (hCD s (e3.1 s hs))) hrel⟩

end Verif
