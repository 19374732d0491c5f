import Verif.Spec.Relabel
import Verif.Props.Rounded
import Verif.Lemmas.Apps
import Mathlib.Logic.Equiv.Basic

/-! # C121: elements are only labels -/

namespace Verif

open Spec

section
variable {f : ℤ → ℤ} {E : Set ℤ} {N : ℕ}

/-- related structures of the two runs -/
def RCell (f : ℤ → ℤ) (E : Set ℤ) (N : ℕ) (c c' : GCell) : Prop := Renamed f c c' ∧ c.numbers ∈ Rows N E ∧ c.positions.length = N

theorem forall₂_ren {l m : List ℤ} (h : List.Forall₂ (fun z z' => z ∈ E ∧ z' = f z) l m) : (∀ z ∈ l, z ∈ E) ∧ m = l.map f := by
  induction h with
  | nil => simp
  | cons h1 _ ih =>
    obtain ⟨h2, rfl⟩ := h1
    refine ⟨fun z hz => ?_, by rw [ih.2]; rfl⟩
    rcases List.mem_cons.1 hz with rfl | hz
    · exact h2
    · exact ih.1 z hz

theorem forall₂_of_ren {l : List ℤ} (h : ∀ z ∈ l, z ∈ E) : List.Forall₂ (fun z z' => z ∈ E ∧ z' = f z) l (l.map f) := by
  rw [List.forall₂_map_right_iff, List.forall₂_same]
  exact fun z hz => ⟨h z hz, rfl⟩

theorem fancy_ren {l : List ℤ} (h : ∀ z ∈ l, z ∈ E) (idx : List ℕ) :
    SameOutcome (fun a b => (∀ z ∈ a, z ∈ E) ∧ a.length = idx.length ∧ b = a.map f) (fancy l idx) (fancy (l.map f) idx) := by
  have h1 := fancy_near (forall₂_of_ren (f := f) h) idx
  generalize hx : fancy l idx = x at h1
  generalize fancy (l.map f) idx = y at h1
  cases h1 with
  | error e => exact .error e
  | ok h1 =>
    obtain ⟨h2, h3⟩ := forall₂_ren h1
    refine .ok ⟨h2, ?_, h3⟩
    rw [fancy_ok_iff] at hx
    have := congrArg List.length hx
    simpa using this.symm

theorem new_ren (L : M3 ℚ) (ps : List (V3 ℚ)) {nums : List ℤ} (h : ∀ z ∈ nums, z ∈ E) (hl : ps.length = N) :
    SameOutcome (RCell f E N) (GCell.new L ps nums) (GCell.new L ps (nums.map f)) := by
  unfold GCell.new
  cases hi : newIdSeq ps with
  | error e => exact .error e
  | ok idx =>
    have hidx : idx.length = N := by
      unfold newIdSeq at hi
      split at hi
      · cases hi
      · injection hi with hi
        rw [← hi, lexsort3_length, List.length_map, hl]
    simp only [bind, Except.bind]
    cases hp : fancy ps idx with
    | error e => exact .error e
    | ok qs =>
      simp only
      have hq : qs.length = N := by
        rw [fancy_ok_iff] at hp
        have := congrArg List.length hp
        rw [List.length_map, List.length_map] at this
        omega
      have hf := fancy_ren (f := f) h idx
      generalize fancy nums idx = x at hf
      generalize fancy (nums.map f) idx = y at hf
      cases hf with
      | error e => exact .error e
      | ok hf =>
        obtain ⟨h1, h2, h3⟩ := hf
        exact .ok ⟨⟨rfl, rfl, h3, h3, by simp⟩, ⟨by simpa [hidx] using h2, h1⟩, hq⟩

/-- the two collections of hashes agree on the decorations that can occur -/
def SameSeen (f : ℤ → ℤ) (E : Set ℤ) (N : ℕ) (hash : List ℤ → ℕ) (db db' : List ℕ) : Prop :=
  ∀ l ∈ Rows N E, hash (l.map f) ∈ db' ↔ hash l ∈ db

/-- collisions of the hash correspond -/
def HashRen (f : ℤ → ℤ) (E : Set ℤ) (N : ℕ) (hash : List ℤ → ℕ) : Prop :=
  ∀ l ∈ Rows N E, ∀ m ∈ Rows N E, hash (l.map f) = hash (m.map f) ↔ hash l = hash m

theorem SameSeen.cons {hash : List ℤ → ℕ} (hh : HashRen f E N hash) {db db' : List ℕ} (h : SameSeen f E N hash db db') {m : List ℤ}
    (hm : m ∈ Rows N E) : SameSeen f E N hash (hash m :: db) (hash (m.map f) :: db') := by
  intro l hl
  rw [List.mem_cons, List.mem_cons, h l hl, hh l hl m hm]

theorem sameSeen_nil {hash : List ℤ → ℕ} : SameSeen f E N hash [] [] := fun _ _ => by simp

theorem updateIsoset_ren {hash : List ℤ → ℕ} (hh : HashRen f E N hash) {nums : List ℤ} (hn : nums ∈ Rows N E) : ∀ (perms : List (List ℕ)),
    (∀ p ∈ perms, p.length = N) → ∀ {db db' : List ℕ}, SameSeen f E N hash db db' →
    SameOutcome (SameSeen f E N hash) (updateIsoset hash db nums perms) (updateIsoset hash db' (nums.map f) perms) := by
  intro perms
  induction perms with
  | nil => intro _ db db' h; exact .ok h
  | cons p ps ih =>
    intro hp db db' h
    rw [updateIsoset, updateIsoset]
    refine (fancy_ren hn.2 p).bind ?_
    rintro a _ ⟨h1, h2, rfl⟩
    exact ih (fun q hq => hp q (List.mem_cons_of_mem _ hq)) (h.cons hh ⟨h2.trans (hp p (by simp)), h1⟩)

theorem gen2Nodup_ren {hash : List ℤ → ℕ} (hh : HashRen f E N hash) {perms : List (List ℕ)} (hp : ∀ p ∈ perms, p.length = N)
    {dup dup' : List GCell} (h : List.Forall₂ (RCell f E N) dup dup') : ∀ {db db' : List ℕ}, SameSeen f E N hash db db' →
    SameOutcome (List.Forall₂ (RCell f E N)) (gen2NodupLoop hash perms db dup) (gen2NodupLoop hash perms db' dup') := by
  induction h with
  | nil => intro db db' _; exact .ok .nil
  | @cons a b l m h1 _ ih =>
    intro db db' hs
    rw [gen2NodupLoop, gen2NodupLoop, GCell.id, GCell.id, h1.1.numbers]
    by_cases hm : hash a.numbers ∈ db
    · rw [if_pos hm, if_pos ((hs _ h1.2.1).2 hm)]; exact ih hs
    · rw [if_neg hm, if_neg fun hc => hm ((hs _ h1.2.1).1 hc)]
      exact (updateIsoset_ren hh h1.2.1 perms hp hs).bind fun i i' hi => (ih hi).bind fun r r' hr => .ok (.cons h1 hr)

theorem addOneInner_ren {hash : List ℤ → ℕ} (hh : HashRen f E N hash) {c c' : GCell} (h : RCell f E N c c') : ∀ (cands : List (List ℤ)),
    (∀ l ∈ cands, l ∈ Rows N E) → ∀ {db db' : List ℕ}, SameSeen f E N hash db db' →
    SameOutcome (fun r r' => List.Forall₂ (RCell f E N) r.1 r'.1 ∧ SameSeen f E N hash r.2 r'.2) (addOneInner hash c cands db)
      (addOneInner hash c' (cands.map (·.map f)) db') := by
  intro cands
  induction cands with
  | nil => intro _ db db' hs; exact .ok ⟨.nil, hs⟩
  | cons nn rest ih =>
    intro hc db db' hs
    have hnn := hc nn (by simp)
    have hrest : ∀ l ∈ rest, l ∈ Rows N E := fun l hl => hc l (List.mem_cons_of_mem _ hl)
    rw [List.map_cons, addOneInner, addOneInner]
    by_cases hm : hash nn ∈ db
    · rw [if_pos hm, if_pos ((hs _ hnn).2 hm)]; exact ih hrest hs
    · rw [if_neg hm, if_neg fun hc => hm ((hs _ hnn).1 hc), h.1.lattice, h.1.positions]
      exact (new_ren c.lattice c.positions hnn.2 h.2.2).bind fun d d' hd => (ih hrest (hs.cons hh hnn)).bind fun r r' hr =>
        .ok ⟨.cons hd hr.1, hr.2⟩

theorem set_rows {l : List ℤ} (hl : l ∈ Rows N E) {z : ℤ} (hz : z ∈ E) (i : ℕ) : l.set i z ∈ Rows N E := by
  refine ⟨by rw [List.length_set]; exact hl.1, fun y hy => ?_⟩
  rcases List.mem_or_eq_of_mem_set hy with h | rfl
  · exact hl.2 y h
  · exact hz

theorem addOneCands_ren {ok ok' : ℕ → ℤ → Bool} {atom : ℤ} (ha : atom ∈ E) {nums : List ℤ} (hn : nums ∈ Rows N E)
    (hok : ∀ i, ∀ z ∈ E, ok' i (f z) = ok i z) :
    addOneCands ok' (f atom) (nums.map f) = (addOneCands ok atom nums).map (·.map f) ∧ ∀ l ∈ addOneCands ok atom nums, l ∈ Rows N E := by
  unfold addOneCands
  constructor
  · rw [List.zipIdx_map, List.filter_map, List.map_map, List.map_map]
    have : (nums.zipIdx.filter ((fun p : ℤ × ℕ => ok' p.2 p.1) ∘ Prod.map f id)) = nums.zipIdx.filter fun p => ok p.2 p.1 := by
      apply List.filter_congr
      rintro ⟨z, i⟩ hz
      exact hok i z (hn.2 z (List.mem_of_getElem? (List.mem_zipIdx_iff_getElem?.1 hz)))
    rw [this]
    apply List.map_congr_left
    rintro ⟨z, i⟩ _
    simp [List.map_set]
  · intro l hl
    obtain ⟨⟨z, i⟩, -, rfl⟩ := List.mem_map.1 hl
    exact set_rows hn ha i

theorem addOneLoop_ren {hash : List ℤ → ℕ} (hh : HashRen f E N hash) {ok ok' : ℕ → ℤ → Bool} {atom : ℤ} (ha : atom ∈ E)
    (hok : ∀ i, ∀ z ∈ E, ok' i (f z) = ok i z) {gen gen' : List GCell} (h : List.Forall₂ (RCell f E N) gen gen') :
    ∀ {db db' : List ℕ}, SameSeen f E N hash db db' →
    SameOutcome (List.Forall₂ (RCell f E N)) (addOneLoop hash ok atom gen db) (addOneLoop hash ok' (f atom) gen' db') := by
  induction h with
  | nil => intro db db' _; exact .ok .nil
  | cons h1 _ ih =>
    intro db db' hs
    obtain ⟨c1, c2⟩ := addOneCands_ren (f := f) ha h1.2.1 hok
    rw [addOneLoop, addOneLoop, h1.1.numbers, c1]
    exact (addOneInner_ren hh h1 _ c2 hs).bind fun r r' hr => (ih hr.2).bind fun s s' hs => .ok (List.rel_append hr.1 hs)

theorem levels_ren {step step' : List GCell → Py (List GCell)}
    (hs : ∀ l l', List.Forall₂ (RCell f E N) l l' → SameOutcome (List.Forall₂ (RCell f E N)) (step l) (step' l')) (k : ℕ)
    {gen gen' : List GCell} (h : List.Forall₂ (RCell f E N) gen gen') :
    SameOutcome (List.Forall₂ (List.Forall₂ (RCell f E N))) (levels step k gen) (levels step' k gen') := by
  induction k generalizing gen gen' with
  | zero => exact .ok .nil
  | succ k ih =>
    rw [levels, levels]
    exact (hs _ _ h).bind fun l l' hl => (ih hl).bind fun r r' hr => .ok (.cons hl hr)

theorem ren_forget {x y : Py (List GCell)} (h : SameOutcome (List.Forall₂ (RCell f E N)) x y) : SameOutcome (List.Forall₂ (Renamed f)) x y := by
  cases h with
  | ok h => exact .ok (h.imp fun _ _ h => h.1)
  | error e => exact .error e

theorem ren_forget2 {x y : Py (List (List GCell))} (h : SameOutcome (List.Forall₂ (List.Forall₂ (RCell f E N))) x y) :
    SameOutcome (List.Forall₂ (List.Forall₂ (Renamed f))) x y := by
  cases h with
  | ok h => exact .ok (h.imp fun _ _ h => h.imp fun _ _ h => h.1)
  | error e => exact .error e

theorem overwrite_ren (nums : List ℤ) (idx : List ℕ) (z : ℤ) : overwrite (nums.map f) idx (f z) = (overwrite nums idx z).map f := by
  unfold overwrite
  induction idx generalizing nums with
  | nil => rfl
  | cons i idx ih => rw [List.foldl_cons, List.foldl_cons, ← List.map_set, ih]

theorem overwrite_mem {nums : List ℤ} (hn : ∀ z ∈ nums, z ∈ E) {z : ℤ} (hz : z ∈ E) (idx : List ℕ) : ∀ y ∈ overwrite nums idx z, y ∈ E := by
  unfold overwrite
  induction idx generalizing nums with
  | nil => exact hn
  | cons i idx ih =>
    rw [List.foldl_cons]
    refine ih fun y hy => ?_
    rcases List.mem_or_eq_of_mem_set hy with h | rfl
    · exact hn y h
    · exact hz

theorem zipWrite_ren (z1 z2 : ℤ) : ∀ (l1 l2 : List ℕ) (nums : List ℤ),
    zipLongestWrite (nums.map f) (f z1) (f z2) l1 l2 = (zipLongestWrite nums z1 z2 l1 l2).map f
  | [], l2, nums => by
    rw [zipLongestWrite, zipLongestWrite]
    exact overwrite_ren nums l2 z2
  | i1 :: r1, [], nums => by
    rw [zipLongestWrite, zipLongestWrite, ← List.map_set]
    exact zipWrite_ren z1 z2 r1 [] _
  | i1 :: r1, i2 :: r2, nums => by
    rw [zipLongestWrite, zipLongestWrite, ← List.map_set, ← List.map_set]
    exact zipWrite_ren z1 z2 r1 r2 _

theorem mem_set_of {nums : List ℤ} (hn : ∀ z ∈ nums, z ∈ E) {z : ℤ} (hz : z ∈ E) (i : ℕ) : ∀ y ∈ nums.set i z, y ∈ E := by
  intro y hy
  rcases List.mem_or_eq_of_mem_set hy with h | rfl
  · exact hn y h
  · exact hz

theorem zipWrite_mem {z1 z2 : ℤ} (h1 : z1 ∈ E) (h2 : z2 ∈ E) : ∀ (l1 l2 : List ℕ) (nums : List ℤ), (∀ z ∈ nums, z ∈ E) →
    ∀ y ∈ zipLongestWrite nums z1 z2 l1 l2, y ∈ E
  | [], l2, nums, hn => by rw [zipLongestWrite]; exact overwrite_mem hn h2 l2
  | i1 :: r1, [], nums, hn => by rw [zipLongestWrite]; exact zipWrite_mem h1 h2 r1 [] _ (mem_set_of hn h1 i1)
  | i1 :: r1, i2 :: r2, nums, hn => by
    rw [zipLongestWrite]; exact zipWrite_mem h1 h2 r1 r2 _ (mem_set_of (mem_set_of hn h1 i1) h2 i2)

theorem eleIndices_ren (hf : Set.InjOn f E) {nums : List ℤ} (hn : ∀ z ∈ nums, z ∈ E) {z : ℤ} (hz : z ∈ E) :
    eleIndices (nums.map f) (f z) = eleIndices nums z := by
  unfold eleIndices
  rw [List.zipIdx_map, List.filter_map, List.map_map]
  have : (nums.zipIdx.filter ((fun p : ℤ × ℕ => p.1 == f z) ∘ Prod.map f id)) = nums.zipIdx.filter fun p => p.1 == z := by
    apply List.filter_congr
    rintro ⟨y, i⟩ hy
    have hy' := hn y (List.mem_of_getElem? (List.mem_zipIdx_iff_getElem?.1 hy))
    simp only [Function.comp, Prod.map]
    rw [Bool.eq_iff_iff, beq_iff_eq, beq_iff_eq]
    exact ⟨fun h => hf hy' hz h, fun h => by rw [h]⟩
  rw [this]
  rfl

theorem count_ren (hf : Set.InjOn f E) : ∀ {nums : List ℤ}, (∀ z ∈ nums, z ∈ E) → ∀ {z : ℤ}, z ∈ E → (nums.map f).count (f z) = nums.count z
  | [], _, _, _ => rfl
  | y :: nums, hn, z, hz => by
    rw [List.map_cons, List.count_cons, List.count_cons, count_ren hf (fun w hw => hn w (List.mem_cons_of_mem _ hw)) hz]
    congr 1
    have : (f y == f z) = (y == z) := by
      rw [Bool.eq_iff_iff, beq_iff_eq, beq_iff_eq]
      exact ⟨fun h => hf (hn y (by simp)) hz h, fun h => by rw [h]⟩
    rw [this]

/-- generator objects for a cell and the renamed cell -/
structure RenGen (f : ℤ → ℤ) (E : Set ℤ) (N : ℕ) (g g' : OGen) : Prop where
  init : Renamed f g.init g'.init
  perms : g'.perms = g.perms
  wyckoffs : g'.wyckoffs = g.wyckoffs
  row : g.init.numbers ∈ Rows N E
  sites : g.init.positions.length = N
  perm : ∀ p ∈ g.perms, p.length = N

end

/-- **C121.** Generator objects for a cell and for the same cell with renamed elements (spglib does not care about the names): both are made,
with the same permutations, or both fail alike. -/
theorem C121_generator {f : ℤ → ℤ} {E : Set ℤ} {c c' : GCell} (h : Renamed f c c') (hl : c.numbers.length = c.positions.length)
    (hE : ∀ z ∈ c.numbers, z ∈ E) (ops : List Op) (wy : List String) :
    SameOutcome (RenGen f E c.positions.length) (OGen.new c ops wy) (OGen.new c' ops wy) := by
  have hs : c'.symmetryPermutation ops = c.symmetryPermutation ops := by
    unfold GCell.symmetryPermutation; rw [h.positions]
  unfold OGen.new
  rw [hs]
  cases hp : c.symmetryPermutation ops with
  | error e => exact .error e
  | ok perms =>
    refine .ok ⟨h, rfl, rfl, ⟨hl, hE⟩, rfl, fun p hpm => ?_⟩
    unfold GCell.symmetryPermutation at hp
    obtain ⟨op, -, hop⟩ := mapM_mem_ok _ _ _ hp p hpm
    unfold newIdSeq at hop
    split at hop
    · cases hop
    · injection hop with hop
      rw [← hop, lexsort3_length, List.length_map, List.length_map]

/-- **C121.** Rename the elements of a cell and of the species to be put in. Every generator method then lists the renamed structures, in
the same order, or raises the same exception. -/
theorem C121_renamed {f : ℤ → ℤ} {E : Set ℤ} {N : ℕ} (hf : Set.InjOn f E) {hash : List ℤ → ℕ} (h1 : Set.InjOn hash (Rows N E))
    (h2 : Set.InjOn hash (Rows N (f '' E))) {g g' : OGen} (h : RenGen f E N g g') :
    (∀ n sp sp', sp.Z ∈ E → sp'.Z = f sp.Z → SameOutcome (List.Forall₂ (Renamed f)) (g.genDupUnitary n sp) (g'.genDupUnitary n sp') ∧
      SameOutcome (List.Forall₂ (Renamed f)) (g.genNodupUnitary hash n sp) (g'.genNodupUnitary hash n sp') ∧
      SameOutcome (List.Forall₂ (List.Forall₂ (Renamed f))) (g.allSpeckleUnitary hash n sp) (g'.allSpeckleUnitary hash n sp')) ∧
    (∀ w n sp sp', sp.Z ∈ E → sp'.Z = f sp.Z → SameOutcome (List.Forall₂ (Renamed f)) (g.genDup w n sp) (g'.genDup w n sp') ∧
      SameOutcome (List.Forall₂ (Renamed f)) (g.genNodup hash w n sp) (g'.genNodup hash w n sp') ∧
      SameOutcome (List.Forall₂ (List.Forall₂ (Renamed f))) (g.allSpeckle hash n w sp) (g'.allSpeckle hash n w sp')) ∧
    (∀ ele ele' n sp sp', ele.Z ∈ E → ele'.Z = f ele.Z → sp.Z ∈ E → sp'.Z = f sp.Z →
      SameOutcome (List.Forall₂ (Renamed f)) (g.genDupOfEle ele n sp) (g'.genDupOfEle ele' n sp') ∧
      SameOutcome (List.Forall₂ (Renamed f)) (g.genNodupOfEle hash ele n sp) (g'.genNodupOfEle hash ele' n sp') ∧
      SameOutcome (List.Forall₂ (List.Forall₂ (Renamed f))) (g.allSpeckleOfEle hash n ele sp) (g'.allSpeckleOfEle hash n ele' sp')) ∧
    (∀ sp1 sp1' n1 sp2 sp2' n2, sp1.Z ∈ E → sp1'.Z = f sp1.Z → sp2.Z ∈ E → sp2'.Z = f sp2.Z →
      SameOutcome (List.Forall₂ (Renamed f)) (g.genDupTrinary sp1 n1 sp2 n2) (g'.genDupTrinary sp1' n1 sp2' n2) ∧
      SameOutcome (List.Forall₂ (Renamed f)) (g.genNodupTrinary hash sp1 n1 sp2 n2) (g'.genNodupTrinary hash sp1' n1 sp2' n2)) := by
  have hh : HashRen f E N hash := by
    have him : ∀ l ∈ Rows N E, l.map f ∈ Rows N (f '' E) := by
      rintro l ⟨e1, e2⟩
      refine ⟨by rw [List.length_map]; exact e1, fun z hz => ?_⟩
      obtain ⟨y, hy, rfl⟩ := List.mem_map.1 hz
      exact ⟨y, e2 y hy, rfl⟩
    intro l hl m hm
    constructor
    · intro e
      have e1 := h2 (him l hl) (him m hm) e
      have : l = m := by
        have hlen : l.length = m.length := by rw [hl.1, hm.1]
        apply List.ext_getElem hlen
        intro i hi hi'
        have := congrArg (fun x : List ℤ => x[i]?) e1
        simp only [List.getElem?_map, List.getElem?_eq_getElem hi, List.getElem?_eq_getElem hi', Option.map_some, Option.some.injEq] at this
        exact hf (hl.2 _ (List.getElem_mem hi)) (hm.2 _ (List.getElem_mem hi')) this
      rw [this]
    · intro e
      rw [h1 hl hm e]
  have hnew : ∀ {nums : List ℤ}, (∀ z ∈ nums, z ∈ E) →
      SameOutcome (RCell f E N) (GCell.new g.init.lattice g.init.positions nums) (GCell.new g'.init.lattice g'.init.positions (nums.map f)) := by
    intro nums hn
    rw [h.init.lattice, h.init.positions]
    exact new_ren _ _ hn h.sites
  have hE := h.row.2
  have d1 : ∀ n sp sp', sp.Z ∈ E → sp'.Z = f sp.Z → SameOutcome (List.Forall₂ (RCell f E N)) (g.genDupUnitary n sp) (g'.genDupUnitary n sp') :=
    fun n sp sp' hs hs' => by
      unfold OGen.genDupUnitary
      rw [h.init.numbers, List.length_map]
      refine SameOutcome.mapM (forall₂_eq_refl _) ?_
      rintro a _ rfl
      rw [hs', overwrite_ren]
      exact hnew (overwrite_mem hE hs a)
  have d2 : ∀ w n sp sp', sp.Z ∈ E → sp'.Z = f sp.Z → SameOutcome (List.Forall₂ (RCell f E N)) (g.genDup w n sp) (g'.genDup w n sp') :=
    fun w n sp sp' hs hs' => by
      unfold OGen.genDup
      rw [h.init.numbers, h.wyckoffs]
      refine SameOutcome.mapM (forall₂_eq_refl _) ?_
      rintro a _ rfl
      rw [hs', overwrite_ren]
      exact hnew (overwrite_mem hE hs a)
  have d3 : ∀ ele ele' n sp sp', ele.Z ∈ E → ele'.Z = f ele.Z → sp.Z ∈ E → sp'.Z = f sp.Z →
      SameOutcome (List.Forall₂ (RCell f E N)) (g.genDupOfEle ele n sp) (g'.genDupOfEle ele' n sp') :=
    fun ele ele' n sp sp' he he' hs hs' => by
      unfold OGen.genDupOfEle
      rw [h.init.numbers, he', eleIndices_ren hf hE he]
      refine SameOutcome.mapM (forall₂_eq_refl _) ?_
      rintro a _ rfl
      rw [hs', overwrite_ren]
      exact hnew (overwrite_mem hE hs a)
  have d4 : ∀ sp1 sp1' n1 sp2 sp2' n2, sp1.Z ∈ E → sp1'.Z = f sp1.Z → sp2.Z ∈ E → sp2'.Z = f sp2.Z →
      SameOutcome (List.Forall₂ (RCell f E N)) (g.genDupTrinary sp1 n1 sp2 n2) (g'.genDupTrinary sp1' n1 sp2' n2) :=
    fun sp1 sp1' n1 sp2 sp2' n2 e1 e1' e2 e2' => by
      unfold OGen.genDupTrinary
      rw [h.init.numbers, List.length_map]
      refine SameOutcome.mapM (forall₂_eq_refl _) ?_
      rintro a _ rfl
      rw [e1', e2', zipWrite_ren]
      exact hnew (zipWrite_mem e1 e2 _ _ _ hE)
  have hnd : ∀ l l', List.Forall₂ (RCell f E N) l l' → SameOutcome (List.Forall₂ (RCell f E N)) (g.gen2Nodup hash l) (g'.gen2Nodup hash l') :=
    fun l l' hl => by
      unfold OGen.gen2Nodup
      rw [h.perms]
      exact gen2Nodup_ren hh h.perm hl sameSeen_nil
  have hini : List.Forall₂ (RCell f E N) [g.init] [g'.init] := .cons ⟨h.init, h.row, h.sites⟩ .nil
  have hsp : ∀ {sp sp' : Specie}, sp.Z ∈ E → sp'.Z = f sp.Z → g'.init.getSpeckleNum sp' = g.init.getSpeckleNum sp := fun {sp sp'} hs hs' => by
    unfold GCell.getSpeckleNum
    rw [h.init.numbers, hs', count_ren hf hE hs]
  have heq : ∀ {y z : ℤ}, y ∈ E → z ∈ E → (f y == f z) = (y == z) := fun {y z} hy hz => by
    rw [Bool.eq_iff_iff, beq_iff_eq, beq_iff_eq]
    exact ⟨fun e => hf hy hz e, fun e => by rw [e]⟩
  refine ⟨fun n sp sp' hs hs' => ⟨ren_forget (d1 n sp sp' hs hs'), ren_forget ((d1 n sp sp' hs hs').bind hnd), ren_forget2 (E := E) (N := N) ?_⟩,
    fun w n sp sp' hs hs' => ⟨ren_forget (d2 w n sp sp' hs hs'), ren_forget ((d2 w n sp sp' hs hs').bind hnd), ren_forget2 (E := E) (N := N) ?_⟩,
    fun ele ele' n sp sp' he he' hs hs' => ⟨ren_forget (d3 ele ele' n sp sp' he he' hs hs'),
      ren_forget ((d3 ele ele' n sp sp' he he' hs hs').bind hnd), ren_forget2 (E := E) (N := N) ?_⟩,
    fun sp1 sp1' n1 sp2 sp2' n2 e1 e1' e2 e2' => ⟨ren_forget (d4 _ _ _ _ _ _ e1 e1' e2 e2'), ren_forget ((d4 _ _ _ _ _ _ e1 e1' e2 e2').bind hnd)⟩⟩
  · unfold OGen.allSpeckleUnitary
    rw [hsp hs hs']
    refine levels_ren (fun l l' hl => ?_) _ hini
    unfold OGen.addOneUnitary
    rw [hs']
    refine (addOneLoop_ren hh hs (fun i z hz => ?_) hl sameSeen_nil).bind hnd
    simp only [bne, heq hs hz]
  · unfold OGen.allSpeckle
    rw [hsp hs hs']
    refine levels_ren (fun l l' hl => ?_) _ hini
    unfold OGen.addOne
    rw [hs', h.wyckoffs]
    refine (addOneLoop_ren hh hs (fun i z hz => ?_) hl sameSeen_nil).bind hnd
    simp only [bne, heq hs hz]
  · unfold OGen.allSpeckleOfEle
    rw [hsp hs hs']
    refine levels_ren (fun l l' hl => ?_) _ hini
    unfold OGen.addOneOfEle
    rw [hs', he']
    refine (addOneLoop_ren hh hs (fun i z hz => ?_) hl sameSeen_nil).bind hnd
    simp only [bne, heq hz hs, heq hz he]

/-- **C121.** Which foreign species is put in makes no difference: for two species absent from the cell every generator of substituted
structures lists the same structures with the one in place of the other. -/
theorem C121_any_species {g : OGen} (hl : g.init.numbers.length = g.init.positions.length) (hspg : g.init.spgNumbers = g.init.numbers)
    (hp : ∀ p ∈ g.perms, p.length = g.init.positions.length) {sp sp' : Specie} (h1 : sp.Z ∉ g.init.numbers) (h2 : sp'.Z ∉ g.init.numbers)
    {hash : List ℤ → ℕ} (hh : ∀ x ∈ [sp.Z, sp'.Z], Set.InjOn hash (Rows g.init.positions.length ({x} ∪ {z | z ∈ g.init.numbers}))) (n : ℕ) :
    SameOutcome (List.Forall₂ fun d d' => d'.positions = d.positions ∧ d'.numbers = d.numbers.map fun z => if z = sp.Z then sp'.Z else z)
      (g.genNodupUnitary hash n sp) (g.genNodupUnitary hash n sp') ∧
    SameOutcome (List.Forall₂ (List.Forall₂ fun d d' => d'.positions = d.positions ∧ d'.numbers = d.numbers.map fun z => if z = sp.Z then sp'.Z else z))
      (g.allSpeckleUnitary hash n sp) (g.allSpeckleUnitary hash n sp') := by
  have hid : ∀ z ∈ g.init.numbers, (if z = sp.Z then sp'.Z else z) = z := fun z hz => if_neg fun e : z = sp.Z => h1 (e ▸ hz)
  have hmap : g.init.numbers.map (fun z => if z = sp.Z then sp'.Z else z) = g.init.numbers := by
    conv_rhs => rw [← List.map_id g.init.numbers]
    exact List.map_congr_left hid
  have hinj : Set.InjOn (fun z => if z = sp.Z then sp'.Z else z) ({sp.Z} ∪ {z | z ∈ g.init.numbers}) := by
    rintro a ha b hb e
    simp only at e
    rcases ha with ha | ha <;> rcases hb with hb | hb
    · exact ha.trans hb.symm
    · rw [if_pos (show a = sp.Z from ha), hid b hb] at e
      exact absurd (e ▸ hb) h2
    · rw [if_pos (show b = sp.Z from hb), hid a ha] at e
      exact absurd (e ▸ ha) h2
    · rwa [hid a ha, hid b hb] at e
  have himg : (fun z => if z = sp.Z then sp'.Z else z) '' ({sp.Z} ∪ {z | z ∈ g.init.numbers}) = {sp'.Z} ∪ {z | z ∈ g.init.numbers} := by
    ext y
    constructor
    · rintro ⟨z, hz | hz, rfl⟩
      · exact .inl (if_pos hz)
      · exact .inr (by simp only; rw [hid z hz]; exact hz)
    · rintro (hy | hy)
      · exact ⟨sp.Z, .inl rfl, by rw [hy]; exact if_pos rfl⟩
      · exact ⟨y, .inr hy, hid y hy⟩
  have hg : RenGen (fun z => if z = sp.Z then sp'.Z else z) ({sp.Z} ∪ {z | z ∈ g.init.numbers}) g.init.positions.length g g :=
    ⟨⟨rfl, rfl, hmap.symm, by rw [hspg]; exact hmap.symm, rfl⟩, rfl, rfl, ⟨hl, fun z hz => .inr hz⟩, rfl, hp⟩
  obtain ⟨-, e1, e2⟩ := (C121_renamed hinj (hh sp.Z (by simp)) (by rw [himg]; exact hh sp'.Z (by simp)) hg).1 n sp sp' (.inl rfl) (if_pos rfl).symm
  have mono : ∀ {α β : Type} {R S : α → β → Prop} {x : Py α} {y : Py β}, SameOutcome R x y → (∀ a b, R a b → S a b) → SameOutcome S x y := by
    intro α β R S x y h hRS
    cases h with
    | ok h => exact .ok (hRS _ _ h)
    | error e => exact .error e
  exact ⟨mono e1 fun _ _ h => h.imp fun _ _ h => ⟨h.positions, h.numbers⟩,
    mono e2 fun _ _ h => h.imp fun _ _ h => h.imp fun _ _ h => ⟨h.positions, h.numbers⟩⟩

/-! ## a chain of four copper atoms, and one of four silver atoms -/

def exAgChain : GCell := { exChain with numbers := [47, 47, 47, 47], spgNumbers := [47, 47, 47, 47] }

/-- copper becomes silver, gold becomes titanium -/
def exName (z : ℤ) : ℤ := if z = 29 then 47 else if z = 79 then 22 else z

example : Renamed exName exChain exAgChain := ⟨rfl, rfl, rfl, rfl, rfl⟩

example : Set.InjOn exName {29, 79} := by
  rintro a (rfl | rfl) b (rfl | rfl) h <;> simp_all [exName]

example : (({ exGen with init := exAgChain } : OGen).genNodupUnitary exDigits 2 ⟨"Ti", 22⟩).map (List.map (·.numbers)) =
    .ok [[22, 22, 47, 47], [22, 47, 22, 47]] := by decide +kernel

example : (exGen.genNodupUnitary exDigits 2 exAu).map (List.map fun c => c.numbers.map exName) =
    .ok [[22, 22, 47, 47], [22, 47, 22, 47]] := by decide +kernel

example : exGen.init.numbers.length = exGen.init.positions.length ∧ exGen.init.spgNumbers = exGen.init.numbers ∧
    (∀ p ∈ exGen.perms, p.length = exGen.init.positions.length) ∧ exAu.Z ∉ exGen.init.numbers ∧ (22 : ℤ) ∉ exGen.init.numbers := by
  decide +kernel

/-- two elements must not get the same name: with gold renamed to silver, too, the structures are no longer the renamed ones -/
example : (({ exGen with init := exAgChain } : OGen).genDupOfEle ⟨"Ag", 47⟩ 1 ⟨"Ag", 47⟩).map List.length = .ok 4 ∧
    (exGen.genDupOfEle exAu 1 exAu).map List.length = .ok 0 := by decide +kernel

end Verif
