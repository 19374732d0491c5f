import Verif.Spec.FirstKept
import Verif.Props.Bucky
import Verif.Props.Levels
import Mathlib.Data.Nat.Choose.Basic
import Mathlib.Data.Nat.Factorial.Basic
import Mathlib.Tactic.IntervalCases

/-! # C108: what hash collisions do, and what a digest of fixed width can list at most

The generators recognise structures by `xxhash.xxh64` (ababe/stru/sogen.py:22-24, ababe/stru/scaffold.py:325-331) and
`xxhash.xxh32` (ababe/stru/buckyball.py:164-171) digests. Here the digest is any function with values below a bound. -/

namespace Verif

/-- `m` has the same digest as a symmetry image of `r` -/
def Confused (hash : List ℤ → ℕ) (P : List (List ℕ)) (r m : List ℤ) : Prop := ∃ x, Spec.Image P r x ∧ hash x = hash m

theorem dedupL_firstKept {A K : Type _} [DecidableEq K] {key : A → K} {iso : A → List K} {clash : A → A → Prop} {U : A → Prop}
    (hc : ∀ r a, U r → (key a ∈ iso r ↔ clash r a)) (l : List A) (hl : ∀ a ∈ l, U a) : ∀ (seen : List K) (kept : List A), (∀ r ∈ kept, U r) →
    (∀ k, k ∈ seen ↔ ∃ r ∈ kept, k ∈ iso r) → Spec.FirstKept clash kept l (dedupL key iso seen l) := by
  induction l with
  | nil => intro seen kept _ _; exact .nil kept
  | cons a l ih =>
    intro seen kept hk hs
    have hiff : key a ∈ seen ↔ ∃ r ∈ kept, clash r a := by
      rw [hs]
      exact exists_congr fun r => and_congr_right fun hr => hc r a (hk r hr)
    rw [dedupL_cons]
    have hl' : ∀ a ∈ l, U a := fun b hb => hl b (List.mem_cons_of_mem _ hb)
    split
    · rename_i h
      exact .drop (hiff.1 h) (ih hl' seen kept hk hs)
    · rename_i h
      refine .keep (fun h' => h (hiff.2 h')) (ih hl' _ (a :: kept) ?_ ?_)
      · intro r hr
        rcases List.mem_cons.1 hr with rfl | hr
        · exact hl _ (by simp)
        · exact hk r hr
      · intro k
        rw [List.mem_append, hs]
        simp only [List.mem_cons, exists_eq_or_imp]

/-- **C108, collisions.** For every digest and every table whose rows fit: `gen_2nodup_gen` keeps exactly those structures that do not
have the digest of a symmetry image of a structure kept before. -/
theorem C108_kept (hash : List ℤ → ℕ) (g : OGen) (dup : List GCell)
    (hP : ∀ c ∈ dup, ∀ p ∈ g.perms, ∀ i ∈ p, i < c.numbers.length) :
    ∃ out, g.gen2Nodup hash dup = .ok out ∧
      Spec.FirstKept (fun r a => Confused hash g.perms r.numbers a.numbers) [] dup out := by
  refine ⟨_, gen2NodupLoop_eq hash g.perms [] dup hP, ?_⟩
  refine dedupL_firstKept (U := fun r : GCell => ∀ p ∈ g.perms, ∀ i ∈ p, i < r.numbers.length) ?_ dup hP [] [] (by simp) (by simp)
  intro r a hr
  rw [isoKeys, List.mem_map]
  constructor
  · rintro ⟨p, hp, h⟩
    exact ⟨_, (image_iff_rel hr).2 ⟨p, hp, rfl⟩, h⟩
  · rintro ⟨x, hx, h⟩
    obtain ⟨p, hp, rfl⟩ := (image_iff_rel hr).1 hx
    exact ⟨p, hp, h⟩

theorem length_le_of_lt {l : List ℕ} (hn : l.Nodup) {B : ℕ} (h : ∀ x ∈ l, x < B) : l.length ≤ B := by
  have := (List.subperm_of_subset hn (l₂ := List.range B) fun x hx => List.mem_range.2 (h x hx)).length_le
  simpa using this

theorem dedup_length_le {A : Type _} (key : A → ℕ) (iso : A → List ℕ) (l : List A) (hr : ∀ a ∈ l, key a ∈ iso a) {B : ℕ}
    (hB : ∀ a, key a < B) : (dedupL key iso [] l).length ≤ B := by
  have hn : ((dedupL key iso [] l).map key).Nodup := by
    rw [List.Nodup, List.pairwise_map]
    refine (dedupL_pairwise key iso [] l).imp_of_mem ?_
    intro a b ha _ h e
    exact h (e ▸ hr a ((dedupL_sublist _ _ _ _).subset ha))
  have := length_le_of_lt hn (B := B) (by intro x hx; obtain ⟨a, _, rfl⟩ := List.mem_map.1 hx; exact hB a)
  simpa using this

theorem gen2Nodup_length_le (hash : List ℤ → ℕ) {B : ℕ} (hB : ∀ m, hash m < B) (g : OGen) {n : ℕ} (hG : PermGroup n g.perms)
    (dup : List GCell) (hn : ∀ c ∈ dup, c.numbers.length = n) : ∃ out, g.gen2Nodup hash dup = .ok out ∧ out.length ≤ B ∧ out.Sublist dup := by
  refine ⟨_, gen2NodupLoop_eq hash g.perms [] dup fun c hc p hp => by rw [hn c hc]; exact (hG.perm p hp).lt, ?_, dedupL_sublist _ _ _ _⟩
  refine dedup_length_le _ _ dup ?_ (fun a => hB _)
  intro c hc
  rw [isoKeys, List.mem_map]
  exact ⟨_, hG.one, by rw [← hn c hc, gather_range]; rfl⟩

/-- decorations that are all images of listed ones are at most as many as there are images -/
theorem images_length_le {P : List (List ℕ)} {D O : List (List ℤ)} (hD : D.Nodup) (h : ∀ d ∈ D, ∃ r ∈ O, Rel P r d) :
    D.length ≤ O.length * P.length := by
  have hs : D ⊆ O.flatMap fun r => P.map (gather r) := by
    intro d hd
    obtain ⟨r, hr, p, hp, rfl⟩ := h d hd
    exact List.mem_flatMap.2 ⟨r, hr, List.mem_map_of_mem hp⟩
  have := (List.subperm_of_subset hD hs).length_le
  simpa [List.length_flatMap] using this

theorem levels_length_le {hash : List ℤ → ℕ} {B : ℕ} (hB : ∀ m, hash m < B) {g : OGen} {ok : ℕ → ℤ → Bool} {z : ℤ} {c : GCell}
    (hok : ∀ i v, ok i v = true → v ≠ z) {n : ℕ} (hG : PermGroup n g.perms) (K : ℕ) {k0 : ℕ} {gen : List GCell}
    (hg : ∀ d ∈ gen, Built d ∧ d.lattice = c.lattice ∧ d.positions = c.positions ∧ d.numbers.length = n ∧
      d.numbers ∈ SubstSet c.numbers ok z k0) :
    ∃ ls, levels (fun gen => do g.gen2Nodup hash (← addOneLoop hash ok z gen [])) K gen = .ok ls ∧ ls.length = K ∧
      ∀ l ∈ ls, l.length ≤ B := by
  induction K generalizing gen k0 with
  | zero => exact ⟨[], rfl, rfl, by simp⟩
  | succ K ih =>
    obtain ⟨cand, out, h1, h2, h3, h4, h5⟩ := step_sound (hash := hash) (g := g) hok hG.perm hg
    have hcand : ∀ d ∈ cand, d ∈ candCells ok z gen := fun d hd => by
      rw [h3] at hd
      exact (dedupL_sublist _ _ _ _).subset hd
    obtain ⟨out', e0, hle, hsub⟩ := gen2Nodup_length_le hash hB g hG cand (fun d hd => (h5 d (hcand d hd)).2.2.2.1)
    rw [h2] at e0
    injection e0 with e0
    subst e0
    obtain ⟨ls, e1, e2, e3⟩ := ih (k0 := k0 + 1) (gen := out) (fun d hd => h5 d (hcand d (hsub.subset hd)))
    refine ⟨out :: ls, ?_, by simp [e2], ?_⟩
    · unfold levels
      simp only [bind, Except.bind, h1, h2] at e1 ⊢
      rw [e1]; rfl
    · intro l hl
      rcases List.mem_cons.1 hl with rfl | hl
      · exact hle
      · exact e3 l hl

/-- **C108, the ceiling.** A digest with values below `B` (for xxh64, `2 ^ 64`): none of the deduplicating generators lists more than `B`
structures, and no level of the incremental ones does. -/
theorem C108_ceiling (hash : List ℤ → ℕ) (B : ℕ) (hB : ∀ m, hash m < B) (c : GCell) (ops : List Spec.Op) (wy : List String) (g : OGen)
    (h : GenSetup c ops wy g) (hw : wy.length = c.numbers.length) (n n2 : ℕ) (w : String) (ele sp sp2 : Specie) :
    (∀ run ∈ [g.genNodupUnitary hash n sp, g.genNodupOfEle hash ele n sp, g.genNodup hash w n sp, g.genNodupTrinary hash sp n sp2 n2],
      ∃ out, run = .ok out ∧ out.length ≤ B) ∧
    (∀ run ∈ [g.allSpeckleUnitary hash n sp, g.allSpeckle hash n w sp, g.allSpeckleOfEle hash n ele sp],
      ∃ ls, run = .ok ls ∧ ls.length = n - c.getSpeckleNum sp ∧ ∀ l ∈ ls, l.length ≤ B) := by
  obtain ⟨hi, hwy, _, hG⟩ := h.rows
  have hb : Built g.init := hi ▸ h.built
  constructor
  · intro run hrun
    simp only [List.mem_cons, List.not_mem_nil, or_false] at hrun
    rcases hrun with rfl | rfl | rfl | rfl
    · obtain ⟨cells, subsets, h1, _, _, h4, _⟩ := C15_unitary_exact g hb n sp
      rw [hi] at h4
      obtain ⟨out, e1, e2, _⟩ := gen2Nodup_length_le hash hB g hG cells (numbers_length h.built h4)
      exact ⟨out, by unfold OGen.genNodupUnitary; rw [h1]; exact e1, e2⟩
    · obtain ⟨cells, subsets, h1, _, _, h4, _⟩ := C16_of_ele_exact g hb ele n sp
      rw [hi] at h4
      obtain ⟨out, e1, e2, _⟩ := gen2Nodup_length_le hash hB g hG cells (numbers_length h.built h4)
      exact ⟨out, by unfold OGen.genNodupOfEle; rw [h1]; exact e1, e2⟩
    · obtain ⟨cells, subsets, h1, _, _, h4, _⟩ := C17_wyckoff_exact g hb (by rw [hi, hwy, hw]) w n sp
      rw [hi] at h4
      obtain ⟨out, e1, e2, _⟩ := gen2Nodup_length_le hash hB g hG cells (numbers_length h.built h4)
      exact ⟨out, by unfold OGen.genNodup; rw [h1]; exact e1, e2⟩
    · obtain ⟨cells, pairs, h1, _, _, h4, _⟩ := C18_trinary_exact g hb sp n sp2 n2
      rw [hi] at h4
      obtain ⟨out, e1, e2, _⟩ := gen2Nodup_length_le hash hB g hG cells (fun d hd => by
        obtain ⟨ST, _, hSd⟩ := forall₂_mem_right h4 hd
        rw [hSd.2.2.1, h.built.length])
      exact ⟨out, by unfold OGen.genNodupTrinary; rw [h1]; exact e1, e2⟩
  · have key : ∀ (ok : ℕ → ℤ → Bool), (∀ i v, ok i v = true → v ≠ sp.Z) →
        ∃ ls, levels (fun gen => do g.gen2Nodup hash (← addOneLoop hash ok sp.Z gen [])) (n - c.getSpeckleNum sp) [c] = .ok ls ∧
          ls.length = n - c.getSpeckleNum sp ∧ ∀ l ∈ ls, l.length ≤ B := fun ok hok =>
      levels_length_le hB (c := c) hok hG _ (k0 := 0) (by
        intro d hd
        rw [List.mem_singleton] at hd
        subst hd
        exact ⟨h.built, rfl, rfl, h.built.length, by rw [substSet_zero]; rfl⟩)
    intro run hrun
    simp only [List.mem_cons, List.not_mem_nil, or_false] at hrun
    rw [← hi] at key ⊢
    rcases hrun with rfl | rfl | rfl
    · exact key _ (by simp [ne_sym sp.Z])
    · exact key _ (by simp [ne_sym sp.Z])
    · exact key _ (by simp)

/-- a list of decorations that are all equivalent to listed ones -/
theorem lost_core {c : GCell} {ops : List Spec.Op} {wy : List String} {g : OGen} (h : GenSetup c ops wy g) {D O : List (List ℤ)}
    (hD : D.Nodup) (hDl : ∀ d ∈ D, d.length = c.positions.length) (hOD : ∀ r ∈ O, r ∈ D) (hlt : O.length * ops.length < D.length) :
    ∃ d ∈ D, ∀ r ∈ O, ¬ Spec.GeomEquiv siteKey c.positions ops r d := by
  obtain ⟨_, _, hrows, hG⟩ := h.rows
  by_contra hno
  push Not at hno
  have := images_length_le (P := g.perms) (O := O) hD (fun d hd => by
    obtain ⟨r, hr, hrd⟩ := hno d hd
    exact ⟨r, hr, (rel_iff_geom h.distinct h.contract hrows r d (hDl r (hOD r hr)) (hDl d hd)).2 hrd⟩)
  rw [← hrows.length_eq] at this
  omega

/-- **C108, what is lost.** If the `N` choose `n` decorations of a cell of `N` sites by `n` new atoms are more than `B` times the number of
symmetry operations, then for every digest with values below `B` some decoration is equivalent to none of those listed by
`gen_nodup_unitary`; the same for `gen_nodup_of_ele` and the sites of the element replaced. -/
theorem C108_lost (hash : List ℤ → ℕ) (B : ℕ) (hB : ∀ m, hash m < B) (c : GCell) (ops : List Spec.Op) (wy : List String) (g : OGen)
    (h : GenSetup c ops wy g) (n : ℕ) (ele sp : Specie) :
    (sp.Z ∉ c.numbers → B * ops.length < c.numbers.length.choose n →
      ∃ out, g.genNodupUnitary hash n sp = .ok out ∧ ∃ (S : Finset ℕ) (m : List ℤ), S ⊆ Finset.range c.numbers.length ∧ S.card = n ∧
        Spec.Subst c.numbers S sp.Z m ∧ ∀ d ∈ out, ¬ Spec.GeomEquiv siteKey c.positions ops d.numbers m) ∧
    (ele.Z ≠ sp.Z → B * ops.length < (c.numbers.count ele.Z).choose n →
      ∃ out, g.genNodupOfEle hash ele n sp = .ok out ∧ ∃ (S : Finset ℕ) (m : List ℤ), (∀ i ∈ S, c.numbers[i]? = some ele.Z) ∧ S.card = n ∧
        Spec.Subst c.numbers S sp.Z m ∧ ∀ d ∈ out, ¬ Spec.GeomEquiv siteKey c.positions ops d.numbers m) := by
  obtain ⟨hi, hwy, hrows, hG⟩ := h.rows
  have hb : Built g.init := hi ▸ h.built
  have fin : ∀ {cells : List GCell} {subsets : List (Finset ℕ)}, List.Forall₂ (SubstCell c sp.Z) subsets cells →
      (cells.map (·.numbers)).Nodup → B * ops.length < cells.length →
      ∃ out, g.gen2Nodup hash cells = .ok out ∧ ∃ S ∈ subsets, ∃ m, Spec.Subst c.numbers S sp.Z m ∧
        ∀ d ∈ out, ¬ Spec.GeomEquiv siteKey c.positions ops d.numbers m := by
    intro cells subsets h4 hnd hlt
    have hln := numbers_length h.built h4
    obtain ⟨out, e1, e2, e3⟩ := gen2Nodup_length_le hash hB g hG cells hln
    obtain ⟨d, hd, hno⟩ := lost_core h (D := cells.map (·.numbers)) (O := out.map (·.numbers)) hnd
      (fun d hd => by obtain ⟨a, ha, rfl⟩ := List.mem_map.1 hd; exact hln a ha)
      (fun r hr => by obtain ⟨a, ha, rfl⟩ := List.mem_map.1 hr; exact List.mem_map_of_mem (e3.subset ha))
      (by
        rw [List.length_map, List.length_map]
        exact lt_of_le_of_lt (Nat.mul_le_mul_right _ e2) hlt)
    obtain ⟨a, ha, rfl⟩ := List.mem_map.1 hd
    obtain ⟨S, hS, hSa⟩ := forall₂_mem_right h4 ha
    exact ⟨out, e1, S, hS, _, hSa.2.2, fun d hd => hno _ (List.mem_map_of_mem hd)⟩
  constructor
  · intro hz hlt
    obtain ⟨cells, subsets, h1, _, h3, h4, h5, h6⟩ := C15_unitary_exact g hb n sp
    rw [hi] at h3 h4 h5 h6
    obtain ⟨out, e1, S, hS, m, e2, e3⟩ := fin h4 (h6 hz).2 (by rw [h5]; exact hlt)
    exact ⟨out, by unfold OGen.genNodupUnitary; rw [h1]; exact e1, S, m, ((h3 S).1 hS).1, ((h3 S).1 hS).2, e2, e3⟩
  · intro hz hlt
    obtain ⟨cells, subsets, h1, _, h3, h4, h5, h6⟩ := C16_of_ele_exact g hb ele n sp
    rw [hi] at h3 h4 h5 h6
    obtain ⟨out, e1, S, hS, m, e2, e3⟩ := fin h4 (h6 hz).2 (by rw [h5]; exact hlt)
    exact ⟨out, by unfold OGen.genNodupOfEle; rw [h1]; exact e1, S, m, ((h3 S).1 hS).1, ((h3 S).1 hS).2, e2, e3⟩

/-! ## the buckyball: 32 bits -/

theorem bucky_levels_le {hash : List ℤ → ℕ} {B : ℕ} (hB : ∀ m, hash m < B) (b : Bucky) (hb : b.symPerm = buckyPermTable) (sp : Specie) (K : ℕ) :
    ∀ gen : List (List ℤ), (∀ m ∈ gen, m.length = 60) → ∃ ls, b.levels hash sp K gen = .ok ls ∧ ∀ l ∈ ls, l.length ≤ B := by
  induction K with
  | zero => intro gen _; exact ⟨[], rfl, by simp⟩
  | succ K ih =>
    intro gen hg
    obtain ⟨h1, h2⟩ := bucky_step hash b hb sp hg
    generalize hcand : dedupL hash (fun m => [hash m]) [] (gen.flatMap (addOneCands (fun _ v => v != sp.Z) sp.Z)) = cand at h1 h2
    obtain ⟨ls, e1, e3⟩ := ih (dedupL hash (isoNum hash buckyPermTable) [] cand) (fun m hm => (h2 m ((dedupL_sublist _ _ _ _).subset hm)).1)
    refine ⟨dedupL hash (isoNum hash buckyPermTable) [] cand :: ls, ?_, ?_⟩
    · unfold Bucky.levels
      simp only [h1, bind, Except.bind, e1]; rfl
    · intro l hl
      rcases List.mem_cons.1 hl with rfl | hl
      · refine dedup_length_le _ _ cand ?_ hB
        intro m hm
        rw [isoNum, List.mem_map]
        exact ⟨_, bucky_group.one, by rw [← (h2 m hm).1, gather_range]⟩
      · exact e3 l hl

/-- **C108, the buckyball.** No generator of `all_speckle_gen` lists more structures than there are digests: `2 ^ 32` for xxh32. -/
theorem C108_bucky_ceiling (hash : List ℤ → ℕ) (B : ℕ) (hB : ∀ m, hash m < B) (ns : List ℤ) (hn : ns.length = 60) (nMax : ℕ) (sp : Specie) :
    ∃ b ls, Bucky.new ns = .ok b ∧ b.allSpeckleGen hash nMax sp = .ok ([ns] :: ls) ∧ ∀ l ∈ ls, l.length ≤ B := by
  obtain ⟨ls, h1, h3⟩ := bucky_levels_le hB ⟨buckySortedNano.map nanoQ, ns, buckyPermTable⟩ rfl sp (nMax - ns.count sp.Z) [ns]
    (by intro m hm; rw [List.mem_singleton.1 hm]; exact hn)
  refine ⟨_, ls, bucky_new ns, ?_, h3⟩
  unfold Bucky.allSpeckleGen Bucky.getSpeckleNum
  simp only [h1, bind, Except.bind]; rfl

/-- large binomial coefficients, by descending products -/
theorem choose_60 : ∀ k, 9 ≤ k → k ≤ 51 → 2 ^ 32 < Nat.choose 60 k ∧ (12 ≤ k → k ≤ 48 → 2 ^ 32 * 120 < Nat.choose 60 k) := by
  intro k h1 h2
  rw [Nat.choose_eq_descFactorial_div_factorial]
  interval_cases k <;> refine ⟨?_, ?_⟩ <;> decide +kernel

/-- **C108, loss on C60.** From 12 to 48 substituents every 32-bit digest loses structures: some decoration is the symmetry image of no
structure that `all_speckle_gen` lists. -/
theorem C108_bucky_lost (hash : List ℤ → ℕ) (hB : ∀ m, hash m < 2 ^ 32) (sp : Specie) (hz : sp.Z ≠ 6) (nMax : ℕ) :
    ∃ b ls, Bucky.new (List.replicate 60 6) = .ok b ∧ b.allSpeckleGen hash nMax sp = .ok ([List.replicate 60 6] :: ls) ∧ ls.length = nMax ∧
      ∀ k l, 12 ≤ k → k ≤ 48 → ls[k - 1]? = some l →
        ∃ m : List ℤ, m.length = 60 ∧ (∀ v ∈ m, v = 6 ∨ v = sp.Z) ∧ m.count sp.Z = k ∧ ∀ r ∈ l, ¬ Spec.Image buckyPermTable r m := by
  obtain ⟨b, ls, hb, h1, h2, h3⟩ := C61_never_equivalent hash (List.replicate 60 6) (by simp) nMax sp
  obtain ⟨b', ls', hb', h1', h3'⟩ := C108_bucky_ceiling hash _ hB (List.replicate 60 6) (by simp) nMax sp
  rw [hb] at hb'
  injection hb' with hb'
  subst hb'
  rw [h1] at h1'
  injection h1' with h1'
  injection h1' with _ h1'
  subst h1'
  refine ⟨b, ls, hb, h1, ?_, ?_⟩
  · rw [h2, List.count_replicate, if_neg (by simpa using Ne.symm hz)]; omega
  · intro k l hk hk' hl
    obtain ⟨g1, g2, g3⟩ := C74_gen_speckle sp hz k
    by_contra hno
    push Not at hno
    have hlen := images_length_le (P := buckyPermTable) (O := l) g1 (fun d hd => by
      obtain ⟨a1, a2, a3⟩ := (g3 d).1 hd
      obtain ⟨r, hr, hrd⟩ := hno d a1 a2 a3
      have := (h3 _ l hl).1 r hr
      rw [more_carbon hz] at this
      exact ⟨r, hr, (image_rel this.1).1 hrd⟩)
    rw [g2, C59_group.1] at hlen
    have := h3' l (List.mem_of_getElem? hl)
    have := (choose_60 k (by omega) (by omega)).2 hk hk'
    omega

/-- **C108, collisions on C60.** From 9 to 51 substituents no digest of 32 bits tells all decorations apart, so the hypothesis of
`C74_agreement` and `C61_representatives` can only hold up to 8 substituents. -/
theorem C108_bucky_collides (hash : List ℤ → ℕ) (hB : ∀ m, hash m < 2 ^ 32) (sp : Specie) (hz : sp.Z ≠ 6) (k : ℕ) (hk : 9 ≤ k) (hk' : k ≤ 51) :
    ∃ m m' : List ℤ, (m.length = 60 ∧ (∀ v ∈ m, v = 6 ∨ v = sp.Z) ∧ m.count sp.Z = k) ∧
      (m'.length = 60 ∧ (∀ v ∈ m', v = 6 ∨ v = sp.Z) ∧ m'.count sp.Z = k) ∧ m ≠ m' ∧ hash m = hash m' := by
  obtain ⟨g1, g2, g3⟩ := C74_gen_speckle sp hz k
  by_contra hno
  push Not at hno
  have hn : ((buckyGenSpeckle sp k).map hash).Nodup := by
    refine List.Nodup.map_on ?_ g1
    intro a ha b hb hab
    by_contra hne
    exact hno a b ((g3 a).1 ha) ((g3 b).1 hb) hne hab
  have := length_le_of_lt hn (B := 2 ^ 32) (by intro x hx; obtain ⟨a, _, rfl⟩ := List.mem_map.1 hx; exact hB a)
  rw [List.length_map, g2] at this
  have := (choose_60 k hk hk').1
  omega

/-! ## the hypotheses are met -/

/-- one digest for everything, on the four-site chain: of the two classes of pairs one is lost -/
example : (exGen.genNodupUnitary (fun _ => 0) 2 exAu).map (List.map (·.numbers)) = .ok [[79, 79, 29, 29]] := by decide +kernel

/-- a cell of 80 sites; with the identity as the only operation and 40 of 80 sites replaced, 64 bits are not enough -/
def ex80 : GCell := ⟨((1, 0, 0), (0, 1, 0), (0, 0, 80)), (List.range 80).map fun i => (0, 0, (i : ℚ) / 80), List.replicate 80 29,
  List.replicate 80 29, 80⟩

def exId : Spec.Op := (((1, 0, 0), (0, 1, 0), (0, 0, 1)), (0, 0, 0))

set_option maxRecDepth 100000 in
theorem ex80_built : Built ex80 :=
  ⟨((1, 0, 0), (0, 1, 0), (0, 0, 80)), (List.range 80).map fun i => (0, 0, (i : ℚ) / 80), List.replicate 80 29, by decide +kernel⟩

set_option maxRecDepth 100000 in
theorem ex80_keys : (ex80.positions.map siteKey).Nodup := by decide +kernel

theorem exId_image (x : V3 ℚ) : exId.image x = x := by
  obtain ⟨a, b, c⟩ := x
  simp [exId, Spec.Op.image]

theorem ex80_contract : Spec.SymContract sameKey ex80.positions [exId] := by
  have hinj : ∀ x ∈ ex80.positions, ∀ y ∈ ex80.positions, sameKey x y → x = y :=
    fun x hx y hy h => List.inj_on_of_nodup_map ex80_keys hx hy h
  constructor
  · intro g hg x hx
    rw [List.mem_singleton.1 hg, exId_image]
    exact ⟨x, hx, rfl⟩
  · intro g hg x hx y hy
    rw [List.mem_singleton.1 hg, exId_image, exId_image]
    exact hinj x hx y hy
  · exact ⟨exId, by simp, fun x _ => by rw [exId_image]; rfl⟩
  · intro f hf g hg
    refine ⟨exId, by simp, fun x _ y _ z _ => ?_⟩
    rw [List.mem_singleton.1 hf, List.mem_singleton.1 hg, exId_image, exId_image]
    exact Eq.trans
  · intro f hf
    refine ⟨exId, by simp, fun x _ y _ => ?_⟩
    rw [List.mem_singleton.1 hf, exId_image, exId_image]
    exact Eq.symm

example (hash : List ℤ → ℕ) (hB : ∀ m, hash m < 2 ^ 64) : ∃ g, GenSetup ex80 [exId] [] g ∧
    ∃ out, g.genNodupUnitary hash 40 exAu = .ok out ∧ ∃ (S : Finset ℕ) (m : List ℤ), S ⊆ Finset.range 80 ∧ S.card = 40 ∧
        Spec.Subst ex80.numbers S 79 m ∧ ∀ d ∈ out, ¬ Spec.GeomEquiv siteKey ex80.positions [exId] d.numbers m := by
  obtain ⟨rows, h1, _⟩ := ogen_new (wy := []) ex80_built ex80_keys ex80_contract
  have hs : GenSetup ex80 [exId] [] _ := ⟨ex80_built, ex80_keys, ex80_contract, h1⟩
  refine ⟨_, hs, (C108_lost hash _ hB ex80 _ _ _ hs 40 exCu exAu).1 ?_ ?_⟩
  · simp [ex80, exAu]
  · rw [Nat.choose_eq_descFactorial_div_factorial]
    decide +kernel

end Verif
