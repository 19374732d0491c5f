import Verif.Lemmas.Levels
import Mathlib.Logic.Encodable.Basic
import Mathlib.Logic.Equiv.List
import Mathlib.Tactic.IntervalCases

/-! # C22, C23, C24, C26: incremental generation -/

namespace Verif

/-! ## C22 -/

theorem ne_sym (z v : ℤ) : (¬ z = v) ↔ (¬ v = z) := by rw [eq_comm]

theorem oneSite_set {a : List ℤ} {i : ℕ} {v : ℤ} (h : a[i]? = some v) (z : ℤ) (b : List ℤ) :
    b = a.set i z ↔ Spec.OneSite a i z b := by
  have hi : i < a.length := (List.getElem?_eq_some_iff.1 h).1
  constructor
  · rintro rfl
    exact ⟨hi, by simp, by rw [List.getElem?_set_self hi], fun j hj => by rw [List.getElem?_set_ne (Ne.symm hj)]⟩
  · rintro ⟨_, hl, hb, hr⟩
    apply List.ext_getElem?
    intro j
    by_cases hj : j = i
    · subst hj; rw [hb, List.getElem?_set_self hi]
    · rw [hr j hj, List.getElem?_set_ne (Ne.symm hj)]

/-- the emitted cell `d` is the input cell `c` with one site, satisfying `adm` (index, present element), turned into `z` -/
def AddsOne (adm : ℕ → ℤ → Prop) (z : ℤ) (c d : GCell) : Prop :=
  d.lattice = c.lattice ∧ d.positions = c.positions ∧
    ∃ i v, c.numbers[i]? = some v ∧ adm i v ∧ Spec.OneSite c.numbers i z d.numbers

theorem addOne_core (hash : List ℤ → ℕ) (ok : ℕ → ℤ → Bool) (adm : ℕ → ℤ → Prop) (hadm : ∀ i v, ok i v = true ↔ adm i v)
    (z : ℤ) (gen : List GCell) (hg : ∀ c ∈ gen, Built c) :
    ∃ out, addOneLoop hash ok z gen [] = .ok out ∧ (∀ d ∈ out, Built d) ∧
      (∀ d ∈ out, ∃ c ∈ gen, AddsOne adm z c d) ∧
      (out.map (·.numbers)).Nodup ∧
      (Set.InjOn hash {m | ∃ c ∈ gen, ∃ i v, c.numbers[i]? = some v ∧ adm i v ∧ Spec.OneSite c.numbers i z m} →
        ∀ c ∈ gen, ∀ i v m, c.numbers[i]? = some v → adm i v → Spec.OneSite c.numbers i z m →
          m ∈ out.map (·.numbers)) := by
  refine ⟨_, addOneLoop_eq hash ok z gen hg [], ?_, ?_, selfDedup_nodup hash _, ?_⟩
  · intro d hd
    exact candCells_built hg d ((dedupL_sublist _ _ _ _).subset hd)
  · intro d hd
    obtain ⟨c, hc, i, v, hv, ho, rfl⟩ := mem_candCells.1 ((dedupL_sublist _ _ _ _).subset hd)
    exact ⟨c, hc, rfl, rfl, i, v, hv, (hadm i v).1 ho, (oneSite_set hv z _).1 rfl⟩
  · intro hinj c hc i v m hv ha hm
    rw [selfDedup_numbers]
    · refine List.mem_map.2 ⟨redecorate c m, mem_candCells.2 ⟨c, hc, i, v, hv, (hadm i v).2 ha, ?_⟩, rfl⟩
      rw [(oneSite_set hv z m).2 hm]
    · refine hinj.mono ?_
      intro m hm
      obtain ⟨d, hd, rfl⟩ := List.mem_map.1 hm
      obtain ⟨c, hc, i, v, hv, ho, rfl⟩ := mem_candCells.1 hd
      exact ⟨c, hc, i, v, hv, (hadm i v).1 ho, (oneSite_set hv z _).1 rfl⟩

/-- C22, `gen_add_one_speckle_unitary`: any site that is not already `sp`. -/
theorem C22_add_one_unitary (hash : List ℤ → ℕ) (g : OGen) (gen : List GCell) (hg : ∀ c ∈ gen, Built c) (sp : Specie)
    (adm : ℕ → ℤ → Prop) (hadm : adm = fun _ v => v ≠ sp.Z) :
    ∃ out, g.addOneUnitary hash gen sp = .ok out ∧ (∀ d ∈ out, Built d) ∧
      (∀ d ∈ out, ∃ c ∈ gen, AddsOne adm sp.Z c d) ∧
      (out.map (·.numbers)).Nodup ∧
      (Set.InjOn hash {m | ∃ c ∈ gen, ∃ i v, c.numbers[i]? = some v ∧ adm i v ∧ Spec.OneSite c.numbers i sp.Z m} →
        ∀ c ∈ gen, ∀ i v m, c.numbers[i]? = some v → adm i v → Spec.OneSite c.numbers i sp.Z m →
          m ∈ out.map (·.numbers)) := by
  subst hadm
  exact addOne_core hash _ _ (fun i v => by simp [ne_sym sp.Z]) sp.Z gen hg

/-- C22, `gen_add_one_speckle`: sites with Wyckoff letter `wy` that are not already `sp`. -/
theorem C22_add_one_wyckoff (hash : List ℤ → ℕ) (g : OGen) (gen : List GCell) (hg : ∀ c ∈ gen, Built c) (wy : String)
    (sp : Specie) (adm : ℕ → ℤ → Prop) (hadm : adm = fun i v => g.wyckoffs[i]? = some wy ∧ v ≠ sp.Z) :
    ∃ out, g.addOne hash gen wy sp = .ok out ∧ (∀ d ∈ out, Built d) ∧
      (∀ d ∈ out, ∃ c ∈ gen, AddsOne adm sp.Z c d) ∧
      (out.map (·.numbers)).Nodup ∧
      (Set.InjOn hash {m | ∃ c ∈ gen, ∃ i v, c.numbers[i]? = some v ∧ adm i v ∧ Spec.OneSite c.numbers i sp.Z m} →
        ∀ c ∈ gen, ∀ i v m, c.numbers[i]? = some v → adm i v → Spec.OneSite c.numbers i sp.Z m →
          m ∈ out.map (·.numbers)) := by
  subst hadm
  exact addOne_core hash _ _ (fun i v => by simp [ne_sym sp.Z]) sp.Z gen hg

/-- C22, `gen_add_one_speckle_of_ele`: sites holding `ele` (and `ele` is not `sp`). -/
theorem C22_add_one_of_ele (hash : List ℤ → ℕ) (g : OGen) (gen : List GCell) (hg : ∀ c ∈ gen, Built c) (ele sp : Specie)
    (adm : ℕ → ℤ → Prop) (hadm : adm = fun _ v => v = ele.Z ∧ v ≠ sp.Z) :
    ∃ out, g.addOneOfEle hash gen ele sp = .ok out ∧ (∀ d ∈ out, Built d) ∧
      (∀ d ∈ out, ∃ c ∈ gen, AddsOne adm sp.Z c d) ∧
      (out.map (·.numbers)).Nodup ∧
      (Set.InjOn hash {m | ∃ c ∈ gen, ∃ i v, c.numbers[i]? = some v ∧ adm i v ∧ Spec.OneSite c.numbers i sp.Z m} →
        ∀ c ∈ gen, ∀ i v m, c.numbers[i]? = some v → adm i v → Spec.OneSite c.numbers i sp.Z m →
          m ∈ out.map (·.numbers)) := by
  subst hadm
  exact addOne_core hash _ _ (fun i v => by simp) sp.Z gen hg

/-! ## C23 -/

/-- generic level induction: soundness for every hash -/
theorem levels_sound {hash : List ℤ → ℕ} {g : OGen} {ok : ℕ → ℤ → Bool} {z : ℤ} {c : GCell}
    (hok : ∀ i v, ok i v = true → v ≠ z) {n : ℕ} (hP : ∀ p ∈ g.perms, IsPerm n p) (K : ℕ) {k0 : ℕ} {gen : List GCell}
    (hg : ∀ d ∈ gen, Built d ∧ d.lattice = c.lattice ∧ d.positions = c.positions ∧ d.numbers.length = n ∧
      d.numbers ∈ SubstSet c.numbers ok z k0) :
    ∃ ls, levels (fun gen => do g.gen2Nodup hash (← addOneLoop hash ok z gen [])) K gen = .ok ls ∧ ls.length = K ∧
      ∀ k l, ls[k]? = some l → ∀ d ∈ l, Built d ∧ d.lattice = c.lattice ∧ d.positions = c.positions ∧
        d.numbers.length = n ∧ d.numbers ∈ SubstSet c.numbers ok z (k0 + k + 1) := by
  induction K generalizing gen k0 with
  | zero => exact ⟨[], rfl, rfl, by simp⟩
  | succ K ih =>
    obtain ⟨cand, out, h1, h2, h3, h4, h5⟩ := step_sound (hash := hash) (g := g) hok hP hg
    have hout : ∀ d ∈ out, d ∈ candCells ok z gen := fun d hd => by
      rw [h4, h3] at hd
      exact (dedupL_sublist _ _ _ _).subset ((dedupL_sublist _ _ _ _).subset hd)
    obtain ⟨ls, e1, e2, e3⟩ := ih (k0 := k0 + 1) (fun d hd => h5 d (hout d hd))
    refine ⟨out :: ls, ?_, by simp [e2], ?_⟩
    · unfold levels
      simp only [bind, Except.bind, h1, h2] at e1 ⊢
      rw [e1]; rfl
    · intro k l hl
      cases k with
      | zero =>
        simp only [List.getElem?_cons_zero, Option.some.injEq] at hl
        subst hl
        exact fun d hd => h5 d (hout d hd)
      | succ k =>
        rw [List.getElem?_cons_succ] at hl
        have := e3 k l hl
        rwa [show k0 + 1 + k + 1 = k0 + (k + 1) + 1 by omega] at this

theorem levels_transversal {hash : List ℤ → ℕ} {g : OGen} {ok : ℕ → ℤ → Bool} {z : ℤ} {c : GCell}
    (hok : ∀ i v, ok i v = true → v ≠ z) {n : ℕ} (hG : PermGroup n g.perms)
    (hinv : ∀ p ∈ g.perms, ∀ i j : ℕ, p[i]? = some j → ∀ v, ok i v = true → ok j v = true)
    (hc : c.numbers.length = n) (K : ℕ) {k0 : ℕ} {gen : List GCell}
    (hg : ∀ d ∈ gen, Built d ∧ d.lattice = c.lattice ∧ d.positions = c.positions ∧ d.numbers.length = n ∧
      d.numbers ∈ SubstSet c.numbers ok z k0)
    (ht : Spec.Transversal (Rel g.perms) (SubstSet c.numbers ok z k0) (gen.map (·.numbers))) :
    ∃ ls, levels (fun gen => do g.gen2Nodup hash (← addOneLoop hash ok z gen [])) K gen = .ok ls ∧ ls.length = K ∧
      ∀ k l, ls[k]? = some l → (∀ d ∈ l, d.lattice = c.lattice ∧ d.positions = c.positions) ∧
        ((∀ j ≤ k, Set.InjOn hash {m | ∃ d ∈ SubstSet c.numbers ok z (k0 + j + 1), Rel g.perms d m}) →
        Spec.Transversal (Rel g.perms) (SubstSet c.numbers ok z (k0 + k + 1)) (l.map (·.numbers))) := by
  induction K generalizing gen k0 with
  | zero => exact ⟨[], rfl, rfl, by simp⟩
  | succ K ih =>
    by_cases hinj : Set.InjOn hash {m | ∃ d ∈ SubstSet c.numbers ok z (k0 + 1), Rel g.perms d m}
    · obtain ⟨cand, out, h1, h2, h3, h4⟩ := step_transversal (hash := hash) (g := g) hok hG hinv hinj hg hc ht
      obtain ⟨ls, e1, e2, e3⟩ := ih (k0 := k0 + 1) h3 h4
      refine ⟨out :: ls, ?_, by simp [e2], ?_⟩
      · unfold levels
        simp only [bind, Except.bind, h1, h2] at e1 ⊢
        rw [e1]; rfl
      · intro k l hl
        cases k with
        | zero =>
          simp only [List.getElem?_cons_zero, Option.some.injEq] at hl
          subst hl
          exact ⟨fun d hd => ⟨(h3 d hd).2.1, (h3 d hd).2.2.1⟩, fun _ => h4⟩
        | succ k =>
          rw [List.getElem?_cons_succ] at hl
          obtain ⟨f1, f2⟩ := e3 k l hl
          refine ⟨f1, fun hj => ?_⟩
          rw [show k0 + (k + 1) + 1 = k0 + 1 + k + 1 by omega]
          refine f2 fun j hjk => ?_
          rw [show k0 + 1 + j + 1 = k0 + (j + 1) + 1 by omega]
          exact hj (j + 1) (by omega)
    · obtain ⟨ls, e1, e2, e3⟩ := levels_sound (hash := hash) (g := g) hok hG.perm (K + 1) hg
      refine ⟨ls, e1, e2, fun k l hl => ⟨fun d hd => ?_, fun hj => absurd (hj 0 (by omega)) hinj⟩⟩
      exact ⟨(e3 k l hl d hd).2.1, (e3 k l hl d hd).2.2.1⟩

/-- geometric form of the level induction, starting from the initial cell -/
theorem levels_geom {hash : List ℤ → ℕ} {c : GCell} {ops : List Spec.Op} {wy : List String} {g : OGen}
    (h : GenSetup c ops wy g) {ok : ℕ → ℤ → Bool} {z : ℤ} (hok : ∀ i v, ok i v = true → v ≠ z)
    (hinv : ∀ op ∈ ops, ∀ (i j : ℕ) x y, c.positions[i]? = some x → c.positions[j]? = some y → sameKey (op.image y) x →
      ∀ v, ok i v = true → ok j v = true)
    (K : ℕ) :
    ∃ ls, levels (fun gen => do g.gen2Nodup hash (← addOneLoop hash ok z gen [])) K [c] = .ok ls ∧ ls.length = K ∧
      ∀ k l, ls[k]? = some l → (∀ d ∈ l, d.lattice = c.lattice ∧ d.positions = c.positions) ∧
        ((∀ j ≤ k, Set.InjOn hash {m | m.length = c.positions.length ∧ ∃ d ∈ SubstSet c.numbers ok z (j + 1),
          Spec.GeomEquiv siteKey c.positions ops d m}) →
        Spec.Transversal (Spec.GeomEquiv siteKey c.positions ops) (SubstSet c.numbers ok z (k + 1)) (l.map (·.numbers))) := by
  obtain ⟨_, _, hrows, hG⟩ := h.rows
  have hlen : ∀ k, ∀ d ∈ SubstSet c.numbers ok z k, d.length = c.positions.length := by
    rintro k d ⟨S, _, _, hs⟩; rw [hs.1, h.built.length]
  obtain ⟨ls, h1, h2, h3⟩ := levels_transversal (hash := hash) (g := g) (ok := ok) (z := z) (c := c) hok hG
    (by
      intro p hp i j hij
      obtain ⟨op, hop, hR⟩ := forall₂_mem_right hrows hp
      have hi : i < c.positions.length := by
        rw [← hR.1.length]; exact (List.getElem?_eq_some_iff.1 hij).1
      have hj : j < c.positions.length := hR.1.lt j (List.mem_of_getElem? hij)
      have ei := List.getElem?_eq_getElem hi
      have ej := List.getElem?_eq_getElem hj
      exact hinv op hop i j _ _ ei ej ((hR.2 i _ ei j _ ej).1 hij))
    h.built.length K (k0 := 0) (gen := [c])
    (by
      intro d hd
      rw [List.mem_singleton] at hd
      subst hd
      exact ⟨h.built, rfl, rfl, h.built.length, by rw [substSet_zero]; rfl⟩)
    (by
      rw [substSet_zero]
      refine ⟨by simp, ?_, by simp⟩
      rintro d rfl
      exact ⟨c.numbers, by simp, Rel.refl hG h.built.length⟩)
  refine ⟨ls, h1, h2, fun k l hl => ?_⟩
  obtain ⟨a, b⟩ := h3 k l hl
  refine ⟨a, fun hinj => ?_⟩
  rw [Nat.zero_add] at b
  refine (b ?_).congr (fun x hx y hy => rel_iff_geom h.distinct h.contract hrows x y (hlen _ x hx) (hlen _ y hy))
  intro j hj
  rw [Nat.zero_add]
  refine (hinj j hj).mono ?_
  rintro m ⟨d, hd, hdm⟩
  have hml := hdm.length_eq hG.perm (hlen _ d hd)
  exact ⟨hml, d, hd, (rel_iff_geom h.distinct h.contract hrows d m (hlen _ d hd) hml).1 hdm⟩

/-- C23, `all_speckle_gen_unitary`: generator number `k` (counting from 0) is one representative per class of the
decorations of the initial cell with `k+1` non-`sp` sites turned into `sp`. -/
theorem C23_levels_unitary (hash : List ℤ → ℕ) (c : GCell) (ops : List Spec.Op) (wy : List String) (g : OGen)
    (h : GenSetup c ops wy g) (n : ℕ) (sp : Specie) (D : ℕ → Set (List ℤ))
    (hD : ∀ k, D k = {m | ∃ S : Finset ℕ, S.card = k ∧ (∀ i ∈ S, ∃ v, c.numbers[i]? = some v ∧ v ≠ sp.Z) ∧
      Spec.Subst c.numbers S sp.Z m}) :
    ∃ ls, g.allSpeckleUnitary hash n sp = .ok ls ∧ ls.length = n - c.getSpeckleNum sp ∧
      ∀ k l, ls[k]? = some l → (∀ d ∈ l, d.lattice = c.lattice ∧ d.positions = c.positions) ∧
        ((∀ j ≤ k, Set.InjOn hash {m | m.length = c.positions.length ∧ ∃ d ∈ D (j + 1),
          Spec.GeomEquiv siteKey c.positions ops d m}) →
        Spec.Transversal (Spec.GeomEquiv siteKey c.positions ops) (D (k + 1)) (l.map (·.numbers))) := by
  have hDk : ∀ k, D k = SubstSet c.numbers (fun _ v => sp.Z != v) sp.Z k := by
    intro k; rw [hD]; simp only [SubstSet, bne_iff_ne, ne_eq, ne_sym sp.Z]
  simp only [hDk]
  obtain ⟨hi, _, _, _⟩ := h.rows
  have := levels_geom (hash := hash) h (ok := fun _ v => sp.Z != v) (z := sp.Z) (by simp [ne_sym sp.Z]) (by simp) (n - c.getSpeckleNum sp)
  unfold OGen.allSpeckleUnitary OGen.addOneUnitary
  rw [hi]
  exact this

/-- C23, `all_speckle_gen` (Wyckoff letter `w`). Sites carried onto each other by an operation have the same letter. -/
theorem C23_levels_wyckoff (hash : List ℤ → ℕ) (c : GCell) (ops : List Spec.Op) (wy : List String) (g : OGen)
    (h : GenSetup c ops wy g)
    (hwy : ∀ op ∈ ops, ∀ (i j : ℕ) x y, c.positions[i]? = some x → c.positions[j]? = some y → sameKey (op.image y) x →
      wy[i]? = wy[j]?)
    (n : ℕ) (w : String) (sp : Specie) (D : ℕ → Set (List ℤ))
    (hD : ∀ k, D k = {m | ∃ S : Finset ℕ, S.card = k ∧
      (∀ i ∈ S, ∃ v, c.numbers[i]? = some v ∧ wy[i]? = some w ∧ v ≠ sp.Z) ∧ Spec.Subst c.numbers S sp.Z m}) :
    ∃ ls, g.allSpeckle hash n w sp = .ok ls ∧ ls.length = n - c.getSpeckleNum sp ∧
      ∀ k l, ls[k]? = some l → (∀ d ∈ l, d.lattice = c.lattice ∧ d.positions = c.positions) ∧
        ((∀ j ≤ k, Set.InjOn hash {m | m.length = c.positions.length ∧ ∃ d ∈ D (j + 1),
          Spec.GeomEquiv siteKey c.positions ops d m}) →
        Spec.Transversal (Spec.GeomEquiv siteKey c.positions ops) (D (k + 1)) (l.map (·.numbers))) := by
  have hDk : ∀ k, D k = SubstSet c.numbers (fun i v => wy[i]? == some w && sp.Z != v) sp.Z k := by
    intro k; rw [hD]; simp only [SubstSet, bne_iff_ne, ne_eq, ne_sym sp.Z, Bool.and_eq_true, beq_iff_eq]
  simp only [hDk]
  obtain ⟨hi, hw, _, _⟩ := h.rows
  have := levels_geom (hash := hash) h (ok := fun i v => wy[i]? == some w && sp.Z != v) (z := sp.Z) (by simp [ne_sym sp.Z]) (by
    intro op hop i j x y hx hy hs v
    rw [hwy op hop i j x y hx hy hs]; exact id) (n - c.getSpeckleNum sp)
  unfold OGen.allSpeckle OGen.addOne
  rw [hi, hw]
  exact this

/-- C23, `all_speckle_gen_of_ele`. -/
theorem C23_levels_of_ele (hash : List ℤ → ℕ) (c : GCell) (ops : List Spec.Op) (wy : List String) (g : OGen)
    (h : GenSetup c ops wy g) (n : ℕ) (ele sp : Specie) (D : ℕ → Set (List ℤ))
    (hD : ∀ k, D k = {m | ∃ S : Finset ℕ, S.card = k ∧ (∀ i ∈ S, ∃ v, c.numbers[i]? = some v ∧ v = ele.Z ∧ v ≠ sp.Z) ∧
      Spec.Subst c.numbers S sp.Z m}) :
    ∃ ls, g.allSpeckleOfEle hash n ele sp = .ok ls ∧ ls.length = n - c.getSpeckleNum sp ∧
      ∀ k l, ls[k]? = some l → (∀ d ∈ l, d.lattice = c.lattice ∧ d.positions = c.positions) ∧
        ((∀ j ≤ k, Set.InjOn hash {m | m.length = c.positions.length ∧ ∃ d ∈ D (j + 1),
          Spec.GeomEquiv siteKey c.positions ops d m}) →
        Spec.Transversal (Spec.GeomEquiv siteKey c.positions ops) (D (k + 1)) (l.map (·.numbers))) := by
  have hDk : ∀ k, D k = SubstSet c.numbers (fun _ v => v == ele.Z && v != sp.Z) sp.Z k := by
    intro k; rw [hD]; simp only [SubstSet, bne_iff_ne, Bool.and_eq_true, beq_iff_eq]
  simp only [hDk]
  obtain ⟨hi, _, _, _⟩ := h.rows
  have := levels_geom (hash := hash) h (ok := fun _ v => v == ele.Z && v != sp.Z) (z := sp.Z) (by simp) (by simp)
    (n - c.getSpeckleNum sp)
  unfold OGen.allSpeckleOfEle OGen.addOneOfEle
  rw [hi]
  exact this

/-! ## C24 -/

/-- two systems of representatives of the same classes have equal length and match up one to one -/
theorem transversal_match {R : List ℤ → List ℤ → Prop} {D : Set (List ℤ)} {A B : List (List ℤ)}
    (hsymm : ∀ a ∈ D, ∀ b ∈ D, R a b → R b a) (htrans : ∀ a ∈ D, ∀ b ∈ D, ∀ c ∈ D, R a b → R b c → R a c)
    (hA : Spec.Transversal R D A) (hB : Spec.Transversal R D B) :
    A.length = B.length ∧ (∀ a ∈ A, ∃! b, b ∈ B ∧ R a b) ∧ (∀ b ∈ B, ∃! a, a ∈ A ∧ R b a) := by
  have huniq : ∀ {C : List (List ℤ)}, Spec.Transversal R D C → ∀ x ∈ C, ∀ y ∈ C, R x y → x = y := by
    intro C hC x hx y hy hxy
    by_contra hne
    obtain ⟨i, hi, rfl⟩ := List.getElem_of_mem hx
    obtain ⟨j, hj, rfl⟩ := List.getElem_of_mem hy
    have hpw := List.pairwise_iff_getElem.1 hC.2.2
    rcases lt_trichotomy i j with hlt | heq | hgt
    · exact (hpw i j hi hj hlt).1 hxy
    · subst heq; exact hne rfl
    · exact (hpw j i hj hi hgt).2 hxy
  have key : ∀ {A B : List (List ℤ)}, Spec.Transversal R D A → Spec.Transversal R D B → ∀ a ∈ A, ∃! b, b ∈ B ∧ R a b := by
    intro A B hA hB a ha
    obtain ⟨b, hb, hba⟩ := hB.2.1 a (hA.1 a ha)
    refine ⟨b, ⟨hb, hsymm b (hB.1 b hb) a (hA.1 a ha) hba⟩, ?_⟩
    rintro b' ⟨hb', hab'⟩
    exact (huniq hB b hb b' hb' (htrans b (hB.1 b hb) a (hA.1 a ha) b' (hB.1 b' hb') hba hab')).symm
  have hnd : ∀ {C : List (List ℤ)}, Spec.Transversal R D C → (∀ x ∈ C, R x x) → C.Nodup := by
    intro C hC hr
    exact hC.2.2.imp_of_mem (fun {a b} ha _ h he => h.1 (he ▸ hr a ha))
  have hrefl : ∀ {C : List (List ℤ)}, Spec.Transversal R D C → ∀ x ∈ C, R x x := by
    intro C hC x hx
    obtain ⟨r, hr, hrx⟩ := hC.2.1 x (hC.1 x hx)
    exact htrans x (hC.1 x hx) r (hC.1 r hr) x (hC.1 x hx) (hsymm r (hC.1 r hr) x (hC.1 x hx) hrx) hrx
  have hle : ∀ {A B : List (List ℤ)}, Spec.Transversal R D A → Spec.Transversal R D B → A.length ≤ B.length := by
    intro A B hA hB
    choose! f hf _ using key hA hB
    have : (A.map f).Nodup := by
      refine (List.nodup_map_iff_inj_on (hnd hA (hrefl hA))).2 ?_
      intro x hx y hy hxy
      have h1 := (hf x hx).2
      have h2 := (hf y hy).2
      rw [hxy] at h1
      exact huniq hA x hx y hy (htrans x (hA.1 x hx) (f y) (hB.1 _ (hf y hy).1) y (hA.1 y hy) h1
        (hsymm y (hA.1 y hy) _ (hB.1 _ (hf y hy).1) h2))
    have hs : A.map f ⊆ B := by
      intro b hb
      obtain ⟨a, ha, rfl⟩ := List.mem_map.1 hb
      exact (hf a ha).1
    have := (this.subperm hs).length_le
    simpa using this
  exact ⟨le_antisymm (hle hA hB) (hle hB hA), key hA hB, key hB hA⟩

/-- C24: level `n` (that is, list entry `n-1`) of `all_speckle_gen_of_ele` and `gen_nodup_of_ele(ele, n, sp)` have equally
many structures, matched one to one by symmetry equivalence. The hash need only be free of collisions within each level up to `n`. -/
theorem C24_direct_incremental_agree (hash : List ℤ → ℕ) (c : GCell) (ops : List Spec.Op) (wy : List String) (g : OGen)
    (h : GenSetup c ops wy g) (ele sp : Specie) (hne : ele.Z ≠ sp.Z) (N n : ℕ) (hn : n ≠ 0)
    (hN : n ≤ N - c.getSpeckleNum sp)
    (hinj : ∀ j, j ≠ 0 → j ≤ n → Set.InjOn hash {m | m.length = c.positions.length ∧ ∃ d, (∃ S : Finset ℕ, S.card = j ∧
      (∀ i ∈ S, c.numbers[i]? = some ele.Z) ∧ Spec.Subst c.numbers S sp.Z d) ∧
      Spec.GeomEquiv siteKey c.positions ops d m}) :
    ∃ ls lvl direct, g.allSpeckleOfEle hash N ele sp = .ok ls ∧ ls[n - 1]? = some lvl ∧
      g.genNodupOfEle hash ele n sp = .ok direct ∧ lvl.length = direct.length ∧
      (∀ a ∈ lvl.map (·.numbers), ∃! b, b ∈ direct.map (·.numbers) ∧ Spec.GeomEquiv siteKey c.positions ops a b) ∧
      (∀ b ∈ direct.map (·.numbers), ∃! a, a ∈ lvl.map (·.numbers) ∧ Spec.GeomEquiv siteKey c.positions ops b a) := by
  set D : Set (List ℤ) := {m | ∃ S : Finset ℕ, (∀ i ∈ S, c.numbers[i]? = some ele.Z) ∧ S.card = n ∧
    Spec.Subst c.numbers S sp.Z m} with hD
  set E : ℕ → Set (List ℤ) := fun k => {m | ∃ S : Finset ℕ, S.card = k ∧
    (∀ i ∈ S, ∃ v, c.numbers[i]? = some v ∧ v = ele.Z ∧ v ≠ sp.Z) ∧ Spec.Subst c.numbers S sp.Z m} with hE
  have hED : E n = D := by
    ext m
    simp only [hE, hD, Set.mem_ofPred_eq]
    refine exists_congr fun S => ?_
    constructor
    · rintro ⟨a, b, e⟩
      exact ⟨fun i hi => by obtain ⟨v, hv, rfl, _⟩ := b i hi; exact hv, a, e⟩
    · rintro ⟨a, b, e⟩
      exact ⟨b, fun i hi => ⟨_, a i hi, rfl, hne⟩, e⟩
  obtain ⟨direct, d1, d2, d3⟩ := C21_nodup_of_ele hash c ops wy g h ele n sp D hD (by
    refine (hinj n hn le_rfl).mono ?_
    rintro m ⟨hm, d, ⟨S, hS, hn, hs⟩, hd⟩
    exact ⟨hm, d, ⟨S, hn, hS, hs⟩, hd⟩)
  obtain ⟨ls, l1, l2, l3⟩ := C23_levels_of_ele hash c ops wy g h N ele sp E (fun k => rfl)
  have hlt : n - 1 < ls.length := by omega
  have hget := List.getElem?_eq_getElem hlt
  obtain ⟨_, t⟩ := l3 _ _ hget
  replace t := t (by
    intro j hj
    refine (hinj (j + 1) (by omega) (by omega)).mono ?_
    rintro m ⟨hm, d, ⟨S, hk, hS, hs⟩, hd⟩
    exact ⟨hm, d, ⟨S, hk, fun i hi => by obtain ⟨v, hv, rfl, _⟩ := hS i hi; exact hv, hs⟩, hd⟩)
  rw [show n - 1 + 1 = n by omega, hED] at t
  obtain ⟨_, _, hrows, hG⟩ := h.rows
  have hlen : ∀ d ∈ D, d.length = c.positions.length := by
    rintro d ⟨S, _, _, hs⟩; rw [hs.1, h.built.length]
  have hR := fun a (ha : a ∈ D) b (hb : b ∈ D) =>
    rel_iff_geom h.distinct h.contract hrows a b (hlen a ha) (hlen b hb)
  obtain ⟨m1, m2, m3⟩ := transversal_match (R := Spec.GeomEquiv siteKey c.positions ops) (D := D)
    (fun a ha b hb hab => (hR b hb a ha).1 (((hR a ha b hb).2 hab).symm hG (hlen a ha)))
    (fun a ha b hb e he hab hbe => (hR a ha e he).1 (((hR a ha b hb).2 hab).trans hG (hlen a ha) ((hR b hb e he).2 hbe)))
    t d3
  exact ⟨ls, ls[n-1], direct, l1, hget, d1, by simpa using m1, m2, m3⟩

/-! ## C26 -/

theorem sound_init {hash : List ℤ → ℕ} {c : GCell} (hc : Built c) {g : OGen} {ok : ℕ → ℤ → Bool} {sp : Specie}
    (hok : ∀ i v, ok i v = true → v ≠ sp.Z) (hP : ∀ p ∈ g.perms, IsPerm c.positions.length p) (K : ℕ) :
    ∃ ls, levels (fun gen => do g.gen2Nodup hash (← addOneLoop hash ok sp.Z gen [])) K [c] = .ok ls ∧ ls.length = K ∧
      ∀ k l, ls[k]? = some l → ∀ d ∈ l, d.getSpeckleNum sp = c.getSpeckleNum sp + (k + 1) ∧
        d.numbers.length = c.numbers.length ∧ d.positions = c.positions ∧ d.lattice = c.lattice := by
  obtain ⟨ls, h1, h2, h3⟩ := levels_sound (hash := hash) (g := g) (ok := ok) (z := sp.Z) (c := c) hok hP K (k0 := 0)
    (gen := [c])
    (by
      intro d hd
      rw [List.mem_singleton] at hd
      subst hd
      exact ⟨hc, rfl, rfl, hc.length, by rw [substSet_zero]; rfl⟩)
  refine ⟨ls, h1, h2, fun k l hl d hd => ?_⟩
  obtain ⟨_, a1, a2, a3, S, b1, b2, b3⟩ := h3 k l hl d hd
  refine ⟨?_, by rw [a3, hc.length], a2, a1⟩
  unfold GCell.getSpeckleNum
  rw [b3.count (fun i hi => by obtain ⟨v, hv, ho⟩ := b2 i hi; exact ⟨v, hv, hok i v ho⟩), b1]
  omega

/-- C26: sp count, site count, lattice and number of generators; for every hash (even one with collisions) and every
table of permutations. -/
theorem C26_level_counts (hash : List ℤ → ℕ) (g : OGen) (hc : Built g.init)
    (hP : ∀ p ∈ g.perms, IsPerm g.init.positions.length p) (n : ℕ) (w : String) (ele sp : Specie) :
    ∀ run ∈ [g.allSpeckleUnitary hash n sp, g.allSpeckle hash n w sp, g.allSpeckleOfEle hash n ele sp],
      ∃ ls, run = .ok ls ∧ ls.length = n - g.init.getSpeckleNum sp ∧
        ∀ k l, ls[k]? = some l → ∀ d ∈ l, d.getSpeckleNum sp = g.init.getSpeckleNum sp + (k + 1) ∧
          d.numbers.length = g.init.numbers.length ∧ d.positions = g.init.positions ∧ d.lattice = g.init.lattice := by
  intro run hrun
  simp only [List.mem_cons, List.not_mem_nil, or_false] at hrun
  rcases hrun with rfl | rfl | rfl
  · exact sound_init hc (by simp [ne_sym sp.Z]) hP _
  · exact sound_init hc (by simp [ne_sym sp.Z]) hP _
  · exact sound_init hc (by simp) hP _

/-! ## the hypotheses are met: the four-site chain -/

/-- an injective hash exists, so the collision hypotheses can be met -/
def exHash (l : List ℤ) : ℕ := Encodable.encode l

theorem exHash_inj (S : Set (List ℤ)) : Set.InjOn exHash S := fun _ _ _ _ h => Encodable.encode_injective h

def exGen : OGen := ⟨exChain, [[0, 1, 2, 3], [3, 0, 1, 2], [2, 3, 0, 1], [1, 2, 3, 0], [0, 3, 2, 1], [1, 0, 3, 2],
  [2, 1, 0, 3], [3, 2, 1, 0]], ["a", "a", "a", "a"]⟩

theorem exGen_setup : GenSetup exChain exOps ["a", "a", "a", "a"] exGen := by
  refine ⟨exChain_built, exChain_keys, (contract_of_exact exChain_keys exChain_contract).1, ?_⟩
  have : exChain.symmetryPermutation exOps = .ok exGen.perms := by decide +kernel
  simp [OGen.new, this, bind, Except.bind, pure, Except.pure, exGen]

/-- a small injective-enough hash for evaluation: numbers read as digits in base 1000 -/
def exDigits (l : List ℤ) : ℕ := l.foldl (fun a x => a * 1000 + x.toNat) 0

def exAu : Specie := ⟨"Au", 79⟩
def exCu : Specie := ⟨"Cu", 29⟩

/-- 4 classes of pairs become 2: neighbours and opposite -/
example : (exGen.genNodupUnitary exDigits 2 exAu).map (List.map (·.numbers)) =
    .ok [[79, 79, 29, 29], [79, 29, 79, 29]] := by decide +kernel

/-- levels 1..4 of the incremental generator -/
example : (exGen.allSpeckleOfEle exDigits 4 exCu exAu).map (List.map (List.map (·.numbers))) =
    .ok [[[79, 29, 29, 29]], [[79, 79, 29, 29], [79, 29, 79, 29]], [[79, 79, 79, 29]], [[79, 79, 79, 79]]] := by
  decide +kernel

example : ∃ ls lvl direct, exGen.allSpeckleOfEle exHash 4 exCu exAu = .ok ls ∧ ls[2 - 1]? = some lvl ∧
      exGen.genNodupOfEle exHash exCu 2 exAu = .ok direct ∧ lvl.length = direct.length := by
  obtain ⟨ls, lvl, direct, h1, h2, h3, h4, _⟩ := C24_direct_incremental_agree exHash exChain exOps _ exGen exGen_setup
    exCu exAu (by decide) 4 2 (by decide) (by decide +kernel) (fun _ _ _ => exHash_inj _)
  exact ⟨ls, lvl, direct, h1, h2, h3, h4⟩

/-- the Wyckoff hypothesis of `C23_levels_wyckoff` holds for the chain -/
example : ∀ op ∈ exOps, ∀ (i j : ℕ) x y, exChain.positions[i]? = some x → exChain.positions[j]? = some y →
    sameKey (op.image y) x → ["a", "a", "a", "a"][i]? = ["a", "a", "a", "a"][j]? := by
  intro op _ i j x y hi hj _
  have h1 : i < 4 := (List.getElem?_eq_some_iff.1 hi).1
  have h2 : j < 4 := (List.getElem?_eq_some_iff.1 hj).1
  interval_cases i <;> interval_cases j <;> rfl

end Verif
