import Verif.Props.SuperGeneral
import Verif.Props.Derivative
import Verif.Props.Session

/-! # C118: a cell is determined by its lattice and its crystal; supercells of supercells -/

namespace Verif

open Spec

theorem lattice_ext {A B : M3 ℚ} (h : ∀ x, cartesian A x = cartesian B x) : A = B := by
  have h1 := h (1, 0, 0)
  have h2 := h (0, 1, 0)
  have h3 := h (0, 0, 1)
  simp only [cartesian, one_mul, zero_mul, add_zero, zero_add, Prod.mk.injEq] at h1 h2 h3
  ext <;> tauto

theorem cong_symm {p q : V3 ℚ} (h : Cong p q) : Cong q p := by
  obtain ⟨z, rfl⟩ := cong_castV.1 h
  refine ⟨(-z.1, -z.2.1, -z.2.2), ?_⟩
  ext <;> simp [castV, V3.map]

theorem cong_trans {p q r : V3 ℚ} (h : Cong p q) (h' : Cong q r) : Cong p r := by
  obtain ⟨z, rfl⟩ := cong_castV.1 h
  obtain ⟨w, rfl⟩ := cong_castV.1 h'
  refine ⟨(z.1 + w.1, z.2.1 + w.2.1, z.2.2 + w.2.2), ?_⟩
  ext <;> simp [castV, V3.map] <;> ring

theorem cong_refl (p : V3 ℚ) : Cong p p := ⟨(0, 0, 0), by ext <;> simp⟩

/-- two lists of sites in the same lattice with the same crystal: every site of one is a site of the other -/
theorem crystal_sites {L : M3 ℚ} (hv : volume L ≠ 0) {s s' : List (V3 ℚ × ℤ)} (h : CartCrystal L s ⊆ CartCrystal L s') :
    ∀ t ∈ s, ∃ t' ∈ s', SameSite t t' := by
  intro t ht
  have : (cartesian L t.1, t.2) ∈ CartCrystal L s := mem_cartCrystal.2 ⟨t, ht, (0, 0, 0), by
    congr 2
    ext <;> simp [castV, V3.map]⟩
  obtain ⟨t', ht', k, e⟩ := mem_cartCrystal.1 (h this)
  obtain ⟨e1, e2⟩ := Prod.mk.inj e
  exact ⟨t', ht', cong_symm ⟨k, cartesian_inj hv e1⟩, e2⟩

/-- incongruent sites with the same crystal are the same sites up to order and periodic images -/
theorem sites_match {L : M3 ℚ} (hv : volume L ≠ 0) {s s' : List (V3 ℚ × ℤ)} (h : CartCrystal L s = CartCrystal L s')
    (hs : s.Pairwise fun a b => ¬ Cong a.1 b.1) (hs' : s'.Pairwise fun a b => ¬ Cong a.1 b.1) :
    ∃ s₁, s.Perm s₁ ∧ List.Forall₂ SameSite s₁ s' := by
  have h1 := crystal_sites hv h.le
  have h2 := crystal_sites hv h.ge
  choose! f hf using h2
  have huniq : ∀ a ∈ s, ∀ b ∈ s, Cong a.1 b.1 → a = b := by
    intro a ha b hb hab
    obtain ⟨i, hi, rfl⟩ := List.mem_iff_getElem.1 ha
    obtain ⟨j, hj, rfl⟩ := List.mem_iff_getElem.1 hb
    rcases lt_trichotomy i j with h | h | h
    · exact absurd hab (List.pairwise_iff_getElem.1 hs i j hi hj h)
    · subst h; rfl
    · exact absurd (cong_symm hab) (List.pairwise_iff_getElem.1 hs j i hj hi h)
  have hnd : s.Nodup := hs.imp (S := fun a b => a ≠ b) (by
    intro a b h e
    exact h (e ▸ cong_refl _))
  have hnd' : (s'.map f).Nodup := by
    rw [List.Nodup, List.pairwise_map]
    refine hs'.imp_of_mem ?_
    intro a b ha hb hab e
    exact hab (cong_trans (hf a ha).2.1 (e ▸ cong_symm (hf b hb).2.1))
  refine ⟨s'.map f, (List.perm_ext_iff_of_nodup hnd hnd').2 fun t => ⟨fun ht => ?_, fun ht => ?_⟩, ?_⟩
  · obtain ⟨t', ht', hc⟩ := h1 t ht
    have : f t' = t := huniq _ (hf t' ht').1 _ ht (cong_symm (cong_trans hc.1 (hf t' ht').2.1))
    exact List.mem_map.2 ⟨t', ht', this⟩
  · obtain ⟨t', ht', rfl⟩ := List.mem_map.1 ht
    exact (hf t' ht').1
  · have : ∀ l : List (V3 ℚ × ℤ), l ⊆ s' → List.Forall₂ SameSite (l.map f) l := by
      intro l
      induction l with
      | nil => intro _; exact .nil
      | cons a l ih =>
        intro hl
        have ha := hf a (hl (by simp))
        exact .cons ⟨cong_symm ha.2.1, ha.2.2.symm⟩ (ih fun x hx => hl (List.mem_cons_of_mem _ hx))
    exact this s' (List.Subset.refl _)

theorem pairwise_zip {α β : Type _} {R : α → α → Prop} {a : List α} {b : List β} (h : a.Pairwise R) (hl : a.length = b.length) :
    (a.zip b).Pairwise fun x y => R x.1 y.1 := by
  have : ((a.zip b).map Prod.fst).Pairwise R := by rwa [List.map_fst_zip (le_of_eq hl)]
  rwa [List.pairwise_map] at this

theorem keys_incong {ps : List (V3 ℚ)} (h : (ps.map siteKey).Nodup) : ps.Pairwise fun p q => ¬ Cong p q := by
  rw [List.Nodup, List.pairwise_map] at h
  exact h.imp fun h hc => h (siteKey_cong hc).symm

/-- **C118.** Two cells with the same (non-degenerate) lattice that describe the same infinite crystal, one with distinct reduced coordinates and
the other without repeated site, have the same numbers in the same order (hence the same id) and, site by site, the same position up to a
lattice vector. -/
theorem C118_same_crystal (c d : GCell) (hc : Built c) (hd : Built d) (hL : d.lattice = c.lattice) (hv : volume c.lattice ≠ 0)
    (hk : (c.positions.map siteKey).Nodup) (hp : d.positions.Pairwise fun p q => ¬ Cong p q)
    (h : CartCrystal d.lattice (d.positions.zip d.numbers) = CartCrystal c.lattice (c.positions.zip c.numbers)) :
    d.numbers = c.numbers ∧ (∀ hash, d.id hash = c.id hash) ∧ List.Forall₂ Cong c.positions d.positions := by
  have lc : c.positions.length = c.numbers.length := hc.length.symm
  have ld : d.positions.length = d.numbers.length := hd.length.symm
  rw [hL] at h
  obtain ⟨s₁, h1, h2⟩ := sites_match hv h.symm (pairwise_zip (keys_incong hk) lc) (pairwise_zip hp ld)
  have e1 := hc.new (m := c.numbers) hc.length c.lattice
  have e2 := hd.new (m := d.numbers) hd.length d.lattice
  have hz : ∀ (a : List (V3 ℚ)) (b : List ℤ), a.length = b.length → (a.zip b).map Prod.fst = a ∧ (a.zip b).map Prod.snd = b :=
    fun a b hab => ⟨List.map_fst_zip (le_of_eq hab), List.map_snd_zip (le_of_eq hab.symm)⟩
  obtain ⟨z1, z2⟩ := hz _ _ lc
  obtain ⟨z3, z4⟩ := hz _ _ ld
  have hkz : ((c.positions.zip c.numbers).map fun s => siteKey s.1).Nodup := by
    have : ((c.positions.zip c.numbers).map fun s => siteKey s.1) = c.positions.map siteKey := by
      rw [show (fun s : V3 ℚ × ℤ => siteKey s.1) = siteKey ∘ Prod.fst from rfl, ← List.map_map, z1]
    rw [this]; exact hk
  obtain ⟨r1, _, _, r4⟩ := C11_identity_canonical c.lattice d.lattice (c.positions.zip c.numbers) s₁ (d.positions.zip d.numbers) _ _ h1 h2 hkz
    (by rw [z1, z2]; exact e1) (by rw [z3, z4]; exact e2)
  exact ⟨r1, fun hash => by unfold GCell.id; rw [show d.numbers = c.numbers from r1], r4⟩

/-- the matrix `M` is one for which `supercell` is right (C113) -/
def GoodScale (M : M3 ℤ) : Prop := NonNegM M ∧ det M ≠ 0 ∧ (det M).natAbs < 100000 ∧ M.1.1 * M.2.1.2.1 * M.2.2.2.2 = (det M).natAbs

/-- **C118, supercells of supercells.** `supercell(A)` followed by `supercell(B)` gives the lattice of `supercell(B·A)` and the same sites: the same
numbers in the same order, the same id, and site by site the same position up to a lattice vector. -/
theorem C118_compose (g : GCell) (hg : Built g) (hv : volume g.lattice ≠ 0) (hp : g.positions.Pairwise fun p q => ¬ Cong p q) (A B : M3 ℤ)
    (hA : GoodScale A) (hB : GoodScale B) (hBA : GoodScale (matMul B A)) (c : GCell) (hc : g.supercell (matMul B A) = .ok c)
    (hk : (c.positions.map siteKey).Nodup) :
    ∃ c₁ c₂, g.supercell A = .ok c₁ ∧ c₁.supercell B = .ok c₂ ∧ c₂.lattice = c.lattice ∧ c₂.numbers = c.numbers ∧
      (∀ hash, c₂.id hash = c.id hash) ∧ List.Forall₂ Cong c.positions c₂.positions := by
  obtain ⟨c₁, a1, a2, a3, _, _, a6, a7⟩ := C113_same_crystal g hg.ne_nil hg.length.symm A hA.1 hA.2.1 hA.2.2.1 hA.2.2.2
  have b₁ := supercell_built a1
  obtain ⟨c₂, d1, d2, d3, _, _, d6, d7⟩ := C113_same_crystal c₁ b₁.ne_nil b₁.length.symm B hB.1 hB.2.1 hB.2.2.1 hB.2.2.2
  obtain ⟨c', e1, e2, e3, _, _, e6, e7⟩ := C113_same_crystal g hg.ne_nil hg.length.symm _ hBA.1 hBA.2.1 hBA.2.2.1 hBA.2.2.2
  rw [hc] at e1
  obtain rfl := Except.ok.inj e1
  have hlat : c₂.lattice = c.lattice := by
    refine lattice_ext fun x => ?_
    rw [d2, a2, e2]
    congr 1
    simp only [cartesian, castM, castV, V3.map, matMul, vecMul]
    push_cast
    refine Prod.ext ?_ (Prod.ext ?_ ?_) <;> simp only <;> ring
  have hv' : volume c.lattice ≠ 0 := by
    rw [e6]
    exact mul_ne_zero (by exact_mod_cast hBA.2.1) hv
  obtain ⟨r1, r2, r3⟩ := C118_same_crystal c c₂ (supercell_built hc) (supercell_built d1) hlat hv' hk (d7 (a7 hp)) (d3.trans (a3.trans e3.symm))
  exact ⟨c₁, c₂, a1, d1, hlat, r1, r2, r3⟩

theorem goodScale_diag (a b k : ℕ) (h : 0 < a * b * k) (hb : a * b * k < 100000) : GoodScale (((a : ℤ), 0, 0), (0, (b : ℤ), 0), (0, 0, (k : ℤ))) := by
  have hdet : det (((a : ℤ), 0, 0), (0, (b : ℤ), 0), (0, 0, (k : ℤ))) = ((a * b * k : ℕ) : ℤ) := by
    simp only [det]; push_cast; ring
  refine ⟨by simp [NonNegM], by rw [hdet]; exact_mod_cast h.ne', by rw [hdet, Int.natAbs_natCast]; exact hb, ?_⟩
  rw [hdet, Int.natAbs_natCast]
  push_cast; ring

/-- **C118, factors.** Enlarging by `diag(a, b, k)` and then by `diag(a', b', k')` gives the same cell as the other way round and as
enlarging once by the products. -/
theorem C118_factors (g : GCell) (hg : Built g) (hv : volume g.lattice ≠ 0) (hp : g.positions.Pairwise fun p q => ¬ Cong p q)
    (a b k a' b' k' : ℕ) (h0 : 0 < a * b * k * (a' * b' * k')) (hb : a * b * k * (a' * b' * k') < 100000) (c : GCell)
    (hc : g.supercell ((((a' * a : ℕ) : ℤ), 0, 0), (0, ((b' * b : ℕ) : ℤ), 0), (0, 0, ((k' * k : ℕ) : ℤ))) = .ok c)
    (hk : (c.positions.map siteKey).Nodup) :
    ∃ c₁ c₂ d₁ d₂, g.supercell ((a, 0, 0), (0, b, 0), (0, 0, k)) = .ok c₁ ∧ c₁.supercell ((a', 0, 0), (0, b', 0), (0, 0, k')) = .ok c₂ ∧
      g.supercell ((a', 0, 0), (0, b', 0), (0, 0, k')) = .ok d₁ ∧ d₁.supercell ((a, 0, 0), (0, b, 0), (0, 0, k)) = .ok d₂ ∧
      c₂.lattice = c.lattice ∧ d₂.lattice = c.lattice ∧ c₂.numbers = c.numbers ∧ d₂.numbers = c.numbers ∧
      List.Forall₂ Cong c.positions c₂.positions ∧ List.Forall₂ Cong c.positions d₂.positions := by
  have p1 : 0 < a * b * k := Nat.pos_of_ne_zero fun h => by rw [h, zero_mul] at h0; exact lt_irrefl _ h0
  have p2 : 0 < a' * b' * k' := Nat.pos_of_ne_zero fun h => by rw [h, mul_zero] at h0; exact lt_irrefl _ h0
  have q1 : a * b * k < 100000 := lt_of_le_of_lt (Nat.le_mul_of_pos_right _ p2) hb
  have q2 : a' * b' * k' < 100000 := lt_of_le_of_lt (Nat.le_mul_of_pos_left _ p1) hb
  have h1 := goodScale_diag a b k p1 q1
  have h2 := goodScale_diag a' b' k' p2 q2
  have h12 := goodScale_diag (a' * a) (b' * b) (k' * k) (by rw [show a' * a * (b' * b) * (k' * k) = a * b * k * (a' * b' * k') by ring]; exact h0)
    (by rw [show a' * a * (b' * b) * (k' * k) = a * b * k * (a' * b' * k') by ring]; exact hb)
  have m1 : matMul (((a' : ℤ), (0 : ℤ), (0 : ℤ)), ((0 : ℤ), (b' : ℤ), (0 : ℤ)), ((0 : ℤ), (0 : ℤ), (k' : ℤ))) ((a, 0, 0), (0, b, 0), (0, 0, k)) =
      ((((a' * a : ℕ) : ℤ), 0, 0), (0, ((b' * b : ℕ) : ℤ), 0), (0, 0, ((k' * k : ℕ) : ℤ))) := by
    simp [matMul, vecMul]
  have m2 : matMul (((a : ℤ), (0 : ℤ), (0 : ℤ)), ((0 : ℤ), (b : ℤ), (0 : ℤ)), ((0 : ℤ), (0 : ℤ), (k : ℤ))) ((a', 0, 0), (0, b', 0), (0, 0, k')) =
      ((((a' * a : ℕ) : ℤ), 0, 0), (0, ((b' * b : ℕ) : ℤ), 0), (0, 0, ((k' * k : ℕ) : ℤ))) := by
    simp [matMul, vecMul, mul_comm]
  obtain ⟨c₁, c₂, r1, r2, r3, r4, _, r6⟩ := C118_compose g hg hv hp _ _ h1 h2 (by rw [m1]; exact h12) c (by rw [m1]; exact hc) hk
  obtain ⟨d₁, d₂, s1, s2, s3, s4, _, s6⟩ := C118_compose g hg hv hp _ _ h2 h1 (by rw [m2]; exact h12) c (by rw [m2]; exact hc) hk
  exact ⟨c₁, c₂, d₁, d₂, r1, r2, s1, s2, r3, s3, r4, s4, r6, s6⟩

/-- **C118, factor one.** `supercell` with the unit matrix gives back the same cell: lattice, numbers and, up to lattice vectors, positions. -/
theorem C118_unit (g : GCell) (hg : Built g) (hv : volume g.lattice ≠ 0) (hk : (g.positions.map siteKey).Nodup) :
    ∃ c, g.supercell ((1, 0, 0), (0, 1, 0), (0, 0, 1)) = .ok c ∧ c.lattice = g.lattice ∧ c.numbers = g.numbers ∧
      List.Forall₂ Cong g.positions c.positions := by
  have h1 := goodScale_diag 1 1 1 (by decide) (by decide)
  obtain ⟨c, a1, a2, a3, _, _, _, a7⟩ := C113_same_crystal g hg.ne_nil hg.length.symm _ h1.1 h1.2.1 h1.2.2.1 h1.2.2.2
  have hlat : c.lattice = g.lattice := lattice_ext fun x => by
    rw [a2]
    congr 1
    simp [cartesian, castM, castV, V3.map]
  obtain ⟨r1, _, r3⟩ := C118_same_crystal g c hg (supercell_built a1) hlat hv hk (a7 (keys_incong hk)) a3
  exact ⟨c, a1, hlat, r1, r3⟩

/-! ### examples -/

def exPair : GCell := ⟨((4, 0, 0), (0, 4, 0), (0, 0, 4)), [(0, 0, 0), (1/2, 1/2, 1/2)], [11, 17], [11, 17], 2⟩

example : Built exPair := ⟨((4, 0, 0), (0, 4, 0), (0, 0, 4)), [(1/2, 1/2, 1/2), (0, 0, 0)], [17, 11], by decide +kernel⟩

/-- the two-atom cell enlarged by `diag(2, 1, 1)` and then by a shear of index 3 -/
def exShear : M3 ℤ := ((1, 2, 0), (0, 3, 0), (0, 0, 1))

example : GoodScale ((2, 0, 0), (0, 1, 0), (0, 0, 1)) := by simp [GoodScale, NonNegM, det]
example : GoodScale exShear := by simp [GoodScale, NonNegM, det, exShear]
example : GoodScale (matMul exShear ((2, 0, 0), (0, 1, 0), (0, 0, 1))) := by simp [GoodScale, NonNegM, det, exShear, matMul, vecMul]
example : volume exPair.lattice ≠ 0 := by decide +kernel
example : exPair.positions.Pairwise fun p q => ¬ Cong p q := keys_incong (by decide +kernel)
example : (exPair.supercell (matMul exShear ((2, 0, 0), (0, 1, 0), (0, 0, 1)))).map (fun c => decide (c.positions.map siteKey).Nodup) = .ok true := by
  decide +kernel
example : ((exPair.supercell ((2, 0, 0), (0, 1, 0), (0, 0, 1))) >>= fun c => c.supercell exShear).map (·.numbers) =
    (exPair.supercell (matMul exShear ((2, 0, 0), (0, 1, 0), (0, 0, 1)))).map (·.numbers) := by decide +kernel

end Verif
