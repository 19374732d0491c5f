import Verif.Lemmas.Hnf
import Verif.Lemmas.Lists
import Mathlib.NumberTheory.Divisors
import Mathlib.Data.List.Dedup

/-! # C27, C28, C29, C35: enumeration of superlattices -/

namespace Verif

open Spec

/-- what is known about iterating over a Python set built from a list -/
def SetOrder (setList : List ℕ → List ℕ) : Prop := ∀ l, (setList l).Nodup ∧ ∀ x, x ∈ setList l ↔ x ∈ l

theorem factorsRaw_mem {n : ℕ} (hn : 0 < n) : ∃ l, factorsRaw n = .ok l ∧ ∀ x, x ∈ l ↔ x ∣ n := by
  have h1 : 1 ∈ (List.range' 1 (Nat.sqrt n)).filter (fun i => n % i == 0) := by
    rw [List.mem_filter, List.mem_range'_1]
    refine ⟨⟨le_refl _, ?_⟩, by simp [Nat.mod_one]⟩
    have : 0 < Nat.sqrt n := Nat.sqrt_pos.2 hn
    omega
  have hmem : ∀ i, i ∈ (List.range' 1 (Nat.sqrt n)).filter (fun i => n % i == 0) ↔ 1 ≤ i ∧ i ≤ Nat.sqrt n ∧ i ∣ n := by
    intro i
    rw [List.mem_filter, List.mem_range'_1, beq_iff_eq, Nat.dvd_iff_mod_eq_zero]
    omega
  unfold factorsRaw
  split
  · rename_i h
    rw [h] at h1
    simp at h1
  · rename_i l hl
    refine ⟨_, rfl, fun x => ?_⟩
    simp only [List.mem_flatMap, List.mem_cons, List.not_mem_nil, or_false]
    constructor
    · rintro ⟨i, hi, rfl | rfl⟩
      · exact ((hmem x).1 hi).2.2
      · exact Nat.div_dvd_of_dvd ((hmem i).1 hi).2.2
    · intro hx
      have hx0 : 0 < x := Nat.pos_of_dvd_of_pos hx hn
      obtain ⟨y, rfl⟩ := hx
      have hy0 : 0 < y := Nat.pos_of_mul_pos_left hn
      by_cases hxy : x ≤ y
      · exact ⟨x, (hmem x).2 ⟨hx0, Nat.le_sqrt.2 (Nat.mul_le_mul_left x hxy), Dvd.intro _ rfl⟩, Or.inl rfl⟩
      · refine ⟨y, (hmem y).2 ⟨hy0, Nat.le_sqrt.2 (Nat.mul_le_mul_right y (by omega)), Dvd.intro_left _ rfl⟩, Or.inr ?_⟩
        rw [Nat.mul_div_cancel _ hy0]

/-- C27: the factor set is exactly the set of positive divisors, each listed once, and `n = 0` raises. -/
theorem C27_factors (setList : List ℕ → List ℕ) (hs : SetOrder setList) (n : ℕ) :
    (0 < n → ∃ l, factors setList n = .ok l ∧ l.Nodup ∧ ∀ x, x ∈ l ↔ (0 < x ∧ x ∣ n)) ∧
    (n = 0 → factors setList n = .error .typeError) := by
  constructor
  · intro hn
    obtain ⟨l, h1, h2⟩ := factorsRaw_mem hn
    refine ⟨setList l, by simp [factors, h1, bind, Except.bind, pure, Except.pure], (hs l).1, fun x => ?_⟩
    rw [(hs l).2, h2]
    exact ⟨fun h => ⟨Nat.pos_of_dvd_of_pos h hn, h⟩, fun h => h.2⟩
  · rintro rfl
    rfl

/-- a Hermite normal form with determinant `n` -/
def IsHnf (n : ℕ) (m : M3 ℤ) : Prop :=
  ∃ a b d c e f : ℤ, m = ((a, b, d), (0, c, e), (0, 0, f)) ∧ 0 < a ∧ 0 < c ∧ 0 < f ∧ a * c * f = n ∧
    (0 ≤ b ∧ b < c) ∧ (0 ≤ d ∧ d < f) ∧ (0 ≤ e ∧ e < f)

theorem mapM_ok_flatten {α β} (f : α → Py (List β)) (g : α → List β) (l : List α) (h : ∀ a ∈ l, f a = .ok (g a)) :
    (do let ms ← l.mapM f; return ms.flatten) = (.ok (l.flatMap g) : Py (List β)) := by
  have : l.mapM f = .ok (l.map g) := by
    induction l with
    | nil => rfl
    | cons a l ih =>
      rw [List.mapM_cons, h a (by simp), ih (fun b hb => h b (List.mem_cons_of_mem _ hb))]
      rfl
  rw [this]
  simp [bind, Except.bind, pure, Except.pure, List.flatMap]

theorem hnfMat_inj {a b d c e f a' b' d' c' e' f' : ℕ} (h : hnfMat a b d c e f = hnfMat a' b' d' c' e' f') :
    a = a' ∧ b = b' ∧ d = d' ∧ c = c' ∧ e = e' ∧ f = f' := by
  unfold hnfMat at h
  simp only [Prod.mk.injEq, Nat.cast_inj] at h
  tauto

/-- disjoint union of lists is duplicate free -/
theorem nodup_flatMap_of_key {α β} {l : List α} {g : α → List β} (hl : l.Nodup) (hg : ∀ a ∈ l, (g a).Nodup)
    (key : ∀ a ∈ l, ∀ a' ∈ l, ∀ x, x ∈ g a → x ∈ g a' → a = a') : (l.flatMap g).Nodup := by
  rw [List.nodup_flatMap]
  refine ⟨hg, ?_⟩
  refine hl.imp_of_mem ?_
  intro a a' ha ha' hne x hx hx'
  exact hne (key a ha a' ha' x hx hx')

theorem hnfMats_spec (setList : List ℕ → List ℕ) (hs : SetOrder setList) (n : ℕ) (hn : 0 < n) :
    ∃ ms, hnfMats setList n = .ok ms ∧ ms.Nodup ∧ ∀ m, m ∈ ms ↔ IsHnf n m := by
  obtain ⟨as, ha1, ha2, ha3⟩ := (C27_factors setList hs n).1 hn
  have hex : ∀ a : ℕ, ∃ cs, a ∈ as → factors setList (n / a) = .ok cs ∧ cs.Nodup ∧ ∀ x, x ∈ cs ↔ (0 < x ∧ x ∣ n / a) := by
    intro a
    by_cases ha : a ∈ as
    · have hp : 0 < n / a := Nat.div_pos (Nat.le_of_dvd hn ((ha3 a).1 ha).2) ((ha3 a).1 ha).1
      obtain ⟨cs, h⟩ := (C27_factors setList hs (n / a)).1 hp
      exact ⟨cs, fun _ => h⟩
    · exact ⟨[], fun h => absurd h ha⟩
  choose cs hcs using hex
  let G : ℕ → List (M3 ℤ) := fun a => (cs a).flatMap fun c => (List.range c).flatMap fun b =>
    (List.range (n / a / c)).flatMap fun d => (List.range (n / a / c)).map fun e => hnfMat a b d c e (n / a / c)
  have hof : ∀ a ∈ as, hnfMatsOf setList n a = .ok (G a) := by
    intro a ha
    unfold hnfMatsOf
    rw [(hcs a ha).1]
    rfl
  have hG : ∀ a x, x ∈ G a ↔ ∃ c ∈ cs a, ∃ b < c, ∃ d < n / a / c, ∃ e < n / a / c, hnfMat a b d c e (n / a / c) = x := by
    intro a x
    simp only [G, List.mem_flatMap, List.mem_range, List.mem_map]
  refine ⟨as.flatMap G, ?_, ?_, ?_⟩
  · unfold hnfMats
    rw [ha1]
    simp only [bind, Except.bind]
    exact mapM_ok_flatten _ G as hof
  · refine nodup_flatMap_of_key ha2 (fun a ha => ?_) ?_
    · refine nodup_flatMap_of_key (hcs a ha).2.1 (fun c _ => ?_) ?_
      · refine nodup_flatMap_of_key List.nodup_range (fun b _ => ?_) ?_
        · refine nodup_flatMap_of_key List.nodup_range (fun d _ => ?_) ?_
          · refine (List.nodup_map_iff_inj_on List.nodup_range).2 ?_
            intro e _ e' _ h
            exact (hnfMat_inj h).2.2.2.2.1
          · intro d _ d' _ x hx hx'
            simp only [List.mem_map] at hx hx'
            obtain ⟨e, _, rfl⟩ := hx
            obtain ⟨e', _, h⟩ := hx'
            exact (hnfMat_inj h).2.2.1.symm
        · intro b _ b' _ x hx hx'
          simp only [List.mem_map, List.mem_flatMap] at hx hx'
          obtain ⟨d, _, e, _, rfl⟩ := hx
          obtain ⟨d', _, e', _, h⟩ := hx'
          exact (hnfMat_inj h).2.1.symm
      · intro c _ c' _ x hx hx'
        simp only [List.mem_map, List.mem_flatMap] at hx hx'
        obtain ⟨b, _, d, _, e, _, rfl⟩ := hx
        obtain ⟨b', _, d', _, e', _, h⟩ := hx'
        exact (hnfMat_inj h).2.2.2.1.symm
    · intro a _ a' _ x hx hx'
      obtain ⟨c, _, b, _, d, _, e, _, rfl⟩ := (hG a x).1 hx
      obtain ⟨c', _, b', _, d', _, e', _, h⟩ := (hG a' _).1 hx'
      exact (hnfMat_inj h).1.symm
  · intro m
    rw [List.mem_flatMap]
    constructor
    · rintro ⟨a, ha, hm⟩
      obtain ⟨c, hc, b, hb, d, hd, e, he, rfl⟩ := (hG a m).1 hm
      obtain ⟨hc0, hcd⟩ := ((hcs a ha).2.2 c).1 hc
      obtain ⟨ha0, had⟩ := (ha3 a).1 ha
      refine ⟨a, b, d, c, e, (n / a / c : ℕ), rfl, by exact_mod_cast ha0, by exact_mod_cast hc0, by omega, ?_,
        ⟨by omega, by omega⟩, ⟨by omega, by omega⟩, ⟨by omega, by omega⟩⟩
      have e1 : n / a / c * c = n / a := Nat.div_mul_cancel hcd
      have e2 : n / a * a = n := Nat.div_mul_cancel had
      have : a * c * (n / a / c) = n := by
        calc a * c * (n / a / c) = (n / a / c * c) * a := by ring
          _ = n := by rw [e1, e2]
      exact_mod_cast this
    · rintro ⟨a, b, d, c, e, f, rfl, ha, hc, hf, hn', ⟨hb0, hb⟩, ⟨hd0, hd⟩, he0, he⟩
      lift a to ℕ using ha.le
      lift b to ℕ using hb0
      lift c to ℕ using hc.le
      lift d to ℕ using hd0
      lift e to ℕ using he0
      lift f to ℕ using hf.le
      have ha' : 0 < a := by exact_mod_cast ha
      have hc' : 0 < c := by exact_mod_cast hc
      have hnn : a * c * f = n := by exact_mod_cast hn'
      have h1 : n / a = c * f := by rw [← hnn, mul_assoc, Nat.mul_div_cancel_left _ ha']
      have h2 : n / a / c = f := by rw [h1, Nat.mul_div_cancel_left _ hc']
      have haas : a ∈ as := (ha3 a).2 ⟨ha', ⟨c * f, by rw [← hnn, mul_assoc]⟩⟩
      refine ⟨a, haas, (hG a _).2 ⟨c, ((hcs a haas).2.2 c).2 ⟨hc', by rw [h1]; exact Dvd.intro _ rfl⟩, b, by omega,
        d, by omega, e, by omega, ?_⟩⟩
      rw [h2]; rfl

/-- C28: the Hermite matrices of determinant `n`, each once, for every iteration order of Python sets. -/
theorem C28_hnf_exact (setList : List ℕ → List ℕ) (hs : SetOrder setList) (unit : GCell) (rots : List (M3 ℤ))
    (n : ℕ) (hn : 0 < n) :
    ∃ l, hnfsFromNDups setList unit rots n = .ok l ∧ (l.map (·.latCoeff)).Nodup ∧
      (∀ m, m ∈ l.map (·.latCoeff) ↔ IsHnf n m) ∧
      ∀ s ∈ l, s.ub = unit.lattice ∧ s.upositions = unit.positions ∧ s.unumbers = unit.numbers ∧ s.rots = rots := by
  obtain ⟨ms, h1, h2, h3⟩ := hnfMats_spec setList hs n hn
  have hmap : (ms.map (SLCell.new unit rots)).map (·.latCoeff) = ms := by
    rw [List.map_map]
    exact List.map_id ms
  refine ⟨ms.map (SLCell.new unit rots), by simp [hnfsFromNDups, h1, bind, Except.bind, pure, Except.pure], ?_, ?_, ?_⟩
  · rw [hmap]; exact h2
  · rw [hmap]; exact h3
  · intro s hs
    obtain ⟨m, _, rfl⟩ := List.mem_map.1 hs
    exact ⟨rfl, rfl, rfl, rfl⟩

theorem isHnf_index {n : ℕ} {m : M3 ℤ} (h : IsHnf n m) : (rowLattice m).index = n := by
  obtain ⟨a, b, d, c, e, f, rfl, ha, hc, hf, hn, _⟩ := h
  rw [tri_index ha hc hf, hn]; simp

theorem isHnf_unique {n : ℕ} {m m' : M3 ℤ} (h : IsHnf n m) (h' : IsHnf n m') (heq : rowLattice m = rowLattice m') :
    m = m' := by
  obtain ⟨a, b, d, c, e, f, rfl, ha, hc, hf, hn, hb, hd, he⟩ := h
  obtain ⟨a', b', d', c', e', f', rfl, ha', hc', hf', hn', hb', hd', he'⟩ := h'
  obtain ⟨rfl, rfl, rfl, rfl, rfl, rfl⟩ := tri_unique ha hc hf ha' hc' hf' hb hd he hb' hd' he' heq
  rfl

theorem isHnf_exists {n : ℕ} (hn : 0 < n) (L : AddSubgroup (V3 ℤ)) (hL : L.index = n) : ∃ m, IsHnf n m ∧ rowLattice m = L := by
  obtain ⟨a, b, d, c, e, f, ha, hc, hf, hb, hd, he, rfl⟩ := exists_hnf L (by omega)
  rw [tri_index ha hc hf] at hL
  refine ⟨_, ⟨a, b, d, c, e, f, rfl, ha, hc, hf, ?_, hb, hd, he⟩, rfl⟩
  have : 0 < a * c * f := by positivity
  omega

/-- C29: every sublattice of index `n` is generated by the rows of exactly one list entry, and every entry generates a
sublattice of index `n`. -/
theorem C29_every_superlattice_once (setList : List ℕ → List ℕ) (hs : SetOrder setList) (unit : GCell)
    (rots : List (M3 ℤ)) (n : ℕ) (hn : 0 < n) :
    ∃ l, hnfsFromNDups setList unit rots n = .ok l ∧ (∀ s ∈ l, (rowLattice s.latCoeff).index = n) ∧
      ∀ L : AddSubgroup (V3 ℤ), L.index = n →
        ∃ (i : ℕ) (s : SLCell), l[i]? = some s ∧ rowLattice s.latCoeff = L ∧
          ∀ (j : ℕ) (t : SLCell), l[j]? = some t → rowLattice t.latCoeff = L → j = i := by
  obtain ⟨l, h1, h2, h3, _⟩ := C28_hnf_exact setList hs unit rots n hn
  refine ⟨l, h1, fun s hs => isHnf_index ((h3 _).1 (List.mem_map_of_mem hs)), fun L hL => ?_⟩
  obtain ⟨m, hm, rfl⟩ := isHnf_exists hn L hL
  obtain ⟨i, hi⟩ := List.mem_iff_getElem?.1 ((h3 m).2 hm)
  rw [List.getElem?_map, Option.map_eq_some_iff] at hi
  obtain ⟨s, hs1, rfl⟩ := hi
  refine ⟨i, s, hs1, rfl, fun j t hj ht => ?_⟩
  have htm : IsHnf n t.latCoeff := (h3 _).1 (List.mem_map_of_mem (List.mem_of_getElem? hj))
  have heq := isHnf_unique htm hm ht
  have hjl : j < (l.map (·.latCoeff)).length := by
    rw [List.length_map]; exact (List.getElem?_eq_some_iff.1 hj).1
  refine (List.getElem?_inj hjl h2).1 ?_
  rw [List.getElem?_map, List.getElem?_map, hj, hs1]
  simp [heq]

/-- the number of Hermite matrices is the number of sublattices of index `n` (so it is finite) -/
theorem C29_count (setList : List ℕ → List ℕ) (hs : SetOrder setList) (unit : GCell)
    (rots : List (M3 ℤ)) (n : ℕ) (hn : 0 < n) :
    ∃ l, hnfsFromNDups setList unit rots n = .ok l ∧ l.length = Nat.card {L : AddSubgroup (V3 ℤ) // L.index = n} := by
  obtain ⟨l, h1, h2, h3, _⟩ := C28_hnf_exact setList hs unit rots n hn
  refine ⟨l, h1, ?_⟩
  let φ : Fin l.length → {L : AddSubgroup (V3 ℤ) // L.index = n} := fun i =>
    ⟨rowLattice l[i].latCoeff, isHnf_index ((h3 _).1 (List.mem_map_of_mem (List.getElem_mem i.2)))⟩
  have hb : Function.Bijective φ := by
    constructor
    · intro i j hij
      have : rowLattice l[i].latCoeff = rowLattice l[j].latCoeff := congrArg Subtype.val hij
      have heq := isHnf_unique ((h3 _).1 (List.mem_map_of_mem (List.getElem_mem i.2)))
        ((h3 _).1 (List.mem_map_of_mem (List.getElem_mem j.2))) this
      have hi : (i : ℕ) < (l.map (·.latCoeff)).length := by rw [List.length_map]; exact i.2
      ext
      refine (List.getElem?_inj hi h2).1 ?_
      simpa using heq
    · rintro ⟨L, hL⟩
      obtain ⟨m, hm, rfl⟩ := isHnf_exists hn L hL
      obtain ⟨s, hs1, rfl⟩ := List.mem_map.1 ((h3 m).2 hm)
      obtain ⟨i, hi, rfl⟩ := List.getElem_of_mem hs1
      exact ⟨⟨i, hi⟩, rfl⟩
  rw [← Nat.card_eq_of_bijective φ hb, Nat.card_fin]

/-! ## C35 -/

theorem isHnf_2d {n : ℕ} {m : M3 ℤ} (h : IsHnf n m) : ((0, 0, 1) : V3 ℤ) ∈ rowLattice m ↔
    ∃ a b c : ℕ, 0 < a ∧ 0 < c ∧ a * c = n ∧ b < c ∧ m = hnfMat a b 0 c 0 1 := by
  obtain ⟨a, b, d, c, e, f, rfl, ha, hc, hf, hn, hb, hd, he⟩ := h
  constructor
  · intro hm
    obtain ⟨k1, k2, k3, h1, h2, h3⟩ := mem_tri.1 hm
    simp only at h1 h2 h3
    have k0 : k1 = 0 := by
      rcases mul_eq_zero.1 h1.symm with h | h
      · exact h
      · omega
    subst k0
    have k0 : k2 = 0 := by
      rw [zero_mul, zero_add] at h2
      rcases mul_eq_zero.1 h2.symm with h | h
      · exact h
      · omega
    subst k0
    have hf1 : f = 1 := by
      have : f ∣ 1 := ⟨k3, by linarith⟩
      exact Int.eq_one_of_dvd_one hf.le this
    subst hf1
    have hd0 : d = 0 := by omega
    have he0 : e = 0 := by omega
    subst hd0 he0
    refine ⟨a.toNat, b.toNat, c.toNat, by omega, by omega, ?_, by omega, ?_⟩
    · zify
      rw [Int.toNat_of_nonneg ha.le, Int.toNat_of_nonneg hc.le]; linarith
    · simp [hnfMat, Int.toNat_of_nonneg ha.le, Int.toNat_of_nonneg hc.le, Int.toNat_of_nonneg hb.1]
  · rintro ⟨a', b', c', _, _, _, _, hm⟩
    rw [hm]
    exact mem_tri.2 ⟨0, 0, 1, by simp, by simp, by simp⟩

/-- the matrices of the 2D generator: the Hermite normal forms of index `n` whose row lattice contains `(0,0,1)`, each once -/
theorem hnfMats2D_exact (setList : List ℕ → List ℕ) (hs : SetOrder setList) (n : ℕ) (hn : 0 < n) :
    ∃ ms, hnfMats2D setList n = .ok ms ∧ ms.Nodup ∧ ∀ m, m ∈ ms ↔ IsHnf n m ∧ ((0, 0, 1) : V3 ℤ) ∈ rowLattice m := by
  obtain ⟨as, ha1, ha2, ha3⟩ := (C27_factors setList hs n).1 hn
  let G : ℕ → List (M3 ℤ) := fun a => (List.range (n / a)).map fun b => hnfMat a b 0 (n / a) 0 1
  set ms := as.flatMap G with hms
  have hmem : ∀ m, m ∈ ms ↔ IsHnf n m ∧ ((0, 0, 1) : V3 ℤ) ∈ rowLattice m := by
    intro m
    simp only [hms, G, List.mem_flatMap, List.mem_map, List.mem_range]
    constructor
    · rintro ⟨a, ha, b, hb, rfl⟩
      obtain ⟨ha0, had⟩ := (ha3 a).1 ha
      have e2 : n / a * a = n := Nat.div_mul_cancel had
      have hq : 0 < n / a := Nat.div_pos (Nat.le_of_dvd hn had) ha0
      have hH : IsHnf n (hnfMat a b 0 (n / a) 0 1) := by
        refine ⟨a, b, 0, (n / a : ℕ), 0, 1, rfl, by exact_mod_cast ha0, by exact_mod_cast hq, by norm_num, ?_,
          ⟨by omega, by omega⟩, ⟨by omega, by omega⟩, ⟨by omega, by omega⟩⟩
        rw [mul_one]
        exact_mod_cast (by rw [mul_comm]; exact e2 : a * (n / a) = n)
      exact ⟨hH, (isHnf_2d hH).2 ⟨a, b, n / a, ha0, hq, by rw [mul_comm]; exact e2, hb, rfl⟩⟩
    · rintro ⟨hH, h1⟩
      obtain ⟨a, b, c, ha, hc, hac, hb, rfl⟩ := (isHnf_2d hH).1 h1
      have : n / a = c := by rw [← hac, Nat.mul_div_cancel_left _ ha]
      refine ⟨a, (ha3 a).2 ⟨ha, ⟨c, hac.symm⟩⟩, b, by rw [this]; exact hb, by rw [this]⟩
  have hnd : ms.Nodup := by
    refine nodup_flatMap_of_key ha2 (fun a _ => ?_) ?_
    · refine (List.nodup_map_iff_inj_on List.nodup_range).2 ?_
      intro b _ b' _ h
      exact (hnfMat_inj h).2.1
    · intro a _ a' _ x hx hx'
      simp only [G, List.mem_map] at hx hx'
      obtain ⟨b, _, rfl⟩ := hx
      obtain ⟨b', _, h⟩ := hx'
      exact (hnfMat_inj h).1.symm
  refine ⟨ms, ?_, hnd, hmem⟩
  unfold hnfMats2D
  rw [ha1]
  rfl

/-- C35: the 2D enumeration lists exactly the sublattices of index `n` that contain `(0,0,1)`, each once. -/
theorem C35_two_dimensional (setList : List ℕ → List ℕ) (hs : SetOrder setList) (unit : GCell)
    (rots : List (M3 ℤ)) (n : ℕ) (hn : 0 < n) :
    ∃ l, hnfsFromNDups2D setList unit rots n = .ok l ∧
      (∀ s ∈ l, (rowLattice s.latCoeff).index = n ∧ ((0, 0, 1) : V3 ℤ) ∈ rowLattice s.latCoeff) ∧
      ∀ L : AddSubgroup (V3 ℤ), L.index = n → ((0, 0, 1) : V3 ℤ) ∈ L →
        ∃ (i : ℕ) (s : SLCell), l[i]? = some s ∧ rowLattice s.latCoeff = L ∧
          ∀ (j : ℕ) (t : SLCell), l[j]? = some t → rowLattice t.latCoeff = L → j = i := by
  obtain ⟨ms, hm1, hnd, hmem⟩ := hnfMats2D_exact setList hs n hn
  refine ⟨ms.map (SLCell.new unit rots), ?_, ?_, ?_⟩
  · unfold hnfsFromNDups2D
    rw [hm1]
    rfl
  · intro s hs
    obtain ⟨m, hm, rfl⟩ := List.mem_map.1 hs
    exact ⟨isHnf_index ((hmem m).1 hm).1, ((hmem m).1 hm).2⟩
  · intro L hL h1
    obtain ⟨m, hm, rfl⟩ := isHnf_exists hn L hL
    obtain ⟨i, hi⟩ := List.mem_iff_getElem?.1 ((hmem m).2 ⟨hm, h1⟩)
    refine ⟨i, SLCell.new unit rots m, by rw [List.getElem?_map, hi]; rfl, rfl, fun j t hj ht => ?_⟩
    rw [List.getElem?_map, Option.map_eq_some_iff] at hj
    obtain ⟨m', hm', rfl⟩ := hj
    have heq : m' = m := isHnf_unique ((hmem m').1 (List.mem_of_getElem? hm')).1 hm ht
    refine (List.getElem?_inj (List.getElem?_eq_some_iff.1 hm').1 hnd).1 ?_
    rw [hm', hi, heq]

/-! ## examples -/

/-- a legitimate set order -/
theorem setOrder_dedup : SetOrder List.dedup := fun l => ⟨List.nodup_dedup l, fun _ => List.mem_dedup⟩

/-- another one: sets of small integers often iterate backwards -/
theorem setOrder_reverse : SetOrder (fun l => l.dedup.reverse) :=
  fun l => ⟨List.nodup_reverse.2 (List.nodup_dedup l), fun x => by simp⟩

example : (hnfMats List.dedup 4).map List.length = .ok 35 := by decide +kernel
example : (hnfMats2D List.dedup 6).map List.length = .ok 12 := by decide +kernel

end Verif
