import Verif.Lemmas.Binary64
import Verif.Lemmas.Symmetry
import Verif.Lemmas.Cell
import Verif.Props.Symmetry
import Mathlib.Tactic.NormNum

/-! # C87: the sorting of sites in double precision is the exact one -/

set_option exponentiation.threshold 2000

namespace Verif

/-- **C87, rounding.** The model of a floating point operation yields a double, the nearest one, and leaves doubles alone. -/
theorem C87_nearest (x : ℚ) : Spec.IsDouble (fl64 x) ∧ (∀ y, Spec.IsDouble y → |fl64 x - x| ≤ |y - x|) ∧ (Spec.IsDouble x → fl64 x = x) :=
  ⟨fl64_isDouble x, fl64_nearest x, fl64_double⟩

theorem forall₂_get {α β} {R : α → β → Prop} {l : List α} {m : List β} (h : List.Forall₂ R l m) {i : ℕ} {a b}
    (ha : l[i]? = some a) (hb : m[i]? = some b) : R a b := by
  induction h generalizing i with
  | nil => simp at ha
  | cons h1 _ ih =>
    cases i with
    | zero =>
      simp only [List.getElem?_cons_zero, Option.some.injEq] at ha hb
      rw [← ha, ← hb]; exact h1
    | succ i => exact ih ha hb

/-- **C87, images.** However the coordinates were computed: if every computed coordinate is faithful (within `10⁻¹⁰` of an exact one
that is no close call for rounding to three decimals, or exact), sorting in double precision gives exactly the permutation that
exact arithmetic gives. -/
theorem C87_images (exact computed : List (V3 ℚ)) (hc : List.Forall₂ Spec.Faithful3 exact computed) :
    newIdSeq64 computed = newIdSeq exact := by
  have hlen := hc.length_eq
  unfold newIdSeq64 newIdSeq
  by_cases h0 : exact = []
  · have : computed = [] := by rw [h0] at hlen; exact List.length_eq_zero_iff.1 hlen.symm
    rw [if_pos h0, if_pos this]
  · have : computed ≠ [] := by
      rintro rfl
      exact h0 (List.length_eq_zero_iff.1 hlen)
    rw [if_neg h0, if_neg this]
    congr 1
    have hkey : ∀ (i : ℕ) a a', (computed.map (V3.map wrap64))[i]? = some a → (exact.map siteKey)[i]? = some a' →
        ∃ x : V3 ℚ, a' = siteKey x ∧ a = V3.map fl64 (siteKey x) := by
      intro i a a' h1 h2
      rw [List.getElem?_map, Option.map_eq_some_iff] at h1 h2
      obtain ⟨y, hy, rfl⟩ := h1
      obtain ⟨x, hx, rfl⟩ := h2
      obtain ⟨c1, c2, c3⟩ := forall₂_get hc hx hy
      refine ⟨x, rfl, ?_⟩
      unfold siteKey V3.map
      rw [wrap64_faithful c1, wrap64_faithful c2, wrap64_faithful c3]
    apply lexsort3_congr
    · simp [hlen]
    · intro i j a b a' b' h1 h2 h3 h4
      obtain ⟨x, rfl, rfl⟩ := hkey i a a' h1 h3
      obtain ⟨y, rfl, rfl⟩ := hkey j b b' h2 h4
      have heq : ∀ s t, fl64 (wrap3 s) = fl64 (wrap3 t) ↔ wrap3 s = wrap3 t := by
        intro s t
        refine ⟨fun h => ?_, fun h => by rw [h]⟩
        rcases lt_trichotomy (wrap3 s) (wrap3 t) with h' | h' | h'
        · exact absurd h ((fl64_wrap_lt s t).2 h').ne
        · exact h'
        · exact absurd h ((fl64_wrap_lt t s).2 h').ne'
      have hle : ∀ s t, fl64 (wrap3 s) ≤ fl64 (wrap3 t) ↔ wrap3 s ≤ wrap3 t := by
        intro s t; rw [← not_lt, ← not_lt, fl64_wrap_lt]
      rw [lexLe_iff, lexLe_iff]
      simp only [siteKey, V3.map, fl64_wrap_lt, heq, hle]

theorem faithful_self {x : ℚ} (hx : |x| ≤ 10 ^ 5) (h : Spec.Clear (1 / 10 ^ 6) x ∨ Spec.IsDouble (1000 * x)) : Spec.Faithful x x := by
  refine ⟨hx, h.imp (fun h => ⟨by simp, h⟩) fun h => ⟨rfl, h⟩⟩

/-- **C87, sorting.** -/
theorem C87_sort (pos : List (V3 ℚ))
    (hs : ∀ x ∈ pos, Spec.All3 (fun t => |t| ≤ 10 ^ 5 ∧ (Spec.Clear (1 / 10 ^ 6) t ∨ Spec.IsDouble (1000 * t))) x) :
    newIdSeq64 pos = newIdSeq pos := by
  apply C87_images pos pos
  rw [List.forall₂_same]
  intro x hx
  obtain ⟨h1, h2, h3⟩ := hs x hx
  exact ⟨faithful_self h1.1 h1.2, faithful_self h2.1 h2.2, faithful_self h3.1 h3.2⟩

/-- **C87, cells.** A cell built in double precision from faithfully computed positions has its sites in the exact order: the atomic
numbers are those of the exact cell, site by site, and the positions are the computed ones of the same sites. -/
theorem C87_cell (lattice lattice' : M3 ℚ) (exact computed : List (V3 ℚ)) (numbers : List ℤ) (h0 : exact ≠ []) (hl : exact.length ≤ numbers.length)
    (hc : List.Forall₂ Spec.Faithful3 exact computed) :
    ∃ c c', GCell.new lattice exact numbers = .ok c ∧ GCell.new64 lattice' computed numbers = .ok c' ∧ c.lattice = lattice ∧ c'.lattice = lattice' ∧
      c'.numbers = c.numbers ∧ c'.numCount = c.numCount ∧ List.Forall₂ Spec.Faithful3 c.positions c'.positions := by
  obtain ⟨ps, ns, f1, f2, hnew⟩ := new_spec lattice h0 hl
  have hlen := hc.length_eq
  obtain ⟨qs, hqs⟩ := (fancy_isOk_iff computed (lexsort3 (exact.map siteKey))).2 fun i hi => by
    rw [mem_lexsort3, List.length_map] at hi; omega
  refine ⟨_, ⟨lattice', qs, ns, ns, numbers.length⟩, hnew, ?_, rfl, rfl, rfl, rfl, ?_⟩
  · unfold GCell.new64
    rw [C87_images exact computed hc, newIdSeq_ok h0]
    simp only [bind, Except.bind, hqs, f2, pure, Except.pure]
  · have g1 := (fancy_ok_iff _ _ _).1 f1
    have g2 := (fancy_ok_iff _ _ _).1 hqs
    generalize lexsort3 (exact.map siteKey) = idx at g1 g2
    simp only
    clear f1 f2 hnew hqs
    induction idx generalizing ps qs with
    | nil =>
      cases ps with
      | nil => cases qs with
        | nil => exact .nil
        | cons _ _ => simp at g2
      | cons _ _ => simp at g1
    | cons i idx ih =>
      cases ps with
      | nil => simp at g1
      | cons p ps =>
        cases qs with
        | nil => simp at g2
        | cons q qs =>
          simp only [List.map_cons, List.cons.injEq] at g1 g2
          exact .cons (forall₂_get hc g1.1 g2.1) (ih _ _ g1.2 g2.2)

/-- **C87, cells from given positions.** -/
theorem C87_cell_given (lattice : M3 ℚ) (pos : List (V3 ℚ)) (numbers : List ℤ)
    (hs : ∀ x ∈ pos, Spec.All3 (fun t => |t| ≤ 10 ^ 5 ∧ (Spec.Clear (1 / 10 ^ 6) t ∨ Spec.IsDouble (1000 * t))) x) :
    GCell.new64 lattice pos numbers = GCell.new lattice pos numbers := by
  unfold GCell.new64 GCell.new
  rw [C87_sort pos hs]

theorem fl64_step {x y B e : ℚ} (hB : 1 ≤ B) (hy : |y| ≤ B) (h : |y - x| ≤ e) : |fl64 y - x| ≤ e + B / 10 ^ 15 := by
  have h1 := fl64_err_le hB hy
  have h2 := abs_sub_le (fl64 y) y x
  linarith

theorem coord64_close (r : V3 ℤ) (t : ℚ) (p : V3 ℚ) (hr : |r.1| ≤ 10 ∧ |r.2.1| ≤ 10 ∧ |r.2.2| ≤ 10) (ht : |t| ≤ 100)
    (hp : Spec.All3 (fun x => |x| ≤ 100) p) :
    |coord64 r t p - (dot (castV r) p + t)| ≤ 1 / 10 ^ 10 := by
  obtain ⟨r1, r2, r3⟩ := r
  obtain ⟨p1, p2, p3⟩ := p
  obtain ⟨hr1, hr2, hr3⟩ := hr
  obtain ⟨hp1, hp2, hp3⟩ := hp
  simp only at *
  have hprod : ∀ (a : ℤ) (b : ℚ), |a| ≤ 10 → |b| ≤ 100 → |(a : ℚ) * b| ≤ 1000 := by
    intro a b ha hb
    rw [abs_mul]
    have : |(a : ℚ)| ≤ 10 := by rw [← Int.cast_abs]; exact_mod_cast ha
    nlinarith [abs_nonneg (a : ℚ), abs_nonneg b]
  have b1 := hprod r1 p1 hr1 hp1
  have b2 := hprod r2 p2 hr2 hp2
  have b3 := hprod r3 p3 hr3 hp3
  unfold coord64
  simp only [dot, castV, V3.map]
  have e1 := fl64_err_le (by norm_num) b1
  have e2 := fl64_err_le (by norm_num) b2
  have e3 := fl64_err_le (by norm_num) b3
  generalize fl64 ((r1 : ℚ) * p1) = y1 at *
  generalize fl64 ((r2 : ℚ) * p2) = y2 at *
  generalize fl64 ((r3 : ℚ) * p3) = y3 at *
  generalize (r1 : ℚ) * p1 = x1 at *
  generalize (r2 : ℚ) * p2 = x2 at *
  generalize (r3 : ℚ) * p3 = x3 at *
  have s1 : |fl64 (y1 + y2) - (x1 + x2)| ≤ 2 / 10 ^ 12 + 10000 / 10 ^ 15 := by
    apply fl64_step (by norm_num)
    · rw [abs_le] at *; constructor <;> linarith
    · rw [abs_le] at *; constructor <;> linarith
  generalize fl64 (y1 + y2) = z1 at *
  have s2 : |fl64 (z1 + y3) - (x1 + x2 + x3)| ≤ 15 / 10 ^ 12 + 10000 / 10 ^ 15 := by
    apply fl64_step (by norm_num)
    · rw [abs_le] at *; constructor <;> linarith
    · rw [abs_le] at *; constructor <;> linarith
  generalize fl64 (z1 + y3) = z2 at *
  have s3 : |fl64 (z2 + t) - (x1 + x2 + x3 + t)| ≤ 30 / 10 ^ 12 + 10000 / 10 ^ 15 := by
    apply fl64_step (by norm_num)
    · rw [abs_le] at *; constructor <;> linarith
    · rw [abs_le] at *; constructor <;> linarith
  exact s3.trans (by norm_num)

theorem dyadic_exact {x : ℚ} (hd : Spec.Dyadic20 x) (hx : |x| ≤ 10 ^ 5) : fl64 x = x := by
  obtain ⟨k, rfl⟩ := hd
  apply fl64_double
  refine ⟨k, -20, ?_, by norm_num, by rw [zpow_neg, div_eq_mul_inv]; rfl⟩
  rw [abs_div, div_le_iff₀ (by norm_num), ← Int.cast_abs] at hx
  have h : |k| ≤ 10 ^ 5 * 2 ^ 20 := by
    have : (|(2 : ℚ) ^ 20|) = 2 ^ 20 := by norm_num
    rw [this] at hx
    exact_mod_cast hx
  exact lt_of_le_of_lt h (by norm_num)

theorem Dyadic20.add {x y : ℚ} (hx : Spec.Dyadic20 x) (hy : Spec.Dyadic20 y) : Spec.Dyadic20 (x + y) := by
  obtain ⟨a, rfl⟩ := hx
  obtain ⟨b, rfl⟩ := hy
  exact ⟨a + b, by push_cast; ring⟩

theorem Dyadic20.int_mul {x : ℚ} (a : ℤ) (hx : Spec.Dyadic20 x) : Spec.Dyadic20 (a * x) := by
  obtain ⟨b, rfl⟩ := hx
  exact ⟨a * b, by push_cast; ring⟩

theorem int_mul_bound {a : ℤ} {b : ℚ} (ha : |a| ≤ 10) (hb : |b| ≤ 100) : |(a : ℚ) * b| ≤ 1000 := by
  rw [abs_mul]
  have : |(a : ℚ)| ≤ 10 := by rw [← Int.cast_abs]; exact_mod_cast ha
  nlinarith [abs_nonneg (a : ℚ), abs_nonneg b]

theorem coord_bound (r : V3 ℤ) (t : ℚ) (p : V3 ℚ) (hr : |r.1| ≤ 10 ∧ |r.2.1| ≤ 10 ∧ |r.2.2| ≤ 10) (ht : |t| ≤ 100)
    (hp : Spec.All3 (fun x => |x| ≤ 100) p) : |dot (castV r) p + t| ≤ 3100 := by
  have b1 := int_mul_bound hr.1 hp.1
  have b2 := int_mul_bound hr.2.1 hp.2.1
  have b3 := int_mul_bound hr.2.2 hp.2.2
  simp only [dot, castV, V3.map]
  rw [abs_le] at *
  constructor <;> linarith

theorem coord64_exact (r : V3 ℤ) (t : ℚ) (p : V3 ℚ) (hr : |r.1| ≤ 10 ∧ |r.2.1| ≤ 10 ∧ |r.2.2| ≤ 10) (ht : |t| ≤ 100)
    (hp : Spec.All3 (fun x => |x| ≤ 100) p) (hd : Spec.Dyadic20 t ∧ Spec.All3 Spec.Dyadic20 p) :
    coord64 r t p = dot (castV r) p + t ∧ Spec.Dyadic20 (dot (castV r) p + t) := by
  obtain ⟨d0, d1, d2, d3⟩ := hd
  have e1 := Dyadic20.int_mul r.1 d1
  have e2 := Dyadic20.int_mul r.2.1 d2
  have e3 := Dyadic20.int_mul r.2.2 d3
  have b1 := int_mul_bound hr.1 hp.1
  have b2 := int_mul_bound hr.2.1 hp.2.1
  have b3 := int_mul_bound hr.2.2 hp.2.2
  have s1 := Dyadic20.add e1 e2
  have s2 := Dyadic20.add s1 e3
  have s3 := Dyadic20.add s2 d0
  simp only [dot, castV, V3.map]
  refine ⟨?_, s3⟩
  unfold coord64
  rw [dyadic_exact e1 (b1.trans (by norm_num)), dyadic_exact e2 (b2.trans (by norm_num)), dyadic_exact e3 (b3.trans (by norm_num)),
    dyadic_exact s1, dyadic_exact s2, dyadic_exact s3]
  all_goals
    rw [abs_le] at *
    constructor <;> linarith

theorem mapM_congr' {α β} {f g : α → Py β} {l : List α} (h : ∀ a ∈ l, f a = g a) : l.mapM f = l.mapM g := by
  induction l with
  | nil => rfl
  | cons a l ih =>
    rw [List.mapM_cons, List.mapM_cons, h a (by simp), ih fun b hb => h b (List.mem_cons_of_mem _ hb)]

theorem coord64_faithful (r : V3 ℤ) (t : ℚ) (p : V3 ℚ) (hr : |r.1| ≤ 10 ∧ |r.2.1| ≤ 10 ∧ |r.2.2| ≤ 10) (ht : |t| ≤ 100)
    (hp : Spec.All3 (fun x => |x| ≤ 100) p)
    (h : Spec.Clear (1 / 10 ^ 6) (dot (castV r) p + t) ∨ Spec.Dyadic20 t ∧ Spec.All3 Spec.Dyadic20 p) :
    Spec.Faithful (dot (castV r) p + t) (coord64 r t p) := by
  have hb := coord_bound r t p hr ht hp
  refine ⟨hb.trans (by norm_num), h.imp (fun h => ⟨coord64_close r t p hr ht hp, h⟩) fun h => ?_⟩
  obtain ⟨e1, k, hk⟩ := coord64_exact r t p hr ht hp h
  refine ⟨e1, 1000 * k, -20, ?_, by norm_num, by rw [hk, zpow_neg]; push_cast; rw [div_eq_mul_inv]; ring⟩
  rw [hk, abs_div, div_le_iff₀ (by norm_num), ← Int.cast_abs] at hb
  have h' : |k| ≤ 3100 * 2 ^ 20 := by
    have : (|(2 : ℚ) ^ 20|) = 2 ^ 20 := by norm_num
    rw [this] at hb
    exact_mod_cast hb
  rw [abs_mul]
  have : |(1000 : ℤ)| = 1000 := rfl
  rw [this]
  omega

/-- **C87, symmetry permutations.** The table computed in double precision is the exact one, provided that an image of a site under
an operation has no coordinate that is a close call (or everything has at most 20 binary places). -/
theorem C87_symmetry (c : GCell) (ops : List Spec.Op) (hp : ∀ x ∈ c.positions, Spec.All3 (fun t => |t| ≤ 100) x)
    (hr : ∀ g ∈ ops, ∀ r ∈ [g.1.1, g.1.2.1, g.1.2.2], |r.1| ≤ 10 ∧ |r.2.1| ≤ 10 ∧ |r.2.2| ≤ 10)
    (ht : ∀ g ∈ ops, Spec.All3 (fun t => |t| ≤ 100) g.2)
    (hs : ∀ g ∈ ops, ∀ x ∈ c.positions, Spec.All3 (fun t => Spec.Clear (1 / 10 ^ 6) t) (g.image x) ∨
      Spec.All3 Spec.Dyadic20 g.2 ∧ Spec.All3 Spec.Dyadic20 x) :
    c.symmetryPermutation64 ops = c.symmetryPermutation ops := by
  unfold GCell.symmetryPermutation64 GCell.symmetryPermutation
  apply mapM_congr'
  intro g hg
  apply C87_images
  rw [List.forall₂_map_left_iff, List.forall₂_map_right_iff, List.forall₂_same]
  intro x hx
  obtain ⟨t1, t2, t3⟩ := ht g hg
  have hsx := hs g hg x hx
  exact ⟨coord64_faithful _ _ _ (hr g hg _ (by simp)) t1 (hp x hx) (hsx.imp (·.1) fun h => ⟨h.1.1, h.2⟩),
    coord64_faithful _ _ _ (hr g hg _ (by simp)) t2 (hp x hx) (hsx.imp (·.2.1) fun h => ⟨h.1.2.1, h.2⟩),
    coord64_faithful _ _ _ (hr g hg _ (by simp)) t3 (hp x hx) (hsx.imp (·.2.2) fun h => ⟨h.1.2.2, h.2⟩)⟩

/-- **C87, close calls.** The proviso is needed: at `x = 1/16` a difference in the last place of one coordinate, which is far below
the precision of any structure file, exchanges two sites that differ in `y`. -/
theorem C87_fragile : ∃ p q : List (V3 ℚ),
    List.Forall₂ (fun x y : V3 ℚ => |y.1 - x.1| ≤ 1 / 2 ^ 56 ∧ y.2 = x.2) p q ∧ (∀ x ∈ p ++ q, Spec.All3 Spec.IsDouble x) ∧
      newIdSeq64 p = .ok [1, 0] ∧ newIdSeq64 q = .ok [0, 1] := by
  refine ⟨[(1 / 16, 1 / 2, 0), (1 / 16, 0, 0)], [(1 / 16, 1 / 2, 0), (1 / 16 + 1 / 2 ^ 56, 0, 0)], ?_, ?_, ?_, ?_⟩
  · simp
  · intro x hx
    have d0 : Spec.IsDouble 0 := ⟨0, 0, by norm_num, by norm_num, by norm_num⟩
    have d1 : Spec.IsDouble (1 / 2) := ⟨1, -1, by norm_num, by norm_num, by norm_num⟩
    have d2 : Spec.IsDouble (1 / 16) := ⟨1, -4, by norm_num, by norm_num, by norm_num⟩
    have d3 : Spec.IsDouble (1 / 16 + 1 / 2 ^ 56) := ⟨2 ^ 52 + 1, -56, by norm_num, by norm_num, by norm_num⟩
    simp only [List.cons_append, List.nil_append, List.mem_cons, List.not_mem_nil, or_false] at hx
    rcases hx with rfl | rfl | rfl | rfl
    · exact ⟨d2, d1, d0⟩
    · exact ⟨d2, d0, d0⟩
    · exact ⟨d2, d1, d0⟩
    · exact ⟨d3, d0, d0⟩
  · decide +kernel
  · decide +kernel

/-! ## the hypotheses are met -/

/-- multiples of a quarter are no close calls -/
theorem clear_quarter (k : ℤ) : Spec.Clear (1 / 10 ^ 6) (k / 4) := by
  intro n
  have h : (1 : ℚ) / 2 ≤ |1000 * (k / 4 : ℚ) - (n + 1 / 2)| := by
    have e : 1000 * (k / 4 : ℚ) - (n + 1 / 2) = ((500 * k - 2 * n - 1 : ℤ) : ℚ) / 2 := by push_cast; ring
    rw [e, abs_div, ← Int.cast_abs]
    have : (1 : ℤ) ≤ |500 * k - 2 * n - 1| := Int.one_le_abs (by omega)
    have : (1 : ℚ) ≤ (|500 * k - 2 * n - 1| : ℤ) := by exact_mod_cast this
    rw [abs_of_pos (by norm_num : (0 : ℚ) < 2)]
    linarith
  exact lt_of_lt_of_le (by norm_num) h

theorem clear_of_eq {x : ℚ} (k : ℤ) (h : x = k / 4) : Spec.Clear (1 / 10 ^ 6) x := h ▸ clear_quarter k

/-- the chain of copper atoms with its eight operations -/
theorem exChain_clear : ∀ g ∈ exOps, ∀ x ∈ exChain.positions, Spec.All3 (fun t => Spec.Clear (1 / 10 ^ 6) t) (g.image x) := by
  have hd : ∀ g ∈ exOps, ∀ x ∈ exChain.positions, (∃ k ∈ List.range 12, (g.image x).1 = (((k : ℤ) - 5 : ℤ) : ℚ) / 4) ∧
      (∃ k ∈ List.range 12, (g.image x).2.1 = (((k : ℤ) - 5 : ℤ) : ℚ) / 4) ∧ ∃ k ∈ List.range 14, (g.image x).2.2 = (((k : ℤ) - 5 : ℤ) : ℚ) / 4 := by
    decide +kernel
  intro g hg x hx
  obtain ⟨⟨i, _, hi⟩, ⟨j, _, hj⟩, ⟨k, _, hk⟩⟩ := hd g hg x hx
  exact ⟨clear_of_eq _ hi, clear_of_eq _ hj, clear_of_eq _ hk⟩

example : exChain.symmetryPermutation64 exOps = exChain.symmetryPermutation exOps := by
  refine C87_symmetry exChain exOps ?_ ?_ ?_ fun g hg x hx => .inl (exChain_clear g hg x hx)
  · have : ∀ x ∈ exChain.positions, |x.1| ≤ 100 ∧ |x.2.1| ≤ 100 ∧ |x.2.2| ≤ 100 := by decide +kernel
    exact this
  · decide +kernel
  · have : ∀ g ∈ exOps, |g.2.1| ≤ 100 ∧ |g.2.2.1| ≤ 100 ∧ |g.2.2.2| ≤ 100 := by decide +kernel
    exact this

/-- one third is not a double; rounding moves it down -/
example : fl64 (1 / 3) = 6004799503160661 / 2 ^ 54 := by decide +kernel
example : wrap64 (-1 / 3) = fl64 (667 / 1000) := by decide +kernel

end Verif
