import Verif.Model.Binary64Dist
import Verif.Props.Binary64
import Verif.Props.Restriction

/-! # C93: the minimum-distance restriction in double precision -/

set_option exponentiation.threshold 2000

namespace Verif

open Spec (cartesian distSq Near shift All3 Within)

/-! ## rounding is odd and keeps the sign -/

theorem rint_neg64 (q : ℚ) : rint (-q) = -rint q := by
  unfold rint
  have hf := Int.floor_le q
  have hf' := Int.lt_floor_add_one q
  by_cases h : q = ⌊q⌋
  · have e : ⌊-q⌋ = -⌊q⌋ := by rw [Int.floor_eq_iff]; push_cast; constructor <;> linarith
    have e1 : q - ⌊q⌋ = 0 := by linarith
    have e2 : -q - (⌊-q⌋ : ℤ) = 0 := by rw [e]; push_cast; linarith
    simp only [e1, e2]
    norm_num [e]
  · have hlt : (⌊q⌋ : ℚ) < q := lt_of_le_of_ne hf fun e => h e.symm
    have e : ⌊-q⌋ = -⌊q⌋ - 1 := by
      rw [Int.floor_eq_iff]; push_cast; constructor <;> linarith
    have e2 : -q - (⌊-q⌋ : ℤ) = 1 - (q - ⌊q⌋) := by rw [e]; push_cast; ring
    simp only [e2]
    rw [e]
    generalize q - (⌊q⌋ : ℚ) = r
    generalize ⌊q⌋ = f
    split_ifs <;> first | omega | (exfalso; linarith)

theorem fl64_neg (x : ℚ) : fl64 (-x) = -fl64 x := by
  unfold fl64
  have e : ulpExp (-x) = ulpExp x := by unfold ulpExp; rw [abs_neg]
  rw [e, neg_div, rint_neg64]; push_cast; ring

theorem rint_nonneg64 {q : ℚ} (h : 0 ≤ q) : 0 ≤ rint q := by
  have : 0 ≤ ⌊q⌋ := Int.floor_nonneg.2 h
  unfold rint
  simp only
  split_ifs <;> omega

theorem fl64_nonneg {x : ℚ} (h : 0 ≤ x) : 0 ≤ fl64 x := by
  unfold fl64
  have hp := two_zpow_pos (ulpExp x)
  have : (0 : ℚ) ≤ rint (x / 2 ^ ulpExp x) := by exact_mod_cast rint_nonneg64 (div_nonneg h hp.le)
  positivity

theorem sqDist64_comm (u v : V3 ℚ) : sqDist64 u v = sqDist64 v u := by
  have key : ∀ a b : ℚ, fl64 (a - b) * fl64 (a - b) = fl64 (b - a) * fl64 (b - a) := by
    intro a b
    rw [show a - b = -(b - a) by ring, fl64_neg]; ring
  simp only [sqDist64, key u.1 v.1, key u.2.1 v.2.1, key u.2.2 v.2.2]

theorem sqDist64_nonneg (u v : V3 ℚ) : 0 ≤ sqDist64 u v := by
  unfold sqDist64
  refine fl64_nonneg (add_nonneg (fl64_nonneg (add_nonneg ?_ ?_)) ?_) <;> exact fl64_nonneg (mul_self_nonneg _)

/-! ## error bounds -/

/-- the size of a fractional coordinate of the doubled cell -/
theorem half_close {x : ℚ} (hx : |x| ≤ 1) {k : ℤ} (hk : 0 ≤ k ∧ k ≤ 1) :
    |fl64 (fl64 (x / 2) + fl64 ((k : ℚ) / 2)) - (x + k) / 2| ≤ 5 / 10 ^ 15 ∧ |(x + k) / 2| ≤ 1 := by
  have k0 : (0 : ℚ) ≤ k := by exact_mod_cast hk.1
  have k1 : (k : ℚ) ≤ 1 := by exact_mod_cast hk.2
  rw [abs_le] at hx
  have h1 : |x / 2| ≤ 1 := by rw [abs_le]; constructor <;> linarith
  have h2 : |(k : ℚ) / 2| ≤ 1 := by rw [abs_le]; constructor <;> linarith
  have e1 := fl64_err_le le_rfl h1
  have e2 := fl64_err_le le_rfl h2
  generalize fl64 (x / 2) = a at *
  generalize fl64 ((k : ℚ) / 2) = b at *
  have : |fl64 (a + b) - (x + k) / 2| ≤ 2 / 10 ^ 15 + 3 / 10 ^ 15 := by
    apply fl64_step (by norm_num)
    · rw [abs_le] at *; constructor <;> linarith
    · rw [abs_le] at *; constructor <;> linarith
  refine ⟨this.trans (by norm_num), ?_⟩
  rw [abs_le]; constructor <;> linarith

theorem mul_close {s x a b : ℚ} (hs : |s - x| ≤ 5 / 10 ^ 15) (hx : |x| ≤ 1) (ha : |a| ≤ 200) (hb : |b - a| ≤ 200 / 10 ^ 15) :
    |fl64 (s * b) - x * a| ≤ 2 / 10 ^ 12 ∧ |x * a| ≤ 200 := by
  have hxa : |x * a| ≤ 200 := by rw [abs_mul]; nlinarith [abs_nonneg x, abs_nonneg a]
  refine ⟨?_, hxa⟩
  have e : s * b - x * a = (s - x) * a + x * (b - a) + (s - x) * (b - a) := by ring
  have t1 : |(s - x) * a| ≤ 5 / 10 ^ 15 * 200 := by
    rw [abs_mul]; exact mul_le_mul hs ha (abs_nonneg _) (by norm_num)
  have t2 : |x * (b - a)| ≤ 1 * (200 / 10 ^ 15) := by
    rw [abs_mul]; exact mul_le_mul hx hb (abs_nonneg _) (by norm_num)
  have t3 : |(s - x) * (b - a)| ≤ 5 / 10 ^ 15 * (200 / 10 ^ 15) := by
    rw [abs_mul]; exact mul_le_mul hs hb (abs_nonneg _) (by norm_num)
  have hd : |s * b - x * a| ≤ 13 / 10 ^ 13 := by
    rw [e]; rw [abs_le] at *; constructor <;> linarith
  have := fl64_step (B := 201) (by norm_num) (by rw [abs_le] at *; constructor <;> linarith) hd
  exact this.trans (by norm_num)

theorem dot64_close {p x l m : V3 ℚ} (hp : Within (5 / 10 ^ 15) x p) (hx : All3 (fun t => |t| ≤ 1) x)
    (hm : All3 (fun t => |t| ≤ 200) m) (hl : Within (200 / 10 ^ 15) m l) :
    |dot64 p l - dot x m| ≤ 1 / 10 ^ 11 ∧ |dot x m| ≤ 600 := by
  obtain ⟨a1, b1⟩ := mul_close hp.1 hx.1 hm.1 hl.1
  obtain ⟨a2, b2⟩ := mul_close hp.2.1 hx.2.1 hm.2.1 hl.2.1
  obtain ⟨a3, b3⟩ := mul_close hp.2.2 hx.2.2 hm.2.2 hl.2.2
  unfold dot64 dot
  generalize fl64 (p.1 * l.1) = y1 at *
  generalize fl64 (p.2.1 * l.2.1) = y2 at *
  generalize fl64 (p.2.2 * l.2.2) = y3 at *
  generalize x.1 * m.1 = x1 at *
  generalize x.2.1 * m.2.1 = x2 at *
  generalize x.2.2 * m.2.2 = x3 at *
  have s1 : |fl64 (y1 + y2) - (x1 + x2)| ≤ 4 / 10 ^ 12 + 401 / 10 ^ 15 := by
    apply fl64_step (by norm_num)
    · rw [abs_le] at *; constructor <;> linarith
    · rw [abs_le] at *; constructor <;> linarith
  generalize fl64 (y1 + y2) = z1 at *
  have s2 : |fl64 (z1 + y3) - (x1 + x2 + x3)| ≤ 7 / 10 ^ 12 + 601 / 10 ^ 15 := by
    apply fl64_step (by norm_num)
    · rw [abs_le] at *; constructor <;> linarith
    · rw [abs_le] at *; constructor <;> linarith
  refine ⟨s2.trans (by norm_num), ?_⟩
  rw [abs_le] at *; constructor <;> linarith

theorem square_close {a b u v : ℚ} (ha : |a - u| ≤ 1 / 10 ^ 11) (hb : |b - v| ≤ 1 / 10 ^ 11) (hu : |u| ≤ 600) (hv : |v| ≤ 600) :
    |fl64 (fl64 (a - b) * fl64 (a - b)) - (u - v) ^ 2| ≤ 8 / 10 ^ 8 ∧ |(u - v) ^ 2| ≤ 1440000 := by
  have h1 : |fl64 (a - b) - (u - v)| ≤ 2 / 10 ^ 11 + 1201 / 10 ^ 15 := by
    apply fl64_step (by norm_num)
    · rw [abs_le] at *; constructor <;> linarith
    · rw [abs_le] at *; constructor <;> linarith
  have h2 : |u - v| ≤ 1200 := by rw [abs_le] at *; constructor <;> linarith
  generalize fl64 (a - b) = x at *
  generalize u - v = y at *
  have hy : |y ^ 2| ≤ 1440000 := by
    rw [abs_pow]; nlinarith [abs_nonneg y]
  refine ⟨?_, hy⟩
  have e : x * x - y ^ 2 = 2 * ((x - y) * y) + (x - y) * (x - y) := by ring
  have t1 : |(x - y) * y| ≤ (2 / 10 ^ 11 + 1201 / 10 ^ 15) * 1200 := by
    rw [abs_mul]; exact mul_le_mul h1 h2 (abs_nonneg _) (by norm_num)
  have t2 : |(x - y) * (x - y)| ≤ (2 / 10 ^ 11 + 1201 / 10 ^ 15) * (2 / 10 ^ 11 + 1201 / 10 ^ 15) := by
    rw [abs_mul]; exact mul_le_mul h1 h1 (abs_nonneg _) (by norm_num)
  have hd : |x * x - y ^ 2| ≤ 6 / 10 ^ 8 := by
    rw [e]; rw [abs_le] at *; constructor <;> linarith
  have := fl64_step (B := 1440001) (by norm_num) (by rw [abs_le] at *; constructor <;> linarith) hd
  exact this.trans (by norm_num)

theorem sqDist64_close {a b u v : V3 ℚ} (ha : Within (1 / 10 ^ 11) u a) (hb : Within (1 / 10 ^ 11) v b)
    (hu : All3 (fun t => |t| ≤ 600) u) (hv : All3 (fun t => |t| ≤ 600) v) :
    |sqDist64 a b - distSq u v| ≤ 3 / 10 ^ 7 ∧ distSq u v ≤ 4320000 := by
  obtain ⟨a1, b1⟩ := square_close ha.1 hb.1 hu.1 hv.1
  obtain ⟨a2, b2⟩ := square_close ha.2.1 hb.2.1 hu.2.1 hv.2.1
  obtain ⟨a3, b3⟩ := square_close ha.2.2 hb.2.2 hu.2.2 hv.2.2
  unfold sqDist64 distSq
  simp only
  generalize fl64 (fl64 (a.1 - b.1) * fl64 (a.1 - b.1)) = y1 at *
  generalize fl64 (fl64 (a.2.1 - b.2.1) * fl64 (a.2.1 - b.2.1)) = y2 at *
  generalize fl64 (fl64 (a.2.2 - b.2.2) * fl64 (a.2.2 - b.2.2)) = y3 at *
  generalize (u.1 - v.1) ^ 2 = x1 at *
  generalize (u.2.1 - v.2.1) ^ 2 = x2 at *
  generalize (u.2.2 - v.2.2) ^ 2 = x3 at *
  have s1 : |fl64 (y1 + y2) - (x1 + x2)| ≤ 16 / 10 ^ 8 + 2880001 / 10 ^ 15 := by
    apply fl64_step (by norm_num)
    · rw [abs_le] at *; constructor <;> linarith
    · rw [abs_le] at *; constructor <;> linarith
  generalize fl64 (y1 + y2) = z1 at *
  have s2 : |fl64 (z1 + y3) - (x1 + x2 + x3)| ≤ 25 / 10 ^ 8 + 4320001 / 10 ^ 15 := by
    apply fl64_step (by norm_num)
    · rw [abs_le] at *; constructor <;> linarith
    · rw [abs_le] at *; constructor <;> linarith
  refine ⟨s2.trans (by norm_num), ?_⟩
  rw [abs_le] at *; linarith

/-- comparing a computed root with `d` is comparing the exact square with `d²`, away from equality -/
theorem root_gt {sq : ℚ → ℚ} (hq : ∀ x, 0 ≤ x → 0 ≤ sq x ∧ |sq x ^ 2 - x| ≤ (x + 1) / 10 ^ 14) {d x y : ℚ} (hy : 0 ≤ y)
    (h : |y - x| ≤ 3 / 10 ^ 7) (hx : x ≤ 4320000) (hm : 1 / 10 ^ 6 < |x - d ^ 2|) : d < sq y ↔ d < 0 ∨ d ^ 2 < x := by
  obtain ⟨h0, h1⟩ := hq y hy
  rcases lt_or_ge d 0 with hd | hd
  · exact iff_of_true (hd.trans_le h0) (.inl hd)
  rw [or_iff_right (not_lt.2 hd)]
  generalize sq y = s at *
  have hyb : y ≤ 4320001 := by rw [abs_le] at h; linarith
  have h2 : |s ^ 2 - x| ≤ 1 / 10 ^ 6 := by
    rw [abs_le] at *; constructor <;> linarith
  rw [← pow_lt_pow_iff_left₀ hd h0 two_ne_zero]
  rw [abs_le] at h2
  rcases lt_abs.1 hm with hm | hm
  · constructor <;> intro _ <;> linarith
  · constructor <;> intro _ <;> linarith

/-! ## the computed points -/

/-- the eight interior points of the doubled cell -/
def pts8 : List (V3 ℤ) := [(0, 0, 0), (0, 0, 1), (0, 1, 0), (0, 1, 1), (1, 0, 0), (1, 0, 1), (1, 1, 0), (1, 1, 1)]

theorem frac8 : fracFrom64 (V3.map fun k : ℤ => fl64 ((k : ℚ) / 2)) ((2, 0, 0), (0, 2, 0), (0, 0, 2)) =
    .ok (pts8.map (V3.map fun k : ℤ => fl64 ((k : ℚ) / 2))) := by decide +kernel

theorem mem_pts8 (v : V3 ℤ) : v ∈ pts8 ↔ Inside twoM v := by
  rw [inside_two]
  obtain ⟨a, b, c⟩ := v
  simp only [pts8, List.mem_cons, Prod.mk.injEq, List.not_mem_nil, or_false]
  omega

/-- a fractional position of the doubled cell, in double precision -/
def point64 (p : V3 ℚ) (v : V3 ℤ) : V3 ℚ :=
  V3.map fl64 (V3.map (fun x => fl64 (x / 2)) p + V3.map (fun k : ℤ => fl64 ((k : ℚ) / 2)) v)

theorem cartesian64_some (c : GCell) (e : Specie) (hl : c.positions.length = c.numbers.length) :
    c.getCartesian64 e = .ok ((elePositions (c.positions.zip c.numbers) e.Z).map (cart64 c.lattice)) := by
  have h := getCartesian_some { c with lattice := ((1, 0, 0), (0, 1, 0), (0, 0, 1)) } e hl
  simp only [GCell.getCartesian] at h
  unfold GCell.getCartesian64
  cases hf : fancy c.positions ((c.numbers.zipIdx.filter (fun p => p.1 == e.Z)).map (·.2)) with
  | error x => rw [hf] at h; cases h
  | ok ps =>
    rw [hf] at h
    have h := Except.ok.inj h
    have hid : (fun p : V3 ℚ => vecMul p ((1, 0, 0), (0, 1, 0), (0, 0, 1))) = id := by
      funext p; ext <;> simp [vecMul]
    simp only [hid, List.map_id] at h
    subst h
    rfl

theorem new64_sites (L : M3 ℚ) (pos : List (V3 ℚ)) (nums : List ℤ) (h : pos ≠ []) (hl : pos.length = nums.length) :
    ∃ c, GCell.new64 L pos nums = .ok c ∧ c.lattice = L ∧ (c.positions.zip c.numbers).Perm (pos.zip nums) ∧
      c.positions.length = c.numbers.length := by
  set idx := lexsort3 (pos.map (V3.map wrap64)) with hidx
  have hb : ∀ i ∈ idx, i < pos.length := fun i hi => by
    rw [hidx, mem_lexsort3, List.length_map] at hi; exact hi
  obtain ⟨ps, hps⟩ := (fancy_isOk_iff pos idx).2 hb
  obtain ⟨ns, hns⟩ := (fancy_isOk_iff nums idx).2 fun i hi => hl ▸ hb i hi
  refine ⟨⟨L, ps, ns, ns, nums.length⟩, ?_, rfl, ?_, ?_⟩
  · unfold GCell.new64 newIdSeq64
    rw [if_neg h]
    simp only [bind, Except.bind, ← hidx, hps, hns, pure, Except.pure]
  · apply fancy_perm (fancy_zip hps hns)
    have := lexsort3_perm (pos.map (V3.map wrap64))
    rw [List.length_map] at this
    rw [List.length_zip, hl, Nat.min_self, ← hl]
    exact this
  · exact (fancy_length hps).trans (fancy_length hns).symm

/-- the Cartesian coordinates the restriction computes in double precision -/
theorem restriction_points64 (c : GCell) (hpos : c.positions ≠ []) (hlen : c.positions.length = c.numbers.length) (e : Specie) :
    ∃ (s : GCell) (cart : List (V3 ℚ)), c.double64 = .ok s ∧ s.getCartesian64 e = .ok cart ∧
      cart.Perm (((elePositions (c.positions.zip c.numbers) e.Z).product pts8).map fun a =>
        cart64 (V3.map (V3.map fun x => fl64 (2 * x)) c.lattice) (point64 a.1 a.2)) := by
  set L2 := V3.map (V3.map fun x => fl64 (2 * x)) c.lattice with hL2
  set F : V3 ℚ → List (V3 ℚ) := fun p => pts8.map (point64 p) with hF
  have hFl : ∀ p, (F p).length = 8 := fun p => by rw [hF]; rfl
  have hen : c.double64 = GCell.new64 L2 (c.positions.flatMap F) (c.numbers.flatMap fun z => List.replicate 8 z) := by
    unfold GCell.double64 enlarge64
    rw [frac8]
    have : repeatNumbers c.numbers (diagProd ((2, 0, 0), (0, 2, 0), (0, 0, 2))) = .ok (c.numbers.flatMap fun z => List.replicate 8 z) := rfl
    simp only [bind, Except.bind, this]
    rw [if_neg (by simpa using hpos), List.flatMap_map]
    rfl
  have hpl : (c.positions.flatMap F).length = (c.numbers.flatMap fun z => List.replicate 8 z).length := by
    rw [length_flatMap_const _ F 8 hFl, length_flatMap_const _ _ 8 (fun z => by simp), hlen]
  have hne : c.positions.flatMap F ≠ [] := by
    intro he
    have := congrArg List.length he
    rw [length_flatMap_const _ F 8 hFl] at this
    have : 0 < c.positions.length := List.length_pos_iff.2 hpos
    rw [List.length_nil] at *; omega
  obtain ⟨s, h1, h2, h3, h4⟩ := new64_sites L2 _ _ hne hpl
  refine ⟨s, _, hen.trans h1, cartesian64_some s e h4, ?_⟩
  rw [zip_repeat c.positions c.numbers F 8 hFl hlen] at h3
  have p1 : (elePositions (s.positions.zip s.numbers) e.Z).Perm ((elePositions (c.positions.zip c.numbers) e.Z).flatMap F) := by
    rw [← elePositions_flatMap (c.positions.zip c.numbers) F e.Z]
    exact (h3.filter (fun s : V3 ℚ × ℤ => s.2 == e.Z)).map (fun s : V3 ℚ × ℤ => s.1)
  rw [h2]
  refine (p1.map _).trans (List.Perm.of_eq ?_)
  rw [List.product, List.map_flatMap, List.map_flatMap]
  refine List.flatMap_congr fun p _ => ?_
  rw [hF, List.map_map, List.map_map]
  rfl

theorem pdist64_all (sq : ℚ → ℚ) (l : List (V3 ℚ)) (d : ℚ) :
    (∀ x ∈ pdist64 sq l, d < x) ↔ l.Pairwise (fun u v => d < sq (sqDist64 u v)) := by
  induction l with
  | nil => simp [pdist64]
  | cons p ps ih =>
    simp only [pdist64, List.mem_append, List.mem_map, List.pairwise_cons]
    rw [← ih]
    constructor
    · intro h
      exact ⟨fun q hq => h _ (Or.inl ⟨q, hq, rfl⟩), fun x hx => h x (Or.inr hx)⟩
    · rintro ⟨h1, h2⟩ x (⟨q, hq, rfl⟩ | hx)
      · exact h1 q hq
      · exact h2 x hx

theorem pdist64_length (sq : ℚ → ℚ) (l : List (V3 ℚ)) (h : 2 ≤ l.length) : pdist64 sq l ≠ [] := by
  match l, h with
  | a :: b :: l, _ => simp [pdist64]

/-- a computed point is close to the exact one -/
theorem point_close {L : M3 ℚ} (hL : All3 (fun t => |t| ≤ 100) L.1 ∧ All3 (fun t => |t| ≤ 100) L.2.1 ∧ All3 (fun t => |t| ≤ 100) L.2.2)
    {p : V3 ℚ} (hp : All3 (fun t => |t| ≤ 1) p) {v : V3 ℤ} (hv : v ∈ pts8) :
    Within (1 / 10 ^ 11) (cartesian L (p + castV v)) (cart64 (V3.map (V3.map fun x => fl64 (2 * x)) L) (point64 p v)) ∧
      All3 (fun t => |t| ≤ 600) (cartesian L (p + castV v)) := by
  rw [mem_pts8, inside_two] at hv
  obtain ⟨a1, b1⟩ := half_close hp.1 hv.1
  obtain ⟨a2, b2⟩ := half_close hp.2.1 hv.2.1
  obtain ⟨a3, b3⟩ := half_close hp.2.2 hv.2.2
  have key : ∀ a : ℚ, |a| ≤ 100 → |2 * a| ≤ 200 ∧ |fl64 (2 * a) - 2 * a| ≤ 200 / 10 ^ 15 := by
    intro a ha
    have : |2 * a| ≤ 200 := by rw [abs_le] at *; constructor <;> linarith
    exact ⟨this, fl64_err_le (by norm_num) this⟩
  have main : ∀ x y z : ℚ, |x| ≤ 100 → |y| ≤ 100 → |z| ≤ 100 →
      |dot64 (point64 p v) (fl64 (2 * x), fl64 (2 * y), fl64 (2 * z)) - ((p.1 + v.1) * x + (p.2.1 + v.2.1) * y + (p.2.2 + v.2.2) * z)| ≤ 1 / 10 ^ 11 ∧
        |(p.1 + v.1) * x + (p.2.1 + v.2.1) * y + (p.2.2 + v.2.2) * z| ≤ 600 := by
    intro x y z hx hy hz
    have := dot64_close (p := point64 p v) (x := ((p.1 + v.1) / 2, (p.2.1 + v.2.1) / 2, (p.2.2 + v.2.2) / 2)) (m := (2 * x, 2 * y, 2 * z))
      (l := (fl64 (2 * x), fl64 (2 * y), fl64 (2 * z))) ⟨a1, a2, a3⟩ ⟨b1, b2, b3⟩ ⟨(key x hx).1, (key y hy).1, (key z hz).1⟩
      ⟨(key x hx).2, (key y hy).2, (key z hz).2⟩
    have e : dot ((p.1 + v.1) / 2, (p.2.1 + v.2.1) / 2, (p.2.2 + v.2.2) / 2) (2 * x, 2 * y, 2 * z) =
        (p.1 + v.1) * x + (p.2.1 + v.2.1) * y + (p.2.2 + v.2.2) * z := by simp only [dot]; ring
    rwa [e] at this
  obtain ⟨⟨l1, l2, l3⟩, ⟨m1, m2, m3⟩, n1, n2, n3⟩ := hL
  have r1 := main _ _ _ l1 m1 n1
  have r2 := main _ _ _ l2 m2 n2
  have r3 := main _ _ _ l3 m3 n3
  exact ⟨⟨r1.1, r2.1, r3.1⟩, r1.2, r2.2, r3.2⟩

/-- **C93.** The minimum-distance restriction in double precision gives the verdict of the exact computation, for cells of up to 100 Å with
fractional coordinates, unless a squared distance of two atoms of the element in neighbouring cells lies within `10⁻⁶` of the square of the
bound. `sq` may be any square root with an error of `10⁻¹⁴`. -/
theorem C93_min_distance (sq : ℚ → ℚ) (hq : ∀ x, 0 ≤ x → 0 ≤ sq x ∧ |sq x ^ 2 - x| ≤ (x + 1) / 10 ^ 14) (c : GCell)
    (hpos : c.positions ≠ []) (hlen : c.positions.length = c.numbers.length)
    (hL : All3 (fun t => |t| ≤ 100) c.lattice.1 ∧ All3 (fun t => |t| ≤ 100) c.lattice.2.1 ∧ All3 (fun t => |t| ≤ 100) c.lattice.2.2)
    (hp : ∀ p ∈ c.positions, All3 (fun t => |t| ≤ 1) p) (e : Specie) (d : ℚ)
    (hm : ∀ (i j : ℕ) (p q : V3 ℚ) (t : V3 ℤ), c.positions[i]? = some p → c.numbers[i]? = some e.Z →
      c.positions[j]? = some q → c.numbers[j]? = some e.Z → Near t → (i ≠ j ∨ t ≠ 0) →
      1 / 10 ^ 6 < |distSq (cartesian c.lattice p) (cartesian c.lattice (shift q t)) - d ^ 2|) :
    minDistSatisfied64 sq e d c = minDistSatisfied e d c := by
  obtain ⟨s, cart, pts, h1, h2, h3, h4, h5, h6⟩ := restriction_points c hpos hlen e
  obtain ⟨s', cart', k1, k2, k3⟩ := restriction_points64 c hpos hlen e
  set E := elePositions (c.positions.zip c.numbers) e.Z with hE
  have hpp : pts.Perm pts8 := (List.perm_ext_iff_of_nodup h3 (by decide)).2 fun v => by rw [h4, mem_pts8]
  have h6' : cart.Perm ((E.product pts8).map fun a => cartesian c.lattice (a.1 + castV a.2)) := by
    refine h6.trans ?_
    rw [List.product, List.map_flatMap]
    refine List.Perm.flatMap_left _ fun p _ => ?_
    rw [List.map_map]
    exact hpp.map _
  have hrun : minDistSatisfied e d c = (do let m ← npMin (pdistSq cart); return sqrtGt m d) := by
    unfold minDistSatisfied
    have : c.supercell ((2, 0, 0), (0, 2, 0), (0, 0, 2)) = .ok s := h1
    rw [this]
    simp only [bind, Except.bind, h2]
  have hrun' : minDistSatisfied64 sq e d c = (do let m ← npMin (pdist64 sq cart'); return decide (d < m)) := by
    unfold minDistSatisfied64
    rw [k1]
    simp only [bind, Except.bind, k2]
  rw [hrun, hrun']
  have hl1 := h6'.length_eq
  have hl2 := k3.length_eq
  rw [List.length_map, show (E.product pts8).length = E.length * pts8.length from List.length_product _ _] at hl1 hl2
  have h8 : pts8.length = 8 := rfl
  rw [h8] at hl1 hl2
  by_cases hE0 : E.length = 0
  · obtain rfl : cart = [] := List.length_eq_zero_iff.1 (by omega)
    obtain rfl : cart' = [] := List.length_eq_zero_iff.1 (by omega)
    rfl
  · obtain ⟨m, m1, m2⟩ := npMin_gt cart d (pdistSq_length _ (by omega))
    obtain ⟨n, n1, n2, n3⟩ := npMin_spec _ (pdist64_length sq cart' (by omega))
    have hn : d < n ↔ cart'.Pairwise (fun u v => d < sq (sqDist64 u v)) := by
      rw [← pdist64_all]
      exact ⟨fun h x hx => h.trans_le (n3 x hx), fun h => h n n2⟩
    rw [m1, n1]
    simp only [bind, Except.bind, pure, Except.pure]
    congr 1
    rw [Bool.eq_iff_iff, decide_eq_true_eq, hn, m2]
    rw [k3.pairwise_iff (fun {x y} h => by rwa [sqDist64_comm]), h6'.pairwise_iff (fun {x y} h => Farther.symm h),
      List.pairwise_map, List.pairwise_map]
    have hmar := (element_pairs (fun x => 1 / 10 ^ 6 < |x - d ^ 2|) c e pts8 (by decide) mem_pts8).2 hm
    rw [← hE, show (E.flatMap fun p => pts8.map fun v => cartesian c.lattice (p + castV v)) =
      (E.product pts8).map fun a => cartesian c.lattice (a.1 + castV a.2) by
        rw [List.product, List.map_flatMap]
        refine List.flatMap_congr fun p _ => ?_
        rw [List.map_map]; rfl, List.pairwise_map] at hmar
    have hEp : ∀ p ∈ E, All3 (fun t => |t| ≤ 1) p := by
      intro p hp'
      obtain ⟨x, hx, rfl⟩ := List.mem_map.1 hp'
      exact hp _ (List.of_mem_zip (List.mem_filter.1 hx).1).1
    have key : ∀ a ∈ E.product pts8, ∀ b ∈ E.product pts8,
        1 / 10 ^ 6 < |distSq (cartesian c.lattice (a.1 + castV a.2)) (cartesian c.lattice (b.1 + castV b.2)) - d ^ 2| →
        (d < sq (sqDist64 (cart64 (V3.map (V3.map fun x => fl64 (2 * x)) c.lattice) (point64 a.1 a.2))
          (cart64 (V3.map (V3.map fun x => fl64 (2 * x)) c.lattice) (point64 b.1 b.2))) ↔
        Spec.Farther d (cartesian c.lattice (a.1 + castV a.2)) (cartesian c.lattice (b.1 + castV b.2))) := by
      intro a ha b hb hab
      obtain ⟨ha1, ha2⟩ := List.mem_product.1 ha
      obtain ⟨hb1, hb2⟩ := List.mem_product.1 hb
      obtain ⟨pa, qa⟩ := point_close hL (hEp _ ha1) ha2
      obtain ⟨pb, qb⟩ := point_close hL (hEp _ hb1) hb2
      obtain ⟨x1, x2⟩ := sqDist64_close pa pb qa qb
      exact root_gt hq (sqDist64_nonneg _ _) x1 x2 hab
    constructor
    · intro h
      exact (h.and hmar).imp_of_mem fun {a b} ha hb hab => (key a ha b hb hab.2).1 hab.1
    · intro h
      exact (h.and hmar).imp_of_mem fun {a b} ha hb hab => (key a ha b hb hab.2).2 hab.1

/-! ## the hypotheses are met -/

/-- a square root to 15 decimals, rounded down -/
def root15 (x : ℚ) : ℚ := (Nat.sqrt ⌊x * 10 ^ 30⌋₊ : ℚ) / 10 ^ 15

theorem root15_spec (x : ℚ) (hx : 0 ≤ x) : 0 ≤ root15 x ∧ |root15 x ^ 2 - x| ≤ (x + 1) / 10 ^ 14 := by
  unfold root15
  have f1 := Nat.floor_le (a := x * 10 ^ 30) (by positivity)
  have f2 := Nat.lt_floor_add_one (x * 10 ^ 30)
  generalize ⌊x * 10 ^ 30⌋₊ = n at *
  have s1 : (Nat.sqrt n : ℚ) * Nat.sqrt n ≤ n := by exact_mod_cast Nat.sqrt_le n
  have s2 : (n : ℚ) ≤ Nat.sqrt n * Nat.sqrt n + Nat.sqrt n + Nat.sqrt n := by exact_mod_cast Nat.sqrt_le_add n
  have s0 : (0 : ℚ) ≤ Nat.sqrt n := Nat.cast_nonneg _
  generalize (Nat.sqrt n : ℚ) = s at *
  refine ⟨by positivity, ?_⟩
  obtain ⟨r, rfl⟩ : ∃ r, s = r * 10 ^ 15 := ⟨s / 10 ^ 15, by field_simp⟩
  rw [mul_div_cancel_right₀ _ (by norm_num)]
  have q := sq_nonneg (r - 1)
  rw [abs_le]
  constructor <;> nlinarith

/-- two gold atoms and a copper atom in a cube of 4 Å -/
def exCube : GCell :=
  { lattice := ((4, 0, 0), (0, 4, 0), (0, 0, 4)), positions := [(0, 0, 0), (0, 0, 1 / 2), (1 / 2, 1 / 2, 1 / 2)],
    numbers := [79, 29, 79], spgNumbers := [79, 29, 79], numCount := 3 }

theorem exCube_clear (i j : ℕ) (p q : V3 ℚ) (t : V3 ℤ) (h1 : exCube.positions[i]? = some p) (h2 : exCube.numbers[i]? = some 79)
    (h3 : exCube.positions[j]? = some q) (h4 : exCube.numbers[j]? = some 79) (ht : Near t) (hne : i ≠ j ∨ t ≠ 0) :
    1 / 10 ^ 6 < |distSq (cartesian exCube.lattice p) (cartesian exCube.lattice (shift q t)) - 3 ^ 2| := by
  have key : ∀ i ∈ List.range 3, ∀ j ∈ List.range 3, ∀ p ∈ exCube.positions[i]?, ∀ q ∈ exCube.positions[j]?, exCube.numbers[i]? = some 79 →
      exCube.numbers[j]? = some 79 → ∀ a ∈ [-1, 0, 1], ∀ b ∈ [-1, 0, 1], ∀ c ∈ ([-1, 0, 1] : List ℤ), i ≠ j ∨ ((a, b, c) : V3 ℤ) ≠ 0 →
      1 / 10 ^ 6 < |distSq (cartesian exCube.lattice p) (cartesian exCube.lattice (shift q (a, b, c))) - 3 ^ 2| := by decide +kernel
  have hi : i < 3 := (List.getElem?_eq_some_iff.1 h1).1
  have hj : j < 3 := (List.getElem?_eq_some_iff.1 h3).1
  obtain ⟨a, b, c⟩ := t
  simp only [Near] at ht
  refine key i (List.mem_range.2 hi) j (List.mem_range.2 hj) p h1 q h3 h2 h4 a ?_ b ?_ c ?_ hne <;>
    simp only [List.mem_cons, List.not_mem_nil, or_false] <;> omega

/-- the theorem applies: gold atoms are 3.46 Å apart, the bound is 3 Å -/
example : minDistSatisfied64 root15 ⟨"Au", 79⟩ 3 exCube = .ok true := by
  rw [C93_min_distance root15 root15_spec exCube (by decide) (by decide) (by unfold All3; decide +kernel) (by unfold All3; decide +kernel)
    ⟨"Au", 79⟩ 3 exCube_clear]
  decide +kernel

/-- the same cell evaluated directly, with a bound that fails -/
example : minDistSatisfied64 root15 ⟨"Au", 79⟩ (7 / 2) exCube = .ok false := by decide +kernel

theorem pdist64_map (sq : ℚ → ℚ) (l : List (V3 ℚ)) : pdist64 sq l = (pdist64 id l).map sq := by
  induction l with
  | nil => rfl
  | cons p ps ih => simp only [pdist64, List.map_append, List.map_map, ih]; rfl

/-- **C93, close calls.** Two gold atoms at the heights 0 and 0.2 (as a double) in a cell of 5 Å, and a bound of 1 Å: the exact distance
is greater than 1, the computed one is not. -/
theorem C93_fragile (sq : ℚ → ℚ) (h1 : sq 1 = 1) : ∃ c : GCell, GCell.new64 ((5, 0, 0), (0, 5, 0), (0, 0, 5)) [(0, 0, 0), (0, 0, fl64 (1 / 5))] [79, 79] = .ok c ∧
    minDistSatisfied ⟨"Au", 79⟩ 1 c = .ok true ∧ minDistSatisfied64 sq ⟨"Au", 79⟩ 1 c = .ok false := by
  refine ⟨⟨((5, 0, 0), (0, 5, 0), (0, 0, 5)), [(0, 0, 0), (0, 0, fl64 (1 / 5))], [79, 79], [79, 79], 2⟩, by decide +kernel, by decide +kernel, ?_⟩
  set c : GCell := ⟨((5, 0, 0), (0, 5, 0), (0, 0, 5)), [(0, 0, 0), (0, 0, fl64 (1 / 5))], [79, 79], [79, 79], 2⟩ with hc
  have h : (do let s ← c.double64; let cart ← s.getCartesian64 ⟨"Au", 79⟩; pure (decide (1 ∈ pdist64 id cart)) : Py Bool) = .ok true := by
    rw [hc]; decide +kernel
  unfold minDistSatisfied64
  cases hs : c.double64 with
  | error x => rw [hs] at h; cases h
  | ok s =>
    cases hcart : s.getCartesian64 ⟨"Au", 79⟩ with
    | error x => simp only [hs, bind, Except.bind, hcart] at h; cases h
    | ok cart =>
      simp only [hs, bind, Except.bind, hcart, pure, Except.pure, Except.ok.injEq, decide_eq_true_eq] at h ⊢
      have hmem : sq 1 ∈ pdist64 sq cart := by rw [pdist64_map]; exact List.mem_map_of_mem h
      obtain ⟨m, m1, _, m3⟩ := npMin_spec _ (List.ne_nil_of_mem hmem)
      rw [m1]
      have := m3 _ hmem
      rw [h1] at this
      simp only [Except.ok.injEq, decide_eq_false_iff_not, not_lt]
      exact this

end Verif
