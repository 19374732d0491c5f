import Verif.Model.Binary64Sphere
import Verif.Props.Binary64Dist
import Verif.Props.Clarifier

/-! # C123: the sphere query and the clarifiers in double precision -/

set_option exponentiation.threshold 2000

namespace Verif

open Spec (cartesian distSq Near shift All3 AllM Within Closer)

/-- a square root with a relative error of `10⁻¹⁴` -/
def GoodRoot (sq : ℚ → ℚ) : Prop := ∀ x, 0 ≤ x → 0 ≤ sq x ∧ |sq x ^ 2 - x| ≤ (x + 1) / 10 ^ 14

/-- no image of `p` in the 27 neighbouring cells is at a distance from the center that is hard to tell from `r` -/
def NoCloseCall (L : M3 ℚ) (center : V3 ℚ) (r : ℚ) (p : V3 ℚ) : Prop :=
  All3 (fun x => |x| ≤ 1) p ∧ All3 (fun x => |x| ≤ 1) center ∧
    ∀ t, Near t → 1 / 10 ^ 6 < |distSq (cartesian L (shift p t)) (cartesian L center) - r ^ 2|

theorem mul_close2 {s x a : ℚ} (hs : |s - x| ≤ 5 / 10 ^ 15) (hx : |x| ≤ 2) (ha : |a| ≤ 100) :
    |fl64 (s * a) - x * a| ≤ 2 / 10 ^ 12 ∧ |x * a| ≤ 200 := by
  have hxa : |x * a| ≤ 200 := by rw [abs_mul]; nlinarith [abs_nonneg x, abs_nonneg a]
  refine ⟨?_, hxa⟩
  have hd : |s * a - x * a| ≤ 5 / 10 ^ 13 := by
    rw [← sub_mul, abs_mul]
    exact (mul_le_mul hs ha (abs_nonneg _) (by norm_num)).trans (by norm_num)
  have := fl64_step (B := 201) (by norm_num) (by rw [abs_le] at *; constructor <;> linarith) hd
  exact this.trans (by norm_num)

theorem dot64_close2 {p x m : V3 ℚ} (hp : Within (5 / 10 ^ 15) x p) (hx : All3 (fun t => |t| ≤ 2) x) (hm : All3 (fun t => |t| ≤ 100) m) :
    |dot64 p m - dot x m| ≤ 1 / 10 ^ 11 ∧ |dot x m| ≤ 600 := by
  obtain ⟨a1, b1⟩ := mul_close2 hp.1 hx.1 hm.1
  obtain ⟨a2, b2⟩ := mul_close2 hp.2.1 hx.2.1 hm.2.1
  obtain ⟨a3, b3⟩ := mul_close2 hp.2.2 hx.2.2 hm.2.2
  unfold dot64 dot
  generalize fl64 (p.1 * m.1) = y1 at *
  generalize fl64 (p.2.1 * m.2.1) = y2 at *
  generalize fl64 (p.2.2 * m.2.2) = y3 at *
  generalize x.1 * m.1 = x1 at *
  generalize x.2.1 * m.2.1 = x2 at *
  generalize x.2.2 * m.2.2 = x3 at *
  have s1 : |fl64 (y1 + y2) - (x1 + x2)| ≤ 4 / 10 ^ 12 + 401 / 10 ^ 15 := by
    apply fl64_step (by norm_num)
    · rw [abs_le] at *; constructor <;> linarith
    · rw [abs_le] at *; constructor <;> linarith
  generalize fl64 (y1 + y2) = z1 at *
  have s2 : |fl64 (z1 + y3) - (x1 + x2 + x3)| ≤ 7 / 10 ^ 12 + 601 / 10 ^ 15 := by
    apply fl64_step (by norm_num)
    · rw [abs_le] at *; constructor <;> linarith
    · rw [abs_le] at *; constructor <;> linarith
  refine ⟨s2.trans (by norm_num), ?_⟩
  rw [abs_le] at *; constructor <;> linarith

/-- a computed point in space is close to the exact one -/
theorem cart64_close {L : M3 ℚ} (hL : AllM (fun t => |t| ≤ 100) L) {p x : V3 ℚ} (hp : Within (5 / 10 ^ 15) x p)
    (hx : All3 (fun t => |t| ≤ 2) x) :
    Within (1 / 10 ^ 11) (cartesian L x) (cart64 L p) ∧ All3 (fun t => |t| ≤ 600) (cartesian L x) := by
  obtain ⟨⟨l1, l2, l3⟩, ⟨m1, m2, m3⟩, n1, n2, n3⟩ := hL
  have r1 := dot64_close2 hp hx (m := (L.1.1, L.2.1.1, L.2.2.1)) ⟨l1, m1, n1⟩
  have r2 := dot64_close2 hp hx (m := (L.1.2.1, L.2.1.2.1, L.2.2.2.1)) ⟨l2, m2, n2⟩
  have r3 := dot64_close2 hp hx (m := (L.1.2.2, L.2.1.2.2, L.2.2.2.2)) ⟨l3, m3, n3⟩
  exact ⟨⟨r1.1, r2.1, r3.1⟩, r1.2, r2.2, r3.2⟩

/-- a computed periodic image -/
theorem image_close {p : V3 ℚ} (hp : All3 (fun x => |x| ≤ 1) p) {t : V3 ℤ} (ht : Near t) :
    Within (5 / 10 ^ 15) (shift p t) (V3.map fl64 (p + castV t)) ∧ All3 (fun x => |x| ≤ 2) (shift p t) := by
  have key : ∀ (x : ℚ) (k : ℤ), |x| ≤ 1 → -1 ≤ k ∧ k ≤ 1 → |fl64 (x + k) - (x + k)| ≤ 5 / 10 ^ 15 ∧ |x + k| ≤ 2 := by
    intro x k hx hk
    have k0 : (-1 : ℚ) ≤ k := by exact_mod_cast hk.1
    have k1 : (k : ℚ) ≤ 1 := by exact_mod_cast hk.2
    have h2 : |x + k| ≤ 2 := by rw [abs_le] at *; constructor <;> linarith
    exact ⟨(fl64_err_le (by norm_num) h2).trans (by norm_num), h2⟩
  obtain ⟨a1, b1⟩ := key _ _ hp.1 ht.1
  obtain ⟨a2, b2⟩ := key _ _ hp.2.1 ht.2.1
  obtain ⟨a3, b3⟩ := key _ _ hp.2.2 ht.2.2
  exact ⟨⟨a1, a2, a3⟩, b1, b2, b3⟩

/-- comparing a computed root with `r` is comparing the exact square with `r²`, away from equality -/
theorem root_lt {sq : ℚ → ℚ} (hq : GoodRoot sq) {r x y : ℚ} (hy : 0 ≤ y) (h : |y - x| ≤ 3 / 10 ^ 7) (hx : x ≤ 4320000)
    (hm : 1 / 10 ^ 6 < |x - r ^ 2|) : sq y < r ↔ 0 < r ∧ x < r ^ 2 := by
  obtain ⟨h0, h1⟩ := hq y hy
  rcases le_or_gt r 0 with hr | hr
  · exact iff_of_false (not_lt.2 (hr.trans h0)) fun h => absurd h.1 (not_lt.2 hr)
  rw [and_iff_right hr]
  generalize sq y = s at *
  have hyb : y ≤ 4320001 := by rw [abs_le] at h; linarith
  have h2 : |s ^ 2 - x| ≤ 1 / 10 ^ 6 := by
    rw [abs_le] at *; constructor <;> linarith
  rw [← pow_lt_pow_iff_left₀ h0 hr.le two_ne_zero]
  rw [abs_le] at h2
  rcases lt_abs.1 hm with hm | hm
  · constructor <;> intro _ <;> linarith
  · constructor <;> intro _ <;> linarith

/-- **C123.** Whether an atom lies in a sphere: in double precision the verdict is that of the exact geometry, unless it is a close call. -/
theorem C123_in_sphere {sq : ℚ → ℚ} (hq : GoodRoot sq) {L : M3 ℚ} (hL : AllM (fun t => |t| ≤ 100) L) {p center : V3 ℚ} {r : ℚ}
    (h : NoCloseCall L center r p) : inEuclideanDistance64 sq L p center r = true ↔ InSphere L p center r := by
  obtain ⟨hp, hc, hm⟩ := h
  have hc2 : All3 (fun x => |x| ≤ 2) center := ⟨hc.1.trans (by norm_num), hc.2.1.trans (by norm_num), hc.2.2.trans (by norm_num)⟩
  obtain ⟨c1, c2⟩ := cart64_close hL (p := center) (x := center) (by norm_num [Within]) hc2
  unfold inEuclideanDistance64 InSphere
  simp only [List.any_eq_true, mem_transList, decide_eq_true_eq]
  refine exists_congr fun t => and_congr_right fun ht => ?_
  obtain ⟨i1, i2⟩ := image_close hp ht
  obtain ⟨p1, p2⟩ := cart64_close hL i1 i2
  obtain ⟨d1, d2⟩ := sqDist64_close p1 c1 p2 c2
  rw [root_lt hq (sqDist64_nonneg _ _) d1 d2 (hm t ht), Closer]

theorem insphereCond64_eq {sq : ℚ → ℚ} (hq : GoodRoot sq) {L : M3 ℚ} (hL : AllM (fun t => |t| ≤ 100) L) {s : Site} {center : V3 ℚ} {r : ℚ}
    (h : NoCloseCall L center r s.position) (ele : Option Specie) : insphereCond64 sq L center r ele s = insphereCond L center r ele s := by
  have : inEuclideanDistance64 sq L s.position center r = inEuclideanDistance L s.position center r := by
    rw [Bool.eq_iff_iff, C123_in_sphere hq hL h, inEuclideanDistance_iff]
  unfold insphereCond64 insphereCond
  cases ele <;> simp only [this]

/-- **C123.** `get_points_incell_insphere` in double precision returns the same sites as with exact numbers. -/
theorem C123_query {sq : ℚ → ℚ} (hq : GoodRoot sq) (w : World) (c : ℕ) (hL : AllM (fun t => |t| ≤ 100) (w.cell c).lattice)
    (center : V3 ℚ) (r : ℚ) (ele : Option Specie) (h : ∀ s ∈ w.sitesOf c, NoCloseCall (w.cell c).lattice center r (w.site s).position) :
    w.insphere64 sq c center r ele = w.insphere c center r ele := by
  unfold World.insphere64 World.insphere
  congr 1
  apply List.filter_congr
  rintro ⟨s, k⟩ hs
  exact insphereCond64_eq hq hL (h s (List.fst_mem_of_mem_zipIdx hs)) ele

theorem clear_fold64 {sq : ℚ → ℚ} (hq : GoodRoot sq) (c : ℕ) (r : ℚ) (ele : Option Specie) (centers : List (V3 ℚ)) :
    ∀ {w : World}, WF w → c < w.nCell → AllM (fun t => |t| ≤ 100) (w.cell c).lattice →
      (∀ q ∈ centers, ∀ s ∈ w.sitesOf c, NoCloseCall (w.cell c).lattice q r (w.site s).position) →
      centers.foldl (fun w center => w.removeSites c ((w.insphere64 sq c center r ele).map fun p => (p.1 : ℤ))) w =
        centers.foldl (clearOne c r ele) w := by
  induction centers with
  | nil => intros; rfl
  | cons q qs ih =>
    intro w hw hc hL hm
    rw [List.foldl_cons, List.foldl_cons, C123_query hq w c hL q r ele (hm q (by simp))]
    obtain ⟨a1, a2, a3, a4, a5, -⟩ := clearOne_spec hw hc r ele q
    refine ih (w := clearOne c r ele w q) a1 (a2.symm ▸ hc) (by rw [a4]; exact hL) ?_
    intro q' hq' s hs
    rw [a3, a4]
    rw [a5] at hs
    exact hm q' (List.mem_cons_of_mem _ hq') s (List.mem_filter.1 hs).1

/-- **C123.** `AtomRemoveClarifier` in double precision removes the sites the exact computation removes. -/
theorem C123_centers {sq : ℚ → ℚ} (hq : GoodRoot sq) {w : World} (hw : WF w) {c : ℕ} (hc : c < w.nCell)
    (hL : AllM (fun t => |t| ≤ 100) (w.cell c).lattice) (centers : List (V3 ℚ)) (r : ℚ) (ele : Option Specie)
    (h : ∀ q ∈ centers, ∀ s ∈ w.sitesOf c, NoCloseCall (w.cell c).lattice q r (w.site s).position) :
    atomRemoveClarify64 sq centers r ele w c = atomRemoveClarify centers r ele w c :=
  clear_fold64 hq c r ele centers hw hc hL h

theorem verbose64 {sq : ℚ → ℚ} (hq : GoodRoot sq) (sub : Specie) (r : ℚ) (ele : Option Specie) (c ref : ℕ) (orig : List ℕ) (sites : ℕ → Site)
    (L : M3 ℚ) (hL : AllM (fun t => |t| ≤ 100) L)
    (h : ∀ q ∈ orig, (sites q).element.Z = sub.Z → ∀ s ∈ orig, NoCloseCall L (sites q).position r (sites s).position) :
    ∀ (fuel k : ℕ) (w : World), WF w → c < w.nCell → ref < w.nList → w.list ref = orig → w.site = sites → (w.cell c).lattice = L →
      (∀ s ∈ w.sitesOf c, s ∈ orig) →
      verboseLoop64 sq sub r ele c ref fuel k w = verboseLoop sub r ele c ref fuel k w := by
  intro fuel
  induction fuel with
  | zero => intros; rfl
  | succ fuel ih =>
    intro k w hw hc hr ho hs hl hsub
    rw [verboseLoop64, verboseLoop]
    cases hk : (w.list ref)[k]? with
    | none => rfl
    | some q =>
      have hqm : q ∈ orig := ho ▸ List.mem_of_getElem? hk
      by_cases he : (w.site q).element.pyEq sub = true
      · simp only [he, if_true]
        have hz : (sites q).element.Z = sub.Z := by
          rw [hs] at he
          simpa [Specie.pyEq] using he
        rw [C123_query hq w c (hl ▸ hL) _ r ele fun s hs' => by
          rw [hl, hs]
          exact h q hqm hz s (hsub s hs')]
        obtain ⟨a1, a2, a3, a4, a5, -, a7, a8⟩ := clearOne_spec hw hc r ele (w.site q).position
        exact ih (k + 1) (clearOne c r ele w (w.site q).position) a1 (a2.symm ▸ hc) (lt_of_lt_of_le hr a8) ((a7 ref hr).trans ho) (a3.trans hs)
          (a4.trans hl) fun s hs' => by
            rw [a5] at hs'
            exact hsub s (List.mem_filter.1 hs').1
      · simp only [he, Bool.false_eq_true, if_false]
        exact ih (k + 1) w hw hc hr ho hs hl hsub

/-- **C123.** `VerboseAtomRemoveClarifier` in double precision removes the sites the exact computation removes. -/
theorem C123_elements {sq : ℚ → ℚ} (hq : GoodRoot sq) {w : World} (hw : WF w) {c : ℕ} (hc : c < w.nCell)
    (hL : AllM (fun t => |t| ≤ 100) (w.cell c).lattice) (sub : Specie) (r : ℚ) (ele : Option Specie) (fuel : ℕ)
    (h : ∀ q ∈ w.sitesOf c, (w.site q).element.Z = sub.Z → ∀ s ∈ w.sitesOf c,
      NoCloseCall (w.cell c).lattice (w.site q).position r (w.site s).position) :
    verboseClarify64 sq fuel sub r ele w c = verboseClarify fuel sub r ele w c :=
  verbose64 hq sub r ele c _ (w.sitesOf c) w.site _ hL h fuel 0 w hw hc (hw.ref c hc) rfl rfl rfl fun _ hs => hs

/-- **C123, close calls.** An atom at the height 1/3 (as a double) of a cell of 3 Å is closer than 1 Å to the origin, but its computed
distance is 1 Å, so that a query with this radius misses it. -/
theorem C123_fragile {sq : ℚ → ℚ} (hq : GoodRoot sq) (h1 : sq 1 = 1) :
    inEuclideanDistance ((3, 0, 0), (0, 3, 0), (0, 0, 3)) (0, 0, fl64 (1 / 3)) (0, 0, 0) 1 = true ∧
      inEuclideanDistance64 sq ((3, 0, 0), (0, 3, 0), (0, 0, 3)) (0, 0, fl64 (1 / 3)) (0, 0, 0) 1 = false := by
  refine ⟨by decide +kernel, ?_⟩
  have key : ∀ t ∈ transList,
      sqDist64 (cart64 ((3, 0, 0), (0, 3, 0), (0, 0, 3)) (V3.map fl64 ((0, 0, fl64 (1 / 3)) + castV t)))
        (cart64 ((3, 0, 0), (0, 3, 0), (0, 0, 3)) (0, 0, 0)) = 1 ∨
      3 ≤ sqDist64 (cart64 ((3, 0, 0), (0, 3, 0), (0, 0, 3)) (V3.map fl64 ((0, 0, fl64 (1 / 3)) + castV t)))
        (cart64 ((3, 0, 0), (0, 3, 0), (0, 0, 3)) (0, 0, 0)) := by decide +kernel
  unfold inEuclideanDistance64
  rw [List.any_eq_false]
  intro t ht
  simp only [decide_eq_true_eq, not_lt]
  rcases key t ht with h | h
  · rw [h, h1]
  · generalize sqDist64 _ _ = y at *
    obtain ⟨a, b⟩ := hq y (by linarith)
    rw [abs_le] at b
    nlinarith [b.1]

/-! ## Examples -/

theorem root15_good : GoodRoot root15 := root15_spec

/-- boron and three zinc atoms 1, 2 and 5 Å away: with a radius of 1.5 Å nothing is a close call -/
example : ∀ s ∈ exChainW.sitesOf 0, NoCloseCall (exChainW.cell 0).lattice (0, 0, 0) (3 / 2) (exChainW.site s).position := by
  have key : ∀ s ∈ exChainW.sitesOf 0, All3 (fun x => |x| ≤ 1) (exChainW.site s).position ∧
      ∀ t ∈ transList, 1 / 10 ^ 6 < |distSq (cartesian (exChainW.cell 0).lattice (shift (exChainW.site s).position t))
        (cartesian (exChainW.cell 0).lattice (0, 0, 0)) - (3 / 2) ^ 2| := by
    unfold All3
    decide +kernel
  intro s hs
  obtain ⟨a, b⟩ := key s hs
  exact ⟨a, by norm_num [All3], fun t ht => b t ((mem_transList t).2 ht)⟩

example : AllM (fun t => |t| ≤ 100) (exChainW.cell 0).lattice := by unfold AllM All3; decide +kernel
example : (atomRemoveClarify64 root15 [(0, 0, 0)] (3/2) (some ⟨"Zn", 30⟩) exChainW 0).sitesOf 0 = [0, 2, 3] := by decide +kernel

end Verif
