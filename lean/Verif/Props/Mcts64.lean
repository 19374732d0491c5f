import Verif.Spec.Mcts64
import Verif.Lemmas.Binary64
import Mathlib.Tactic.Ring
import Mathlib.Tactic.Linarith
import Mathlib.Tactic.Positivity
import Mathlib.Tactic.FieldSimp
import Mathlib.Tactic.GCongr

/-! # C122: the value of a search node in the numbers Python has

With floats (or on Python 3) the running average keeps within a rounding bound of the true mean, and the child chosen by `select` is
best up to that bound. With integers on Python 2 it is not the mean at all. -/

namespace Verif
open Spec

theorem run_snoc (py2 : Bool) (vs : List PyNum) (v : PyNum) : NodeStat.run py2 (vs ++ [v]) = (NodeStat.run py2 vs).update py2 v := by
  simp [NodeStat.run, List.foldl_append]

theorem run_n (py2 : Bool) (vs : List PyNum) : (NodeStat.run py2 vs).n = vs.length := by
  induction vs using List.reverseRecOn with
  | nil => rfl
  | append_singleton vs v ih => rw [run_snoc]; simp [NodeStat.update, ih]

theorem tiny_le {B : ℚ} (hB : 1 ≤ B) : (1 : ℚ) / 2 ^ 1075 ≤ B / 2 ^ 60 := by
  have h2 : (1 : ℚ) / 2 ^ 1075 ≤ 1 / 2 ^ 60 := by
    apply one_div_le_one_div_of_le (by positivity)
    exact pow_le_pow_right₀ (by norm_num) (by norm_num)
  have : (1 : ℚ) / 2 ^ 60 ≤ B / 2 ^ 60 := by gcongr
  linarith

/-- rounding something of size at most `k B` -/
theorem fl64_err_mul {B k x : ℚ} (hB : 1 ≤ B) (hx : |x| ≤ k * B) : |fl64 x - x| ≤ (k + 1 / 128) * B / 2 ^ 53 := by
  have h := fl64_err x
  have h1 : |x| / 2 ^ 53 ≤ k * B / 2 ^ 53 := by gcongr
  have h2 := tiny_le hB
  have e : (k + 1 / 128) * B / 2 ^ 53 = k * B / 2 ^ 53 + B / 2 ^ 60 := by ring
  linarith

/-- one step of the running average, in doubles: away from the exact step by little -/
theorem step_err {B q v d : ℚ} {n : ℕ} (hB : 1 ≤ B) (hn : 1 ≤ n) (hq : |q| ≤ 2 * B) (hv : |v| ≤ B)
    (hd : |d - (v - q)| ≤ 4 * B / 2 ^ 53) : |fl64 (q + fl64 (d / n)) - (q + (v - q) / n)| ≤ B / 2 ^ 49 := by
  have hn' : (1 : ℚ) ≤ n := by exact_mod_cast hn
  have hn0 : (0 : ℚ) < n := by linarith
  have hvq : |v - q| ≤ 3 * B := by
    have := abs_sub v q
    linarith
  have hd4 : |d| ≤ 4 * B := by
    have h1 : |d| ≤ |d - (v - q)| + |v - q| := by
      have := abs_add_le (d - (v - q)) (v - q)
      simpa using this
    have : 4 * B / 2 ^ 53 ≤ B := by
      rw [div_le_iff₀ (by positivity)]
      nlinarith
    linarith
  have hdn : |d / n| ≤ 4 * B := by
    rw [abs_div, abs_of_pos hn0, div_le_iff₀ hn0]
    nlinarith [abs_nonneg d]
  have e1 := fl64_err_mul hB hdn
  have e2 : |d / n - (v - q) / n| ≤ 4 * B / 2 ^ 53 := by
    rw [← sub_div, abs_div, abs_of_pos hn0, div_le_iff₀ hn0]
    have : 0 ≤ 4 * B / 2 ^ 53 := by positivity
    nlinarith
  have hcomb : |q + (v - q) / n| ≤ 2 * B := by
    have e : q + (v - q) / n = q * (1 - 1 / n) + v * (1 / n) := by field_simp; ring
    have i0 : 0 ≤ 1 / (n : ℚ) := by positivity
    have i1 : 1 / (n : ℚ) ≤ 1 := by rw [div_le_one hn0]; exact hn'
    rw [e]
    refine (abs_add_le _ _).trans ?_
    rw [abs_mul, abs_mul, abs_of_nonneg i0, abs_of_nonneg (by linarith : 0 ≤ 1 - 1 / (n : ℚ))]
    nlinarith [abs_nonneg q, abs_nonneg v]
  have e3 : |(q + fl64 (d / n)) - (q + (v - q) / n)| ≤ 9 * B / 2 ^ 53 := by
    have : (q + fl64 (d / n)) - (q + (v - q) / n) = (fl64 (d / n) - d / n) + (d / n - (v - q) / n) := by ring
    rw [this]
    refine (abs_add_le _ _).trans ?_
    have : (4 + 1 / 128) * B / 2 ^ 53 + 4 * B / 2 ^ 53 ≤ 9 * B / 2 ^ 53 := by
      rw [← add_div]; gcongr; linarith
    linarith
  have hsum : |q + fl64 (d / n)| ≤ 3 * B := by
    have h1 : |q + fl64 (d / n)| ≤ |(q + fl64 (d / n)) - (q + (v - q) / n)| + |q + (v - q) / n| := by
      have := abs_add_le ((q + fl64 (d / n)) - (q + (v - q) / n)) (q + (v - q) / n)
      rwa [sub_add_cancel] at this
    have : 9 * B / 2 ^ 53 ≤ B := by
      rw [div_le_iff₀ (by positivity)]
      nlinarith
    linarith
  have e4 := fl64_err_mul hB hsum
  have h1 : |fl64 (q + fl64 (d / n)) - (q + (v - q) / n)| ≤
      |fl64 (q + fl64 (d / n)) - (q + fl64 (d / n))| + |(q + fl64 (d / n)) - (q + (v - q) / n)| := by
    have := abs_add_le (fl64 (q + fl64 (d / n)) - (q + fl64 (d / n))) ((q + fl64 (d / n)) - (q + (v - q) / n))
    rwa [sub_add_sub_cancel] at this
  have : (3 + 1 / 128) * B / 2 ^ 53 + 9 * B / 2 ^ 53 ≤ B / 2 ^ 49 := by
    rw [← add_div, div_le_div_iff₀ (by positivity) (by positivity)]
    nlinarith
  linarith

/-- the value before any update, or a double -/
def QOk (s : NodeStat) : Prop := (s.n = 0 ∧ s.q = .int 0) ∨ ∃ x, s.q = .flt x ∧ IsDouble x

theorem toDouble_eq {v : PyNum} (h : IsDouble v.toRat) : v.toDouble = v.toRat := by
  cases v with
  | int z => exact fl64_double h
  | flt x => rfl

/-- what one update makes of the value: a double, near the exact step -/
theorem update_step {py2 : Bool} {B : ℚ} {s : NodeStat} {v : PyNum} (hB : 1 ≤ B) (hn : s.n + 1 < 2 ^ 53) (hs : QOk s)
    (hq : |s.q.toRat| ≤ 2 * B) (hv : Leaf B v) (hf : py2 = false ∨ IsFloat v) :
    QOk (s.update py2 v) ∧
      |(s.update py2 v).q.toRat - (s.q.toRat + (v.toRat - s.q.toRat) / (s.n + 1 : ℕ))| ≤ B / 2 ^ 49 := by
  obtain ⟨hvd, hvB⟩ := hv
  have hfn : fl64 ((s.n + 1 : ℕ) : ℚ) = (s.n + 1 : ℕ) := by
    have := fl64_int (n := ((s.n + 1 : ℕ) : ℤ)) (by rw [abs_of_nonneg (by positivity)]; exact_mod_cast hn)
    exact_mod_cast this
  -- in every case the new value is `fl (q + fl (d / n))`
  have key : ∃ d : ℚ, |d - (v.toRat - s.q.toRat)| ≤ 4 * B / 2 ^ 53 ∧
      (s.update py2 v).q = .flt (fl64 (s.q.toRat + fl64 (d / (s.n + 1 : ℕ)))) := by
    have hvq : |v.toRat - s.q.toRat| ≤ 3 * B := by
      have := abs_sub v.toRat s.q.toRat
      linarith
    have e0 := fl64_err_mul hB hvq
    have e1 : (3 + 1 / 128) * B / 2 ^ 53 ≤ 4 * B / 2 ^ 53 := by gcongr; norm_num
    rcases hs with ⟨_, h0⟩ | ⟨x, hx, hxd⟩
    · have z0 : fl64 0 = 0 := by simp [fl64, rint]
      cases v with
      | int z =>
        rcases hf with rfl | ⟨y, hy⟩
        · refine ⟨z, ?_, ?_⟩
          · simp [PyNum.toRat, h0]
            positivity
          · simp [NodeStat.update, h0, PyNum.sub, PyNum.divNat, PyNum.add, PyNum.toRat, PyNum.toDouble, z0]
        · cases hy
      | flt y =>
        refine ⟨fl64 (y - 0), by simpa [PyNum.toRat, h0] using e0.trans e1 , ?_⟩
        simp only [NodeStat.update, h0, PyNum.sub, PyNum.divNat, PyNum.add, PyNum.toRat, PyNum.toDouble, hfn, Int.cast_zero, z0]
    · have hxd' : s.q.toRat = x := by rw [hx]; rfl
      have hxd2 : s.q.toDouble = x := by rw [hx]; rfl
      refine ⟨fl64 (v.toDouble - x), ?_, ?_⟩
      · rw [toDouble_eq hvd, ← hxd']
        exact e0.trans e1
      · rw [hxd']
        cases v <;> simp only [NodeStat.update, hx, PyNum.sub, PyNum.divNat, PyNum.add, PyNum.toDouble, hfn]
  obtain ⟨d, hd, e⟩ := key
  refine ⟨.inr ⟨_, e, fl64_isDouble _⟩, ?_⟩
  rw [e]
  exact step_err hB (Nat.succ_pos _) hq hvB hd

/-- the number of visits times the value is the sum of the values, up to rounding -/
theorem run_sum {py2 : Bool} {B : ℚ} (hB : 1 ≤ B) (vs : List PyNum) (hlen : vs.length ≤ 2 ^ 49) (hv : ∀ v ∈ vs, Leaf B v)
    (hf : py2 = false ∨ ∀ v ∈ vs, IsFloat v) :
    QOk (NodeStat.run py2 vs) ∧
      |(vs.length : ℚ) * (NodeStat.run py2 vs).q.toRat - (vs.map PyNum.toRat).sum| ≤ B * vs.length * (vs.length + 1) / 2 ^ 50 ∧
      |(vs.map PyNum.toRat).sum| ≤ B * vs.length ∧ |(NodeStat.run py2 vs).q.toRat| ≤ 2 * B := by
  induction vs using List.reverseRecOn with
  | nil => exact ⟨.inl ⟨rfl, rfl⟩, by simp [NodeStat.run], by simp, by simp [NodeStat.run, NodeStat.new, PyNum.toRat]; linarith⟩
  | append_singleton vs v ih =>
    rw [List.length_append, List.length_singleton] at hlen
    obtain ⟨h1, h2, h3, h4⟩ := ih (by omega) (fun w hw => hv w (List.mem_append_left _ hw))
      (hf.imp id fun h w hw => h w (List.mem_append_left _ hw))
    have hvl := hv v (by simp)
    have hs := update_step hB (by rw [run_n]; omega) h1 h4 hvl (hf.imp id fun h => h v (by simp))
    rw [run_n] at hs
    rw [run_snoc]
    set q := (NodeStat.run py2 vs).q.toRat with hqdef
    set q' := ((NodeStat.run py2 vs).update py2 v).q.toRat with hq'def
    have hnpos : (0 : ℚ) < (vs.length + 1 : ℕ) := by positivity
    have hB0 : 0 ≤ B := by linarith
    have hsum3 : |((vs ++ [v]).map PyNum.toRat).sum| ≤ B * (vs ++ [v]).length := by
      simp only [List.map_append, List.map_cons, List.map_nil, List.sum_append, List.sum_cons, List.sum_nil, add_zero, List.length_append,
        List.length_singleton, Nat.cast_add, Nat.cast_one]
      refine (abs_add_le _ _).trans ?_
      have := hvl.2
      linarith
    have hmain : |((vs ++ [v]).length : ℚ) * q' - ((vs ++ [v]).map PyNum.toRat).sum| ≤
        B * (vs ++ [v]).length * ((vs ++ [v]).length + 1) / 2 ^ 50 := by
      simp only [List.map_append, List.map_cons, List.map_nil, List.sum_append, List.sum_cons, List.sum_nil, add_zero, List.length_append,
        List.length_singleton]
      have e : ((vs.length + 1 : ℕ) : ℚ) * q' - ((vs.map PyNum.toRat).sum + v.toRat) =
          ((vs.length : ℚ) * q - (vs.map PyNum.toRat).sum) +
            ((vs.length + 1 : ℕ) : ℚ) * (q' - (q + (v.toRat - q) / (vs.length + 1 : ℕ))) := by
        field_simp
        push_cast
        ring
      rw [e]
      refine (abs_add_le _ _).trans ?_
      rw [abs_mul, abs_of_pos hnpos]
      have h5 := mul_le_mul_of_nonneg_left hs.2 hnpos.le
      refine (add_le_add h2 h5).trans (le_of_eq ?_)
      push_cast
      ring
    refine ⟨hs.1, hmain, hsum3, ?_⟩
    -- the value itself stays bounded
    set n := (vs ++ [v]).length with hn
    have hn' : n = vs.length + 1 := by simp [hn]
    have hn0 : (0 : ℚ) < n := by rw [hn']; positivity
    have hn1 : (n : ℚ) + 1 ≤ 2 ^ 50 := by
      have : n ≤ 2 ^ 49 := by omega
      have : (n : ℚ) ≤ 2 ^ 49 := by exact_mod_cast this
      linarith
    have hb : |(n : ℚ) * q'| ≤ B * n * 2 := by
      have h6 := abs_add_le ((n : ℚ) * q' - ((vs ++ [v]).map PyNum.toRat).sum) (((vs ++ [v]).map PyNum.toRat).sum)
      rw [sub_add_cancel] at h6
      have h7 : B * n * (n + 1) / 2 ^ 50 ≤ B * n := by
        rw [div_le_iff₀ (by positivity)]
        have : 0 ≤ B * n := by positivity
        nlinarith
      linarith
    rw [abs_mul, abs_of_pos hn0] at hb
    have : |q'| * n ≤ (2 * B) * n := by linarith
    exact le_of_mul_le_mul_right this hn0

/-- **C122.** A node updated with floats of absolute value at most `B` (or with any numbers on Python 3) holds their mean, up to
`B (n + 1) / 2⁵⁰` after `n` updates. -/
theorem C122_mean (py2 : Bool) {B : ℚ} (hB : 1 ≤ B) (vs : List PyNum) (h0 : vs ≠ []) (hlen : vs.length ≤ 2 ^ 49)
    (hv : ∀ v ∈ vs, Leaf B v) (hf : py2 = false ∨ ∀ v ∈ vs, IsFloat v) :
    (NodeStat.run py2 vs).n = vs.length ∧ IsFloat (NodeStat.run py2 vs).q ∧ IsDouble (NodeStat.run py2 vs).q.toRat ∧
      |(NodeStat.run py2 vs).q.toRat - average (vs.map PyNum.toRat)| ≤ B * (vs.length + 1) / 2 ^ 50 := by
  obtain ⟨h1, h2, h3, h4⟩ := run_sum hB vs hlen hv hf
  have hpos : 0 < vs.length := List.length_pos_of_ne_nil h0
  have hn0 : (0 : ℚ) < vs.length := by exact_mod_cast hpos
  have hq : ∃ x, (NodeStat.run py2 vs).q = .flt x ∧ IsDouble x := by
    rcases h1 with ⟨h, _⟩ | h
    · rw [run_n] at h; omega
    · exact h
  obtain ⟨x, hx, hxd⟩ := hq
  refine ⟨run_n _ _, ⟨x, hx⟩, by rw [hx]; exact hxd, ?_⟩
  have e : (NodeStat.run py2 vs).q.toRat - average (vs.map PyNum.toRat) =
      ((vs.length : ℚ) * (NodeStat.run py2 vs).q.toRat - (vs.map PyNum.toRat).sum) / vs.length := by
    rw [average, List.length_map]
    field_simp
  rw [e, abs_div, abs_of_pos hn0, div_le_iff₀ hn0]
  refine h2.trans (le_of_eq ?_)
  ring

/-- the exploration bonus in doubles -/
theorem bonus_err {K c p s : ℚ} {n : ℕ} (hK : 1 ≤ K) (hn : n + 1 < 2 ^ 53) (hs0 : 0 ≤ s) (hs1 : s ≤ 2 ^ 30) (h : |c * p * s| ≤ K) :
    |bonus64 c p s n - c * p * s / (1 + n)| ≤ K / 2 ^ 50 := by
  have hfn : fl64 (1 + n : ℚ) = 1 + n := by
    have := fl64_int (n := ((1 + n : ℕ) : ℤ)) (by rw [abs_of_nonneg (by positivity)]; exact_mod_cast (by omega : 1 + n < 2 ^ 53))
    push_cast at this
    exact this
  have hnn : (0 : ℚ) ≤ n := by positivity
  have hn1 : (1 : ℚ) ≤ 1 + n := by linarith
  have hn0 : (0 : ℚ) < 1 + n := by linarith
  have t1 : (1 : ℚ) / 2 ^ 1075 * 2 ^ 30 ≤ K / 2 ^ 60 := by
    have : (1 : ℚ) / 2 ^ 1075 * 2 ^ 30 ≤ 1 / 2 ^ 60 := by
      rw [div_mul_eq_mul_div, one_mul, div_le_div_iff₀ (by positivity) (by positivity), one_mul, ← pow_add]
      exact pow_le_pow_right₀ (by norm_num) (by norm_num)
    have : (1 : ℚ) / 2 ^ 60 ≤ K / 2 ^ 60 := by gcongr
    linarith
  have e1 : |fl64 (c * p) * s - c * p * s| ≤ (1 + 1 / 128) * K / 2 ^ 53 := by
    rw [← sub_mul, abs_mul, abs_of_nonneg hs0]
    have h1 := mul_le_mul_of_nonneg_right (fl64_err (c * p)) hs0
    have h2 : |c * p| * s = |c * p * s| := by rw [abs_mul (c * p) s, abs_of_nonneg hs0]
    have h3 : (|c * p| / 2 ^ 53 + 1 / 2 ^ 1075) * s ≤ K / 2 ^ 53 + K / 2 ^ 60 := by
      have h4 : |c * p| / 2 ^ 53 * s ≤ K / 2 ^ 53 := by
        rw [div_mul_eq_mul_div, h2]
        gcongr
      have h5 : (1 : ℚ) / 2 ^ 1075 * s ≤ 1 / 2 ^ 1075 * 2 ^ 30 := by gcongr
      rw [add_mul]
      linarith
    have : (1 + 1 / 128) * K / 2 ^ 53 = K / 2 ^ 53 + K / 2 ^ 60 := by ring
    linarith
  have b1 : |fl64 (c * p) * s| ≤ 2 * K := by
    have h6 := abs_add_le (fl64 (c * p) * s - c * p * s) (c * p * s)
    rw [sub_add_cancel] at h6
    have : (1 + 1 / 128) * K / 2 ^ 53 ≤ K := by
      rw [div_le_iff₀ (by positivity)]
      nlinarith
    linarith
  have e2 := fl64_err_mul hK b1
  have e12 : |fl64 (fl64 (c * p) * s) - c * p * s| ≤ 4 * K / 2 ^ 53 := by
    have h6 := abs_add_le (fl64 (fl64 (c * p) * s) - fl64 (c * p) * s) (fl64 (c * p) * s - c * p * s)
    rw [sub_add_sub_cancel] at h6
    have : (2 + 1 / 128) * K / 2 ^ 53 + (1 + 1 / 128) * K / 2 ^ 53 ≤ 4 * K / 2 ^ 53 := by
      rw [← add_div]; gcongr; linarith
    linarith
  have e3 : |fl64 (fl64 (c * p) * s) / (1 + n) - c * p * s / (1 + n)| ≤ 4 * K / 2 ^ 53 := by
    rw [← sub_div, abs_div, abs_of_pos hn0, div_le_iff₀ hn0]
    have : 0 ≤ 4 * K / 2 ^ 53 := by positivity
    nlinarith
  have b3 : |fl64 (fl64 (c * p) * s) / (1 + n)| ≤ 2 * K := by
    have h6 := abs_add_le (fl64 (fl64 (c * p) * s) / (1 + n) - c * p * s / (1 + n)) (c * p * s / (1 + n))
    rw [sub_add_cancel] at h6
    have h7 : |c * p * s / (1 + n)| ≤ K := by
      rw [abs_div, abs_of_pos hn0, div_le_iff₀ hn0]
      nlinarith
    have : 4 * K / 2 ^ 53 ≤ K := by
      rw [div_le_iff₀ (by positivity)]
      nlinarith
    linarith
  have e4 := fl64_err_mul hK b3
  unfold bonus64
  rw [hfn]
  have h6 := abs_add_le (fl64 (fl64 (fl64 (c * p) * s) / (1 + n)) - fl64 (fl64 (c * p) * s) / (1 + n))
    (fl64 (fl64 (c * p) * s) / (1 + n) - c * p * s / (1 + n))
  rw [sub_add_sub_cancel] at h6
  have : (2 + 1 / 128) * K / 2 ^ 53 + 4 * K / 2 ^ 53 ≤ K / 2 ^ 50 := by
    rw [← add_div, div_le_div_iff₀ (by positivity) (by positivity)]
    nlinarith
  linarith

/-- a child of a node, as the search sees it: its prior, the values it was updated with, and the square root of its parent's visit
count when it was last updated -/
structure ChildLog where
  p : ℚ
  s : ℚ
  vs : List PyNum

/-- it was visited with machine numbers of bounded size -/
structure ChildOk (py2 : Bool) (B K c : ℚ) (N : ℕ) (x : ChildLog) : Prop where
  visited : x.vs ≠ []
  few : x.vs.length ≤ N
  leaf : ∀ v ∈ x.vs, Leaf B v
  float : py2 = false ∨ ∀ v ∈ x.vs, IsFloat v
  sqrt0 : 0 ≤ x.s
  sqrt1 : x.s ≤ 2 ^ 30
  small : |c * x.p * x.s| ≤ K

/-- **C122.** The score of a visited child is its mean value plus its exploration bonus, up to rounding. -/
theorem C122_score {py2 : Bool} {B K c : ℚ} {N : ℕ} (hB : 1 ≤ B) (hK : 1 ≤ K) (hN : N ≤ 2 ^ 49) {x : ChildLog}
    (h : ChildOk py2 B K c N x) :
    |(NodeStat.run py2 x.vs).val64 c x.p x.s - score c x.p x.s (x.vs.map PyNum.toRat)| ≤ (B * (N + 2) + 2 * K) / 2 ^ 50 := by
  have hlen := h.few.trans hN
  obtain ⟨h1, ⟨y, hy⟩, hyd, h3⟩ := C122_mean py2 hB x.vs h.visited hlen h.leaf h.float
  have h4 := (run_sum hB x.vs hlen h.leaf h.float).2.2.2
  have hb := bonus_err (n := x.vs.length) hK (by omega) h.sqrt0 h.sqrt1 h.small
  set b := bonus64 c x.p x.s x.vs.length with hbd
  have hval : (NodeStat.run py2 x.vs).val64 c x.p x.s = fl64 (y + b) := by
    rw [NodeStat.val64, h1, hy]
    rfl
  rw [hy] at h3 h4
  simp only [PyNum.toRat] at h3 h4
  have hn0 : (0 : ℚ) < 1 + x.vs.length := by positivity
  have hb2 : |b| ≤ 2 * K := by
    have h6 := abs_add_le (b - c * x.p * x.s / (1 + x.vs.length)) (c * x.p * x.s / (1 + x.vs.length))
    rw [sub_add_cancel] at h6
    have h7 : |c * x.p * x.s / (1 + x.vs.length)| ≤ K := by
      rw [abs_div, abs_of_pos hn0, div_le_iff₀ hn0]
      have : (0 : ℚ) ≤ x.vs.length := by positivity
      have := h.small
      nlinarith
    have : K / 2 ^ 50 ≤ K := by
      rw [div_le_iff₀ (by positivity)]
      nlinarith
    linarith
  have hyb : |y + b| ≤ 2 * (B + K) := (abs_add_le _ _).trans (by linarith)
  have e := fl64_err_mul (by linarith : 1 ≤ B + K) hyb
  rw [hval, score, List.length_map]
  have h6 := abs_add_le (fl64 (y + b) - (y + b)) ((y - average (x.vs.map PyNum.toRat)) + (b - c * x.p * x.s / (1 + x.vs.length)))
  have h7 := abs_add_le (y - average (x.vs.map PyNum.toRat)) (b - c * x.p * x.s / (1 + x.vs.length))
  have e8 : fl64 (y + b) - (y + b) + ((y - average (x.vs.map PyNum.toRat)) + (b - c * x.p * x.s / (1 + x.vs.length))) =
      fl64 (y + b) - (average (x.vs.map PyNum.toRat) + c * x.p * x.s / (1 + x.vs.length)) := by ring
  rw [e8] at h6
  have h9 : B * (x.vs.length + 1) / 2 ^ 50 ≤ B * (N + 1) / 2 ^ 50 := by
    have : (x.vs.length : ℚ) ≤ N := by exact_mod_cast h.few
    gcongr
  have h10 : (2 + 1 / 128) * (B + K) / 2 ^ 53 + B * (N + 1) / 2 ^ 50 + K / 2 ^ 50 ≤ (B * (N + 2) + 2 * K) / 2 ^ 50 := by
    have : (2 + 1 / 128) * (B + K) / 2 ^ 53 ≤ (B + K) / 2 ^ 50 := by
      rw [div_le_div_iff₀ (by positivity) (by positivity)]
      nlinarith
    have e : (B * (N + 2) + 2 * K) / 2 ^ 50 = (B + K) / 2 ^ 50 + B * (N + 1) / 2 ^ 50 + K / 2 ^ 50 := by ring
    linarith
  linarith

theorem foldl_max_spec {β : Type} (key : β → ℚ) (l : List β) (x : β) :
    let m := l.foldl (fun best y => if key best < key y then y else best) x
    key x ≤ key m ∧ (∀ y ∈ l, key y ≤ key m) ∧ (m = x ∨ m ∈ l) := by
  induction l generalizing x with
  | nil => simp
  | cons a l ih =>
    obtain ⟨h1, h2, h3⟩ := ih (if key x < key a then a else x)
    simp only [List.foldl_cons]
    refine ⟨?_, ?_, ?_⟩
    · refine le_trans ?_ h1
      split <;> linarith
    · intro y hy
      rcases List.mem_cons.1 hy with rfl | hy
      · refine le_trans ?_ h1
        split <;> linarith
      · exact h2 y hy
    · rcases h3 with h3 | h3
      · rw [h3]
        split
        · exact .inr (by simp)
        · exact .inl rfl
      · exact .inr (List.mem_cons_of_mem _ h3)

/-- **C122.** Among visited children `max(…, key=get_value)` picks one whose true score is the best, up to twice the rounding bound. -/
theorem C122_select {py2 : Bool} {B K c : ℚ} {N : ℕ} (hB : 1 ≤ B) (hK : 1 ≤ K) (hN : N ≤ 2 ^ 49) {cs : List ChildLog}
    (h : ∀ x ∈ cs, ChildOk py2 B K c N x) {m : ChildLog}
    (hm : pyMax (fun x => (NodeStat.run py2 x.vs).val64 c x.p x.s) cs = some m) :
    m ∈ cs ∧ ∀ x ∈ cs, score c x.p x.s (x.vs.map PyNum.toRat) ≤
      score c m.p m.s (m.vs.map PyNum.toRat) + 2 * ((B * (N + 2) + 2 * K) / 2 ^ 50) := by
  have hmax : m ∈ cs ∧ ∀ x ∈ cs, (NodeStat.run py2 x.vs).val64 c x.p x.s ≤ (NodeStat.run py2 m.vs).val64 c m.p m.s := by
    cases cs with
    | nil => cases hm
    | cons x l =>
      obtain ⟨h1, h2, h3⟩ := foldl_max_spec (fun x : ChildLog => (NodeStat.run py2 x.vs).val64 c x.p x.s) l x
      simp only [pyMax, Option.some.injEq] at hm
      rw [hm] at h1 h2 h3
      refine ⟨by rcases h3 with h3 | h3 <;> simp [h3], fun y hy => ?_⟩
      rcases List.mem_cons.1 hy with rfl | hy
      · exact h1
      · exact h2 y hy
  refine ⟨hmax.1, fun x hx => ?_⟩
  have a := abs_le.1 (C122_score hB hK hN (h x hx))
  have b := abs_le.1 (C122_score hB hK hN (h m hmax.1))
  have := hmax.2 x hx
  linarith [a.1, b.2]

/-! ## Integers on Python 2 -/

/-- the value of a node updated with integers on Python 2 is an integer -/
theorem run_int (zs : List ℤ) : ∃ z, (NodeStat.run true (zs.map .int)).q = .int z := by
  induction zs using List.reverseRecOn with
  | nil => exact ⟨0, rfl⟩
  | append_singleton zs z ih =>
    obtain ⟨q, hq⟩ := ih
    rw [List.map_append, List.map_singleton, run_snoc]
    refine ⟨q + (z - q) / ((NodeStat.run true (zs.map .int)).n + 1 : ℕ), ?_⟩
    simp only [NodeStat.update, hq, PyNum.sub, PyNum.divNat, PyNum.add, if_true]

theorem run_int_step (zs : List ℤ) (z q : ℤ) (hq : (NodeStat.run true (zs.map .int)).q = .int q) :
    (NodeStat.run true ((zs ++ [z]).map .int)).q = .int (q + (z - q) / (zs.length + 1 : ℕ)) := by
  rw [List.map_append, List.map_singleton, run_snoc]
  simp only [NodeStat.update, hq, PyNum.sub, PyNum.divNat, PyNum.add, if_true, run_n, List.length_map]

/-- floor division moves the value by at most the whole way towards the new one -/
theorem floor_between {M q z : ℤ} {n : ℕ} (hq : |q| ≤ M) (hz : |z| ≤ M) : |q + (z - q) / (n + 1 : ℕ)| ≤ M := by
  have hn : (0 : ℤ) < (n + 1 : ℕ) := by positivity
  obtain ⟨a, b⟩ := abs_le.1 hq
  obtain ⟨c, d⟩ := abs_le.1 hz
  have e := Int.emod_add_mul_ediv (z - q) (n + 1 : ℕ)
  have f := Int.emod_nonneg (z - q) hn.ne'
  have g := Int.emod_lt_of_pos (z - q) hn
  set k := (z - q) / ((n + 1 : ℕ) : ℤ) with hk
  set r := (z - q) % ((n + 1 : ℕ) : ℤ) with hr
  rw [abs_le]
  rcases le_or_gt 0 k with hk0 | hk0
  · have : k ≤ (n + 1 : ℕ) * k := by nlinarith
    constructor <;> omega
  · have h1 : ((n + 1 : ℕ) : ℤ) * k + ((n + 1 : ℕ) : ℤ) ≤ k + 1 := by nlinarith
    constructor <;> omega

/-- it lies within the range of the values -/
theorem run_int_bound {M : ℤ} (hM : 0 ≤ M) (zs : List ℤ) (hz : ∀ z ∈ zs, |z| ≤ M) {q : ℤ}
    (hq : (NodeStat.run true (zs.map .int)).q = .int q) : |q| ≤ M := by
  induction zs using List.reverseRecOn generalizing q with
  | nil =>
    have : q = 0 := by
      have : PyNum.int 0 = .int q := hq
      injection this with h
      exact h.symm
    simpa [this] using hM
  | append_singleton zs z ih =>
    obtain ⟨q0, h0⟩ := run_int zs
    rw [run_int_step zs z q0 h0] at hq
    injection hq with hq
    rw [← hq]
    exact floor_between (ih (fun w hw => hz w (List.mem_append_left _ hw)) h0) (hz z (by simp))

/-- **C122.** A node updated with integers between `-M` and `M` on Python 2 holds an integer in that range; from the `2 M`-th visit on
it goes down by exactly one whenever the new value is below it, and otherwise stays as it is: it never goes up again. -/
theorem C122_integers {M : ℤ} (hM : 0 ≤ M) (zs : List ℤ) (hz : ∀ z ∈ zs, |z| ≤ M) (hlen : 2 * M ≤ zs.length) (z : ℤ) (hz1 : |z| ≤ M) :
    ∃ q : ℤ, |q| ≤ M ∧ (NodeStat.run true (zs.map .int)).q = .int q ∧
      (NodeStat.run true ((zs ++ [z]).map .int)).q = .int (if z < q then q - 1 else q) := by
  obtain ⟨q, hq⟩ := run_int zs
  have hb := run_int_bound hM zs hz hq
  refine ⟨q, hb, hq, ?_⟩
  rw [run_int_step zs z q hq]
  have hn : (0 : ℤ) < (zs.length + 1 : ℕ) := by positivity
  obtain ⟨a, b⟩ := abs_le.1 hb
  obtain ⟨c, d⟩ := abs_le.1 hz1
  congr 1
  have hl : 2 * M < ((zs.length + 1 : ℕ) : ℤ) := by push_cast; omega
  split
  · have : (z - q) / ((zs.length + 1 : ℕ) : ℤ) = -1 := by
      rw [Int.ediv_eq_iff_of_pos hn]
      constructor <;> push_cast at * <;> omega
    omega
  · rw [Int.ediv_eq_zero_of_lt (by omega) (by omega), add_zero]

/-- two losses after the second visit bring a node's value to -1 for good -/
theorem C122_worst (zs ws us : List ℤ) (hz : ∀ z ∈ zs, |z| ≤ 1) (hw : ∀ z ∈ ws, |z| ≤ 1) (hu : ∀ z ∈ us, |z| ≤ 1) (hlen : 2 ≤ zs.length)  :
    (NodeStat.run true ((zs ++ -1 :: (ws ++ -1 :: us)).map .int)).q = .int (-1) := by
  -- the value never goes up
  have mono : ∀ (us zs : List ℤ), (∀ z ∈ zs, |z| ≤ 1) → (∀ z ∈ us, |z| ≤ 1) → 2 ≤ zs.length → ∀ q q',
      (NodeStat.run true (zs.map .int)).q = .int q → (NodeStat.run true ((zs ++ us).map .int)).q = .int q' → q' ≤ q := by
    intro us
    induction us with
    | nil =>
      intro zs _ _ _ q q' h h'
      rw [List.append_nil, h] at h'
      injection h' with h'
      exact h'.ge
    | cons u us ih =>
      intro zs hz hu hl q q' h h'
      obtain ⟨q1, _, h1, h2⟩ := C122_integers (M := 1) (by norm_num) zs hz (by omega) u (hu u (by simp))
      rw [h] at h1
      injection h1 with h1
      subst h1
      have e : zs ++ u :: us = zs ++ [u] ++ us := by simp
      rw [e] at h'
      have := ih (zs ++ [u]) (by
        intro w hw
        rcases List.mem_append.1 hw with hw | hw
        · exact hz w hw
        · rw [List.mem_singleton.1 hw]; exact hu u (by simp)) (fun w hw => hu w (List.mem_cons_of_mem _ hw)) (by simp; omega) _ _ h2 h'
      split at this <;> omega
  have all : ∀ l : List ℤ, (∀ z ∈ l, |z| ≤ 1) → ∀ m, (∀ z ∈ m, |z| ≤ 1) → ∀ z ∈ l ++ m, |z| ≤ 1 := by
    intro l hl m hm z hzm
    rcases List.mem_append.1 hzm with h | h
    · exact hl z h
    · exact hm z h
  have one : ∀ z ∈ [(-1 : ℤ)], |z| ≤ 1 := by simp
  obtain ⟨q1, b1, h1, h2⟩ := C122_integers (M := 1) (by norm_num) zs hz (by omega) (-1) (by norm_num)
  have d1 := all zs hz _ one
  obtain ⟨q2, h3⟩ := run_int (zs ++ [-1] ++ ws)
  have m1 := mono ws (zs ++ [-1]) d1 hw (by simp; omega) _ _ h2 h3
  have d2 := all _ d1 _ hw
  obtain ⟨q3, b3, h4, h5⟩ := C122_integers (M := 1) (by norm_num) (zs ++ [-1] ++ ws) d2 (by simp; omega) (-1) (by norm_num)
  rw [h3] at h4
  injection h4 with h4
  subst h4
  have d3 := all _ d2 _ one
  obtain ⟨q4, h6⟩ := run_int (zs ++ [-1] ++ ws ++ [-1] ++ us)
  have m2 := mono us _ d3 hu (by simp; omega) _ _ h5 h6
  have b4 := run_int_bound (M := 1) (by norm_num) _ (all _ d3 _ hu) h6
  have e : zs ++ -1 :: (ws ++ -1 :: us) = zs ++ [-1] ++ ws ++ [-1] ++ us := by simp
  rw [e, h6]
  obtain ⟨a1, a2⟩ := abs_le.1 b1
  obtain ⟨a3, a4⟩ := abs_le.1 b3
  obtain ⟨a5, a6⟩ := abs_le.1 b4
  congr 1
  split at m1 <;> split at m2 <;> omega

/-- two wins, two losses and then any number of wins: the node keeps -1, however close the mean comes to 1 -/
theorem C122_not_mean (k : ℕ) :
    (NodeStat.run true (([1, 1, -1, -1] ++ List.replicate k 1).map .int)).q = .int (-1) ∧
      average (([1, 1, -1, -1] ++ List.replicate k 1 : List ℤ).map fun z : ℤ => (z : ℚ)) = k / (k + 4) := by
  constructor
  · exact C122_worst [1, 1] [] (List.replicate k 1) (by simp) (by simp) (by
      intro z hz
      rw [List.eq_of_mem_replicate hz]
      norm_num) (by simp)
  · simp only [average, List.map_append, List.map_replicate, List.sum_append, List.sum_replicate, List.length_append, List.length_map,
      List.length_replicate]
    norm_num
    ring_nf

/-- **C122.** With the weight `lmbda = 1` given as an integer every leaf value is the integer the rollout returned; with a float it is
a float. So the default of 0.5 is on the safe side, and a search by rollouts alone, asked for as `lmbda=1`, is not. -/
theorem C122_leaf (l v z : PyNum) :
    (∀ k, z = .int k → leafNum (.int 1) v z = .int k) ∧ (IsFloat l → IsFloat (leafNum l v z)) := by
  constructor
  · rintro k rfl
    simp [leafNum, PyNum.toRat, PyNum.sub, PyNum.mul, PyNum.add]
  · rintro ⟨x, rfl⟩
    simp only [leafNum, PyNum.sub, PyNum.mul, PyNum.add]
    exact ⟨_, rfl⟩

/-- **C122.** With a weight that is a float between 0 and 1 the leaf value is the weighted combination of the two evaluations, up to
`B / 2⁵⁰`, and again a double a node can be updated with. -/
theorem C122_mix {B l : ℚ} (hB : 1 ≤ B) (h0 : 0 ≤ l) (h1 : l ≤ 1) {v z : PyNum} (hv : Leaf B v) (hz : Leaf B z) :
    |(leafNum (.flt l) v z).toRat - ((1 - l) * v.toRat + l * z.toRat)| ≤ B / 2 ^ 50 ∧ Leaf (2 * B) (leafNum (.flt l) v z) := by
  have f0 : fl64 0 = 0 := by simp [fl64, rint]
  have f1 : fl64 1 = 1 := by exact_mod_cast fl64_int (n := 1) (by norm_num)
  have dbl : ∀ {w : PyNum}, Leaf B w → w.toDouble = w.toRat := by
    intro w hw
    cases w with
    | int k => exact fl64_double hw.1
    | flt x => rfl
  obtain ⟨v', hv', hvb, hve⟩ : ∃ v', (if l < 1 then v else PyNum.int 0).toDouble = v' ∧ |v'| ≤ B ∧ (1 - l) * v' = (1 - l) * v.toRat := by
    by_cases h : l < 1
    · exact ⟨v.toRat, by rw [if_pos h, dbl hv], hv.2, rfl⟩
    · exact ⟨0, by rw [if_neg h]; simp [PyNum.toDouble, f0], by rw [abs_zero]; linarith, by rw [le_antisymm h1 (not_lt.1 h)]; ring⟩
  obtain ⟨z', hz', hzb, hze⟩ : ∃ z', (if 0 < l then z else PyNum.int 0).toDouble = z' ∧ |z'| ≤ B ∧ l * z' = l * z.toRat := by
    by_cases h : 0 < l
    · exact ⟨z.toRat, by rw [if_pos h, dbl hz], hz.2, rfl⟩
    · exact ⟨0, by rw [if_neg h]; simp [PyNum.toDouble, f0], by rw [abs_zero]; linarith, by rw [le_antisymm (not_lt.1 h) h0]; ring⟩
  have hval : leafNum (.flt l) v z = .flt (fl64 (fl64 (fl64 (1 - l) * v') + fl64 (l * z'))) := by
    have e1 : (PyNum.int 1).sub (.flt l) = .flt (fl64 (1 - l)) := by simp [PyNum.sub, PyNum.toDouble, f1]
    have e2 : ∀ (x : ℚ) (w : PyNum), (PyNum.flt x).mul w = .flt (fl64 (x * w.toDouble)) := fun x w => by cases w <;> rfl
    simp only [leafNum, e1, e2]
    change (PyNum.flt (fl64 (fl64 (1 - l) * (if l < 1 then v else PyNum.int 0).toDouble))).add
      (.flt (fl64 (l * (if 0 < l then z else PyNum.int 0).toDouble))) = _
    rw [hv', hz']
    rfl
  rw [hval]
  have e1 : |fl64 (1 - l) - (1 - l)| ≤ (1 + 1 / 128) * 1 / 2 ^ 53 :=
    fl64_err_mul le_rfl (by rw [abs_of_nonneg (by linarith)]; linarith)
  set a := fl64 (1 - l) with ha
  have e2 : |a * v' - (1 - l) * v'| ≤ (1 + 1 / 128) * B / 2 ^ 53 := by
    rw [← sub_mul, abs_mul]
    have := mul_le_mul e1 hvb (abs_nonneg _) (by positivity)
    refine this.trans (le_of_eq ?_)
    ring
  have small : (1 + 1 / 128) * B / 2 ^ 53 ≤ B / 128 := by
    rw [div_le_div_iff₀ (by positivity) (by positivity)]
    nlinarith
  have b1 : |(1 - l) * v'| ≤ B := by
    rw [abs_mul, abs_of_nonneg (by linarith : 0 ≤ 1 - l)]
    nlinarith [abs_nonneg v']
  have b2 : |l * z'| ≤ B := by
    rw [abs_mul, abs_of_nonneg h0]
    nlinarith [abs_nonneg z']
  have b12 : |(1 - l) * v' + l * z'| ≤ B := by
    refine (abs_add_le _ _).trans ?_
    rw [abs_mul, abs_mul, abs_of_nonneg h0, abs_of_nonneg (by linarith : 0 ≤ 1 - l)]
    nlinarith [mul_le_mul_of_nonneg_left hvb (by linarith : 0 ≤ 1 - l), mul_le_mul_of_nonneg_left hzb h0]
  have b3 : |a * v'| ≤ (1 + 1 / 128) * B := by
    have := abs_add_le (a * v' - (1 - l) * v') ((1 - l) * v')
    rw [sub_add_cancel] at this
    linarith
  have e3 := fl64_err_mul hB b3
  have e4 : |fl64 (l * z') - l * z'| ≤ (1 + 1 / 128) * B / 2 ^ 53 := fl64_err_mul hB (by linarith)
  set p := fl64 (a * v')
  set q := fl64 (l * z')
  have e5 : |(p + q) - ((1 - l) * v' + l * z')| ≤ (3 + 1 / 16) * B / 2 ^ 53 := by
    have e : (p + q) - ((1 - l) * v' + l * z') = (p - a * v') + (a * v' - (1 - l) * v') + (q - l * z') := by ring
    rw [e]
    have t1 := abs_add_le ((p - a * v') + (a * v' - (1 - l) * v')) (q - l * z')
    have t2 := abs_add_le (p - a * v') (a * v' - (1 - l) * v')
    have : (1 + 1 / 128 + 1 / 128) * B / 2 ^ 53 + (1 + 1 / 128) * B / 2 ^ 53 + (1 + 1 / 128) * B / 2 ^ 53 ≤ (3 + 1 / 16) * B / 2 ^ 53 := by
      rw [← add_div, ← add_div]; gcongr; linarith
    linarith
  have small2 : (3 + 1 / 16) * B / 2 ^ 53 ≤ B / 128 := by
    rw [div_le_div_iff₀ (by positivity) (by positivity)]
    nlinarith
  have b4 : |p + q| ≤ 2 * B := by
    have := abs_add_le ((p + q) - ((1 - l) * v' + l * z')) ((1 - l) * v' + l * z')
    rw [sub_add_cancel] at this
    linarith
  have e6 := fl64_err_mul hB b4
  have main : |fl64 (p + q) - ((1 - l) * v.toRat + l * z.toRat)| ≤ B / 2 ^ 50 := by
    rw [← hve, ← hze]
    have := abs_add_le (fl64 (p + q) - (p + q)) ((p + q) - ((1 - l) * v' + l * z'))
    rw [sub_add_sub_cancel] at this
    have : (2 + 1 / 128) * B / 2 ^ 53 + (3 + 1 / 16) * B / 2 ^ 53 ≤ B / 2 ^ 50 := by
      rw [← add_div, div_le_div_iff₀ (by positivity) (by positivity)]
      nlinarith
    linarith
  refine ⟨main, fl64_isDouble _, ?_⟩
  have := abs_add_le (fl64 (p + q) - ((1 - l) * v.toRat + l * z.toRat)) ((1 - l) * v.toRat + l * z.toRat)
  rw [sub_add_cancel] at this
  rw [← hve, ← hze] at this main
  change |fl64 (p + q)| ≤ 2 * B
  have : B / 2 ^ 50 ≤ B := div_le_self (by linarith) (one_le_pow₀ (by norm_num))
  linarith

/-! ## Examples -/

theorem half_leaf : Leaf 1 (.flt (1 / 2)) := ⟨⟨1, -1, by norm_num, by norm_num, by norm_num [PyNum.toRat]⟩, by norm_num [PyNum.toRat]⟩

/-- a child updated with 1/2 and -1, as floats -/
example : ChildOk true 1 (5 : ℚ) 5 2 ⟨1 / 4, 2, [.flt (1 / 2), .flt (-1)]⟩ where
  visited := by simp
  few := by simp
  leaf := by
    intro v hv
    simp only [List.mem_cons, List.not_mem_nil, or_false] at hv
    rcases hv with rfl | rfl
    · exact half_leaf
    · exact ⟨⟨-1, 0, by norm_num, by norm_num, by norm_num [PyNum.toRat]⟩, by norm_num [PyNum.toRat]⟩
  float := .inr (by intro v hv; simp only [List.mem_cons, List.not_mem_nil, or_false] at hv; rcases hv with rfl | rfl <;> exact ⟨_, rfl⟩)
  sqrt0 := by norm_num
  sqrt1 := by norm_num
  small := by norm_num [abs_le]

/-- the mean of 1, 0 and 0 is not a double, so the rounding is needed; and two wins and a draw, as integers, give 0 -/
example : (NodeStat.run true [.flt 1, .flt 0, .flt 0]).q ≠ .flt (1 / 3) ∧ (NodeStat.run true [.int 1, .int 1, .int 0]).q = .int 0 ∧
    leafNum (.flt (1 / 4)) (.flt (1 / 2)) (.int (-1)) = .flt (1 / 8) ∧ (NodeStat.run false [.int 1, .int 0]).q = .flt (1 / 2) ∧ (NodeStat.run true [.int 1, .int 0]).q = .int 0 := by decide +kernel

end Verif
