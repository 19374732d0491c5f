import Verif.Model.Binary64
import Verif.Spec.Binary64
import Verif.Lemmas.Round
import Verif.Lemmas.Sort
import Mathlib.Tactic.Linarith
import Mathlib.Tactic.Positivity
import Mathlib.Tactic.FieldSimp
import Mathlib.Tactic.NormNum

/-! # Lemmas on double precision rounding -/

set_option exponentiation.threshold 2000

namespace Verif

theorem two_zpow_pos (k : ℤ) : (0 : ℚ) < 2 ^ k := zpow_pos (by norm_num) k

theorem fl64_err_ulp (x : ℚ) : |fl64 x - x| ≤ 2 ^ ulpExp x / 2 := by
  have hp := two_zpow_pos (ulpExp x)
  have h := rint_sub_le (x / 2 ^ ulpExp x)
  have e : fl64 x - x = -(x / 2 ^ ulpExp x - rint (x / 2 ^ ulpExp x)) * 2 ^ ulpExp x := by
    unfold fl64; field_simp; ring
  rw [e, abs_mul, abs_neg, abs_of_pos hp]
  calc _ ≤ 1 / 2 * (2 : ℚ) ^ ulpExp x := mul_le_mul_of_nonneg_right h hp.le
    _ = _ := by ring

theorem ulp_le {x : ℚ} (hx : x ≠ 0) : (2 : ℚ) ^ ulpExp x ≤ |x| / 2 ^ 52 + 1 / 2 ^ 1074 := by
  unfold ulpExp
  rcases le_total (Int.log 2 |x| - 52) (-1074) with h | h
  · rw [max_eq_right h]
    have : (0 : ℚ) ≤ |x| / 2 ^ 52 := by positivity
    have e : (2 : ℚ) ^ (-1074 : ℤ) = 1 / 2 ^ 1074 := by rw [zpow_neg, one_div]; rfl
    rw [e]; linarith
  · rw [max_eq_left h]
    have h1 := Int.zpow_log_le_self (b := 2) (by norm_num) (abs_pos.2 hx)
    push_cast at h1
    have e : (2 : ℚ) ^ (Int.log 2 |x| - 52) = 2 ^ Int.log 2 |x| / 2 ^ 52 := by
      rw [zpow_sub₀ (by norm_num)]; rfl
    rw [e]
    have : (0 : ℚ) ≤ 1 / 2 ^ 1074 := by positivity
    have : (2 : ℚ) ^ Int.log 2 |x| / 2 ^ 52 ≤ |x| / 2 ^ 52 := by gcongr
    linarith

theorem fl64_err (x : ℚ) : |fl64 x - x| ≤ |x| / 2 ^ 53 + 1 / 2 ^ 1075 := by
  by_cases h0 : x = 0
  · subst h0
    have : fl64 0 = 0 := by simp [fl64, rint]
    rw [this]; simp
  have h1 := fl64_err_ulp x
  have h2 := ulp_le h0
  have e1 : |x| / 2 ^ 53 = |x| / 2 ^ 52 / 2 := by ring
  have e2 : (1 : ℚ) / 2 ^ 1075 = 1 / 2 ^ 1074 / 2 := by rw [pow_succ]; ring
  rw [e1, e2]; linarith

/-- the error is below `B / 10^15` for numbers of size at most `B ≥ 1` -/
theorem fl64_err_le {x B : ℚ} (hB : 1 ≤ B) (hx : |x| ≤ B) : |fl64 x - x| ≤ B / 10 ^ 15 := by
  have h := fl64_err x
  have h1 : |x| / 2 ^ 53 ≤ B / 2 ^ 53 := by gcongr
  have h2 : (1 : ℚ) / 2 ^ 1075 ≤ 1 / 2 ^ 53 := by
    apply one_div_le_one_div_of_le (by positivity)
    exact pow_le_pow_right₀ (by norm_num) (by norm_num)
  have h3 : (1 : ℚ) / 2 ^ 53 ≤ B / 2 ^ 53 := by gcongr
  have h4 : B / 2 ^ 53 + B / 2 ^ 53 ≤ B / 10 ^ 15 := by
    have : B / 2 ^ 53 + B / 2 ^ 53 = B * (1 / 2 ^ 52) := by ring
    rw [this, div_eq_mul_one_div B]
    apply mul_le_mul_of_nonneg_left _ (by linarith)
    norm_num
  linarith

theorem ulpExp_le {x : ℚ} {m k : ℤ} (hm : |m| < 2 ^ 53) (hk : -1074 ≤ k) (hx : x = m * (2 : ℚ) ^ k) (h0 : x ≠ 0) : ulpExp x ≤ k := by
  unfold ulpExp
  refine max_le ?_ hk
  have h1 := Int.zpow_log_le_self (b := 2) (by norm_num) (abs_pos.2 h0)
  push_cast at h1
  have h2 : |x| < (2 : ℚ) ^ (53 + k) := by
    rw [hx, abs_mul, abs_of_pos (two_zpow_pos k), zpow_add₀ (by norm_num)]
    apply mul_lt_mul_of_pos_right _ (two_zpow_pos k)
    rw [← Int.cast_abs]
    exact_mod_cast hm
  have h3 := (zpow_lt_zpow_iff_right₀ (by norm_num : (1 : ℚ) < 2)).1 (lt_of_le_of_lt h1 h2)
  omega

/-- doubles are not changed -/
theorem fl64_double {x : ℚ} (h : Spec.IsDouble x) : fl64 x = x := by
  obtain ⟨m, k, hm, hk, hx⟩ := h
  by_cases h0 : x = 0
  · subst h0; simp [fl64, rint]
  have h1 := ulpExp_le hm hk hx h0
  obtain ⟨j, hj⟩ : ∃ j : ℕ, k = ulpExp x + j := ⟨(k - ulpExp x).toNat, by omega⟩
  have e : x / 2 ^ ulpExp x = ((m * 2 ^ j : ℤ) : ℚ) := by
    conv_lhs => lhs; rw [hx]
    rw [hj, zpow_add₀ (by norm_num)]
    have := (two_zpow_pos (ulpExp x)).ne'
    push_cast
    rw [zpow_natCast]
    field_simp
  unfold fl64
  rw [e, rint_intCast, ← e]
  exact div_mul_cancel₀ _ (two_zpow_pos _).ne'

theorem fl64_int {n : ℤ} (h : |n| < 2 ^ 53) : fl64 n = n :=
  fl64_double ⟨n, 0, h, by norm_num, by simp⟩

/-- the result is a double -/
theorem fl64_isDouble (x : ℚ) : Spec.IsDouble (fl64 x) := by
  by_cases h0 : x = 0
  · subst h0; exact ⟨0, 0, by norm_num, by norm_num, by simp [fl64, rint]⟩
  have hk : -1074 ≤ ulpExp x := le_max_right _ _
  have hp := two_zpow_pos (ulpExp x)
  have h1 : |x / 2 ^ ulpExp x| ≤ ((2 ^ 53 : ℤ) : ℚ) := by
    rw [abs_div, abs_of_pos hp, div_le_iff₀ hp]
    have h2 := Int.lt_zpow_succ_log_self (b := 2) (by norm_num) |x|
    push_cast at h2
    refine h2.le.trans ?_
    have e : ((2 ^ 53 : ℤ) : ℚ) * 2 ^ ulpExp x = 2 ^ (53 + ulpExp x) := by
      rw [zpow_add₀ (by norm_num)]; norm_num
    rw [e]
    apply zpow_le_zpow_right₀ (by norm_num)
    have : Int.log 2 |x| - 52 ≤ ulpExp x := le_max_left _ _
    omega
  have hm : |rint (x / 2 ^ ulpExp x)| ≤ 2 ^ 53 := by
    rw [abs_le] at h1 ⊢
    constructor
    · have := rint_mono h1.1
      rwa [← Int.cast_neg, rint_intCast] at this
    · have := rint_mono h1.2
      rwa [rint_intCast] at this
  unfold fl64
  generalize rint (x / 2 ^ ulpExp x) = m at hm ⊢
  rcases hm.lt_or_eq with h | h
  · exact ⟨m, _, h, hk, rfl⟩
  · obtain ⟨m', h', rfl⟩ : ∃ m' : ℤ, |m'| < 2 ^ 53 ∧ m = m' * 2 := by
      rcases (abs_eq (by norm_num)).1 h with h | h
      · exact ⟨2 ^ 52, by norm_num, by rw [h]; norm_num⟩
      · exact ⟨-2 ^ 52, by norm_num, by rw [h]; norm_num⟩
    refine ⟨m', ulpExp x + 1, h', by omega, ?_⟩
    rw [zpow_add₀ (by norm_num)]; push_cast; ring

/-- no double is nearer -/
theorem fl64_nearest (x y : ℚ) (hy : Spec.IsDouble y) : |fl64 x - x| ≤ |y - x| := by
  by_cases h0 : x = 0
  · subst h0
    have : fl64 0 = 0 := by simp [fl64, rint]
    rw [this]; simp
  have hp := two_zpow_pos (ulpExp x)
  have key : ∀ m : ℤ, |fl64 x - x| ≤ |m * 2 ^ ulpExp x - x| := by
    intro m
    have h1 := rint_sub_le (x / 2 ^ ulpExp x)
    have e1 : fl64 x - x = (rint (x / 2 ^ ulpExp x) - x / 2 ^ ulpExp x) * 2 ^ ulpExp x := by
      unfold fl64; field_simp
    have e2 : (m : ℚ) * 2 ^ ulpExp x - x = (m - x / 2 ^ ulpExp x) * 2 ^ ulpExp x := by field_simp
    rw [e1, e2, abs_mul, abs_mul]
    refine mul_le_mul_of_nonneg_right ?_ (abs_nonneg _)
    by_cases hm : m = rint (x / 2 ^ ulpExp x)
    · rw [hm]
    · rw [abs_sub_comm]
      have h2 : (1 : ℚ) ≤ |(m : ℚ) - rint (x / 2 ^ ulpExp x)| := by
        rw [← Int.cast_sub, ← Int.cast_abs]
        exact_mod_cast Int.one_le_abs (sub_ne_zero.2 hm)
      have h3 := abs_sub_le (m : ℚ) (x / 2 ^ ulpExp x) (rint (x / 2 ^ ulpExp x))
      linarith
  obtain ⟨m, k, hm, hk, rfl⟩ := hy
  by_cases hke : ulpExp x ≤ k
  · obtain ⟨j, rfl⟩ : ∃ j : ℕ, k = ulpExp x + j := ⟨(k - ulpExp x).toNat, by omega⟩
    have := key (m * 2 ^ j)
    rw [zpow_add₀ (by norm_num)]
    push_cast at this
    rw [zpow_natCast]
    rwa [mul_assoc, mul_comm ((2 : ℚ) ^ j)] at this
  · push Not at hke
    have he : ulpExp x = Int.log 2 |x| - 52 := by
      unfold ulpExp at hke ⊢
      rcases max_choice (Int.log 2 |x| - 52) (-1074) with h | h
      · exact h
      · rw [h] at hke; omega
    have hx := Int.zpow_log_le_self (b := 2) (by norm_num) (abs_pos.2 h0)
    push_cast at hx
    have hb : (2 : ℚ) ^ Int.log 2 |x| = ((2 ^ 52 : ℤ) : ℚ) * 2 ^ ulpExp x := by
      have : Int.log 2 |x| = 52 + ulpExp x := by omega
      rw [this, zpow_add₀ (by norm_num)]; norm_num
    have hy : |(m : ℚ) * 2 ^ k| ≤ 2 ^ Int.log 2 |x| := by
      rw [abs_mul, abs_of_pos (two_zpow_pos k)]
      have h1 : |(m : ℚ)| ≤ 2 ^ (53 : ℤ) := by
        rw [← Int.cast_abs]; exact_mod_cast hm.le
      calc |(m : ℚ)| * 2 ^ k ≤ 2 ^ (53 : ℤ) * 2 ^ k := mul_le_mul_of_nonneg_right h1 (two_zpow_pos k).le
        _ = 2 ^ (53 + k) := by rw [zpow_add₀ (by norm_num)]
        _ ≤ _ := zpow_le_zpow_right₀ (by norm_num) (by omega)
    rcases le_total 0 x with h | h
    · rw [abs_of_nonneg h] at hx hy hb
      refine (key (2 ^ 52)).trans ?_
      rw [← hb]
      have := (abs_le.1 hy).2
      rw [abs_of_nonpos (by linarith), abs_of_nonpos (by linarith)]
      linarith
    · rw [abs_of_nonpos h] at hx hy hb
      refine (key (-2 ^ 52)).trans ?_
      have hb' : (((-2 ^ 52 : ℤ)) : ℚ) * 2 ^ ulpExp x = -2 ^ Int.log 2 (-x) := by rw [hb]; push_cast; ring
      rw [hb']
      have := (abs_le.1 hy).1
      rw [abs_of_nonneg (by linarith), abs_of_nonneg (by linarith)]
      linarith

/-! ## the coordinate reduction -/

theorem rint_clear {δ x y : ℚ} (hc : Spec.Clear δ x) (h : |y - 1000 * x| ≤ δ) : rint y = rint (1000 * x) := by
  apply rint_eq_of_abs_lt
  have h1 := rint_sub_le (1000 * x)
  have h2 := hc (rint (1000 * x))
  have h3 := hc (rint (1000 * x) - 1)
  push_cast at h3
  rw [abs_le] at h h1
  rw [lt_abs] at h2 h3
  rw [abs_lt]
  constructor
  · rcases h3 with h3 | h3 <;> linarith
  · rcases h2 with h2 | h2 <;> linarith

theorem wrap64_faithful {x x' : ℚ} (hf : Spec.Faithful x x') : wrap64 x' = fl64 (wrap3 x) := by
  obtain ⟨hx, hf⟩ := hf
  set n := rint (1000 * x) with hn
  have h1 : rint (fl64 (x' * 1000)) = n := by
    rcases hf with ⟨hx', hc⟩ | ⟨rfl, hd⟩
    · have hx1 : |x'| ≤ 10 ^ 5 + 1 := by rw [abs_le] at *; constructor <;> linarith
      apply rint_clear hc
      have hb : |x' * 1000| ≤ 10 ^ 8 + 1000 := by rw [abs_le] at *; constructor <;> linarith
      have he := fl64_err_le (by norm_num) hb
      rw [abs_le] at *
      constructor <;> linarith
    · rw [mul_comm, fl64_double hd]
  have hnb : |(n : ℚ)| ≤ 10 ^ 8 + 1 := by
    have := rint_sub_le (1000 * x)
    rw [← hn] at this
    rw [abs_le] at *
    constructor <;> linarith
  have hw : wrap3 x = ((n % 1000 : ℤ) : ℚ) / 1000 := by
    rw [wrap3_eq, show x * 10 ^ 3 = 1000 * x by ring, ← hn]; norm_num
  rw [hw]
  have ha : npAround3 x' = fl64 ((n : ℚ) / 1000) := by unfold npAround3; rw [h1]
  unfold wrap64
  rw [ha]
  have hdm : (n : ℚ) = 1000 * ((n / 1000 : ℤ) : ℚ) + ((n % 1000 : ℤ) : ℚ) := by
    exact_mod_cast (Int.mul_ediv_add_emod n 1000).symm
  have hr0 := Int.emod_nonneg n (by norm_num : (1000 : ℤ) ≠ 0)
  have hr1 := Int.emod_lt_of_pos n (by norm_num : (0 : ℤ) < 1000)
  set q := n / 1000 with hq
  set r := n % 1000 with hr
  have hr1' : (r : ℚ) ≤ 999 := by exact_mod_cast (by omega : r ≤ 999)
  have hqb : |(q : ℚ)| ≤ 10 ^ 5 + 1 := by
    have : (0 : ℚ) ≤ r := by exact_mod_cast hr0
    rw [abs_le] at *
    constructor <;> linarith
  by_cases h0 : r = 0
  · have e : (n : ℚ) / 1000 = (q : ℚ) := by rw [hdm, h0]; simp
    have hqi : |q| < 2 ^ 53 := by
      have : |(q : ℚ)| < 2 ^ 53 := lt_of_le_of_lt hqb (by norm_num)
      rw [← Int.cast_abs] at this
      exact_mod_cast this
    rw [e, fl64_int hqi, h0]
    have : fmod1 (q : ℚ) = 0 := by simp [fmod1]
    simp [pyMod1, this, pyRound3, rint]
  · have hr2 : (1 : ℚ) ≤ r := by exact_mod_cast (by omega : 1 ≤ r)
    have e : (n : ℚ) / 1000 = q + r / 1000 := by rw [hdm]; ring
    have hb : |(n : ℚ) / 1000| ≤ 10 ^ 5 + 1 := by rw [abs_le] at *; constructor <;> linarith
    have he := fl64_err_le (by norm_num) hb
    set a := fl64 ((n : ℚ) / 1000) with hadef
    rw [e] at he
    have he' : |a - (q + r / 1000)| ≤ 2 / 10 ^ 10 := he.trans (by norm_num)
    rw [abs_le] at he'
    have hfl : ⌊a⌋ = q := by rw [Int.floor_eq_iff]; constructor <;> linarith
    have hcl : ⌈a⌉ = q + 1 := by rw [Int.ceil_eq_iff]; push_cast; constructor <;> linarith
    have hm : |pyMod1 a - r / 1000| ≤ 3 / 10 ^ 10 := by
      unfold pyMod1 fmod1
      by_cases hpos : 0 ≤ a
      · have : ¬ a - q < 0 := by linarith
        rw [if_pos hpos, hfl, if_neg this, abs_le]
        constructor <;> linarith
      · have : a - ((q + 1 : ℤ) : ℚ) < 0 := by push_cast; linarith
        rw [if_neg hpos, hcl, if_pos this]
        have hb2 : |a - ((q + 1 : ℤ) : ℚ) + 1| ≤ 1 := by push_cast; rw [abs_le]; constructor <;> linarith
        have := fl64_err_le le_rfl hb2
        push_cast at this ⊢
        rw [abs_le] at this ⊢
        constructor <;> linarith
    unfold pyRound3
    have : rint (pyMod1 a * 1000) = r := by
      apply rint_eq_of_abs_lt
      rw [abs_le] at hm
      rw [abs_lt]
      constructor <;> linarith
    rw [this]

theorem wrap3_range (x : ℚ) : ∃ k : ℤ, 0 ≤ k ∧ k < 1000 ∧ wrap3 x = k / 1000 :=
  ⟨rint (x * 10 ^ 3) % 1000, Int.emod_nonneg _ (by norm_num), Int.emod_lt_of_pos _ (by norm_num), by rw [wrap3_eq]; norm_num⟩

theorem fl64_wrap_lt (x y : ℚ) : fl64 (wrap3 x) < fl64 (wrap3 y) ↔ wrap3 x < wrap3 y := by
  have key : ∀ x y, wrap3 x < wrap3 y → fl64 (wrap3 x) < fl64 (wrap3 y) := by
    intro x y h
    obtain ⟨j, j0, j1, hj⟩ := wrap3_range x
    obtain ⟨k, k0, k1, hk⟩ := wrap3_range y
    have ex := fl64_err_le le_rfl (by rw [abs_of_nonneg (wrap3_nonneg x)]; exact (wrap3_lt_one x).le : |wrap3 x| ≤ 1)
    have ey := fl64_err_le le_rfl (by rw [abs_of_nonneg (wrap3_nonneg y)]; exact (wrap3_lt_one y).le : |wrap3 y| ≤ 1)
    have hlt : (j : ℚ) + 1 ≤ k := by
      have : (j : ℚ) < k := by rw [hj, hk] at h; linarith
      exact_mod_cast this
    rw [abs_le] at ex ey
    rw [hj] at ex ⊢
    rw [hk] at ey ⊢
    linarith
  refine ⟨fun h => ?_, key x y⟩
  by_contra hn
  rcases (not_lt.1 hn).lt_or_eq with h' | h'
  · exact absurd (key y x h') (not_lt.2 h.le)
  · rw [h'] at h; exact lt_irrefl _ h

/-! ## sorting -/

/-- changing the keys without changing their order does not change the sorting -/
theorem lexsort3_congr (k1 k2 : List (V3 ℚ)) (hl : k1.length = k2.length)
    (h : ∀ (i j : ℕ) a b a' b', k1[i]? = some a → k1[j]? = some b → k2[i]? = some a' → k2[j]? = some b' →
      (lexLe a b = true ↔ lexLe a' b' = true)) : lexsort3 k1 = lexsort3 k2 := by
  set l : List (V3 ℚ × ℕ) := (sortedPairs k1).map fun p => (k2.getD p.2 (0, 0, 0), p.2) with hldef
  have hget : ∀ p ∈ sortedPairs k1, k2[p.2]? = some (k2.getD p.2 (0, 0, 0)) := by
    intro p hp
    have h1 := (mem_sortedPairs k1 p).1 hp
    have h2 : p.2 < k2.length := hl ▸ (List.getElem?_eq_some_iff.1 h1).1
    simp [h2]
  have hperm : l.Perm k2.zipIdx := by
    refine ((sortedPairs_perm k1).map _).trans ?_
    have : k1.zipIdx.map (fun p => (k2.getD p.2 (0, 0, 0), p.2)) = k2.zipIdx := by
      apply List.ext_getElem
      · simp [hl]
      · intro i h1 h2
        simp at h2
        simp [h2]
    rw [this]
  have hs : l.Pairwise pairLt := by
    rw [hldef, List.pairwise_map]
    refine (List.Pairwise.and_mem.1 (sortedPairs_pairwise k1)).imp ?_
    rintro p q ⟨hp, hq, hpq⟩
    have p1 := (mem_sortedPairs k1 p).1 hp
    have q1 := (mem_sortedPairs k1 q).1 hq
    have hle := h p.2 q.2 _ _ _ _ p1 q1 (hget p hp) (hget q hq)
    have hge := h q.2 p.2 _ _ _ _ q1 p1 (hget q hq) (hget p hp)
    refine ⟨hle.1 hpq.1, fun he => hpq.2 ?_⟩
    apply lexLe_antisymm _ _ hpq.1
    apply hge.2
    dsimp only at he
    rw [he]; exact lexLe_refl _
  rw [lexsort3_eq, lexsort3_eq, ← sortedPairs_unique k2 l hperm hs, hldef, List.map_map]
  rfl

end Verif
