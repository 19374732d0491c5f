import Verif.Model.GeneralCell
import Mathlib.Tactic.Linarith
import Mathlib.Tactic.Ring
import Mathlib.Tactic.FieldSimp
import Mathlib.Tactic.NormNum

/-! # Rounding lemmas -/

namespace Verif

theorem rint_intCast (n : ℤ) : rint (n : ℚ) = n := by
  simp [rint]

/-- half-even rounding commutes with even integer shifts -/
theorem rint_add_even (x : ℚ) (k : ℤ) : rint (x + ((2 * k : ℤ) : ℚ)) = rint x + 2 * k := by
  unfold rint
  simp only [Int.floor_add_intCast]
  have h1 : x + ((2 * k : ℤ) : ℚ) - ((⌊x⌋ + 2 * k : ℤ) : ℚ) = x - ⌊x⌋ := by push_cast; ring
  rw [h1]
  have h2 : (⌊x⌋ + 2 * k) % 2 = ⌊x⌋ % 2 := by omega
  rw [h2]
  split_ifs <;> ring

theorem rint_sub_le (x : ℚ) : |x - rint x| ≤ 1 / 2 := by
  unfold rint
  have h0 : (⌊x⌋ : ℚ) ≤ x := Int.floor_le x
  have h1 : x < ⌊x⌋ + 1 := Int.lt_floor_add_one x
  simp only
  rw [abs_le]
  split_ifs <;> push_cast <;> constructor <;> linarith

theorem rint_mono {x y : ℚ} (h : x ≤ y) : rint x ≤ rint y := by
  have hf : ⌊x⌋ ≤ ⌊y⌋ := Int.floor_le_floor h
  have hx0 : (⌊x⌋ : ℚ) ≤ x := Int.floor_le x
  have hy1 : y < ⌊y⌋ + 1 := Int.lt_floor_add_one y
  by_cases hlt : ⌊x⌋ < ⌊y⌋
  · have h1 : rint x ≤ ⌊x⌋ + 1 := by unfold rint; simp only; split_ifs <;> omega
    have h2 : ⌊y⌋ ≤ rint y := by unfold rint; simp only; split_ifs <;> omega
    omega
  · have he : ⌊x⌋ = ⌊y⌋ := by omega
    unfold rint
    simp only
    rw [he]
    split_ifs <;> first | omega | (exfalso; linarith)

/-- integers close to a rational are what `rint` returns -/
theorem rint_eq_of_abs_lt (x : ℚ) (n : ℤ) (h : |x - n| < 1 / 2) : rint x = n := by
  have h1 := rint_sub_le x
  rw [abs_lt] at h
  rw [abs_le] at h1
  have h2 : (rint x : ℚ) - n < 1 := by linarith
  have h3 : -1 < (rint x : ℚ) - n := by linarith
  have h2' : rint x - n < 1 := by exact_mod_cast h2
  have h3' : -1 < rint x - n := by exact_mod_cast h3
  omega

theorem rint_mul_pow_add_int (k : ℕ) (hk : 0 < k) (x : ℚ) (z : ℤ) :
    rint ((x + z) * 10 ^ k) = rint (x * 10 ^ k) + z * 10 ^ k := by
  obtain ⟨j, rfl⟩ : ∃ j, k = j + 1 := ⟨k - 1, by omega⟩
  have : (x + z) * 10 ^ (j + 1) = x * 10 ^ (j + 1) + ((2 * (z * 5 * 10 ^ j) : ℤ) : ℚ) := by
    push_cast; ring
  rw [this, rint_add_even]
  ring

theorem around_add_int (k : ℕ) (hk : 0 < k) (x : ℚ) (z : ℤ) : around k (x + z) = around k x + z := by
  unfold around
  rw [rint_mul_pow_add_int k hk]
  push_cast
  field_simp

theorem around_idem (k : ℕ) (x : ℚ) : around k (around k x) = around k x := by
  unfold around
  rw [div_mul_cancel₀ _ (by positivity), rint_intCast]

theorem around_close (k : ℕ) (x : ℚ) : |x - around k x| ≤ 1 / (2 * 10 ^ k) := by
  unfold around
  have h := rint_sub_le (x * 10 ^ k)
  have hp : (0 : ℚ) < 10 ^ k := by positivity
  have : x - (rint (x * 10 ^ k) : ℚ) / 10 ^ k = (x * 10 ^ k - rint (x * 10 ^ k)) / 10 ^ k := by
    field_simp
  rw [this, abs_div, abs_of_pos hp, div_le_div_iff₀ hp (by positivity)]
  nlinarith

theorem mod1_add_int (x : ℚ) (z : ℤ) : mod1 (x + z) = mod1 x := by
  unfold mod1; rw [Int.floor_add_intCast]; push_cast; ring

theorem mod1_nonneg (x : ℚ) : 0 ≤ mod1 x := by
  unfold mod1; linarith [Int.floor_le x]

theorem mod1_lt_one (x : ℚ) : mod1 x < 1 := by
  unfold mod1; linarith [Int.lt_floor_add_one x]

theorem mod1_thousandth (n : ℤ) : mod1 ((n : ℚ) / 10 ^ 3) = ((n % 1000 : ℤ) : ℚ) / 10 ^ 3 := by
  have h := Int.emod_add_mul_ediv n 1000
  have hn : (n : ℚ) / 10 ^ 3 = ((n % 1000 : ℤ) : ℚ) / 10 ^ 3 + ((n / 1000 : ℤ) : ℚ) := by
    have : (n : ℚ) = ((n % 1000 : ℤ) : ℚ) + 1000 * ((n / 1000 : ℤ) : ℚ) := by exact_mod_cast h.symm
    rw [this]; ring
  rw [hn, mod1_add_int]
  unfold mod1
  have h0 : 0 ≤ n % 1000 := Int.emod_nonneg _ (by norm_num)
  have h1 : n % 1000 < 1000 := Int.emod_lt_of_pos _ (by norm_num)
  have : ⌊((n % 1000 : ℤ) : ℚ) / 10 ^ 3⌋ = 0 := by
    rw [Int.floor_eq_zero_iff]
    constructor
    · positivity
    · rw [div_lt_one (by positivity)]
      have : ((n % 1000 : ℤ) : ℚ) < 1000 := by exact_mod_cast h1
      linarith
  rw [this]; simp

/-- closed form of the coordinate reduction -/
theorem wrap3_eq (x : ℚ) : wrap3 x = ((rint (x * 10 ^ 3) % 1000 : ℤ) : ℚ) / 10 ^ 3 := by
  unfold wrap3
  conv_lhs => rw [around.eq_1 3 x]
  rw [mod1_thousandth]
  unfold around
  rw [div_mul_cancel₀ _ (by positivity), rint_intCast]

theorem wrap3_add_int (x : ℚ) (z : ℤ) : wrap3 (x + z) = wrap3 x := by
  unfold wrap3
  rw [around_add_int 3 (by norm_num), mod1_add_int]

theorem wrap3_nonneg (x : ℚ) : 0 ≤ wrap3 x := by
  rw [wrap3_eq]
  have : 0 ≤ rint (x * 10 ^ 3) % 1000 := Int.emod_nonneg _ (by norm_num)
  have : (0 : ℚ) ≤ ((rint (x * 10 ^ 3) % 1000 : ℤ) : ℚ) := by exact_mod_cast this
  positivity

theorem wrap3_lt_one (x : ℚ) : wrap3 x < 1 := by
  rw [wrap3_eq, div_lt_one (by positivity)]
  have : rint (x * 10 ^ 3) % 1000 < 1000 := Int.emod_lt_of_pos _ (by norm_num)
  have : ((rint (x * 10 ^ 3) % 1000 : ℤ) : ℚ) < 1000 := by exact_mod_cast this
  linarith

/-- the reduced coordinate is within half a thousandth of the coordinate, modulo 1 -/
theorem wrap3_close (x : ℚ) : ∃ z : ℤ, |x - (wrap3 x + z)| ≤ 1 / 2000 := by
  refine ⟨rint (x * 10 ^ 3) / 1000, ?_⟩
  have h := around_close 3 x
  have h2 := Int.emod_add_mul_ediv (rint (x * 10 ^ 3)) 1000
  have h3 : ((rint (x * 10 ^ 3) % 1000 : ℤ) : ℚ) + 1000 * ((rint (x * 10 ^ 3) / 1000 : ℤ) : ℚ)
      = (rint (x * 10 ^ 3) : ℚ) := by exact_mod_cast h2
  have : wrap3 x + ((rint (x * 10 ^ 3) / 1000 : ℤ) : ℚ) = around 3 x := by
    rw [wrap3_eq]; unfold around; rw [← h3]; ring
  rw [this]
  norm_num at h ⊢
  exact h

end Verif
