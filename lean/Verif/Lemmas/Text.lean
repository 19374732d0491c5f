import Verif.Py.Text
import Mathlib.Tactic.IntervalCases
import Mathlib.Tactic.Ring

namespace Verif

theorem digVal_digChar {d : ℕ} (h : d < 10) : digVal (digChar d) = d := by interval_cases d <;> decide

theorem isDig_digChar {d : ℕ} (h : d < 10) : isDig (digChar d) = true := by interval_cases d <;> decide

theorem digitsLE_lt (f n : ℕ) : ∀ d ∈ digitsLE f n, d < 10 := by
  induction f generalizing n with
  | zero => simp [digitsLE]
  | succ f ih =>
    unfold digitsLE
    split
    · simpa
    · intro d hd
      rcases List.mem_cons.1 hd with rfl | h
      · omega
      · exact ih _ d h

theorem digitsLE_ne (f n : ℕ) : digitsLE (f + 1) n ≠ [] := by
  unfold digitsLE; split <;> simp

theorem natStr_dig (n : ℕ) : ∀ c ∈ natStr n, isDig c = true := by
  intro c hc
  obtain ⟨d, hd, rfl⟩ := List.mem_map.1 hc
  exact isDig_digChar (digitsLE_lt _ _ d (by simpa using hd))

theorem natStr_ne (n : ℕ) : natStr n ≠ [] := by
  simp [natStr, digitsLE_ne]

theorem natOfDigits_append (a : List Char) (c : Char) : natOfDigits (a ++ [c]) = natOfDigits a * 10 + digVal c := by
  simp [natOfDigits]

theorem natOfDigits_digitsLE (f n : ℕ) (h : n < f) : natOfDigits (((digitsLE f n).reverse).map digChar) = n := by
  induction f generalizing n with
  | zero => omega
  | succ f ih =>
    unfold digitsLE
    split
    · rename_i h10; simp [natOfDigits, digVal_digChar h10]
    · rename_i h10
      rw [List.reverse_cons, List.map_append, List.map_singleton, natOfDigits_append, ih (n / 10) (by omega),
        digVal_digChar (by omega)]
      omega

theorem natOfDigits_natStr (n : ℕ) : natOfDigits (natStr n) = n := natOfDigits_digitsLE (n + 1) n (by omega)

theorem natStr_inj {m n : ℕ} (h : natStr m = natStr n) : m = n := by
  rw [← natOfDigits_natStr m, h, natOfDigits_natStr]

/-- the first digit run of `pre ++ digits ++ post` when `pre` has no digit and `post` does not continue the run -/
theorem firstDigits_eq (pre ds post : List Char) (h1 : ∀ c ∈ pre, isDig c = false) (h2 : ∀ c ∈ ds, isDig c = true)
    (h3 : ds ≠ []) (h4 : ∀ c ∈ post.head?, isDig c = false) : firstDigits (pre ++ ds ++ post) = some ds := by
  have e1 : (pre ++ ds ++ post).dropWhile (fun c => !isDig c) = ds ++ post := by
    induction pre with
    | nil =>
      cases ds with
      | nil => exact absurd rfl h3
      | cons d ds => simp [h2 d (by simp)]
    | cons c pre ih =>
      have := ih (fun c hc => h1 c (by simp [hc]))
      simpa [h1 c (by simp)] using this
  have e2 : (ds ++ post).takeWhile isDig = ds := by
    rw [List.takeWhile_append_of_pos h2]
    cases post with
    | nil => simp
    | cons c post => simp [h4 c (by simp)]
  unfold firstDigits
  rw [e1]
  cases ds with
  | nil => exact absurd rfl h3
  | cons d ds =>
    simp only [List.cons_append] at e2 ⊢
    rw [e2]

theorem firstDigits_none {s : List Char} (h : ∀ c ∈ s, isDig c = false) : firstDigits s = none := by
  have : s.dropWhile (fun c => !isDig c) = [] := by
    induction s with
    | nil => rfl
    | cons c s ih => simpa [h c (by simp)] using ih (fun c hc => h c (by simp [hc]))
  simp [firstDigits, this]

end Verif
