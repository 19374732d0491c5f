import Verif.Model.Binary64Factors
import Verif.Spec.Root64
import Verif.Lemmas.Binary64
import Verif.Props.Hnf
import Mathlib.Tactic.Ring
import Mathlib.Tactic.Linarith
import Mathlib.Tactic.Positivity
import Mathlib.Tactic.GCongr

/-! # C127: the divisors of the volume with a square root in double precision -/

namespace Verif
open Spec

/-! ## which bounds give the divisors -/

theorem mem_factorsRawIn {r : ℕ} (n : ℕ) (hr : 0 < r) :
    ∃ l, factorsRawIn r n = .ok l ∧ ∀ x, x ∈ l ↔ ∃ i, 1 ≤ i ∧ i ≤ r ∧ i ∣ n ∧ (x = i ∨ x = n / i) := by
  have hmem : ∀ i, i ∈ (List.range' 1 r).filter (fun i => n % i == 0) ↔ 1 ≤ i ∧ i ≤ r ∧ i ∣ n := by
    intro i
    rw [List.mem_filter, List.mem_range'_1, beq_iff_eq, Nat.dvd_iff_mod_eq_zero]
    omega
  have h1 := (hmem 1).2 ⟨le_refl _, hr, one_dvd _⟩
  unfold factorsRawIn
  split
  · rename_i h
    rw [h] at h1
    simp at h1
  · refine ⟨_, rfl, fun x => ?_⟩
    simp only [List.mem_flatMap, List.mem_cons, List.not_mem_nil, or_false]
    constructor
    · rintro ⟨i, hi, h⟩
      obtain ⟨a, b, c⟩ := (hmem i).1 hi
      exact ⟨i, a, b, c, h⟩
    · rintro ⟨i, a, b, c, h⟩
      exact ⟨i, (hmem i).2 ⟨a, b, c⟩, h⟩

/-- **C127.** The set is the set of divisors exactly if no divisor up to the square root exceeds the bound; a bound that is too large does
no harm. -/
theorem C127_bound {r n : ℕ} (hn : 0 < n) (hr : 0 < r) :
    ∃ l, factorsRawIn r n = .ok l ∧ (∀ x ∈ l, x ∣ n) ∧ ((∀ x, x ∣ n → x ∈ l) ↔ ∀ i, i ∣ n → i * i ≤ n → i ≤ r) := by
  obtain ⟨l, h1, h2⟩ := mem_factorsRawIn n hr
  refine ⟨l, h1, fun x hx => ?_, fun h i hi hin => ?_, fun h x hx => ?_⟩
  · obtain ⟨i, _, _, hi, rfl | rfl⟩ := (h2 x).1 hx
    · exact hi
    · exact Nat.div_dvd_of_dvd hi
  · obtain ⟨j, hj, hjr, hjn, rfl | rfl⟩ := (h2 i).1 (h i hi)
    · exact hjr
    · obtain ⟨k, rfl⟩ := hjn
      rw [Nat.mul_div_cancel_left _ hj] at hin
      have hk : 0 < k := Nat.pos_of_mul_pos_left hn
      rw [Nat.mul_div_cancel_left _ hj]
      exact (Nat.le_of_mul_le_mul_right hin hk).trans hjr
  · have hx0 : 0 < x := Nat.pos_of_dvd_of_pos hx hn
    obtain ⟨y, rfl⟩ := hx
    have hy0 : 0 < y := Nat.pos_of_mul_pos_left hn
    rcases le_total x y with hxy | hxy
    · exact (h2 x).2 ⟨x, hx0, h x (Dvd.intro _ rfl) (Nat.mul_le_mul_left x hxy), Dvd.intro _ rfl, .inl rfl⟩
    · refine (h2 x).2 ⟨y, hy0, h y (Dvd.intro_left _ rfl) (Nat.mul_le_mul_right y hxy), Dvd.intro_left _ rfl, .inr ?_⟩
      rw [Nat.mul_div_cancel _ hy0]

/-! ## what the machine computes -/

theorem isDouble_nat {k : ℕ} (h : k < 2 ^ 53) : IsDouble (k : ℚ) :=
  ⟨k, 0, by rw [abs_of_nonneg (by positivity)]; exact_mod_cast h, by norm_num, by simp⟩

/-- a nearest root is a faithful one -/
theorem nearest_faithful {x s : ℚ} (h : NearestRoot x s) : FaithfulRoot x s := by
  obtain ⟨h1, h2, h3, h4⟩ := h
  refine ⟨h1, h2, fun d hd h0 hx => ?_, fun d hd h0 hx => ?_⟩
  · by_contra hc
    push Not at hc
    have := h3 d hd hc
    nlinarith
  · by_contra hc
    push Not at hc
    have := h4 d hd h0 hc
    nlinarith

/-- **C127.** Below `2⁵²` the computed integer is the integer square root, if the error of the power is below one unit in the last
place. -/
theorem C127_exact {n : ℕ} (hn : n < 2 ^ 52) {s : ℚ} (hs : FaithfulRoot (fl64 n) s) : ⌊s⌋.toNat = Nat.sqrt n := by
  obtain ⟨-, h0, hlo, hhi⟩ := hs
  have hfn : fl64 n = n := by
    have := fl64_int (n := n) (by rw [abs_of_nonneg (by positivity)]; exact_mod_cast hn.trans (by norm_num))
    exact_mod_cast this
  rw [hfn] at hlo hhi
  set k := Nat.sqrt n with hk
  have h1 : k * k ≤ n := Nat.sqrt_le n
  have h2 : n < (k + 1) * (k + 1) := Nat.lt_succ_sqrt n
  have hk26 : k + 1 ≤ 2 ^ 26 := by
    by_contra hc
    push Not at hc
    have : 2 ^ 26 ≤ k := by omega
    have := Nat.mul_le_mul this this
    omega
  have hle : (k : ℚ) ≤ s := hlo k (isDouble_nat (by omega)) (by positivity) (by rw [sq]; exact_mod_cast h1)
  have hK : ((k : ℚ) + 1) ≤ 2 ^ 26 := by exact_mod_cast hk26
  have hk0 : (0 : ℚ) ≤ k := by positivity
  have hlt : s ≤ (k + 1 : ℚ) - 1 / 2 ^ 27 := by
    refine hhi _ ⟨(k + 1) * 2 ^ 27 - 1, -27, ?_, by norm_num, ?_⟩ (by norm_num; linarith) ?_
    · have : (k : ℤ) + 1 ≤ 2 ^ 26 := by exact_mod_cast hk26
      rw [abs_of_nonneg (by omega)]
      omega
    · push_cast
      rw [zpow_neg]
      norm_num
      ring
    · have h3 : (n : ℚ) + 1 ≤ (k + 1) ^ 2 := by rw [sq]; exact_mod_cast h2
      have : ((k + 1 : ℚ) - 1 / 2 ^ 27) ^ 2 = (k + 1) ^ 2 - (k + 1) / 2 ^ 26 + (1 / 2 ^ 27) ^ 2 := by ring
      rw [this]
      have : ((k : ℚ) + 1) / 2 ^ 26 ≤ 1 := by rw [div_le_one (by positivity)]; exact hK
      have : (0 : ℚ) ≤ (1 / 2 ^ 27) ^ 2 := by positivity
      linarith
  have : ⌊s⌋ = (k : ℤ) := by
    rw [Int.floor_eq_iff]
    push_cast
    refine ⟨hle, hlt.trans_lt ?_⟩
    norm_num
  rw [this]
  rfl

/-- a double from `2ᵉ` on is a multiple of `2ᵉ⁻⁵²` -/
theorem double_multiple {e : ℕ} {d : ℚ} (hd : IsDouble d) (h : 2 ^ e ≤ d) : ∃ z : ℤ, d = z * 2 ^ ((e : ℤ) - 52) := by
  obtain ⟨m, j, hm, -, rfl⟩ := hd
  have hj : (e : ℤ) - 52 ≤ j := by
    by_contra hc
    push Not at hc
    have h3 : (m : ℚ) < 2 ^ (53 : ℤ) := by exact_mod_cast (abs_lt.1 hm).2
    have h4 : (m : ℚ) * 2 ^ j < 2 ^ (53 : ℤ) * 2 ^ j := mul_lt_mul_of_pos_right h3 (two_zpow_pos j)
    rw [← zpow_add₀ (by norm_num)] at h4
    have h5 : (2 : ℚ) ^ (53 + j) ≤ 2 ^ (e : ℤ) := zpow_le_zpow_right₀ (by norm_num) (by omega)
    rw [zpow_natCast] at h5
    linarith
  obtain ⟨a, rfl⟩ : ∃ a : ℕ, j = ((e : ℤ) - 52) + a := ⟨(j - ((e : ℤ) - 52)).toNat, by omega⟩
  refine ⟨m * 2 ^ a, ?_⟩
  rw [zpow_add₀ (by norm_num), zpow_natCast]
  push_cast
  ring

/-- a double below a natural number that is not a power of two keeps its distance -/
theorem double_gap {k e : ℕ} (he : e ≤ 52) (h1 : 2 ^ e < k) {s : ℚ} (hs : IsDouble s) (hsk : s < k) :
    s ≤ k - 2 ^ ((e : ℤ) - 52) := by
  have hle1 : (2 : ℚ) ^ ((e : ℤ) - 52) ≤ 1 := by
    rw [← zpow_zero (2 : ℚ)]
    exact zpow_le_zpow_right₀ (by norm_num) (by omega)
  have hk1 : (2 : ℚ) ^ e + 1 ≤ k := by exact_mod_cast h1
  rcases lt_or_ge s (2 ^ e) with hse | hse
  · linarith
  obtain ⟨z, rfl⟩ := double_multiple hs hse
  obtain ⟨b, hb⟩ : ∃ b : ℕ, e + b = 52 := ⟨52 - e, by omega⟩
  have hu := two_zpow_pos ((e : ℤ) - 52)
  set u := (2 : ℚ) ^ ((e : ℤ) - 52) with hudef
  have hkb : (k : ℚ) = ((k * 2 ^ b : ℤ) : ℚ) * u := by
    have : (2 : ℚ) ^ b * u = 1 := by
      rw [hudef, ← zpow_natCast, ← zpow_add₀ (by norm_num), ← zpow_zero (2 : ℚ)]
      congr 1
      omega
    push_cast
    rw [mul_assoc, this, mul_one]
  rw [hkb] at hsk ⊢
  have h3 := lt_of_mul_lt_mul_right hsk hu.le
  have h4 : (z : ℚ) + 1 ≤ ((k * 2 ^ b : ℤ) : ℚ) := by exact_mod_cast (by exact_mod_cast h3 : z < (k : ℤ) * 2 ^ b)
  nlinarith

/-- **C127.** The computed root does not fall below the integer square root: up to `2⁵³` if its error is below one unit in the last place,
up to `2¹⁰⁶` if it is rounded to nearest, although the volume itself is rounded on the way. -/
theorem C127_root {n : ℕ} {s : ℚ} (h : n ≤ 2 ^ 53 ∧ FaithfulRoot (fl64 n) s ∨ n < 2 ^ 106 ∧ NearestRoot (fl64 n) s) :
    Nat.sqrt n ≤ ⌊s⌋.toNat := by
  have key : ((Nat.sqrt n : ℕ) : ℚ) ≤ s := by
    set k := Nat.sqrt n with hk
    have h1 : k * k ≤ n := Nat.sqrt_le n
    have h2 : n < (k + 1) * (k + 1) := Nat.lt_succ_sqrt n
    rcases h with ⟨hn, -, h0, hlo, -⟩ | ⟨hn, hs⟩
    · have hfn : fl64 n = n := by
        apply fl64_double
        rcases hn.lt_or_eq with hn | rfl
        · exact isDouble_nat hn
        · exact ⟨1, 53, by norm_num, by norm_num, by norm_num⟩
      rw [hfn] at hlo
      have hk53 : k < 2 ^ 53 := by
        by_contra hc
        push Not at hc
        have := Nat.mul_le_mul hc hc
        omega
      exact hlo k (isDouble_nat hk53) (by positivity) (by rw [sq]; exact_mod_cast h1)
    · have hk53 : k < 2 ^ 53 := by
        by_contra hc
        push Not at hc
        have := Nat.mul_le_mul hc hc
        omega
      by_contra hc
      push Not at hc
      rcases Nat.eq_zero_or_pos k with h0 | h0
      · rw [h0] at hc
        have := hs.2.1
        simp at hc
        linarith
      obtain ⟨hd, hs0, hup, -⟩ := hs
      have hmid := hup k (isDouble_nat hk53) hc
      set e := Nat.log 2 k with he
      have he1 : 2 ^ e ≤ k := Nat.pow_log_le_self 2 h0.ne'
      have he2 : k < 2 ^ (e + 1) := Nat.lt_pow_succ_log_self (by norm_num) k
      have he52 : e ≤ 52 := by
        by_contra h
        push Not at h
        have : 2 ^ 53 ≤ 2 ^ e := Nat.pow_le_pow_right (by norm_num) h
        omega
      have hnk : ((k : ℚ)) ^ 2 ≤ n := by rw [sq]; exact_mod_cast h1
      rcases he1.lt_or_eq with he1 | he1
      · -- not a power of two
        have hgap := double_gap he52 he1 hd hc
        have hn0 : (n : ℚ) ≠ 0 := by
          have : 0 < k * k := Nat.mul_pos h0 h0
          have : n ≠ 0 := by omega
          exact_mod_cast this
        have hn2 : (n : ℚ) < 2 ^ (2 * (e : ℤ) + 2) := by
          have h3 : (k + 1) * (k + 1) ≤ 2 ^ (e + 1) * 2 ^ (e + 1) := Nat.mul_le_mul he2 he2
          have h4 : n < 2 ^ (2 * e + 2) := by
            refine (h2.trans_le h3).trans_eq ?_
            rw [← pow_add]
            congr 1
            omega
          have : (2 : ℚ) ^ (2 * (e : ℤ) + 2) = ((2 ^ (2 * e + 2) : ℕ) : ℚ) := by
            push_cast
            rw [← zpow_natCast]
            push_cast
            rfl
          rw [this]
          exact_mod_cast h4
        have hulp : ulpExp n ≤ 2 * (e : ℤ) - 51 := by
          have hlog : Int.log 2 |(n : ℚ)| < 2 * (e : ℤ) + 2 := by
            have h3 := Int.zpow_log_le_self (b := 2) (by norm_num) (abs_pos.2 hn0)
            rw [abs_of_nonneg (by positivity)] at h3 ⊢
            push_cast at h3
            exact (zpow_lt_zpow_iff_right₀ (by norm_num : (1 : ℚ) < 2)).1 (h3.trans_lt hn2)
          unfold ulpExp
          apply max_le <;> omega
        have herr := fl64_err_ulp n
        have h5 : (2 : ℚ) ^ ulpExp n / 2 ≤ 2 ^ (2 * (e : ℤ) - 52) := by
          have : (2 : ℚ) ^ (2 * (e : ℤ) - 51) = 2 ^ (2 * (e : ℤ) - 52) * 2 := by
            rw [← zpow_add_one₀ (by norm_num)]
            congr 1
            ring
          have h6 : (2 : ℚ) ^ ulpExp n ≤ 2 ^ (2 * (e : ℤ) - 51) := zpow_le_zpow_right₀ (by norm_num) hulp
          rw [this] at h6
          linarith
        have h6 : (k : ℚ) ^ 2 - 2 ^ (2 * (e : ℤ) - 52) ≤ fl64 n := by
          have := (abs_le.1 (herr.trans h5)).1
          linarith
        set u := (2 : ℚ) ^ ((e : ℤ) - 52) with hu
        have hu0 : 0 < u := two_zpow_pos _
        have hu1 : u ≤ 1 := by
          rw [hu, ← zpow_zero (2 : ℚ)]
          exact zpow_le_zpow_right₀ (by norm_num) (by omega)
        have hue : (2 : ℚ) ^ (2 * (e : ℤ) - 52) = 2 ^ e * u := by
          rw [hu, ← zpow_natCast, ← zpow_add₀ (by norm_num)]
          congr 1
          ring
        rw [hue] at h6
        have hk1 : (2 : ℚ) ^ e + 1 ≤ k := by exact_mod_cast he1
        have h7 : ((s + k) / 2) ^ 2 ≤ (k - u / 2) ^ 2 := by
          apply pow_le_pow_left₀ (by positivity)
          linarith
        have h8 : (k : ℚ) ^ 2 - 2 ^ e * u ≤ (k - u / 2) ^ 2 := h6.trans (hmid.trans h7)
        have h9 : (k : ℚ) * u ≤ 2 ^ e * u + u * u / 4 := by nlinarith
        nlinarith
      · -- a power of two
        have hx : (k : ℚ) ^ 2 ≤ fl64 n := by
          by_contra hcx
          push Not at hcx
          have hkd : IsDouble ((k : ℚ) ^ 2) := ⟨1, 2 * e, by norm_num, by omega, by
            rw [← he1]
            push_cast
            rw [one_mul, ← pow_mul, mul_comm e 2, ← zpow_natCast]
            push_cast
            rfl⟩
          have := fl64_nearest n _ hkd
          rw [abs_of_nonpos (by linarith), abs_of_nonpos (by linarith)] at this
          linarith
        have hk1 : (0 : ℚ) < k := by exact_mod_cast h0
        nlinarith
  have : ((Nat.sqrt n : ℕ) : ℤ) ≤ ⌊s⌋ := Int.le_floor.2 (by exact_mod_cast key)
  omega

/-! ## the whole enumeration -/

theorem factorsIn_eq {root : ℕ → ℚ} {setList setList' : List ℕ → List ℕ} {N : ℕ}
    (h : ∀ n < N, factorsIn root setList n = factors setList' n) {n : ℕ} (hn : n < N) :
    hnfMatsIn root setList n = hnfMats setList' n ∧ hnfMats2DIn root setList n = hnfMats2D setList' n := by
  have h1 : hnfMatsOfIn root setList n = hnfMatsOf setList' n := by
    funext a
    unfold hnfMatsOfIn hnfMatsOf
    rw [h _ ((Nat.div_le_self n a).trans_lt hn)]
  constructor
  · unfold hnfMatsIn hnfMats
    rw [h n hn, h1]
  · unfold hnfMats2DIn hnfMats2D
    rw [h n hn]

/-- what the two enumerations make of a volume is the same with the computed root and the set order `setList` as with the exact root and
the set order `setList'` -/
def SameEnumeration (root : ℕ → ℚ) (setList setList' : List ℕ → List ℕ) (n : ℕ) : Prop :=
  ∀ itemFirst unit rots, hnfsFromNIn root setList itemFirst unit rots n = hnfsFromN setList' itemFirst unit rots n ∧
    hnfsFromN2DIn root setList itemFirst unit rots n = hnfsFromN2D setList' itemFirst unit rots n

theorem sameEnumeration {root : ℕ → ℚ} {setList setList' : List ℕ → List ℕ} {N : ℕ}
    (h : ∀ n < N, factorsIn root setList n = factors setList' n) {n : ℕ} (hn : n < N) : SameEnumeration root setList setList' n := by
  intro itemFirst unit rots
  obtain ⟨h1, h2⟩ := factorsIn_eq h hn
  constructor
  · unfold hnfsFromNIn hnfsFromN hnfsFromNDups
    rw [h1]
    cases hnfMats setList' n <;> rfl
  · unfold hnfsFromN2DIn hnfsFromN2D hnfsFromNDups2D
    rw [h2]
    cases hnfMats2D setList' n <;> rfl

/-- **C127.** For volumes below `2⁵²` the superlattices are those the exact root gives, in the same order. -/
theorem C127_small {root : ℕ → ℚ} (hroot : ∀ n : ℕ, n < 2 ^ 52 → FaithfulRoot (fl64 n) (root n)) (setList : List ℕ → List ℕ) {n : ℕ}
    (hn : n < 2 ^ 52) : SameEnumeration root setList setList n := by
  refine sameEnumeration (N := 2 ^ 52) (fun m hm => ?_) hn
  unfold factorsIn factors
  rw [C127_exact hm (hroot m hm)]
  rfl

/-- the root of 0 is 0 -/
theorem root_zero {s : ℚ} (h : FaithfulRoot (fl64 (0 : ℕ)) s) : s = 0 := by
  have f0 : fl64 ((0 : ℕ) : ℚ) = 0 := by simp [fl64, rint]
  rw [f0] at h
  exact le_antisymm (h.2.2.2 0 ⟨0, 0, by norm_num, by norm_num, by simp⟩ le_rfl (by norm_num)) h.2.1

theorem factorsRaw_inj {m n : ℕ} {l : List ℕ} (hm : 0 < m) (hn : 0 < n) (h1 : factorsRaw m = .ok l) (h2 : factorsRaw n = .ok l) :
    m = n := by
  obtain ⟨a, ha, ha'⟩ := factorsRaw_mem hm
  obtain ⟨b, hb, hb'⟩ := factorsRaw_mem hn
  rw [h1] at ha
  rw [h2] at hb
  obtain rfl := Except.ok.inj ha
  obtain rfl := Except.ok.inj hb
  exact Nat.dvd_antisymm ((hb' m).1 ((ha' m).2 dvd_rfl)) ((ha' n).1 ((hb' n).2 dvd_rfl))

/-- **C127.** For volumes below `2¹⁰⁶`, with the power rounded to nearest, the superlattices are those the exact root gives with some
order of the sets: everything that holds for every order of the sets holds for the program. -/
theorem C127_same {root : ℕ → ℚ} (hroot : ∀ n : ℕ, n < 2 ^ 106 → NearestRoot (fl64 n) (root n)) {setList : List ℕ → List ℕ}
    (hs : SetOrder setList) : ∃ setList', SetOrder setList' ∧ ∀ n : ℕ, n < 2 ^ 106 → SameEnumeration root setList setList' n := by
  classical
  -- the list the program makes of the divisors of `n`
  have hraw : ∀ n, 0 < n ∧ n < 2 ^ 106 → ∃ l, factorsRawIn ⌊root n⌋.toNat n = .ok l ∧ ∀ x, x ∈ l ↔ x ∣ n := by
    rintro n ⟨h0, hn⟩
    have hr := C127_root (.inr ⟨hn, hroot n hn⟩)
    have hpos : 0 < Nat.sqrt n := Nat.sqrt_pos.2 h0
    obtain ⟨l, h1, h2, h3⟩ := C127_bound h0 (hpos.trans_le hr)
    exact ⟨l, h1, fun x => ⟨h2 x, h3.2 (fun i _ hi => (Nat.le_sqrt.2 hi).trans hr) x⟩⟩
  choose f hf hf' using hraw
  let P : List ℕ → ℕ → Prop := fun l n => (0 < n ∧ n < 2 ^ 106) ∧ factorsRaw n = .ok l
  let setList' : List ℕ → List ℕ := fun l => if h : ∃ n, P l n then setList (f h.choose h.choose_spec.1) else setList l
  refine ⟨setList', fun l => ?_, fun n hn => sameEnumeration (N := 2 ^ 106) (fun m hm => ?_) hn⟩
  · by_cases h : ∃ n, P l n
    · have e : setList' l = setList (f h.choose h.choose_spec.1) := dif_pos h
      rw [e]
      refine ⟨(hs _).1, fun x => ?_⟩
      rw [(hs _).2, hf']
      obtain ⟨a, ha, ha'⟩ := factorsRaw_mem h.choose_spec.1.1
      rw [h.choose_spec.2] at ha
      obtain rfl := Except.ok.inj ha
      exact (ha' x).symm
    · have e : setList' l = setList l := dif_neg h
      rw [e]
      exact hs l
  · rcases Nat.eq_zero_or_pos m with rfl | h0
    · unfold factorsIn factors
      rw [root_zero (nearest_faithful (hroot 0 hm))]
      rfl
    · obtain ⟨l, hl, -⟩ := factorsRaw_mem h0
      have h : ∃ n, P l n := ⟨m, ⟨h0, hm⟩, hl⟩
      have hc : h.choose = m := factorsRaw_inj h.choose_spec.1.1 h0 h.choose_spec.2 hl
      have e : setList' l = setList (f h.choose h.choose_spec.1) := dif_pos h
      have e2 : ∀ (k : ℕ) (hk : 0 < k ∧ k < 2 ^ 106), k = m → f k hk = f m ⟨h0, hm⟩ := by
        rintro k hk rfl
        rfl
      unfold factorsIn factors
      rw [hl, hf m ⟨h0, hm⟩]
      simp only [bind, Except.bind, pure, Except.pure]
      rw [e, e2 _ _ hc]

/-! ## the bounds -/

/-- **C127.** A root that is too small loses the square root of a square. -/
theorem C127_lost {r k : ℕ} (hr : 0 < r) (hk : r < k) : ∃ l, factorsRawIn r (k * k) = .ok l ∧ k ∉ l := by
  obtain ⟨l, h1, h2⟩ := mem_factorsRawIn (k * k) hr
  refine ⟨l, h1, fun h => ?_⟩
  obtain ⟨i, hi, hir, ⟨j, hj⟩, rfl | h⟩ := (h2 k).1 h
  · omega
  · rw [hj, Nat.mul_div_cancel_left _ hi] at h
    subst h
    have := Nat.eq_of_mul_eq_mul_right (by omega : 0 < k) hj
    omega

/-- **C127.** Rounding to nearest is needed for large volumes: at `(2²⁷ + 1)²` the volume is rounded down, and a power with an error
below one unit in the last place may come out below `2²⁷ + 1`. -/
theorem C127_faithful_loses : ∃ s, FaithfulRoot (fl64 ((2 ^ 27 + 1) * (2 ^ 27 + 1) : ℕ)) s ∧
    ∃ l, factorsRawIn ⌊s⌋.toNat ((2 ^ 27 + 1) * (2 ^ 27 + 1)) = .ok l ∧ 2 ^ 27 + 1 ∉ l := by
  have hx : fl64 ((2 ^ 27 + 1) * (2 ^ 27 + 1) : ℕ) = (2 ^ 27 + 1) ^ 2 - 1 := by
    have : ((((2 ^ 27 + 1) * (2 ^ 27 + 1) : ℕ)) : ℚ) = 18014398777917441 := by norm_num
    rw [this]
    norm_num
    decide +kernel
  rw [hx]
  have hfloor : ⌊((2 : ℚ) ^ 27 + 1) - 2 ^ (-25 : ℤ)⌋ = 2 ^ 27 := by
    rw [Int.floor_eq_iff]
    norm_num
  refine ⟨(2 ^ 27 + 1) - 2 ^ (-25 : ℤ), ⟨⟨(2 ^ 27 + 1) * 2 ^ 25 - 1, -25, by norm_num, by norm_num, by norm_num⟩, by norm_num,
    fun d hd h0 h => ?_, fun d hd h0 h => ?_⟩, ?_⟩
  · have hlt : d < ((2 ^ 27 + 1 : ℕ) : ℚ) := by
      push_cast
      nlinarith
    have := double_gap (k := 2 ^ 27 + 1) (e := 27) (by norm_num) (by norm_num) hd hlt
    push_cast at this
    norm_num at this ⊢
    linarith
  · have h1 : ((2 : ℚ) ^ 27 + 1 - 2 ^ (-25 : ℤ)) ^ 2 ≤ (2 ^ 27 + 1) ^ 2 - 1 := by norm_num
    by_contra hc
    push Not at hc
    nlinarith
  · rw [hfloor]
    exact C127_lost (by norm_num) (by norm_num)

/-! ## Examples -/

/-- every number from 1 on has a nearest root -/
theorem exists_nearestRoot {x : ℚ} (hx : 1 ≤ x) : ∃ s, NearestRoot x s := by
  obtain ⟨e, he1, he2⟩ : ∃ e : ℕ, (4 : ℚ) ^ e ≤ x ∧ x < 4 ^ (e + 1) := by
    obtain ⟨e, h1, h2⟩ := exists_nat_pow_near hx (by norm_num : (1 : ℚ) < 4)
    exact ⟨e, h1, h2⟩
  have h4 : ∀ a : ℕ, (4 : ℚ) ^ a = (2 ^ a) ^ 2 := fun a => by rw [← pow_mul, mul_comm, pow_mul]; norm_num
  have hu := two_zpow_pos ((e : ℤ) - 52)
  have hue : (2 : ℚ) ^ 52 * 2 ^ ((e : ℤ) - 52) = 2 ^ e := by
    rw [← zpow_natCast, ← zpow_natCast, ← zpow_add₀ (by norm_num)]
    congr 1
    push_cast
    ring
  have hmult : ∀ d, IsDouble d → (2 : ℚ) ^ e ≤ d → ∃ z : ℤ, d = z * 2 ^ ((e : ℤ) - 52) := fun d hd h => double_multiple hd h
  set u := (2 : ℚ) ^ ((e : ℤ) - 52) with hudef
  set m := Nat.sqrt ⌊x / u ^ 2⌋₊ with hm
  have hq : (0 : ℚ) ≤ x / u ^ 2 := by positivity
  have hm1 : (m * u) ^ 2 ≤ x := by
    have h1 : ((m * m : ℕ) : ℚ) ≤ x / u ^ 2 := (Nat.cast_le.2 (Nat.sqrt_le _)).trans (Nat.floor_le hq)
    rw [le_div_iff₀ (by positivity)] at h1
    push_cast at h1
    linarith
  have hm2 : x < ((m + 1) * u) ^ 2 := by
    have h1 : x / u ^ 2 < (((m + 1) * (m + 1) : ℕ) : ℚ) := (Nat.floor_lt hq).1 (Nat.lt_succ_sqrt _)
    rw [div_lt_iff₀ (by positivity)] at h1
    push_cast at h1
    linarith
  have hlow : (2 : ℚ) ^ e ≤ m * u := by
    have h1 : (2 ^ 52 : ℚ) < m + 1 := by
      rw [h4, ← hue] at he1
      have := lt_of_pow_lt_pow_left₀ 2 (by positivity) (he1.trans_lt hm2)
      exact lt_of_mul_lt_mul_right this hu.le
    have h2 : 2 ^ 52 ≤ m := by
      have : 2 ^ 52 < m + 1 := by exact_mod_cast h1
      omega
    rw [← hue]
    have : (2 ^ 52 : ℚ) ≤ m := by exact_mod_cast h2
    gcongr
  have hhigh : m < 2 ^ 53 := by
    have h1 : (m : ℚ) * u < 2 ^ 53 * u := by
      have : (2 : ℚ) ^ 53 * u = 2 ^ (e + 1) := by rw [pow_succ (2 : ℚ) e, ← hue]; ring
      rw [this]
      rw [h4] at he2
      exact lt_of_pow_lt_pow_left₀ 2 (by positivity) (hm1.trans_lt he2)
    exact_mod_cast lt_of_mul_lt_mul_right h1 hu.le
  have hdbl : IsDouble (m * u) := ⟨m, (e : ℤ) - 52, by rw [abs_of_nonneg (by positivity)]; exact_mod_cast hhigh, by omega, by push_cast; rfl⟩
  have hdbl' : IsDouble ((m + 1) * u) := by
    rcases Nat.lt_or_ge (m + 1) (2 ^ 53) with h | h
    · exact ⟨m + 1, (e : ℤ) - 52, by rw [abs_of_nonneg (by positivity)]; exact_mod_cast h, by omega, by push_cast; rfl⟩
    · have : m + 1 = 2 ^ 53 := by omega
      refine ⟨1, e + 1, by norm_num, by omega, ?_⟩
      have h1 : ((m : ℚ) + 1) = 2 ^ 53 := by exact_mod_cast this
      rw [h1, zpow_add_one₀ (by norm_num), zpow_natCast, ← hue]
      push_cast
      ring
  have hmu : 0 ≤ (m : ℚ) * u := by positivity
  rcases le_total x ((m * u + u / 2) ^ 2) with h | h
  · refine ⟨m * u, hdbl, hmu, fun d hd hlt => ?_, fun d hd h0 hlt => ?_⟩
    · obtain ⟨z, rfl⟩ := hmult d hd (hlow.trans hlt.le)
      have h1 : (m : ℤ) + 1 ≤ z := by
        have := lt_of_mul_lt_mul_right hlt hu.le
        have : (m : ℤ) < z := by exact_mod_cast this
        omega
      have h2 : ((m : ℚ) + 1) * u ≤ z * u := by
        have : (m : ℚ) + 1 ≤ z := by exact_mod_cast h1
        gcongr
      refine h.trans (pow_le_pow_left₀ (by positivity) ?_ 2)
      linarith
    · refine (pow_le_pow_left₀ (by positivity) ?_ 2).trans hm1
      linarith
  · refine ⟨(m + 1) * u, hdbl', by positivity, fun d hd hlt => ?_, fun d hd h0 hlt => ?_⟩
    · refine hm2.le.trans (pow_le_pow_left₀ (by positivity) ?_ 2)
      linarith
    · have h3 : d ≤ m * u := by
        rcases lt_or_ge d (2 ^ e) with hde | hde
        · linarith
        · obtain ⟨z, rfl⟩ := hmult d hd hde
          have h1 : z ≤ (m : ℤ) := by
            have := lt_of_mul_lt_mul_right hlt hu.le
            have : z < (m : ℤ) + 1 := by exact_mod_cast this
            omega
          have : (z : ℚ) ≤ m := by exact_mod_cast h1
          gcongr
      refine (pow_le_pow_left₀ (by positivity) ?_ 2).trans h
      linarith

/-- there is a root as `C127_same` and `C127_small` ask for -/
example : ∃ root : ℕ → ℚ, ∀ n : ℕ, NearestRoot (fl64 n) (root n) ∧ FaithfulRoot (fl64 n) (root n) := by
  have : ∀ n : ℕ, ∃ s, NearestRoot (fl64 n) s := by
    intro n
    rcases Nat.eq_zero_or_pos n with rfl | hn
    · have f0 : fl64 ((0 : ℕ) : ℚ) = 0 := by simp [fl64, rint]
      rw [f0]
      exact ⟨0, ⟨0, 0, by norm_num, by norm_num, by simp⟩, le_rfl, fun d _ _ => by positivity, fun d _ h0 h => absurd h (not_lt.2 h0)⟩
    · refine exists_nearestRoot ?_
      by_contra hc
      push Not at hc
      have h1 : (1 : ℚ) ≤ n := by exact_mod_cast hn
      have := fl64_nearest n 1 ⟨1, 0, by norm_num, by norm_num, by norm_num⟩
      rw [abs_of_nonpos (by linarith), abs_of_nonpos (by linarith)] at this
      linarith
  choose root h using this
  exact ⟨root, fun n => ⟨h n, nearest_faithful (h n)⟩⟩

/-- a bound that is too large: 12 with the bound 5 -/
example : factorsRawIn 5 12 = .ok [1, 12, 2, 6, 3, 4, 4, 3] ∧ factorsRawIn 2 12 = .ok [1, 12, 2, 6] := by decide

end Verif
