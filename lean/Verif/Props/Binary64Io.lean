import Verif.Model.Binary64Io
import Verif.Props.Binary64Dist
import Verif.Props.Io

/-! # C94: files in double precision -/

set_option exponentiation.threshold 2000

namespace Verif

open Spec (Known SortedReal round64 All3 AllM)

/-- no rounding to `k` decimals is a close call -/
theorem rint_clearDec {δ x y : ℚ} (hc : ∀ n : ℤ, δ < |x - (n + 1 / 2)|) (h : |y - x| ≤ δ) : rint y = rint x := by
  apply rint_eq_of_abs_lt
  have h1 := rint_sub_le x
  have h2 := hc (rint x)
  have h3 := hc (rint x - 1)
  push_cast at h3
  rw [abs_le] at h h1
  rw [lt_abs] at h2 h3
  rw [abs_lt]
  constructor
  · rcases h3 with h3 | h3 <;> linarith
  · rcases h2 with h2 | h2 <;> linarith

/-- rounding the double nearest to a six-decimal number to four decimals -/
theorem npAround4_dec {m : ℤ} (hm : |(m : ℚ)| ≤ 10 ^ 11 + 1) (h : m % 100 ≠ 50) :
    npAround 4 (fl64 ((m : ℚ) / 10 ^ 6)) = fl64 (rint ((m : ℚ) / 100) / 10 ^ 4) := by
  have hb : |(m : ℚ) / 10 ^ 6| ≤ 10 ^ 5 + 1 := by rw [abs_le] at *; constructor <;> linarith
  have e1 := fl64_err_le (by norm_num) hb
  set y := fl64 ((m : ℚ) / 10 ^ 6) with hy
  have hb2 : |y * 10 ^ 4| ≤ 10 ^ 9 + 10 ^ 5 := by rw [abs_le] at *; constructor <;> linarith
  have e2 := fl64_err_le (by norm_num) hb2
  unfold npAround
  rw [rint_clearDec (x := (m : ℚ) / 100) (δ := 1 / 1000) ?_ ?_]
  · intro n
    have e : (m : ℚ) / 100 - (n + 1 / 2) = ((m - 100 * n - 50 : ℤ) : ℚ) / 100 := by push_cast; ring
    rw [e, abs_div, ← Int.cast_abs, abs_of_pos (by norm_num : (0 : ℚ) < 100)]
    have : (1 : ℤ) ≤ |m - 100 * n - 50| := Int.one_le_abs (by omega)
    have : (1 : ℚ) ≤ (|m - 100 * n - 50| : ℤ) := by exact_mod_cast this
    linarith
  · rw [abs_le] at *; constructor <;> linarith

theorem round64_eq (x : ℚ) : round64 x = rint ((rint (x * 10 ^ 6) : ℚ) / 100) / 10 ^ 4 := by
  unfold round64 around
  congr 3
  ring

/-- the digits of `x` after rounding to six decimals do not end in `50` -/
theorem ends_iff (x : ℚ) : (∀ n : ℤ, around 6 x ≠ (n + 1 / 2) / 10 ^ 4) ↔ rint (x * 10 ^ 6) % 100 ≠ 50 := by
  have key : ∀ n : ℤ, around 6 x = (n + 1 / 2) / 10 ^ 4 ↔ rint (x * 10 ^ 6) = 100 * n + 50 := by
    intro n
    unfold around
    rw [div_eq_div_iff (by norm_num) (by norm_num)]
    constructor
    · intro h
      generalize rint (x * 10 ^ 6) = r at *
      have : (r : ℚ) = ((100 * n + 50 : ℤ) : ℚ) := by push_cast; linarith
      exact_mod_cast this
    · intro h
      rw [h]; push_cast; ring
  constructor
  · intro h he
    exact h (rint (x * 10 ^ 6) / 100) ((key _).2 (by omega))
  · intro h n he
    rw [key] at he
    omega

theorem rint_bound {x : ℚ} (hx : |x| ≤ 10 ^ 5) : |(rint (x * 10 ^ 6) : ℚ)| ≤ 10 ^ 11 + 1 := by
  have := rint_sub_le (x * 10 ^ 6)
  generalize rint (x * 10 ^ 6) = r at *
  rw [abs_le] at *; constructor <;> linarith

/-- a number read from a POSCAR it was written to -/
theorem read_written {x : ℚ} (hx : |x| ≤ 10 ^ 5) (h : ∀ n : ℤ, around 6 x ≠ (n + 1 / 2) / 10 ^ 4) :
    npAround 4 (fl64 (around 6 x)) = fl64 (round64 x) := by
  rw [round64_eq]
  exact npAround4_dec (rint_bound hx) ((ends_iff x).1 h)

/-- `np.around(x, decimals=6)` -/
theorem npAround6_eq {x : ℚ} (hx : |x| ≤ 10 ^ 5) (h : ∀ n : ℤ, 1 / 10 ^ 3 < |x * 10 ^ 6 - (n + 1 / 2)|) :
    npAround 6 x = fl64 (around 6 x) := by
  have hb : |x * 10 ^ 6| ≤ 10 ^ 11 := by rw [abs_le] at *; constructor <;> linarith
  have e := fl64_err_le (by norm_num) hb
  unfold npAround around
  rw [rint_clearDec h (e.trans (by norm_num))]

/-- a number with four decimals, as a double, is rounded to itself -/
theorem dec4_six {n : ℤ} (hn : |(n : ℚ)| ≤ 10 ^ 9) : around 6 (fl64 ((n : ℚ) / 10 ^ 4)) = (n : ℚ) / 10 ^ 4 ∧
    ∀ k : ℤ, 1 / 10 ^ 3 < |fl64 ((n : ℚ) / 10 ^ 4) * 10 ^ 6 - (k + 1 / 2)| := by
  have hb : |(n : ℚ) / 10 ^ 4| ≤ 10 ^ 5 := by rw [abs_le] at *; constructor <;> linarith
  have e := fl64_err_le (by norm_num) hb
  set x := fl64 ((n : ℚ) / 10 ^ 4) with hx
  have hd : |x * 10 ^ 6 - ((100 * n : ℤ) : ℚ)| ≤ 1 / 10 ^ 3 := by push_cast; rw [abs_le] at *; constructor <;> linarith
  constructor
  · unfold around
    rw [rint_eq_of_abs_lt _ (100 * n) (lt_of_le_of_lt hd (by norm_num))]
    push_cast; ring
  · intro k
    have e2 : ((100 * n : ℤ) : ℚ) - (k + 1 / 2) = ((2 * (100 * n - k) - 1 : ℤ) : ℚ) / 2 := by push_cast; ring
    have h1 : (1 : ℚ) / 2 ≤ |((100 * n : ℤ) : ℚ) - (k + 1 / 2)| := by
      rw [e2, abs_div, ← Int.cast_abs, abs_of_pos (by norm_num : (0 : ℚ) < 2)]
      have : (1 : ℤ) ≤ |2 * (100 * n - k) - 1| := Int.one_le_abs (by omega)
      have : (1 : ℚ) ≤ (|2 * (100 * n - k) - 1| : ℤ) := by exact_mod_cast this
      linarith
    have h2 := abs_sub_abs_le_abs_sub (((100 * n : ℤ) : ℚ) - (k + 1 / 2)) (x * 10 ^ 6 - (k + 1 / 2))
    have h3 : ((100 * n : ℤ) : ℚ) - (k + 1 / 2) - (x * 10 ^ 6 - (k + 1 / 2)) = -(x * 10 ^ 6 - ((100 * n : ℤ) : ℚ)) := by ring
    rw [h3, abs_neg] at h2
    have : (1 : ℚ) / 10 ^ 3 + 1 / 10 ^ 3 < 1 / 2 := by norm_num
    linarith

theorem npAround4_self {n : ℤ} (hn : |(n : ℚ)| ≤ 10 ^ 9) : npAround 4 (fl64 ((n : ℚ) / 10 ^ 4)) = fl64 ((n : ℚ) / 10 ^ 4) := by
  have := npAround4_dec (m := 100 * n) (by push_cast; rw [abs_le] at *; constructor <;> linarith) (by omega)
  have e : (((100 * n : ℤ) : ℚ)) / 10 ^ 6 = (n : ℚ) / 10 ^ 4 := by push_cast; ring
  rw [e] at this
  rw [this]
  have e2 : (((100 * n : ℤ) : ℚ)) / 100 = (n : ℚ) := by push_cast; ring
  rw [e2, rint_intCast]

theorem npAround6_self {n : ℤ} (hn : |(n : ℚ)| ≤ 10 ^ 9) : npAround 6 (fl64 ((n : ℚ) / 10 ^ 4)) = fl64 ((n : ℚ) / 10 ^ 4) := by
  obtain ⟨h1, h2⟩ := dec4_six hn
  have hb : |(n : ℚ) / 10 ^ 4| ≤ 10 ^ 5 := by rw [abs_le] at *; constructor <;> linarith
  have e := fl64_err_le (by norm_num) hb
  have hx : |fl64 ((n : ℚ) / 10 ^ 4) * 10 ^ 6| ≤ 10 ^ 11 + 1 := by rw [abs_le] at *; constructor <;> linarith
  have e2 := fl64_err_le (by norm_num) hx
  unfold npAround
  rw [rint_clearDec h2 (e2.trans (by norm_num))]
  exact congrArg fl64 h1

/-- every number rounded to four decimals is such a double -/
theorem npAround4_dec4 {x : ℚ} (hx : |x| ≤ 99999) : ∃ n : ℤ, |(n : ℚ)| ≤ 10 ^ 9 ∧ npAround 4 x = fl64 ((n : ℚ) / 10 ^ 4) := by
  refine ⟨rint (fl64 (x * 10 ^ 4)), ?_, rfl⟩
  have hb : |x * 10 ^ 4| ≤ 10 ^ 9 := by rw [abs_le] at *; constructor <;> linarith
  have e := fl64_err_le (by norm_num) hb
  have h := rint_sub_le (fl64 (x * 10 ^ 4))
  generalize rint (fl64 (x * 10 ^ 4)) = r at *
  rw [abs_le] at *; constructor <;> linarith

theorem fl64_fl64 (x : ℚ) : fl64 (fl64 x) = fl64 x := fl64_double (fl64_isDouble x)

/-! ## vectors and matrices -/

theorem map3_congr {f g : ℚ → ℚ} {v : V3 ℚ} (h : All3 (fun t => f t = g t) v) : V3.map f v = V3.map g v := by
  obtain ⟨a, b, c⟩ := v
  obtain ⟨h1, h2, h3⟩ := h
  simp only [V3.map] at *
  rw [h1, h2, h3]

theorem mapM_congr3 {f g : ℚ → ℚ} {m : M3 ℚ} (h : AllM (fun t => f t = g t) m) : V3.map (V3.map f) m = V3.map (V3.map g) m := by
  obtain ⟨a, b, c⟩ := m
  obtain ⟨h1, h2, h3⟩ := h
  simp only [V3.map] at *
  have := map3_congr h1
  have := map3_congr h2
  have := map3_congr h3
  simp only [V3.map] at *
  simp_all

theorem All3.imp {P Q : ℚ → Prop} (h : ∀ t, P t → Q t) {v : V3 ℚ} (hv : All3 P v) : All3 Q v := ⟨h _ hv.1, h _ hv.2.1, h _ hv.2.2⟩

theorem AllM.imp {P Q : ℚ → Prop} (h : ∀ t, P t → Q t) {m : M3 ℚ} (hm : AllM P m) : AllM Q m :=
  ⟨All3.imp h hm.1, All3.imp h hm.2.1, All3.imp h hm.2.2⟩

theorem new64_keys_sorted {L : M3 ℚ} {pos : List (V3 ℚ)} {nums : List ℤ} {c : GCell} (hc : GCell.new64 L pos nums = .ok c) :
    (c.positions.map (V3.map wrap64)).Pairwise (fun a b => lexLe a b = true) ∧ c.positions ≠ [] ∧ c.positions.length = c.numbers.length ∧
      c.spgNumbers = c.numbers ∧ c.lattice = L ∧ c.numCount = nums.length := by
  unfold GCell.new64 newIdSeq64 at hc
  by_cases h : pos = []
  · rw [if_pos h] at hc; cases hc
  rw [if_neg h] at hc
  simp only [bind, Except.bind] at hc
  cases hps : fancy pos (lexsort3 (pos.map (V3.map wrap64))) with
  | error x => rw [hps] at hc; cases hc
  | ok ps =>
    rw [hps] at hc
    simp only at hc
    cases hns : fancy nums (lexsort3 (pos.map (V3.map wrap64))) with
    | error x => rw [hns] at hc; cases hc
    | ok ns =>
      rw [hns] at hc
      obtain rfl := Except.ok.inj hc
      have l1 := fancy_length hps
      have l2 := fancy_length hns
      rw [lexsort3_length, List.length_map] at l1 l2
      refine ⟨?_, ?_, l1.trans l2.symm, rfl, rfl, rfl⟩
      · have h1 := fancy_map (V3.map wrap64) hps
        rw [fancy_lexsort3] at h1
        have h1 := Except.ok.inj h1
        simp only
        rw [← h1]
        exact sorted_keys _
      · intro he
        simp only at he
        rw [he] at l1
        exact h (List.length_eq_zero_iff.1 l1.symm)

/-- rebuilding a cell from its own data -/
theorem new64_again {L L' : M3 ℚ} {pos : List (V3 ℚ)} {nums : List ℤ} {c : GCell} (hc : GCell.new64 L pos nums = .ok c) :
    GCell.new64 L' c.positions c.numbers = .ok ⟨L', c.positions, c.numbers, c.numbers, c.numbers.length⟩ := by
  obtain ⟨h1, h2, h3, _⟩ := new64_keys_sorted hc
  unfold GCell.new64 newIdSeq64
  rw [if_neg h2, lexsort3_of_sorted _ h1, List.length_map]
  simp only [bind, Except.bind, fancy_range, pure, Except.pure]
  rw [h3, fancy_range]

/-! ## the theorems -/

/-- **C94, POSCAR.** Writing a cell and reading the file back in double precision gives the doubles nearest to the numbers of the exact
computation: the coordinates rounded to six, then to four decimals. -/
theorem C94_poscar (factor : ℚ → M3 ℚ → ℚ) (c : GCell) (direct : Bool) (hlen : c.positions.length = c.numbers.length)
    (hk : ∀ n ∈ c.numbers, Known n) (hr : ∃ n ∈ c.numbers, n ≠ 0)
    (hL : AllM (fun t => |t| ≤ 10 ^ 5 ∧ ∀ n : ℤ, around 6 t ≠ (n + 1 / 2) / 10 ^ 4) c.lattice)
    (hp : ∀ p ∈ c.positions, All3 (fun t => |t| ≤ 10 ^ 5 ∧ ∀ n : ℤ, around 6 t ≠ (n + 1 / 2) / 10 ^ 4) p) :
    ∃ text ss c', vaspString c 1 direct = .ok text ∧ SortedReal (c.positions.zip c.numbers) ss ∧
      vaspReadCell64 factor text = .ok c' ∧ c'.lattice = V3.map (V3.map fun t => fl64 (round64 t)) c.lattice ∧
      (c'.positions.zip c'.numbers).Perm (ss.map fun s => (V3.map (fun t => fl64 (round64 t)) s.1, s.2)) := by
  obtain ⟨text, ss, h1, h2, h3⟩ := vasp_parse c 1 direct hlen hk hr
  have hone : fl64 ((1 : ℤ) : ℚ) = 1 := by rw [fl64_int (by norm_num)]; norm_num
  have hl : V3.map (V3.map fun x => fl64 (x * 1)) (V3.map (V3.map fun x => npAround 4 (fl64 x)) (V3.map (V3.map (around 6)) c.lattice)) =
      V3.map (V3.map fun t => fl64 (round64 t)) c.lattice := by
    have : V3.map (V3.map fun x => fl64 (x * 1)) (V3.map (V3.map fun x => npAround 4 (fl64 x)) (V3.map (V3.map (around 6)) c.lattice)) =
      V3.map (V3.map fun t => fl64 (npAround 4 (fl64 (around 6 t)) * 1)) c.lattice := rfl
    rw [this]
    refine mapM_congr3 (AllM.imp (fun t ht => ?_) hL)
    rw [read_written ht.1 ht.2, mul_one, fl64_fl64]
  have hss : ∀ s ∈ ss, s ∈ c.positions.zip c.numbers := fun s hs => by
    have : s ∈ ss.filter (fun t => t.2 = s.2) := List.mem_filter.2 ⟨hs, by simp⟩
    rw [h2.stable _ (h2.real s hs)] at this
    exact (List.mem_filter.1 this).1
  have hps : (ss.map (fun s => V3.map (around 6) s.1)).map (V3.map fun x => npAround 4 (fl64 x)) =
      ss.map (fun s => V3.map (fun t => fl64 (round64 t)) s.1) := by
    rw [List.map_map]
    refine List.map_congr_left fun s hs => ?_
    have : (V3.map (fun x => npAround 4 (fl64 x)) ∘ fun s : V3 ℚ × ℤ => V3.map (around 6) s.1) s =
      V3.map (fun t => npAround 4 (fl64 (around 6 t))) s.1 := rfl
    rw [this]
    exact map3_congr (All3.imp (fun t ht => read_written ht.1 ht.2) (hp s.1 (List.of_mem_zip (hss s hs)).1))
  have hne : ss ≠ [] := by
    obtain ⟨n, hn, hn0⟩ := hr
    have hnum : (c.positions.zip c.numbers).map (·.2) = c.numbers := List.map_snd_zip (by omega)
    rw [← hnum] at hn
    obtain ⟨s, hs, rfl⟩ := List.mem_map.1 hn
    have : s ∈ ss.filter (fun t => t.2 = s.2) := by
      rw [h2.stable _ hn0, List.mem_filter]; exact ⟨hs, by simp⟩
    exact List.ne_nil_of_mem (List.mem_filter.1 this).1
  obtain ⟨c', g1, g2, g3, _⟩ := new64_sites (V3.map (V3.map fun t => fl64 (round64 t)) c.lattice)
    (ss.map (fun s => V3.map (fun t => fl64 (round64 t)) s.1)) (ss.map (·.2)) (by simpa using hne) (by simp)
  refine ⟨text, ss, c', h1, h2, ?_, g2, ?_⟩
  · unfold vaspReadCell64 vaspFromString64
    rw [h3]
    simp only [bind, Except.bind, pure, Except.pure, hone, hps]
    rw [if_neg (by norm_num), hl]
    exact g1
  · rw [← List.zip_map']
    exact g3

/-- **C94, YAML.** The same for YAML files, where also the rounding to six decimals is done by numpy: it must not be a close call. -/
theorem C94_yaml (c : GCell) (hlen : c.positions.length = c.numbers.length) (hne : c.positions ≠ []) (hk : ∀ n ∈ c.numbers, Known n)
    (hL : AllM (fun t => |t| ≤ 10 ^ 5 ∧ (∀ n : ℤ, around 6 t ≠ (n + 1 / 2) / 10 ^ 4) ∧ ∀ n : ℤ, 1 / 10 ^ 3 < |t * 10 ^ 6 - (n + 1 / 2)|) c.lattice)
    (hp : ∀ p ∈ c.positions, All3 (fun t => |t| ≤ 10 ^ 5 ∧ (∀ n : ℤ, around 6 t ≠ (n + 1 / 2) / 10 ^ 4) ∧
      ∀ n : ℤ, 1 / 10 ^ 3 < |t * 10 ^ 6 - (n + 1 / 2)|) p) :
    ∃ d c', yamlDoc64 c = .ok d ∧ yamlReadCell64 d = .ok c' ∧ c'.lattice = V3.map (V3.map fun t => fl64 (round64 t)) c.lattice ∧
      (c'.positions.zip c'.numbers).Perm ((c.positions.zip c.numbers).map fun s => (V3.map (fun t => fl64 (round64 t)) s.1, s.2)) := by
  obtain ⟨zs, -, ho⟩ := orderedAtoms_spec hk
  have val : ∀ t : ℚ, |t| ≤ 10 ^ 5 ∧ (∀ n : ℤ, around 6 t ≠ (n + 1 / 2) / 10 ^ 4) ∧ (∀ n : ℤ, 1 / 10 ^ 3 < |t * 10 ^ 6 - (n + 1 / 2)|) →
      npAround 4 (npAround 6 t) = fl64 (round64 t) := fun t ht => by
    rw [npAround6_eq ht.1 ht.2.2, read_written ht.1 ht.2.1]
  have hl : V3.map (V3.map fun x => npAround 4 (fl64 (x * 1))) (V3.map (V3.map (npAround 6)) c.lattice) =
      V3.map (V3.map fun t => fl64 (round64 t)) c.lattice := by
    have : V3.map (V3.map fun x => npAround 4 (fl64 (x * 1))) (V3.map (V3.map (npAround 6)) c.lattice) =
      V3.map (V3.map fun t => npAround 4 (fl64 (npAround 6 t * 1))) c.lattice := rfl
    rw [this]
    refine mapM_congr3 (AllM.imp (fun t ht => ?_) hL)
    rw [mul_one, show fl64 (npAround 6 t) = npAround 6 t from fl64_fl64 _]
    exact val t ht
  have hps : (c.positions.map (V3.map (npAround 6))).map (V3.map (npAround 4)) = c.positions.map (V3.map fun t => fl64 (round64 t)) := by
    rw [List.map_map]
    refine List.map_congr_left fun p hpm => ?_
    exact map3_congr (f := fun t => npAround 4 (npAround 6 t)) (All3.imp val (hp p hpm))
  obtain ⟨c', g1, g2, g3, _⟩ := new64_sites (V3.map (V3.map fun t => fl64 (round64 t)) c.lattice)
    (c.positions.map (V3.map fun t => fl64 (round64 t))) c.numbers (by simpa using hne) (by simpa using hlen)
  refine ⟨_, c', by unfold yamlDoc64; rw [atomNames_ok hk]; simp only [bind, Except.bind, ho]; rfl, ?_, g2, ?_⟩
  · unfold yamlReadCell64
    simp only [yamlFromDoc64, need, bind, Except.bind, pure, Except.pure, hl, hps]
    exact g1
  · rw [List.zip_map_left] at g3
    exact g3

/-! ## once read, files do not change any more -/

theorem npAround4_again {x : ℚ} (hx : |x| ≤ 99999) : npAround 4 (npAround 4 x) = npAround 4 x ∧ npAround 6 (npAround 4 x) = npAround 4 x ∧
    fl64 (npAround 4 x) = npAround 4 x ∧ fl64 (round64 (npAround 4 x)) = npAround 4 x ∧ |npAround 4 x| ≤ 10 ^ 5 ∧
    ∀ n : ℤ, around 6 (npAround 4 x) ≠ (n + 1 / 2) / 10 ^ 4 := by
  obtain ⟨m, hm, e⟩ := npAround4_dec4 hx
  have h6 := (dec4_six hm).1
  rw [e]
  refine ⟨npAround4_self hm, npAround6_self hm, fl64_fl64 _, ?_, ?_, ?_⟩
  · unfold round64
    rw [h6]
    unfold around
    rw [show (m : ℚ) / 10 ^ 4 * 10 ^ 4 = (m : ℚ) by ring, rint_intCast]
  · rw [← e]
    unfold npAround at e ⊢
    have hb : |x * 10 ^ 4| ≤ 999990000 := by rw [abs_le] at *; constructor <;> linarith
    have e1 := fl64_err_le (by norm_num) hb
    have h := rint_sub_le (fl64 (x * 10 ^ 4))
    generalize rint (fl64 (x * 10 ^ 4)) = r at *
    have hr : |(r : ℚ) / 10 ^ 4| ≤ 99999 + 1 / 10 ^ 3 := by rw [abs_le] at *; constructor <;> linarith
    have e2 := fl64_err_le (by norm_num) hr
    rw [abs_le] at *; constructor <;> linarith
  · intro n he
    rw [h6, div_left_inj' (by norm_num)] at he
    have : ((2 * m : ℤ) : ℚ) = ((2 * n + 1 : ℤ) : ℚ) := by push_cast; linarith
    have : 2 * m = 2 * n + 1 := by exact_mod_cast this
    omega

/-- the mapping written for a cell whose numbers are already rounded to four decimals -/
theorem yaml_fixed (c : GCell) (hk : ∀ n ∈ c.numbers, Known n) (hL : AllM (fun t => npAround 6 t = t ∧ npAround 4 t = t ∧ fl64 t = t) c.lattice)
    (hp : ∀ p ∈ c.positions, All3 (fun t => npAround 6 t = t ∧ npAround 4 t = t) p) :
    ∃ d, yamlDoc64 c = .ok d ∧ yamlFromDoc64 d = .ok (c.lattice, c.positions, c.numbers) := by
  obtain ⟨zs, -, ho⟩ := orderedAtoms_spec hk
  refine ⟨_, by unfold yamlDoc64; rw [atomNames_ok hk]; simp only [bind, Except.bind, ho]; rfl, ?_⟩
  have hid : ∀ v : V3 ℚ, V3.map (fun t => t) v = v := fun v => rfl
  have hl : V3.map (V3.map fun x => npAround 4 (fl64 (x * 1))) (V3.map (V3.map (npAround 6)) c.lattice) = c.lattice := by
    have : V3.map (V3.map fun x => npAround 4 (fl64 (x * 1))) (V3.map (V3.map (npAround 6)) c.lattice) =
      V3.map (V3.map fun t => npAround 4 (fl64 (npAround 6 t * 1))) c.lattice := rfl
    rw [this, mapM_congr3 (g := fun t => t) (AllM.imp (fun t ht => ?_) hL)]
    · rfl
    · rw [mul_one, ht.1, ht.2.2, ht.2.1]
  have hps : (c.positions.map (V3.map (npAround 6))).map (V3.map (npAround 4)) = c.positions := by
    rw [List.map_map]
    conv_rhs => rw [← List.map_id c.positions]
    refine List.map_congr_left fun p hpm => ?_
    exact map3_congr (f := fun t => npAround 4 (npAround 6 t)) (g := fun t => t) (All3.imp (fun t ht => by rw [ht.1, ht.2]) (hp p hpm))
  simp only [yamlFromDoc64, need, bind, Except.bind, pure, Except.pure, hl, hps]

/-- **C94, YAML files are stable.** A cell read from a YAML file, written and read again, is the same cell, bit for bit. -/
theorem C94_yaml_again (l : M3 ℚ) (ps : List (V3 ℚ)) (ns : List ℤ) (z : ℚ) (comment : Option (List Char)) (hlen : ps.length = ns.length)
    (hk : ∀ n ∈ ns, Known n) (hL : AllM (fun t => |t * z| ≤ 99998) l) (hp : ∀ p ∈ ps, All3 (fun t => |t| ≤ 99998) p) (c : GCell)
    (hc : yamlReadCell64 ⟨comment, some l, some ps, some ns, some z⟩ = .ok c) :
    ∃ d, yamlDoc64 c = .ok d ∧ yamlReadCell64 d = .ok c := by
  have hnew : GCell.new64 (V3.map (V3.map fun x => npAround 4 (fl64 (x * z))) l) (ps.map (V3.map (npAround 4))) ns = .ok c := hc
  obtain ⟨k1, k2, k3, k4, k5, k6⟩ := new64_keys_sorted hnew
  have hne : ps.map (V3.map (npAround 4)) ≠ [] := by
    intro h
    rw [h] at hnew
    cases hnew
  obtain ⟨c', g1, g2, g3, g4⟩ := new64_sites (V3.map (V3.map fun x => npAround 4 (fl64 (x * z))) l) (ps.map (V3.map (npAround 4))) ns hne
    (by simpa using hlen)
  obtain rfl := Except.ok.inj (hnew.symm.trans g1)
  have hsub : ∀ p ∈ c.positions, p ∈ ps.map (V3.map (npAround 4)) := by
    intro p hpm
    have e1 : (c.positions.zip c.numbers).map Prod.fst = c.positions := List.map_fst_zip (by omega)
    rw [← e1] at hpm
    obtain ⟨s, hs, rfl⟩ := List.mem_map.1 hpm
    exact (List.of_mem_zip (g3.mem_iff.1 hs)).1
  have hnum : ∀ n ∈ c.numbers, Known n := by
    intro n hn
    have e1 : (c.positions.zip c.numbers).map Prod.snd = c.numbers := List.map_snd_zip (by omega)
    rw [← e1] at hn
    obtain ⟨s, hs, rfl⟩ := List.mem_map.1 hn
    exact hk _ (List.of_mem_zip (g3.mem_iff.1 hs)).2
  have hcl : AllM (fun t => npAround 6 t = t ∧ npAround 4 t = t ∧ fl64 t = t) c.lattice := by
    rw [k5]
    have key : ∀ t : ℚ, |t * z| ≤ 99998 → npAround 6 (npAround 4 (fl64 (t * z))) = npAround 4 (fl64 (t * z)) ∧
        npAround 4 (npAround 4 (fl64 (t * z))) = npAround 4 (fl64 (t * z)) ∧ fl64 (npAround 4 (fl64 (t * z))) = npAround 4 (fl64 (t * z)) := by
      intro t ht
      have e := fl64_err_le (by norm_num) ht
      obtain ⟨a, b, c, _⟩ := npAround4_again (x := fl64 (t * z)) (by rw [abs_le] at *; constructor <;> linarith)
      exact ⟨b, a, c⟩
    obtain ⟨⟨a1, a2, a3⟩, ⟨b1, b2, b3⟩, d1, d2, d3⟩ := hL
    exact ⟨⟨key _ a1, key _ a2, key _ a3⟩, ⟨key _ b1, key _ b2, key _ b3⟩, key _ d1, key _ d2, key _ d3⟩
  have hcp : ∀ p ∈ c.positions, All3 (fun t => npAround 6 t = t ∧ npAround 4 t = t) p := by
    intro p hpm
    obtain ⟨q, hq, rfl⟩ := List.mem_map.1 (hsub p hpm)
    have key : ∀ t : ℚ, |t| ≤ 99998 → npAround 6 (npAround 4 t) = npAround 4 t ∧ npAround 4 (npAround 4 t) = npAround 4 t := by
      intro t ht
      obtain ⟨a, b, _⟩ := npAround4_again (x := t) (by linarith)
      exact ⟨b, a⟩
    obtain ⟨a, b, d⟩ := hp q hq
    exact ⟨key _ a, key _ b, key _ d⟩
  obtain ⟨d, h1, h2⟩ := yaml_fixed c hnum hcl hcp
  refine ⟨d, h1, ?_⟩
  unfold yamlReadCell64
  rw [h2]
  simp only [bind, Except.bind]
  rw [new64_again hnew]
  have hcount : c.numCount = c.numbers.length := by
    rw [k6, ← k3, ← hlen]
    have := g3.length_eq
    rw [List.length_zip, List.length_zip, List.length_map, hlen, Nat.min_self, k3, Nat.min_self] at this
    omega
  have key : ∀ b : GCell, b.spgNumbers = b.numbers → b.numCount = b.numbers.length →
      (⟨b.lattice, b.positions, b.numbers, b.numbers, b.numbers.length⟩ : GCell) = b := by
    rintro ⟨_, _, _, _, _⟩ h h'
    simp only at h h'
    rw [h, h']
  rw [key c k4 hcount]

theorem SortedReal.perm {sites ss : List (V3 ℚ × ℤ)} (h : SortedReal sites ss) : ss.Perm (sites.filter fun s => s.2 ≠ 0) := by
  rw [List.perm_iff_count]
  intro s
  by_cases h0 : s.2 = 0
  · rw [List.count_eq_zero_of_not_mem (fun hm => h.real s hm h0), List.count_eq_zero_of_not_mem]
    intro hm
    exact absurd h0 (by simpa using (List.mem_filter.1 hm).2)
  · have := congrArg (List.count s) (h.stable s.2 h0)
    rw [List.count_filter (by simp), List.count_filter (by simp)] at this
    rw [this, List.count_filter (by simpa using h0)]

/-- **C94, POSCAR files are stable.** A cell read from a POSCAR with scale factor 1, written and read again, has the same lattice and the
same sites, bit for bit. -/
theorem C94_poscar_again (factor : ℚ → M3 ℚ → ℚ) (text : List Char) (l : M3 ℚ) (ps : List (V3 ℚ)) (ns : List ℤ)
    (ht : vaspParse text = .ok (1, l, ps, ns)) (hlen : ps.length = ns.length) (hk : ∀ n ∈ ns, Known n ∧ n ≠ 0)
    (hL : AllM (fun t => |t| ≤ 99998) l) (hp : ∀ p ∈ ps, All3 (fun t => |t| ≤ 99998) p) (c : GCell) (hc : vaspReadCell64 factor text = .ok c) :
    ∃ text' c', vaspString c 1 true = .ok text' ∧ vaspReadCell64 factor text' = .ok c' ∧ c'.lattice = c.lattice ∧
      (c'.positions.zip c'.numbers).Perm (c.positions.zip c.numbers) := by
  have hone : fl64 (1 : ℚ) = 1 := by have := fl64_int (n := 1) (by norm_num); simpa using this
  have hnew : GCell.new64 (V3.map (V3.map fun x => fl64 (npAround 4 (fl64 x) * 1)) l) (ps.map (V3.map fun x => npAround 4 (fl64 x))) ns = .ok c := by
    unfold vaspReadCell64 vaspFromString64 at hc
    rw [ht] at hc
    simp only [bind, Except.bind, pure, Except.pure, hone] at hc
    rw [if_neg (by norm_num)] at hc
    exact hc
  obtain ⟨k1, k2, k3, k4, k5, k6⟩ := new64_keys_sorted hnew
  have hne : ps.map (V3.map fun x => npAround 4 (fl64 x)) ≠ [] := by
    intro h
    rw [h] at hnew
    cases hnew
  obtain ⟨c', g1, g2, g3, g4⟩ := new64_sites (V3.map (V3.map fun x => fl64 (npAround 4 (fl64 x) * 1)) l) (ps.map (V3.map fun x => npAround 4 (fl64 x)))
    ns hne (by simpa using hlen)
  obtain rfl := Except.ok.inj (hnew.symm.trans g1)
  have e2 : (c.positions.zip c.numbers).map Prod.snd = c.numbers := List.map_snd_zip (by omega)
  have hsub : ∀ p ∈ c.positions, p ∈ ps.map (V3.map fun x => npAround 4 (fl64 x)) := by
    intro p hpm
    have e1 : (c.positions.zip c.numbers).map Prod.fst = c.positions := List.map_fst_zip (by omega)
    rw [← e1] at hpm
    obtain ⟨s, hs, rfl⟩ := List.mem_map.1 hpm
    exact (List.of_mem_zip (g3.mem_iff.1 hs)).1
  have hnum : ∀ n ∈ c.numbers, Known n ∧ n ≠ 0 := by
    intro n hn
    rw [← e2] at hn
    obtain ⟨s, hs, rfl⟩ := List.mem_map.1 hn
    exact hk _ (List.of_mem_zip (g3.mem_iff.1 hs)).2
  have key : ∀ t : ℚ, |t| ≤ 99998 → fl64 (round64 (npAround 4 (fl64 t))) = npAround 4 (fl64 t) ∧ |npAround 4 (fl64 t)| ≤ 10 ^ 5 ∧
      ∀ n : ℤ, around 6 (npAround 4 (fl64 t)) ≠ (n + 1 / 2) / 10 ^ 4 := by
    intro t ht
    have e := fl64_err_le (by norm_num) ht
    obtain ⟨_, _, _, a, b, c⟩ := npAround4_again (x := fl64 t) (by rw [abs_le] at *; constructor <;> linarith)
    exact ⟨a, b, c⟩
  have key' : ∀ t : ℚ, |t| ≤ 99998 → fl64 (round64 (fl64 (npAround 4 (fl64 t) * 1))) = fl64 (npAround 4 (fl64 t) * 1) ∧
      |fl64 (npAround 4 (fl64 t) * 1)| ≤ 10 ^ 5 ∧ ∀ n : ℤ, around 6 (fl64 (npAround 4 (fl64 t) * 1)) ≠ (n + 1 / 2) / 10 ^ 4 := by
    intro t ht
    rw [mul_one, show fl64 (npAround 4 (fl64 t)) = npAround 4 (fl64 t) from fl64_fl64 _]
    exact key t ht
  have hcl : AllM (fun t => fl64 (round64 t) = t ∧ |t| ≤ 10 ^ 5 ∧ ∀ n : ℤ, around 6 t ≠ (n + 1 / 2) / 10 ^ 4) c.lattice := by
    rw [k5]
    obtain ⟨⟨a1, a2, a3⟩, ⟨b1, b2, b3⟩, d1, d2, d3⟩ := hL
    exact ⟨⟨key' _ a1, key' _ a2, key' _ a3⟩, ⟨key' _ b1, key' _ b2, key' _ b3⟩, key' _ d1, key' _ d2, key' _ d3⟩
  have hcp : ∀ p ∈ c.positions, All3 (fun t => fl64 (round64 t) = t ∧ |t| ≤ 10 ^ 5 ∧ ∀ n : ℤ, around 6 t ≠ (n + 1 / 2) / 10 ^ 4) p := by
    intro p hpm
    obtain ⟨q, hq, rfl⟩ := List.mem_map.1 (hsub p hpm)
    obtain ⟨a, b, d⟩ := hp q hq
    exact ⟨key _ a, key _ b, key _ d⟩
  have hex : ∃ n ∈ c.numbers, n ≠ 0 := by
    obtain ⟨n, hn⟩ := List.exists_mem_of_ne_nil c.numbers (by
      intro h; rw [h] at k3; exact k2 (List.length_eq_zero_iff.1 k3))
    exact ⟨n, hn, (hnum n hn).2⟩
  obtain ⟨text', ss, c', h1, h2, h3, h4, h5⟩ := C94_poscar factor c true k3 (fun n hn => (hnum n hn).1) hex
    (AllM.imp (fun t h => h.2) hcl) (fun p hpm => All3.imp (fun t h => h.2) (hcp p hpm))
  refine ⟨text', c', h1, h3, ?_, ?_⟩
  · rw [h4, mapM_congr3 (g := fun t => t) (AllM.imp (fun t h => h.1) hcl)]
    rfl
  · refine h5.trans ?_
    have hp2 := (SortedReal.perm h2).map (fun s : V3 ℚ × ℤ => (V3.map (fun t => fl64 (round64 t)) s.1, s.2))
    refine hp2.trans (List.Perm.of_eq ?_)
    rw [List.filter_eq_self.2 (fun s hs => by simpa using (hnum s.2 (List.of_mem_zip hs).2).2)]
    conv_rhs => rw [← List.map_id (c.positions.zip c.numbers)]
    refine List.map_congr_left fun s hs => ?_
    have := map3_congr (g := fun t => t) (All3.imp (fun t h => h.1) (hcp s.1 (List.of_mem_zip hs).1))
    exact Prod.ext this rfl

/-! ## the hypotheses and their necessity -/

theorem clear_of_rint {t : ℚ} (h : |t * 10 ^ 6 - rint (t * 10 ^ 6)| < 499 / 1000) (n : ℤ) : 1 / 10 ^ 3 < |t * 10 ^ 6 - (n + 1 / 2)| := by
  generalize rint (t * 10 ^ 6) = r at *
  generalize t * 10 ^ 6 = y at *
  rcases le_or_gt r n with hrn | hrn
  · have : (r : ℚ) ≤ n := by exact_mod_cast hrn
    rw [abs_lt] at h
    rw [lt_abs]
    right
    linarith
  · have : (n : ℚ) + 1 ≤ r := by exact_mod_cast hrn
    rw [abs_lt] at h
    rw [lt_abs]
    left
    linarith

/-- The hypotheses of `C94_poscar` and `C94_yaml` hold for a cell with thirds. -/
example : let P := fun t : ℚ => |t| ≤ 10 ^ 5 ∧ (∀ n : ℤ, around 6 t ≠ (n + 1 / 2) / 10 ^ 4) ∧ ∀ n : ℤ, 1 / 10 ^ 3 < |t * 10 ^ 6 - (n + 1 / 2)|
    exIoCell.positions.length = exIoCell.numbers.length ∧ exIoCell.positions ≠ [] ∧ (∃ n ∈ exIoCell.numbers, n ≠ 0) ∧
      AllM P exIoCell.lattice ∧ ∀ p ∈ exIoCell.positions, All3 P p := by
  intro P
  have key : ∀ t : ℚ, |t| ≤ 10 ^ 5 ∧ rint (t * 10 ^ 6) % 100 ≠ 50 ∧ |t * 10 ^ 6 - rint (t * 10 ^ 6)| < 499 / 1000 → P t :=
    fun t h => ⟨h.1, (ends_iff t).2 h.2.1, clear_of_rint h.2.2⟩
  refine ⟨rfl, by decide, ⟨30, by decide, by decide⟩, AllM.imp key ?_, fun p hp => All3.imp key ?_⟩
  · unfold AllM All3
    decide +kernel
  · revert p
    unfold All3
    decide +kernel

/-- The hypotheses of the stability theorems: a file with thirds and a scale factor. -/
example : AllM (fun t => |t * (5 / 2)| ≤ 99998) ((4, 0, 0), (0, 1 / 3, 4), (0, 4, 1 / 7)) ∧
    ∀ p ∈ [((1 / 3, 2 / 3, 1 / 2) : V3 ℚ), (0, 0, 9 / 10)], All3 (fun t => |t| ≤ 99998) p := by
  unfold AllM All3
  decide +kernel

/-- **C94, the restriction is needed.** The six-decimal number 0.000150 ends in 50: it is halfway between two numbers with four decimals.
Exactly it is rounded to 0.0002, but in double precision to 0.0001: the product with 10⁴ is computed as 1.4999999999999998. -/
theorem C94_fragile : ∃ c text, c.positions = [(15 / 100000, 0, 0)] ∧ vaspString c 1 true = .ok text ∧
    (∃ l n, vaspFromString id text = .ok (l, [(2 / 10000, 0, 0)], n)) ∧
    (∃ l n, vaspFromString64 (fun _ _ => 1) text = .ok (l, [(fl64 (1 / 10000), 0, 0)], n)) ∧ fl64 (1 / 10000) ≠ fl64 (2 / 10000) := by
  refine ⟨⟨((3, 0, 0), (0, 3, 0), (0, 0, 3)), [(15 / 100000, 0, 0)], [5], [5], 1⟩, ("B1\n1\n  3.000000   0.000000   0.000000\n" ++
    "  0.000000   3.000000   0.000000\n  0.000000   0.000000   3.000000\nB\n1\ndirect\n  0.000150   0.000000   0.000000 B\n").toList, rfl,
    by decide +kernel, ⟨((3, 0, 0), (0, 3, 0), (0, 0, 3)), [5], by decide +kernel⟩, ⟨((3, 0, 0), (0, 3, 0), (0, 0, 3)), [5], by decide +kernel⟩,
    by decide +kernel⟩

/-- **C94, scale factors.** Reading a POSCAR in double precision multiplies the lattice numbers, rounded to four decimals, by the scale factor
if it is not negative, zero included; a negative one is replaced by the computed cube root. The sites are the rounded coordinates. -/
theorem C94_scale (factor : ℚ → M3 ℚ → ℚ) (text : List Char) (zoom : ℚ) (l : M3 ℚ) (ps : List (V3 ℚ)) (ns : List ℤ)
    (ht : vaspParse text = .ok (zoom, l, ps, ns)) :
    ∃ l' ps', vaspFromString64 factor text = .ok (l', ps', ns) ∧ ps' = ps.map (V3.map fun x => npAround 4 (fl64 x)) ∧
      (0 ≤ fl64 zoom → l' = V3.map (V3.map fun x => fl64 (npAround 4 (fl64 x) * fl64 zoom)) l) ∧
      (fl64 zoom < 0 → l' = V3.map (V3.map fun x => fl64 (npAround 4 (fl64 x) *
        factor (fl64 zoom) (V3.map (V3.map fun x => npAround 4 (fl64 x)) l))) l) ∧
      (zoom = 0 → l' = ((0, 0, 0), (0, 0, 0), (0, 0, 0))) := by
  refine ⟨_, _, by unfold vaspFromString64; rw [ht]; rfl, rfl, fun h => ?_, fun h => ?_, fun h => ?_⟩
  · rw [if_neg (not_lt.2 h)]; rfl
  · rw [if_pos h]; rfl
  · have h0 : fl64 0 = 0 := by have := fl64_int (n := 0) (by norm_num); simpa using this
    subst h
    rw [h0, if_neg (lt_irrefl 0)]
    simp only [V3.map, mul_zero, h0]

end Verif
