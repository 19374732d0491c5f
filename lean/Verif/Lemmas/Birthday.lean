import Mathlib.Data.Fintype.CardEmbedding
import Mathlib.Data.Fintype.BigOperators
import Mathlib.SetTheory.Cardinal.Finite
import Mathlib.Algebra.BigOperators.Ring.Finset
import Mathlib.Data.Nat.Choose.Basic
import Mathlib.Tactic.Ring
import Mathlib.Tactic.Linarith

/-! # Counting draws without repetition -/

namespace Verif

/-- the draws that give different values to any two items with the same label -/
def DrawnApart {α γ S : Type*} (c : α → γ) (f : α → S) : Prop := ∀ a b, c a = c b → f a = f b → a = b

/-- they are made of one injection for every label -/
def apartEquiv {α γ S : Type*} [Fintype α] [DecidableEq γ] (c : α → γ) :
    {f : α → S // DrawnApart c f} ≃ ((l : (Finset.univ.image c : Finset γ)) → ({a : α // c a = l} ↪ S)) where
  toFun f l := ⟨fun a => f.1 a.1, fun a b h => Subtype.ext (f.2 a.1 b.1 (a.2.trans b.2.symm) h)⟩
  invFun g := ⟨fun a => g ⟨c a, Finset.mem_image_of_mem _ (Finset.mem_univ a)⟩ ⟨a, rfl⟩, by
    intro a b h he
    have key : ∀ (l : (Finset.univ.image c : Finset γ)) (ha : c a = l) (hb : c b = l), g l ⟨a, ha⟩ = g l ⟨b, hb⟩ → a = b := by
      intro l ha hb h'
      exact congrArg Subtype.val ((g l).injective h')
    refine key ⟨c a, Finset.mem_image_of_mem _ (Finset.mem_univ a)⟩ rfl h.symm ?_
    refine Eq.trans he ?_
    have : ∀ (l l' : (Finset.univ.image c : Finset γ)) (_ : l = l') (h1 : c b = l) (h2 : c b = l'), g l ⟨b, h1⟩ = g l' ⟨b, h2⟩ := by
      rintro l _ rfl h1 h2; rfl
    exact this _ _ (Subtype.ext h.symm) _ _⟩
  left_inv f := rfl
  right_inv g := by
    funext l
    ext ⟨a, h⟩
    obtain ⟨l, hl⟩ := l
    simp only at h
    subst h
    rfl

theorem card_apart {α γ S : Type*} [Fintype α] [DecidableEq α] [DecidableEq γ] [Fintype S] (c : α → γ) :
    Nat.card {f : α → S // DrawnApart c f} =
      ∏ l ∈ Finset.univ.image c, (Fintype.card S).descFactorial (Finset.univ.filter fun a => c a = l).card := by
  classical
  rw [Nat.card_congr (apartEquiv c), Nat.card_eq_fintype_card, Fintype.card_pi]
  simp only [Fintype.card_embedding_eq, Fintype.card_subtype]
  exact Finset.prod_coe_sort (Finset.univ.image c) fun l => (Fintype.card S).descFactorial (Finset.univ.filter fun a => c a = l).card

/-- at most `m (m-1) / 2` in `N` of the draws repeat a value -/
theorem descFactorial_bound (N m : ℕ) : N ^ m ≤ N.descFactorial m + m.choose 2 * N ^ (m - 1) := by
  induction m with
  | zero => simp
  | succ m ih =>
    rw [Nat.descFactorial_succ, pow_succ, Nat.choose_succ_succ' m 1, Nat.choose_one_right, Nat.add_sub_cancel]
    have h1 : N.descFactorial m ≤ N ^ m := Nat.descFactorial_le_pow N m
    have h3 : N.descFactorial m * N ≤ (N - m) * N.descFactorial m + m * N.descFactorial m := by
      rw [← Nat.add_mul, Nat.mul_comm]
      exact Nat.mul_le_mul_right _ (by omega)
    have h4 : m.choose 2 * N ^ (m - 1) * N ≤ m.choose 2 * N ^ m := by
      cases m with
      | zero => simp
      | succ k => rw [Nat.add_sub_cancel, pow_succ, mul_assoc]
    have h5 := Nat.mul_le_mul_right N ih
    have h6 := Nat.mul_le_mul_left m h1
    nlinarith

/-- the chance that nothing repeats only shrinks with the number of draws -/
theorem descFactorial_half_mono {N k m : ℕ} (h : 2 * N.descFactorial k < N ^ k) (hkm : k ≤ m) (hN : 0 < N) :
    2 * N.descFactorial m < N ^ m := by
  induction m, hkm using Nat.le_induction with
  | base => exact h
  | succ m _ ih =>
    rw [Nat.descFactorial_succ, pow_succ]
    have h1 : (N - m) * N.descFactorial m ≤ N * N.descFactorial m := Nat.mul_le_mul_right _ (by omega)
    have := Nat.mul_lt_mul_of_pos_right ih hN
    nlinarith

theorem descFactorial_half_anti {N k m : ℕ} (h : N ^ k < 2 * N.descFactorial k) (hkm : m ≤ k) (hN : 0 < N) :
    N ^ m < 2 * N.descFactorial m := by
  by_contra hc
  push Not at hc
  have : 2 * N.descFactorial k ≤ N ^ k := by
    clear h
    induction k, hkm using Nat.le_induction with
    | base => exact hc
    | succ m _ ih =>
      rw [Nat.descFactorial_succ, pow_succ]
      have h1 : (N - m) * N.descFactorial m ≤ N * N.descFactorial m := Nat.mul_le_mul_right _ (by omega)
      nlinarith
  omega

/-- the number of different values, summed over all draws -/
theorem sum_image_card (S : Type*) [Fintype S] [DecidableEq S] (m : ℕ) :
    ∑ f : Fin m → S, (Finset.univ.image f).card = Fintype.card S * (Fintype.card S ^ m - (Fintype.card S - 1) ^ m) := by
  have h1 : ∀ f : Fin m → S, (Finset.univ.image f).card = ∑ s : S, if s ∈ Finset.univ.image f then 1 else 0 := by
    intro f
    rw [Finset.sum_boole]
    simp
  rw [Finset.sum_congr rfl fun f _ => h1 f, Finset.sum_comm]
  have h2 : ∀ s : S, (∑ f : Fin m → S, if s ∈ Finset.univ.image f then 1 else 0) = Fintype.card S ^ m - (Fintype.card S - 1) ^ m := by
    intro s
    rw [Finset.sum_boole]
    have hc : (Finset.univ.filter fun f : Fin m → S => s ∉ Finset.univ.image f).card = (Fintype.card S - 1) ^ m := by
      have e : (Finset.univ.filter fun f : Fin m → S => s ∉ Finset.univ.image f) = Fintype.piFinset fun _ => Finset.univ.erase s := by
        ext f
        simp [Fintype.mem_piFinset]
      rw [e, Fintype.card_piFinset]
      simp [Finset.card_erase_of_mem, Finset.card_univ]
    have hs := Finset.card_filter_add_card_filter_not (s := (Finset.univ : Finset (Fin m → S))) (fun f => s ∈ Finset.univ.image f)
    rw [hc, Finset.card_univ, Fintype.card_fun, Fintype.card_fin] at hs
    simp only [Nat.cast_id]
    omega
  rw [Finset.sum_congr rfl fun s _ => h2 s, Finset.sum_const, Finset.card_univ, nsmul_eq_mul, Nat.cast_id]

end Verif
