import Verif.Spec.Cell
import Mathlib.Algebra.Group.Prod
import Mathlib.Algebra.Ring.Prod
import Mathlib.Tactic.Linarith
import Mathlib.Tactic.Ring

/-! # Congruence modulo the lattice is an equivalence relation -/

namespace Verif.Spec

theorem cong_iff (p q : V3 ℚ) : Cong p q ↔
    (∃ z : ℤ, q.1 = p.1 + z) ∧ (∃ z : ℤ, q.2.1 = p.2.1 + z) ∧ (∃ z : ℤ, q.2.2 = p.2.2 + z) := by
  constructor
  · rintro ⟨z, rfl⟩
    exact ⟨⟨z.1, rfl⟩, ⟨z.2.1, rfl⟩, ⟨z.2.2, rfl⟩⟩
  · rintro ⟨⟨a, ha⟩, ⟨b, hb⟩, ⟨c, hc⟩⟩
    exact ⟨(a, b, c), Prod.ext ha (Prod.ext hb hc)⟩

theorem Cong.refl (p : V3 ℚ) : Cong p p :=
  (cong_iff p p).2 ⟨⟨0, by simp⟩, ⟨0, by simp⟩, ⟨0, by simp⟩⟩

theorem Cong.symm {p q : V3 ℚ} (h : Cong p q) : Cong q p := by
  rw [cong_iff] at *
  obtain ⟨⟨a, ha⟩, ⟨b, hb⟩, ⟨c, hc⟩⟩ := h
  exact ⟨⟨-a, by push_cast; linarith⟩, ⟨-b, by push_cast; linarith⟩, ⟨-c, by push_cast; linarith⟩⟩

theorem Cong.trans {p q r : V3 ℚ} (h : Cong p q) (h' : Cong q r) : Cong p r := by
  rw [cong_iff] at *
  obtain ⟨⟨a, ha⟩, ⟨b, hb⟩, ⟨c, hc⟩⟩ := h
  obtain ⟨⟨a', ha'⟩, ⟨b', hb'⟩, ⟨c', hc'⟩⟩ := h'
  exact ⟨⟨a + a', by push_cast; linarith⟩, ⟨b + b', by push_cast; linarith⟩, ⟨c + c', by push_cast; linarith⟩⟩

end Verif.Spec

namespace Verif.Spec

theorem cong_iff_den (p q : V3 ℚ) : Cong p q ↔
    (q.1 - p.1).den = 1 ∧ (q.2.1 - p.2.1).den = 1 ∧ (q.2.2 - p.2.2).den = 1 := by
  have h (x y : ℚ) : (∃ z : ℤ, y = x + z) ↔ (y - x).den = 1 := by
    constructor
    · rintro ⟨z, rfl⟩; simp
    · intro h
      refine ⟨(y - x).num, ?_⟩
      have := (Rat.den_eq_one_iff (y - x)).1 h
      rw [this]; ring
  rw [cong_iff, h, h, h]

instance (p q : V3 ℚ) : Decidable (Cong p q) := decidable_of_iff' _ (cong_iff_den p q)

end Verif.Spec
